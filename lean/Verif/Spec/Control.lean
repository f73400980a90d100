/-
Specification for C74: what programs with control flow do. There is no machine and no stack: `Eval p i t r j u` says that program `p`,
begun in state `t` after `i` decisions of the user's program, ends in state `u` after `j` decisions, normally (`r = none`) or with an
exception. Statements and conditions mean what C72 and C73 say.
-/
import Verif.Core.Control
import Verif.Spec.Exact
import Verif.Spec.ExactTree
import Verif.Spec.TreeOrder

namespace BVariant

section
variable {A B T : Type} (N : Actions A B T) (inp : Nat → Except Exc Bool)

/-- How a condition may turn out. -/
inductive Answer : Ask B → Nat → T → Except Exc Bool → Nat → T → Prop
  | test {b : B} {i : Nat} {t u : T} {v : Bool} : N.test b t = .ok v u → Answer (.test b) i t (.ok v) i u
  | test_exc {b : B} {i : Nat} {t u : T} {e : Exc} : N.test b t = .exc e u → Answer (.test b) i t (.error e) i u
  | input {i : Nat} {t : T} : Answer .input i t (inp i) (i + 1) t

/-- What a program does. -/
inductive Eval : Prog A B → Nat → T → Option Exc → Nat → T → Prop
  | act {a : A} {i : Nat} {t u : T} : N.act a t = .ok () u → Eval (.act a) i t none i u
  | act_exc {a : A} {i : Nat} {t u : T} {e : Exc} : N.act a t = .exc e u → Eval (.act a) i t (some e) i u
  | skip {i : Nat} {t : T} : Eval .skip i t none i t
  | raise {i : Nat} {t : T} {e : Exc} : Eval (.raise e) i t (some e) i t
  | seq {p q : Prog A B} {i j k : Nat} {t u v : T} {r : Option Exc} :
      Eval p i t none j u → Eval q j u r k v → Eval (.seq p q) i t r k v
  | seq_exc {p q : Prog A B} {i j : Nat} {t u : T} {e : Exc} : Eval p i t (some e) j u → Eval (.seq p q) i t (some e) j u
  | cond_true {c : Ask B} {p q : Prog A B} {i j k : Nat} {t u v : T} {r : Option Exc} :
      Answer N inp c i t (.ok true) j u → Eval p j u r k v → Eval (.cond c p q) i t r k v
  | cond_false {c : Ask B} {p q : Prog A B} {i j k : Nat} {t u v : T} {r : Option Exc} :
      Answer N inp c i t (.ok false) j u → Eval q j u r k v → Eval (.cond c p q) i t r k v
  | cond_exc {c : Ask B} {p q : Prog A B} {i j : Nat} {t u : T} {e : Exc} :
      Answer N inp c i t (.error e) j u → Eval (.cond c p q) i t (some e) j u
  | loop_end {c : Ask B} {p : Prog A B} {i j : Nat} {t u : T} :
      Answer N inp c i t (.ok false) j u → Eval (.loop c p) i t none j u
  | loop_next {c : Ask B} {p : Prog A B} {i j k l : Nat} {t u v w : T} {r : Option Exc} :
      Answer N inp c i t (.ok true) j u → Eval p j u none k v → Eval (.loop c p) k v r l w → Eval (.loop c p) i t r l w
  | loop_body_exc {c : Ask B} {p : Prog A B} {i j k : Nat} {t u v : T} {e : Exc} :
      Answer N inp c i t (.ok true) j u → Eval p j u (some e) k v → Eval (.loop c p) i t (some e) k v
  | loop_exc {c : Ask B} {p : Prog A B} {i j : Nat} {t u : T} {e : Exc} :
      Answer N inp c i t (.error e) j u → Eval (.loop c p) i t (some e) j u
  | guarded {p h : Prog A B} {i j : Nat} {t u : T} : Eval p i t none j u → Eval (.guarded p h) i t none j u
  | caught {p h : Prog A B} {i j k : Nat} {t u v : T} {e : Exc} {r : Option Exc} :
      Eval p i t (some e) j u → Eval h j u r k v → Eval (.guarded p h) i t r k v
  | scope {x : Nat} {p : Prog A B} {i j : Nat} {t u v : T} {r : Option Exc} :
      Eval p i t r j u → N.act (N.close x) u = .ok () v → Eval (.scope x p) i t r j v

/-- Every variable that a statement begins is declared by a scope around it. (`begins`: the variables that a statement begins.) -/
def Prog.Declared (begins : A → List Nat) : Prog A B → List Nat → Prop
  | .act a, X => ∀ x ∈ begins a, x ∈ X
  | .skip, _ => True
  | .raise _, _ => True
  | .seq p q, X => p.Declared begins X ∧ q.Declared begins X
  | .cond _ p q, X => p.Declared begins X ∧ q.Declared begins X
  | .loop _ p, X => p.Declared begins X
  | .guarded p h, X => p.Declared begins X ∧ h.Declared begins X
  | .scope x p, X => p.Declared begins (x :: X)

end

/-- The truth of a condition: `get` gives the variant at a place, if there is one. -/
def Test.holds {P U : Type} (get : P → Option U) (same less : U → U → Bool) (ty : U → TyIx) : Test P → Bool
  | .eq x y =>
    match get x, get y with
    | some u, some v => same u v
    | _, _ => false
  | .lt x y =>
    match get x, get y with
    | some u, some v => less u v
    | _, _ => false
  | .is x k =>
    match get x with
    | some u => ty u == k
    | none => false
  | .not b => !b.holds get same less ty
  | .and b c => b.holds get same less ty && c.holds get same less ty

section
variable {V : Type}

/-- Equal contents: of the same type, with equal values. -/
def Tag.same (eq : TyIx → V → V → Bool) (a b : Tag V) : Bool := a.ty == b.ty && eq a.ty a.val b.val

/-- The order of contents: by type, then by value. -/
def Tag.less (lt : TyIx → V → V → Bool) (a b : Tag V) : Bool := if a.ty = b.ty then lt a.ty a.val b.val else decide (a.ty < b.ty)

/-- Statements and conditions on variants, as C72 gives them. No promise is made for the statements that finding F1 concerns. -/
def xActions (C : Cfg V) (eq lt : TyIx → V → V → Bool) : Actions (Cmd V) (Test Nat) (XSt V) where
  act c := fun σ => if c.exactValid C σ then if c.exactHazard σ then .fault .ub else c.exact C σ else .ok () σ
  test b := fun σ => .ok (b.holds (fun x => σ.vars (.user x)) (Tag.same eq) (Tag.less lt) Tag.ty) σ
  close x := .destroy x

mutual
/-- Equal trees: of the same shape, with the same types and equal values. Where the content is does not matter. -/
def XTree.same (eq : TyIx → V → V → Bool) : XTree V → XTree V → Bool
  | .leaf _ k u, .leaf _ k' v => k == k' && eq k u v
  | .node _ k a f, .node _ k' b g => k == k' && eq k a b && XTree.sameL eq f g
  | _, _ => false
def XTree.sameL (eq : TyIx → V → V → Bool) : List (XTree V) → List (XTree V) → Bool
  | [], [] => true
  | t :: f, u :: g => t.same eq u && XTree.sameL eq f g
  | _, _ => false
end

/-- The order of trees. -/
def XTree.less (lt : TyIx → V → V → Bool) (t u : XTree V) : Bool := decide (t.erase.order lt u.erase = .lt)

/-- Statements and conditions on recursive variants, as C73 gives them. No promise is made for statements that the library does not
support. -/
def xtActions (C : TreeCfg V) (eq lt : TyIx → V → V → Bool) : Actions (TCmd V) (Test TPlace) (XTSt V) where
  act c := fun σ => if c.okay C σ then if c.risky C σ then .fault .ub else c.exact C σ else .ok () σ
  test b := fun σ => .ok (b.holds σ.at (XTree.same eq) (XTree.less lt) XTree.which) σ
  close x := .destroy x

/-- The variables that a statement begins. -/
def TCmd.begins : TCmd V → List Nat
  | .leaf x .. | .node x .. | .copy x _ | .move x _ => [x]
  | _ => []

/-- The variables that a statement begins. -/
def Cmd.starts : Cmd V → List Nat
  | .defaultConstruct x | .copyConstruct x _ | .moveConstruct x _ | .constructGet _ x _ | .constructL x _ _ | .constructR x _ _
  | .constructC x _ _ => [x]
  | _ => []

end

end BVariant
