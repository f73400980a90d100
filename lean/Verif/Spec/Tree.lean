/-
Specification of recursive variants (C37): values are finite trees; which memory represents a tree.
-/
import Verif.Core.Tree

namespace BVariant

mutual
/-- The value of a recursive variant: the type's index with a plain value, or with a node's value and variants. -/
inductive VTree (V : Type)
  | leaf (k : TyIx) (v : V)
  | node (k : TyIx) (a : V) (f : VForest V)
inductive VForest (V : Type)
  | nil
  | cons (t : VTree V) (f : VForest V)
end

section
variable {V : Type}

mutual
def VTree.height : VTree V → Nat
  | .leaf _ _ => 1
  | .node _ _ f => f.height + 1
def VForest.height : VForest V → Nat
  | .nil => 0
  | .cons t f => max t.height f.height
end

mutual
/-- Number of nodes. -/
def VTree.nodes : VTree V → Nat
  | .leaf _ _ => 0
  | .node _ _ f => f.nodes + 1
def VForest.nodes : VForest V → Nat
  | .nil => 0
  | .cons t f => t.nodes + f.nodes
end

mutual
/-- The tree of copies of the elements. -/
def VTree.copied (o : Ops V) : VTree V → VTree V
  | .leaf k v => .leaf k (o.copy k v)
  | .node k a f => .node k (o.copy k a) (f.copied o)
def VForest.copied (o : Ops V) : VForest V → VForest V
  | .nil => .nil
  | .cons t f => .cons (t.copied o) (f.copied o)
end

mutual
/-- Number of nodes that moving a tree constructs. -/
def VTree.moveNodes (C : TreeCfg V) : VTree V → Nat
  | .leaf _ _ => 0
  | .node k _ f => (if C.steals k then 0 else f.moveNodes C) + 1
def VForest.moveNodes (C : TreeCfg V) : VForest V → Nat
  | .nil => 0
  | .cons t f => t.moveNodes C + f.moveNodes C
end

mutual
/-- What a tree is moved to: its elements are move-constructed, except those in lists that are taken over. -/
def VTree.moved (C : TreeCfg V) : VTree V → VTree V
  | .leaf k v => .leaf k (C.ops.move k v)
  | .node k a f => .node k (C.ops.move k a) (if C.steals k then f else f.moved C)
def VForest.moved (C : TreeCfg V) : VForest V → VForest V
  | .nil => .nil
  | .cons t f => .cons (t.moved C) (f.moved C)
end

mutual
/-- What a tree is after it has been moved from: it has the same shape and moved-from elements, except that lists that are
taken over are empty. -/
def VTree.movedFrom (C : TreeCfg V) : VTree V → VTree V
  | .leaf k v => .leaf k (C.ops.movedFrom k v)
  | .node k a f => .node k (C.ops.movedFrom k a) (if C.steals k then .nil else f.movedFrom C)
def VForest.movedFrom (C : TreeCfg V) : VForest V → VForest V
  | .nil => .nil
  | .cons t f => .cons (t.movedFrom C) (f.movedFrom C)
end

mutual
/-- What a tree may be after an attempt to move from it has failed: a node's value is moved before its members, the members
one by one in order. -/
inductive VTree.Partly (C : TreeCfg V) : VTree V → VTree V → Prop
  | same (t : VTree V) : VTree.Partly C t t
  | leaf (k : TyIx) (v : V) : VTree.Partly C (.leaf k v) (.leaf k (C.ops.moveFailSrc k v))
  | value (k : TyIx) (a : V) (f : VForest V) : VTree.Partly C (.node k a f) (.node k (C.ops.moveFailSrc k a) f)
  | members (k : TyIx) (a : V) {f f' : VForest V} : VForest.Partly C f f' →
      VTree.Partly C (.node k a f) (.node k (C.ops.movedFrom k a) f')
inductive VForest.Partly (C : TreeCfg V) : VForest V → VForest V → Prop
  | here {t t' : VTree V} (f : VForest V) : VTree.Partly C t t' → VForest.Partly C (.cons t f) (.cons t' f)
  | there (t : VTree V) {f f' : VForest V} : VForest.Partly C f f' → VForest.Partly C (.cons t f) (.cons (t.movedFrom C) f')
end

mutual
/-- In heap `h`, variant `x` has value `t`, and the blocks it owns are those listed. A content in a heap backup owns the
block of the backup as well. -/
def VTree.Rep (h : ObjId → Option (TCell V)) : VTree V → TVar V → List ObjId → Prop
  | .leaf k v, x, ns =>
    (x = .plain k (.leaf v) ∧ ns = []) ∨
    (∃ q, x = .backup k q ∧ h q = some (.box (.leaf v)) ∧ ns = [q])
  | .node k a f, x, ns =>
    ∃ p cs ms, h p = some (.node a cs) ∧ f.Rep h cs ms ∧
      ((x = .plain k (.wrap p) ∧ ns = p :: ms) ∨
       (∃ q, x = .backup k q ∧ h q = some (.box (.wrap p)) ∧ ns = q :: p :: ms))
def VForest.Rep (h : ObjId → Option (TCell V)) : VForest V → List (TVar V) → List ObjId → Prop
  | .nil, xs, ns => xs = [] ∧ ns = []
  | .cons t f, xs, ns => ∃ y ys ms ms', xs = y :: ys ∧ t.Rep h y ms ∧ f.Rep h ys ms' ∧ ns = ms ++ ms'
end

def VTree.which : VTree V → TyIx
  | .leaf k _ => k
  | .node k _ _ => k

mutual
/-- Plain types have plain values, wrapped types have nodes. -/
def VTree.Typed (wrapped : TyIx → Bool) : VTree V → Prop
  | .leaf k _ => wrapped k = false
  | .node k _ f => wrapped k = true ∧ f.Typed wrapped
def VForest.Typed (wrapped : TyIx → Bool) : VForest V → Prop
  | .nil => True
  | .cons t f => t.Typed wrapped ∧ f.Typed wrapped
end

def VForest.get : VForest V → Nat → Option (VTree V)
  | .nil, _ => none
  | .cons t _, 0 => some t
  | .cons _ f, i + 1 => f.get i

/-- The part of a tree at the end of a path. -/
def VTree.sub : VTree V → List Nat → Option (VTree V)
  | t, [] => some t
  | .leaf _ _, _ :: _ => none
  | .node _ _ f, i :: is =>
    match f.get i with
    | some t => t.sub is
    | none => none

def VForest.set : VForest V → Nat → VTree V → VForest V
  | .nil, _, _ => .nil
  | .cons _ f, 0, u => .cons u f
  | .cons t f, i + 1, u => .cons t (f.set i u)

/-- The tree with another part at the end of a path. -/
def VTree.put : VTree V → List Nat → VTree V → VTree V
  | _, [], u => u
  | .leaf k v, _ :: _, _ => .leaf k v
  | .node k a f, i :: is, u =>
    match f.get i with
    | some t => .node k a (f.set i (t.put is u))
    | none => .node k a f

/-- The tree with another value at its root. -/
def VTree.store (v : V) : VTree V → VTree V
  | .leaf k _ => .leaf k v
  | .node k _ f => .node k v f

/-- The value at the root of a tree. -/
def VTree.root : VTree V → V
  | .leaf _ v => v
  | .node _ a _ => a

/-- A store of recursive variants as plain values. -/
abbrev TStore (V : Type) := Nat → Option (VTree V)

/-- The value at a place. -/
def TStore.at (σ : TStore V) (t : TPlace) : Option (VTree V) :=
  match σ t.var with
  | some u => u.sub t.path
  | none => none

/-- The store with another value at a place. -/
def TStore.put (σ : TStore V) (t : TPlace) (u : VTree V) : TStore V := upd σ t.var ((σ t.var).map (·.put t.path u))

/-- The values at the places. -/
def TStore.all (σ : TStore V) : List TPlace → Option (VForest V)
  | [] => some .nil
  | t :: ts =>
    match σ.at t, σ.all ts with
    | some u, some f => some (.cons u f)
    | _, _ => none

/-- Move assignment between types moves the content, rather than copy it. -/
def TreeCfg.Moves (C : TreeCfg V) (k : TyIx) : Prop :=
  C.nothrowMove k = true ∨ (C.nothrowCopy k = false ∧ C.fallback ≠ none)

/-- The effect of a statement that succeeds: it is that on plain values. Move assignment gives the left side the value of the
right side; the right side is then moved from, or (`copied`) keeps its value, or (`swapped`) has that of the left side.
`swap` exchanges the two values. -/
inductive TOk (C : TreeCfg V) : TCmd V → TStore V → TStore V → Prop
  | leaf {x k : Nat} {v : V} {σ : TStore V} : TOk C (.leaf x k v) σ (upd σ x (some (.leaf k v)))
  | node {x k : Nat} {a : V} {ys : List TPlace} {f : VForest V} {σ : TStore V} : σ.all ys = some f →
      TOk C (.node x k a ys) σ (upd σ x (some (.node k a f)))
  | copy {x : Nat} {t : TPlace} {u : VTree V} {σ : TStore V} : σ.at t = some u → TOk C (.copy x t) σ (upd σ x (some u))
  | move {x : Nat} {t : TPlace} {u : VTree V} {σ : TStore V} : σ.at t = some u →
      TOk C (.move x t) σ (upd (σ.put t (u.movedFrom C)) x (some u))
  | assign {x t : TPlace} {u : VTree V} {σ : TStore V} : σ.at t = some u → TOk C (.assign x t) σ (σ.put x u)
  | moved {x t : TPlace} {u : VTree V} {σ : TStore V} : C.Moves u.which → σ.at t = some u →
      TOk C (.moveAssign x t) σ ((σ.put x u).put t (u.movedFrom C))
  | copied {x t : TPlace} {u : VTree V} {σ : TStore V} : ¬ C.Moves u.which → σ.at t = some u → TOk C (.moveAssign x t) σ (σ.put x u)
  | swapped {x t : TPlace} {k : TyIx} {a b : V} {f g : VForest V} {σ : TStore V} : σ.at x = some (.node k a f) →
      σ.at t = some (.node k b g) → TOk C (.moveAssign x t) σ ((σ.put x (.node k b g)).put t (.node k a f))
  | plain {x t : TPlace} {k : TyIx} {u v : V} {σ : TStore V} : x ≠ t → σ.at x = some (.leaf k u) → σ.at t = some (.leaf k v) →
      TOk C (.moveAssign x t) σ ((σ.put x (.leaf k v)).put t (.leaf k (C.ops.moveAssignSrc k u v)))
  | self {x : TPlace} {k : TyIx} {u : V} {σ : TStore V} : σ.at x = some (.leaf k u) →
      TOk C (.moveAssign x x) σ (σ.put x (.leaf k (C.ops.selfMove k u)))
  | swap {x t : TPlace} {z : Nat} {u v : VTree V} {σ : TStore V} : σ.at x = some u → σ.at t = some v →
      TOk C (.swap x t z) σ ((σ.put x v).put t u)
  | store {x : TPlace} {v : V} {u : VTree V} {σ : TStore V} : σ.at x = some u → TOk C (.store x v) σ (σ.put x (u.store v))
  | destroy {x : Nat} {σ : TStore V} : TOk C (.destroy x) σ (upd σ x none)

/-- The effect of a statement that fails: nothing, except that an assignment may leave the fallback content, or what a failed
assignment of a plain type leaves, and that the source of a move may be partly moved from. A failed `swap` within a type leaves
what the failed swap of the values leaves. Between types, with left value `u` and right value `v`: if `v` cannot be moved to the
local variant it may be partly moved from; if `u` cannot be moved to the right side then `v` is lost (`swapSecond`); if `v` cannot
be moved to the left side then the right side has `u` and `v` is lost (`swapThird`). -/
inductive TExc (C : TreeCfg V) : TCmd V → TStore V → TStore V → Prop
  | same {c : TCmd V} {σ : TStore V} : (∀ x, c ≠ .destroy x) → (∀ x v, c ≠ .store x v) → TExc C c σ σ
  | fallback {x t : TPlace} {fb : TyIx} {σ : TStore V} : C.fallback = some fb →
      TExc C (.assign x t) σ (σ.put x (.leaf fb (C.ops.defaultInit fb)))
  | plain {x t : TPlace} {k : TyIx} {u v : V} {σ : TStore V} : σ.at x = some (.leaf k u) → σ.at t = some (.leaf k v) →
      TExc C (.assign x t) σ (σ.put x (.leaf k (C.ops.assignFail k u v)))
  | move {x : Nat} {t : TPlace} {u u' : VTree V} {σ : TStore V} : σ.at t = some u → u.Partly C u' →
      TExc C (.move x t) σ (σ.put t u')
  | moveFallback {x t : TPlace} {u u' : VTree V} {fb : TyIx} {σ : TStore V} : C.fallback = some fb → σ.at t = some u →
      u.Partly C u' → TExc C (.moveAssign x t) σ ((σ.put x (.leaf fb (C.ops.defaultInit fb))).put t u')
  | movePlain {x t : TPlace} {k : TyIx} {u v : V} {σ : TStore V} : x ≠ t → σ.at x = some (.leaf k u) →
      σ.at t = some (.leaf k v) → TExc C (.moveAssign x t) σ
        ((σ.put x (.leaf k (C.ops.moveAssignFail k u v))).put t (.leaf k (C.ops.moveAssignFailSrc k u v)))
  | moveSelf {x : TPlace} {k : TyIx} {u : V} {σ : TStore V} : σ.at x = some (.leaf k u) →
      TExc C (.moveAssign x x) σ (σ.put x (.leaf k (C.ops.selfMoveFail k u)))
  | swapSelf {x : TPlace} {z : Nat} {u : VTree V} {σ : TStore V} : σ.at x = some u →
      TExc C (.swap x x z) σ (σ.put x (u.store (C.ops.selfSwapFail u.which u.root)))
  | swapValues {x t : TPlace} {z : Nat} {u v : VTree V} {σ : TStore V} : x ≠ t → σ.at x = some u → σ.at t = some v →
      u.which = v.which → TExc C (.swap x t z) σ ((σ.put x (u.store (C.ops.swapFailL u.which u.root v.root))).put t
        (v.store (C.ops.swapFailR u.which u.root v.root)))
  | swapFirst {x t : TPlace} {z : Nat} {u v v' : VTree V} {σ : TStore V} : σ.at x = some u → σ.at t = some v →
      u.which ≠ v.which → v.Partly C v' → TExc C (.swap x t z) σ (σ.put t v')
  | swapSecond {x t : TPlace} {z : Nat} {u u' v w : VTree V} {σ : TStore V} : σ.at x = some u → σ.at t = some v →
      u.which ≠ v.which → u.Partly C u' →
      ((u' = u ∧ w = v.movedFrom C) ∨ ∃ fb, C.fallback = some fb ∧ w = .leaf fb (C.ops.defaultInit fb)) →
      TExc C (.swap x t z) σ ((σ.put x u').put t w)
  | swapThird {x t : TPlace} {z : Nat} {u v w : VTree V} {σ : TStore V} : σ.at x = some u → σ.at t = some v →
      u.which ≠ v.which → ((C.Moves u.which ∧ w = u.movedFrom C) ∨ (¬ C.Moves u.which ∧ w = u) ∨
        ∃ fb, C.fallback = some fb ∧ w = .leaf fb (C.ops.defaultInit fb)) →
      TExc C (.swap x t z) σ ((σ.put x w).put t u)

/-- The statement is valid for the values in the store. -/
def TStore.Valid (C : TreeCfg V) (σ : TStore V) : TCmd V → Prop
  | .leaf x k _ => σ x = none ∧ C.wrapped k = false
  | .node x k _ ys => σ x = none ∧ C.wrapped k = true ∧ ∀ t ∈ ys, σ.at t ≠ none
  | .copy x t => σ x = none ∧ σ.at t ≠ none
  | .move x t => σ x = none ∧ σ.at t ≠ none
  | .assign x t => σ.at x ≠ none ∧ σ.at t ≠ none
  | .moveAssign x t => σ.at x ≠ none ∧ σ.at t ≠ none
  | .swap x t z => σ.at x ≠ none ∧ σ.at t ≠ none ∧ σ z = none
  | .store x _ => σ.at x ≠ none
  | .destroy x => σ x ≠ none

/-- The runs of a program on a store of trees. -/
inductive TSteps (C : TreeCfg V) : List (TCmd V) → TStore V → TStore V → Prop
  | nil {σ : TStore V} : TSteps C [] σ σ
  | ok {c : TCmd V} {cs : List (TCmd V)} {σ σ' σ'' : TStore V} : σ.Valid C c → TOk C c σ σ' → TSteps C cs σ' σ'' →
      TSteps C (c :: cs) σ σ''
  | exc {c : TCmd V} {cs : List (TCmd V)} {σ σ' σ'' : TStore V} : σ.Valid C c → TExc C c σ σ' → TSteps C cs σ' σ'' →
      TSteps C (c :: cs) σ σ''
  | skip {c : TCmd V} {cs : List (TCmd V)} {σ σ'' : TStore V} : ¬ σ.Valid C c → TSteps C cs σ σ'' → TSteps C (c :: cs) σ σ''

/-- The value of variable `x` is `u`, and its blocks are `ns`. -/
def TreeSt.HasVal (s : TreeSt V) (x : Nat) (u : VTree V) (ns : List ObjId) : Prop :=
  ∃ v, s.vars x = some v ∧ u.Rep s.heap v ns

/-- The state represents the store: each variable has its tree, in blocks of its own. -/
structure TreeSt.Stores (s : TreeSt V) (σ : TStore V) (own : Nat → List ObjId) : Prop where
  val : ∀ x u, σ x = some u → s.HasVal x u (own x)
  dead : ∀ x, σ x = none → s.vars x = none ∧ own x = []
  nodup : ∀ x, (own x).Nodup
  disj : ∀ x y p, p ∈ own x → p ∈ own y → x = y

/-- Moreover there is no memory but theirs. -/
structure TreeSt.Represents (s : TreeSt V) (σ : TStore V) (own : Nat → List ObjId) : Prop extends s.Stores σ own where
  owned : ∀ p, s.heap p ≠ none → ∃ x, p ∈ own x

/-- All trees are at most `m` high, and typed. -/
def TStore.Bound (w : TyIx → Bool) (m : Nat) (σ : TStore V) : Prop := ∀ x u, σ x = some u → u.height ≤ m ∧ u.Typed w

/-- Unused addresses are above all blocks. -/
def TreeSt.Fresh (s : TreeSt V) : Prop := ∀ p, s.next ≤ p → s.heap p = none

end

end BVariant
