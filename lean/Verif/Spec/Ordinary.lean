/-
Specification for C75: programs that do not use the recursive types of a variant type, as programs on recursive variants and as programs
on ordinary variants.
-/
import Verif.Core.Tree
import Verif.Spec.Exact

namespace BVariant

/-- A statement on variables. -/
inductive Both (V : Type)
  /-- `V x(v);` from a value of the bounded type `k` -/
  | make (x : Nat) (k : TyIx) (v : V)
  | copy (x y : Nat)
  | move (x y : Nat)
  | assign (x y : Nat)
  | moveAssign (x y : Nat)
  | swap (x y : Nat)
  /-- the user stores a value into the content -/
  | store (x : Nat) (v : V)
  | destroy (x : Nat)

section
variable {V : Type}

/-- The statement on recursive variants. (The model of `swap` there takes a name `z` for its local variable.) -/
def Both.tree (z : Nat) : Both V → TCmd V
  | .make x k v => .leaf x k v
  | .copy x y => .copy x ⟨y, []⟩
  | .move x y => .move x ⟨y, []⟩
  | .assign x y => .assign ⟨x, []⟩ ⟨y, []⟩
  | .moveAssign x y => .moveAssign ⟨x, []⟩ ⟨y, []⟩
  | .swap x y => .swap ⟨x, []⟩ ⟨y, []⟩ z
  | .store x v => .store ⟨x, []⟩ v
  | .destroy x => .destroy x

/-- The statement on ordinary variants. -/
def Both.flat : Both V → Cmd V
  | .make x k v => .constructL x k v
  | .copy x y => .copyConstruct x y
  | .move x y => .moveConstruct x y
  | .assign x y => .copyAssign x y
  | .moveAssign x y => .moveAssign x y
  | .swap x y => .swap x y
  | .store x v => .mutate x v
  | .destroy x => .destroy x

/-- The variable that a statement begins. -/
def Both.begins : Both V → Option Nat
  | .make x .. | .copy x _ | .move x _ => some x
  | _ => none

/-- The statement makes no content of a recursive type. -/
def Both.Plain (C : Cfg V) (T : TreeCfg V) : Both V → Prop
  | .make _ k _ => k < C.n ∧ T.wrapped k = false
  | _ => True

/-- Two descriptions of one variant type: as for ordinary variants, and with the knowledge of which types are recursive. For those,
copies and moves may always throw. -/
structure OneType (C : Cfg V) (T : TreeCfg V) : Prop where
  ops : T.ops = C.ops
  throws : T.throws = C.throws
  fallback : T.fallback = C.fallback
  tr : ∀ k, k < C.n → T.wrapped k = false → T.tr k = C.tr k
  wrapped : ∀ k, k < C.n → T.wrapped k = true → (C.tr k).nothrowCopy = false ∧ (C.tr k).nothrowMove = false
  fallbackPlain : ∀ fb, T.fallback = some fb → T.wrapped fb = false

/-- The variables hold the same types and values, in place or in a backup alike; none holds a node; and there have been as many operations
of the elements and as many allocations. -/
structure SameContents (s : TreeSt V) (w : World V) : Prop where
  vars : ∀ x,
    match s.vars x with
    | none => w.vars (.user x) = none
    | some (.plain k (.leaf v)) => w.tagged (.user x) = some ⟨k, v, false⟩
    | some (.backup k q) => ∃ v, s.heap q = some (.box (.leaf v)) ∧ w.tagged (.user x) = some ⟨k, v, true⟩
    | some _ => False
  tick : s.tick = w.tick
  allocs : s.allocs = w.allocs

end

end BVariant
