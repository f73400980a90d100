/-
Specification vocabulary for visitation of several variants (C31-C33).
-/
import Verif.Core.Multi
import Verif.Spec.Mixed

namespace BVariant

section
variable {V α : Type}

/-- The content of variable `x` as an argument of the given category. -/
def World.argOf (ρ : Nat → Nat) (w : World V) (x : Nat) (c : PassedAs) : Option Arg :=
  (w.objOf x).bind fun id => (w.objs id).map fun p => ⟨ρ x, p.1, id, c⟩

/-- Only rvalues that are not const are moved from. -/
def PassedAs.moved (c : PassedAs) : Bool := c.rvalue && !c.const

/-- The value of a temporary made from an rvalue with value `v`: a const one is copied, others are moved. -/
def taken (C : Cfg V) (const : Bool) (k : TyIx) (v : V) : V := if const then C.ops.copy k v else C.ops.move k v

/-- What is left of an rvalue with value `v` from which a temporary has been made. -/
def leftover (C : Cfg V) (const : Bool) (k : TyIx) (v : V) : V := if const then v else C.ops.movedFrom k v

/-- The same outcome in another world. -/
def Out.mapWorld (g : World V → World V) : Out V α → Out V α
  | .ok a w => .ok a (g w)
  | .exc e w => .exc e (g w)
  | .fault x => .fault x

/-- The world after the outcome, if there is one, satisfies `P`. -/
def Out.All (P : World V → Prop) : Out V α → Prop
  | .ok _ w => P w
  | .exc _ w => P w
  | .fault _ => True

/-- The world `w2` without the temporaries: the objects created between `w` and `w1` are gone, and the library's temporary
variants are what they were in `w`. -/
def World.cleanup (w w1 w2 : World V) : World V :=
  { w2 with
    objs := fun i => if w.next ≤ i ∧ i < w1.next then none else w2.objs i
    vars := fun x => match x with
      | .user n => w2.vars (.user n)
      | .tmp n => w.vars (.tmp n) }

/-- User code that runs from `w1` to `w2` ends the life of none of the objects created since the identity `lo`, and leaves
the library's temporary variants alone. It may change values. -/
structure Spares (lo : ObjId) (w1 w2 : World V) : Prop where
  tmp : ∀ n, w2.vars (.tmp n) = w1.vars (.tmp n)
  types : ∀ i, lo ≤ i → i < w1.next → (w2.objs i).map Prod.fst = (w1.objs i).map Prod.fst
  sub : w2.sub = w1.sub

/-- What a failed construction of a temporary leaves: no temporary, every variant in the same storage state, every
object alive and of its type, and no value changed but of the objects in `srcs`. The exception comes from the copy
constructor (for a const rvalue) or the move constructor (for another one) of one of the types and categories in `from_`. -/
structure Unwound (K : Nat → Cfg V) (w w' : World V) (srcs : ObjId → Prop) (from_ : Nat → TyIx → Bool → Prop) (e : Exc) : Prop where
  vars : w'.vars = w.vars
  sub : w'.sub = w.sub
  allocs : w'.allocs = w.allocs
  keep : ∀ i, ¬ srcs i → w'.objs i = w.objs i
  types : ∀ i, (w'.objs i).map Prod.fst = (w.objs i).map Prod.fst
  next : w.next ≤ w'.next
  thrown : ∃ vt ty const, from_ vt ty const ∧ Thrown (K vt) w w' e ∧
    e.kind = (if const then .copyCtor ty else .moveCtor ty) ∧
    (if const then ((K vt).tr ty).nothrowCopy else ((K vt).tr ty).nothrowMove) = false

/-- The state in which the visitor is called: temporaries have been added, and nothing else has changed but the values of
the objects in `srcs`. -/
structure Entered (w w1 : World V) (srcs : ObjId → Prop) : Prop where
  user : ∀ n, w1.vars (.user n) = w.vars (.user n)
  tmp : ∀ n, w.vars (.tmp n) ≠ none → w1.vars (.tmp n) = w.vars (.tmp n)
  sub : w1.sub = w.sub
  allocs : w1.allocs = w.allocs
  next : w.next ≤ w1.next
  fresh : ∀ i, w1.next ≤ i → w1.objs i = none
  keep : ∀ i, i < w.next → ¬ srcs i → w1.objs i = w.objs i

/-- The variables `vs` passed to `apply_visitor`, each with its category. -/
def visitables (ρ : Nat → Nat) (vs : List (Nat × PassedAs)) : List Visitable := vs.map fun p => ⟨ρ p.1, .user p.1, p.2⟩

/-- The contents of the variables passed as rvalues that are not const. -/
def MovesFrom (w : World V) (vs : List (Nat × PassedAs)) (i : ObjId) : Prop := ∃ x c, (x, c) ∈ vs ∧ c.moved = true ∧ w.objOf x = some i

/-- The types of the contents of the variables passed as rvalues, const or not. -/
def TakesFrom (ρ : Nat → Nat) (w : World V) (vs : List (Nat × PassedAs)) (vt : Nat) (ty : TyIx) (const : Bool) : Prop :=
  ∃ x v, (x, ⟨true, const⟩) ∈ vs ∧ vt = ρ x ∧ w.holds x ty v

/-- A variable passed as an rvalue that is not const is passed only once. -/
def MovedOnce (vs : List (Nat × PassedAs)) : Prop := vs.Pairwise fun p q => p.1 = q.1 → p.2.moved = false ∧ q.2.moved = false

/-- In state `w1` the visitor is given, for every lvalue, the content of the variable itself, with its value; for every
rvalue, a new object as an rvalue, moved from the content of the variable, or copied if it is const (at position 0 directly,
at the others by way of a temporary variant); const arguments stay const. -/
structure HandsOver (K : Nat → Cfg V) (ρ : Nat → Nat) (w w1 : World V) (vs : List (Nat × PassedAs)) (args : List Arg) : Prop where
  length : args.length = vs.length
  lvalue : ∀ (j x : Nat) c id k v, vs[j]? = some (x, c) → c.rvalue = false → w.objOf x = some id → w.holds x k v →
    args[j]? = some ⟨ρ x, k, id, c⟩ ∧ w1.objOf x = some id ∧ w1.holds x k v
  rvalue : ∀ (j x : Nat) c k v, vs[j]? = some (x, c) → c.rvalue = true → w.holds x k v →
    ∃ o, args[j]? = some ⟨ρ x, k, o, c⟩ ∧ w.next ≤ o ∧ o < w1.next ∧
      w1.objs o = some (k, if j = 0 then taken (K (ρ x)) c.const k v else taken (K (ρ x)) c.const k (taken (K (ρ x)) c.const k v)) ∧
      w1.holds x k (leftover (K (ρ x)) c.const k v)
  distinct : ∀ (i j : Nat) a b, args[i]? = some a → args[j]? = some b → a.rvalue = true → b.rvalue = true → a.id = b.id → i = j

end

end BVariant
