import Verif.Core.ThreadsTree
import Verif.Spec.Threads

/-
When threads do not share what one of them changes: recursive variants.
-/

namespace BVariant

section
variable {V : Type}

/-- The variables that a statement names: those whose variants, or variants in them, it uses. -/
def TCmd.vars : TCmd V → List Nat
  | .leaf x _ _ => [x]
  | .node x _ _ ys => x :: ys.map (·.var)
  | .copy x t => [x, t.var]
  | .move x t => [x, t.var]
  | .assign x t => [x.var, t.var]
  | .moveAssign x t => [x.var, t.var]
  | .swap x t z => [x.var, t.var, z]
  | .store x _ => [x.var]
  | .destroy x => [x]

/-- The variables that a statement may change, begin or end. The source of a copy is not one, and neither are the arguments of a node. -/
def TCmd.changes : TCmd V → List Nat
  | .node x _ _ _ | .copy x _ => [x]
  | .assign x _ => [x.var]
  | c => c.vars

/-- Every variable belongs to one thread or is shared (`none`). A thread changes only its own variables and uses only these and the shared ones. -/
def TDisciplined (owner : Nat → Option Nat) (p : List (Nat × TCmd V)) : Prop :=
  ∀ a ∈ p, (∀ x ∈ a.2.changes, owner x = some a.1) ∧ ∀ x ∈ a.2.vars, owner x = some a.1 ∨ owner x = none

end

end BVariant
