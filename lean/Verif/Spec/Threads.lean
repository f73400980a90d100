import Verif.Core.Threads
import Verif.Spec.Exact

/-
When threads do not share what one of them changes.
-/

namespace BVariant

section
variable {V : Type}

/-- The variables that a statement may change, begin or end. The source of a copy is not one. -/
def Cmd.changes : Cmd V → List Nat
  | .copyConstruct x _ | .copyAssign x _ | .constructGet false x _ | .assignGet false x _ => [x]
  | c => c.names

/-- The part of `p` that is executed by thread `i`. -/
def partOf {α : Type} (i : Nat) (p : List (Nat × α)) : List α := (p.filter fun a => decide (a.1 = i)).map (·.2)

/-- Every variable belongs to one thread or is shared (`none`). A thread changes only its own variables and uses only these and the shared ones. -/
def Disciplined (owner : Nat → Option Nat) (p : List (Nat × Cmd V)) : Prop :=
  ∀ a ∈ p, (∀ x ∈ a.2.changes, owner x = some a.1) ∧ ∀ x ∈ a.2.names, owner x = some a.1 ∨ owner x = none

end

end BVariant
