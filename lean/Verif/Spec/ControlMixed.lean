/-
Specification for programs with control flow over variants of several types: the statements and conditions mean what C76 says.
-/
import Verif.Core.ControlMixed
import Verif.Spec.Control
import Verif.Spec.ExactMixed

namespace BVariant

section
variable {V : Type}

/-- Equal contents of variants of the same type. -/
def Tag.sameMix (eq : Nat → TyIx → V → V → Bool) (a b : Nat × Tag V) : Bool := a.1 == b.1 && a.2.same (eq a.1) b.2

/-- The order of contents of variants of the same type. -/
def Tag.lessMix (lt : Nat → TyIx → V → V → Bool) (a b : Nat × Tag V) : Bool := a.1 == b.1 && a.2.less (lt a.1) b.2

/-- The content of a variable, with its variant type. -/
def XSt.typed (ρ : Nat → Nat) (σ : XSt V) (x : Nat) : Option (Nat × Tag V) := (σ.vars (.user x)).map fun t => (ρ x, t)

/-- Statements and conditions, as C76 gives them. No promise is made for the statements that finding F1 concerns. -/
def xmActions (D : Decls V) (ρ : Nat → Nat) (eq lt : Nat → TyIx → V → V → Bool) : Actions (MixCmd V) (Test Nat) (XSt V) where
  act c := fun σ => if c.exactValid D ρ σ then if c.exactHazard σ then .fault .ub else c.exact D ρ σ else .ok () σ
  test b := fun σ => .ok (b.holds (σ.typed ρ) (Tag.sameMix eq) (Tag.lessMix lt) (fun u => u.2.ty)) σ
  close x := .on (ρ x) (.destroy x)

/-- The variables that a statement begins. -/
def MixCmd.starts : MixCmd V → List Nat
  | .on _ c => c.starts
  | .constructFrom _ _ x _ => [x]
  | .assignFrom .. => []

end

end BVariant
