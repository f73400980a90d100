import Verif.Meta.ResultType

/-
What any rule of the conditional operator and of return statements has to satisfy for the lifetime of results (C54).
-/

namespace BVariant

/-- The conditional of operands of different types is an lvalue only if both operands are lvalues, and an xvalue only if both are xvalues. This is so for all types
without conversion functions to references. -/
def KeepsCategory (other : Cat × CvTy → Cat × CvTy → Option (Cat × CvTy)) : Prop :=
  ∀ (c c' d : Cat) (t t' s : CvTy), other (c, t) (c', t') = some (d, s) → d ≠ .prvalue → c = d ∧ c' = d

/-- A value does not dangle, and an lvalue reference made from an lvalue does not either: it is bound directly. -/
def BindsDirectly (conv : RetTy → RetTy → Fit) : Prop :=
  (∀ t o, conv (.val t) o ≠ .dangling) ∧ ∀ t s, conv (.lref t) (.lref s) ≠ .dangling

end BVariant
