/-
Specification vocabulary for comparison: laws of an equality test and of an ordering test, on any set.
-/

namespace BVariant

section
variable {α : Type}

/-- `r` is an equivalence on the elements that satisfy `p`. -/
structure EquivOn (p : α → Prop) (r : α → α → Prop) : Prop where
  refl : ∀ a, p a → r a a
  symm : ∀ a b, p a → p b → r a b → r b a
  trans : ∀ a b c, p a → p b → p c → r a b → r b c → r a c

/-- `r` is a strict weak order on the elements that satisfy `p`: irreflexive and transitive, and so that being
incomparable is transitive. -/
structure StrictWeakOn (p : α → Prop) (r : α → α → Prop) : Prop where
  irrefl : ∀ a, p a → ¬ r a a
  trans : ∀ a b c, p a → p b → p c → r a b → r b c → r a c
  incomp : ∀ a b c, p a → p b → p c → ¬ r a b → ¬ r b a → ¬ r b c → ¬ r c b → ¬ r a c ∧ ¬ r c a

/-- Elements that satisfy `p` and are not ordered by `r` are related by `e`. -/
def TotalOn (p : α → Prop) (r e : α → α → Prop) : Prop := ∀ a b, p a → p b → r a b ∨ e a b ∨ r b a

end

/-- The Boolean function as a relation. -/
def BRel {α : Type} (f : α → α → Bool) : α → α → Prop := fun a b => f a b = true

end BVariant
