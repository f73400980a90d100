import Verif.Meta.ResultType

/-
Conversions between classes, for the result types of visitors (C54).
-/

namespace BVariant

/-- A value of type `a` is implicitly converted to type `b`: `b` is a base class of `a`, or there is a constructor or conversion function for it. -/
def Converts (cl : Classes) (user : Nat → Nat → Bool) (a b : Nat) : Prop := cl.baseOf b a = true ∨ user a b = true

instance (cl : Classes) (user : Nat → Nat → Bool) (a b : Nat) : Decidable (Converts cl user a b) := by unfold Converts; infer_instance

/-- One gets from `a` to `b` by conversions between the given types, if any are needed. -/
inductive ConvertsBySteps (cl : Classes) (user : Nat → Nat → Bool) (ts : List Nat) : Nat → Nat → Prop
  | refl (a : Nat) : ConvertsBySteps cl user ts a a
  | step {a b c : Nat} : b ∈ ts → Converts cl user a b → ConvertsBySteps cl user ts b c → ConvertsBySteps cl user ts a c

/-- `b` is one of the types, and all the others are converted to it. -/
def Classes.Target (cl : Classes) (user : Nat → Nat → Bool) (b : Nat) (ts : List Nat) : Prop :=
  b ∈ ts ∧ ∀ t ∈ ts, t = b ∨ Converts cl user t b

/-- A conversion in two steps is one in one step, and there are none in both directions. -/
structure Classes.Ordered (cl : Classes) (user : Nat → Nat → Bool) : Prop where
  trans : ∀ {a b c}, Converts cl user a b → Converts cl user b c → Converts cl user a c
  antisymm : ∀ {a b}, Converts cl user a b → Converts cl user b a → a = b

/-- Of two different types, one is a class: at most one of the types is none. -/
def Classes.Mixed (cl : Classes) (ts : List Nat) : Prop := ∀ a ∈ ts, ∀ b ∈ ts, a ≠ b → cl.isClass a = true ∨ cl.isClass b = true

instance (cl : Classes) (ts : List Nat) : Decidable (cl.Mixed ts) := by unfold Classes.Mixed; infer_instance

end BVariant
