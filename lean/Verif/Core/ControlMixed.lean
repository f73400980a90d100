/-
Programs with control flow over the statements of Core/MixedConvert.lean: variables of several variant types, and conversions between
them; conditions compare variants of the same type.
-/
import Verif.Core.Control
import Verif.Core.MixedConvert

namespace BVariant

section
variable {V : Type}

/-- Looking at variants of several types: `operator==`, variant.hpp 2123-2132, `operator<`, 2134-2147, and `which()`, 1231-1240. A
comparison of variants of different types does not compile; here it is not made, and counts as false. (The elements compare as `eq` and
`lt` say, which may be different for each variant type.) -/
def mixLooks (D : Decls V) (ρ : Nat → Nat) (eq lt : Nat → TyIx → V → V → Bool) : Looks Nat (World V) where
  there w x := (w.vars (.user x)).isSome
  eq x y := if ρ x = ρ y then (opEq (D.K (ρ x)) (elemCmp (eq (ρ x))) (.user x) (.user y)).eff else pure false
  lt x y := if ρ x = ρ y then (opLt (D.K (ρ x)) (elemCmp (lt (ρ x))) (.user x) (.user y)).eff else pure false
  is x k := do
    let i ← (which (V := V) (.user x)).eff
    pure (decide (i = (k : Int)))

/-- Statements on variants of several types, with conversions; those that do not compile or are not valid are skipped. (variant.hpp
1259-1284, 1497-1654 and 1963-2062, see Core/MixedConvert.lean.) -/
def mixActions (D : Decls V) (ρ : Nat → Nat) (eq lt : Nat → TyIx → V → V → Bool) : Actions (MixCmd V) (Test Nat) (World V) where
  act c := fun w => if c.valid D ρ w then (c.code D ρ).eff w else .ok () w
  test b := b.code (mixLooks D ρ eq lt)
  close x := .on (ρ x) (.destroy x)

end

end BVariant
