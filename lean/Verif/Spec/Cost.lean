/-
What an execution costs: potentially throwing operations, objects constructed, memory allocated by the library.
-/
import Verif.Core.Program

namespace BVariant

/-- Prices for a potentially throwing operation (a constructor or assignment of an element type, a conversion, an
allocation), for an element object that begins its life, and for an allocation by the library. The bounds hold for all
prices; with the prices (1, 0, 0), (0, 1, 0) and (0, 0, 1) they are about one counter. -/
structure Prices where
  op : Nat
  obj : Nat
  alloc : Nat

/-- The counters of the world at the given prices. -/
def Prices.meter {V : Type} (R : Prices) (w : World V) : Nat := R.op * w.tick + R.obj * w.next + R.alloc * w.allocs

/-- From every world, the code costs at most `k` if it ends normally and at most `x` if it throws. -/
def Cost {V α : Type} (R : Prices) (m : M V α) (k : α → Nat) (x : Nat) : Prop := ∀ w,
  match m w with
  | .ok a w' => R.meter w' ≤ R.meter w + k a
  | .exc _ w' => R.meter w' ≤ R.meter w + x
  | .fault _ => True

/-- The price of `t` operations, `o` objects and `a` allocations. -/
def Prices.of (R : Prices) (t o a : Nat) : Nat := R.op * t + R.obj * o + R.alloc * a

end BVariant
