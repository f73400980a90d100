/-
Model of the discriminator `which_`.
/repo/include/boost/variant/variant.hpp lines 1173-1240.
-/

namespace BVariant

/-- The value stored by `indicate_which(which_arg)`, variant.hpp 1212-1215 (unbounded `which_t`). -/
def indicateWhich (whichArg : Int) : Int := whichArg

/-- The value stored by `indicate_backup_which(which_arg)`, variant.hpp 1217-1220. -/
def indicateBackupWhich (whichArg : Int) : Int := -(whichArg + 1)

/-- `using_backup()`, variant.hpp 1224-1227. -/
def usingBackup (which_ : Int) : Bool := which_ < 0

/-- `which()`, variant.hpp 1231-1240. -/
def whichOf (which_ : Int) : Int :=
  if usingBackup which_ then -(which_ + 1) else which_

/-- `SCHAR_MAX` (Used at variant.hpp 1194.) -/
def scharMax : Nat := 127

/-- The choice of `which_t` under `BOOST_VARIANT_MINIMIZE_SIZE`, variant.hpp 1190-1198, as its width in
bits: `signed char` if there are fewer than `SCHAR_MAX` types, otherwise `int`. (`mpl::O1_size` gives
the size; its "unknown" answer -1 also selects `int`.) -/
def whichWidth (n : Nat) : Nat := if n < scharMax then 8 else 32

/-- `indicate_which` with `which_t` of `b` bits: the `int` argument is converted with `static_cast`,
variant.hpp 1214. The parameter and the arithmetic are 32-bit `int`. -/
def indicateWhichB (b : Nat) (whichArg : BitVec 32) : BitVec b := whichArg.signExtend b

/-- `indicate_backup_which` with `which_t` of `b` bits, variant.hpp 1219. -/
def indicateBackupWhichB (b : Nat) (whichArg : BitVec 32) : BitVec b := (-(whichArg + 1)).signExtend b

/-- `using_backup()` with `which_t` of `b` bits, variant.hpp 1226. -/
def usingBackupB {b : Nat} (which_ : BitVec b) : Bool := which_.toInt < 0

/-- `which()` with `which_t` of `b` bits: `which_` is promoted to `int` before the arithmetic,
variant.hpp 1231-1240. -/
def whichB {b : Nat} (which_ : BitVec b) : BitVec 32 :=
  if usingBackupB which_ then -(which_.signExtend 32 + 1) else which_.signExtend 32

end BVariant
