/-
C02, C03: the discriminator.
-/
import Verif.Lemmas.Discriminator

namespace BVariant

/-! ### C02 -/

/-- C02. Recording "type `i`, in place" or "type `i`, in a heap backup" makes `which()` give `i`; the two
records differ in `using_backup()`; records of different indices never collide. -/
theorem C02_which_survives_backup (i j : Nat) :
    whichOf (indicateWhich i) = i ∧
    whichOf (indicateBackupWhich i) = i ∧
    usingBackup (indicateWhich i) = false ∧
    usingBackup (indicateBackupWhich i) = true ∧
    indicateWhich i ≠ indicateBackupWhich j ∧
    (indicateWhich i = indicateWhich j → i = j) ∧
    (indicateBackupWhich i = indicateBackupWhich j → i = j) := by
  have h1 : ¬ ((i : Int) < 0) := by omega
  have h2 : (-((i : Int) + 1) < 0) := by omega
  simp only [whichOf, usingBackup, indicateWhich, indicateBackupWhich, h1, h2, decide_true, decide_false,
    if_true, Bool.false_eq_true, if_false]
  refine ⟨trivial, ?_, trivial, trivial, ?_, ?_, ?_⟩ <;> omega

/-- Taking the record of a variant already in the backup state and marking it again (as a second failed
assignment does) changes nothing. -/
theorem C02_mark_backup_idempotent (i : Nat) :
    indicateBackupWhich (whichOf (indicateBackupWhich i)) = indicateBackupWhich i := by
  rw [(C02_which_survives_backup i i).2.1]

-- which() of the fourth type, in place and in backup
example : indicateBackupWhich 3 = -4 ∧ whichOf (-4) = 3 ∧ whichOf 3 = 3 := by decide

/-! ### C03 -/

/-- C03. With `BOOST_VARIANT_MINIMIZE_SIZE` and fewer than `SCHAR_MAX` types the discriminator is an
8-bit signed char, and for every index of such a variant both records are stored unchanged and read
back by `which()` as the index, exactly as with an unbounded integer. -/
theorem C03_signed_char_discriminator (n i : Nat) (hn : n < 127) (hi : i < n) :
    whichWidth n = 8 ∧
    (indicateWhichB 8 (BitVec.ofNat 32 i)).toInt = i ∧
    (indicateBackupWhichB 8 (BitVec.ofNat 32 i)).toInt = -((i : Int) + 1) ∧
    (whichB (indicateWhichB 8 (BitVec.ofNat 32 i))).toInt = i ∧
    (whichB (indicateBackupWhichB 8 (BitVec.ofNat 32 i))).toInt = i := by
  have := which_roundtrip (b := 8) (m := n) (i := i) ⟨by decide, by decide, by omega⟩ hi
  refine ⟨by simp [whichWidth, scharMax, hn], this.1, this.2.1, this.2.2⟩

/-- C03, for any number of types: the discriminator type selected by the library (8-bit or 32-bit) is
always wide enough. -/
theorem C03_selected_width_suffices (n i : Nat) (hn : n ≤ 2 ^ 31) (hi : i < n) :
    (indicateWhichB (whichWidth n) (BitVec.ofNat 32 i)).toInt = i ∧
    (indicateBackupWhichB (whichWidth n) (BitVec.ofNat 32 i)).toInt = -((i : Int) + 1) ∧
    (whichB (indicateWhichB (whichWidth n) (BitVec.ofNat 32 i))).toInt = i ∧
    (whichB (indicateBackupWhichB (whichWidth n) (BitVec.ofNat 32 i))).toInt = i := by
  have hfit : Fits (whichWidth n) n := by
    by_cases h : n < 127
    · have : whichWidth n = 8 := by simp [whichWidth, scharMax, h]
      rw [this]; exact ⟨by decide, by decide, by omega⟩
    · have : whichWidth n = 32 := by simp [whichWidth, scharMax, h]
      rw [this]; exact ⟨by decide, by decide, by omega⟩
  exact which_roundtrip hfit hi

-- the last index of the largest variant that gets a signed char
example : (whichB (indicateBackupWhichB 8 (BitVec.ofNat 32 125))).toInt = 125 :=
  (C03_signed_char_discriminator 126 125 (by decide) (by decide)).2.2.2.2

-- 8 bits would not be enough for index 128, so the bound matters
example : (indicateWhichB 8 (BitVec.ofNat 32 128)).toInt ≠ 128 := by decide

/-- C02 for the types number 3 and 5. -/
example : whichOf (indicateWhich 3) = 3 ∧ whichOf (indicateBackupWhich 3) = 3 ∧ usingBackup (indicateWhich 3) = false ∧
    usingBackup (indicateBackupWhich 3) = true ∧ indicateWhich 3 ≠ indicateBackupWhich 5 :=
  have h := C02_which_survives_backup 3 5
  ⟨h.1, h.2.1, h.2.2.1, h.2.2.2.1, h.2.2.2.2.1⟩

/-! ### Instances -/

/-- The discriminators for 200 types, of which the last is held. -/
example := C03_selected_width_suffices 200 199 (by decide) (by decide)

example : indicateBackupWhich (whichOf (indicateBackupWhich 3)) = -4 := C02_mark_backup_idempotent 3

end BVariant
