/-
Discriminator arithmetic at fixed width.
-/
import Verif.Meta.Discriminator

namespace BVariant

theorem toInt_ofNat32 {i : Nat} (h : i < 2 ^ 31) : (BitVec.ofNat 32 i).toInt = i := by
  rw [BitVec.toInt_ofNat', Int.bmod_def]
  split <;> omega

theorem toInt_backup32 {i : Nat} (h : i < 2 ^ 31) : (-(BitVec.ofNat 32 i + 1)).toInt = -((i : Int) + 1) := by
  rw [BitVec.toInt_neg, BitVec.toInt_add, toInt_ofNat32 h]
  have : (1 : BitVec 32).toInt = 1 := by decide
  rw [this]
  simp only [Int.bmod_def]
  repeat' split
  all_goals omega

/-- A `which_t` of `b` bits is wide enough for indices below `m`. -/
def Fits (b m : Nat) : Prop := 1 ≤ b ∧ b ≤ 32 ∧ m ≤ 2 ^ (b - 1)

theorem toInt_signExtend_fit {b : Nat} (x : BitVec 32) (hb : 1 ≤ b) (hb32 : b ≤ 32)
    (h1 : -(2 ^ (b - 1) : Nat) ≤ x.toInt) (h2 : x.toInt < (2 ^ (b - 1) : Nat)) :
    (x.signExtend b).toInt = x.toInt := by
  rw [BitVec.toInt_signExtend]
  have hm : min b 32 = b := by omega
  rw [hm]
  have hp : (2 : Nat) ^ b = 2 * 2 ^ (b - 1) := by
    obtain ⟨c, rfl⟩ : ∃ c, b = c + 1 := ⟨b - 1, by omega⟩
    simp [Nat.pow_succ]; omega
  apply Int.bmod_eq_of_le_mul_two
  · rw [hp]; push_cast at *; omega
  · rw [hp]; push_cast at *; omega

theorem toInt_promote {b : Nat} (x : BitVec b) (hb32 : b ≤ 32) : (x.signExtend 32).toInt = x.toInt :=
  BitVec.toInt_signExtend_of_le hb32

/-- What the `b`-bit discriminator stores and gives back, whenever it is wide enough. -/
theorem which_roundtrip {b m i : Nat} (hfit : Fits b m) (hi : i < m) :
    (indicateWhichB b (BitVec.ofNat 32 i)).toInt = indicateWhich i ∧
    (indicateBackupWhichB b (BitVec.ofNat 32 i)).toInt = indicateBackupWhich i ∧
    (whichB (indicateWhichB b (BitVec.ofNat 32 i))).toInt = i ∧
    (whichB (indicateBackupWhichB b (BitVec.ofNat 32 i))).toInt = i := by
  obtain ⟨hb, hb32, hm⟩ := hfit
  have hp : (2 : Nat) ^ (b - 1) ≤ 2 ^ 31 := Nat.pow_le_pow_right (by decide) (by omega)
  have hi31 : i < 2 ^ 31 := by omega
  have e1 : (indicateWhichB b (BitVec.ofNat 32 i)).toInt = i := by
    rw [indicateWhichB, toInt_signExtend_fit _ hb hb32, toInt_ofNat32 hi31]
    · rw [toInt_ofNat32 hi31]; omega
    · rw [toInt_ofNat32 hi31]; omega
  have e2 : (indicateBackupWhichB b (BitVec.ofNat 32 i)).toInt = -((i : Int) + 1) := by
    rw [indicateBackupWhichB, toInt_signExtend_fit _ hb hb32, toInt_backup32 hi31]
    · rw [toInt_backup32 hi31]; omega
    · rw [toInt_backup32 hi31]; omega
  refine ⟨e1, e2, ?_, ?_⟩
  · have hn : usingBackupB (indicateWhichB b (BitVec.ofNat 32 i)) = false := by
      simp only [usingBackupB, e1, decide_eq_false_iff_not]; omega
    simp only [whichB, hn, Bool.false_eq_true, if_false]
    rw [toInt_promote _ hb32, e1]
  · have hn : usingBackupB (indicateBackupWhichB b (BitVec.ofNat 32 i)) = true := by
      simp only [usingBackupB, e2, decide_eq_true_eq]; omega
    simp only [whichB, hn, if_true]
    have e3 : ((indicateBackupWhichB b (BitVec.ofNat 32 i)).signExtend 32).toInt = -((i : Int) + 1) := by
      rw [toInt_promote _ hb32, e2]
    rw [BitVec.toInt_neg, BitVec.toInt_add, e3]
    have : (1 : BitVec 32).toInt = 1 := by decide
    rw [this]
    simp only [Int.bmod_def]
    repeat' split
    all_goals omega

end BVariant
