/-
The fallback search.
-/
import Verif.Meta.Fallback

namespace BVariant

/-- What one `iter_fold_if` walk does: it stops at the first element that fails the predicate. -/
theorem iterFoldIf_eq (pred : Traits → Bool) (ts : List Traits) (i : Nat) :
    ∃ j, j ≤ ts.length ∧ iterFoldIf pred i ts = (i + j, ts.drop j) ∧
      (∀ m t, m < j → ts[m]? = some t → pred t = true) ∧
      (∀ t, ts[j]? = some t → pred t = false) := by
  induction ts generalizing i with
  | nil => exact ⟨0, by simp, by simp [iterFoldIf], by simp, by simp⟩
  | cons a ts ih =>
    simp only [iterFoldIf]
    by_cases h : pred a = true
    · obtain ⟨j, hj, he, h1, h2⟩ := ih (i + 1)
      refine ⟨j + 1, by simp; omega, ?_, ?_, ?_⟩
      · simp [h, he]; omega
      · intro m t hm ht
        cases m with
        | zero => simp at ht; rw [← ht]; exact h
        | succ m => simp at ht; exact h1 m t (by omega) ht
      · intro t ht; simp at ht; exact h2 t ht
    · refine ⟨0, by simp, by simp [h], by simp, ?_⟩
      intro t ht; simp at ht; rw [← ht]; simpa using h

/-- The two walks of `find_fallback_type`: `j` is where the first stops, `j + m` where the second does. -/
theorem findFallbackType_eq (bp : BlankPred) (ts : List Traits) :
    ∃ j m, j + m ≤ ts.length ∧
      (∀ i t, i < j → ts[i]? = some t → t.nothrowDefault = false) ∧
      (∀ t, ts[j]? = some t → t.nothrowDefault = true) ∧
      (∀ i t, j ≤ i → i < j + m → ts[i]? = some t → notSameAsBlank bp t = true) ∧
      (∀ t, ts[j + m]? = some t → notSameAsBlank bp t = false) ∧
      findFallbackType bp ts =
        if j + m < ts.length then some (j + m) else if j < ts.length then some j else none := by
  obtain ⟨j, hj, he, h1, h2⟩ := iterFoldIf_eq findFallbackTypePred ts 0
  obtain ⟨m, hm, he', h1', h2'⟩ := iterFoldIf_eq (notSameAsBlank bp) (ts.drop j) j
  simp only [List.length_drop] at hm
  refine ⟨j, m, by omega, ?_, ?_, ?_, ?_, ?_⟩
  · intro i t hi ht
    have := h1 i t hi ht
    simpa [findFallbackTypePred] using this
  · intro t ht
    have := h2 t ht
    simpa [findFallbackTypePred] using this
  · intro i t hji hi ht
    apply h1' (i - j) t (by omega)
    rw [List.getElem?_drop]
    rw [show j + (i - j) = i from by omega]; exact ht
  · intro t ht
    apply h2' t
    rw [List.getElem?_drop]; exact ht
  · simp only [Nat.zero_add] at he
    simp only [findFallbackType, he, he', List.drop_drop]
    by_cases c1 : j + m < ts.length
    · rw [List.drop_eq_getElem_cons c1]; simp [c1]
    · rw [List.drop_eq_nil_of_le (by omega)]
      simp only [c1, if_false]
      by_cases c2 : j < ts.length
      · rw [List.drop_eq_getElem_cons c2]; simp [c2]
      · rw [List.drop_eq_nil_of_le (by omega)]; simp [c2]

end BVariant
