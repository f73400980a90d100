/-
C05: choice of the fallback type.
-/
import Verif.Lemmas.Fallback

namespace BVariant

/-- Specification: `k` is the first position of `ts` whose element satisfies `p`. -/
def IsFirst (p : Traits → Prop) (ts : List Traits) (k : Nat) : Prop :=
  (∃ t, ts[k]? = some t ∧ p t) ∧ ∀ i t, i < k → ts[i]? = some t → ¬ p t

/-- `boost::blank` is nothrow default constructible (its traits are specialised so in boost/blank.hpp). -/
def BlankHonest (ts : List Traits) : Prop := ∀ t, t ∈ ts → t.isBlank = true → t.nothrowDefault = true

/-- C05. A fallback type is chosen exactly when some bounded type is nothrow default constructible
(under either reading of the search for `boost::blank`). -/
theorem C05_fallback_exists_iff (bp : BlankPred) (ts : List Traits) :
    (findFallbackType bp ts).isSome = true ↔ ∃ t, t ∈ ts ∧ t.nothrowDefault = true := by
  obtain ⟨j, m, hle, h1, h2, h3, h4, he⟩ := findFallbackType_eq bp ts
  rw [he]
  constructor
  · intro h
    have hj : j < ts.length := by
      by_cases c1 : j + m < ts.length
      · omega
      · by_cases c2 : j < ts.length
        · exact c2
        · simp [c1, c2] at h
    exact ⟨ts[j], List.getElem_mem hj, h2 _ (List.getElem?_eq_getElem hj)⟩
  · rintro ⟨t, ht, hd⟩
    obtain ⟨i, hi, rfl⟩ := List.mem_iff_getElem.mp ht
    have hji : j ≤ i := by
      rcases Nat.lt_or_ge i j with h | h
      · have := h1 i _ h (List.getElem?_eq_getElem hi)
        rw [hd] at this; cases this
      · exact h
    have hj : j < ts.length := by omega
    by_cases c1 : j + m < ts.length
    · simp [c1]
    · simp [c1, hj]

/-- C05. The chosen type is nothrow default constructible, and the recorded index is the index of an
existing bounded type. -/
theorem C05_fallback_nothrow (bp : BlankPred) (ts : List Traits) (k : Nat) (hb : BlankHonest ts)
    (h : findFallbackType bp ts = some k) : ∃ t, ts[k]? = some t ∧ t.nothrowDefault = true := by
  obtain ⟨j, m, hle, h1, h2, h3, h4, he⟩ := findFallbackType_eq bp ts
  rw [he] at h
  by_cases c1 : j + m < ts.length
  · simp only [c1, if_true, Option.some.injEq] at h
    subst h
    refine ⟨ts[j + m], List.getElem?_eq_getElem c1, ?_⟩
    have := h4 _ (List.getElem?_eq_getElem c1)
    cases bp with
    | iterator => simp [notSameAsBlank] at this
    | element =>
      simp only [notSameAsBlank, Bool.not_eq_false'] at this
      exact hb _ (List.getElem_mem c1) this
  · by_cases c2 : j < ts.length
    · simp only [c1, c2, if_true, if_false, Option.some.injEq] at h
      subst h
      exact ⟨ts[j], List.getElem?_eq_getElem c2, h2 _ (List.getElem?_eq_getElem c2)⟩
    · simp [c1, c2] at h

/-- C05 as the comments in variant.hpp 157-161 intend it (the predicate sees the element): if
`boost::blank` is bounded, the first `boost::blank` is chosen, otherwise the first nothrow default
constructible type. -/
theorem C05_fallback_choice_intended (ts : List Traits) (k : Nat) (hb : BlankHonest ts) :
    findFallbackType .element ts = some k ↔
      ((∃ t, t ∈ ts ∧ t.isBlank = true) ∧ IsFirst (·.isBlank = true) ts k) ∨
      ((¬ ∃ t, t ∈ ts ∧ t.isBlank = true) ∧ IsFirst (·.nothrowDefault = true) ts k) := by
  have uniq : ∀ (p : Traits → Prop) (a b : Nat), IsFirst p ts a → IsFirst p ts b → a = b := by
    rintro p a b ⟨⟨t, ht, hp⟩, hlt⟩ ⟨⟨t', ht', hp'⟩, hlt'⟩
    rcases Nat.lt_trichotomy a b with h | h | h
    · exact absurd hp (hlt' a t h ht)
    · exact h
    · exact absurd hp' (hlt b t' h ht')
  obtain ⟨j, m, hle, h1, h2, h3, h4, he⟩ := findFallbackType_eq .element ts
  have firstBlank : j + m < ts.length → IsFirst (·.isBlank = true) ts (j + m) := by
    intro c
    refine ⟨⟨ts[j + m], List.getElem?_eq_getElem c, ?_⟩, ?_⟩
    · simpa [notSameAsBlank] using h4 _ (List.getElem?_eq_getElem c)
    · intro i t hi ht hbl
      rcases Nat.lt_or_ge i j with h | h
      · have := h1 i t h ht
        rw [hb t (List.mem_of_getElem? ht) hbl] at this; cases this
      · have := h3 i t h hi ht
        simp [notSameAsBlank, hbl] at this
  have noBlank : ¬ j + m < ts.length → ¬ ∃ t, t ∈ ts ∧ t.isBlank = true := by
    rintro c ⟨t, ht, hbl⟩
    obtain ⟨i, hi, rfl⟩ := List.mem_iff_getElem.mp ht
    rcases Nat.lt_or_ge i j with h | h
    · have := h1 i _ h (List.getElem?_eq_getElem hi)
      rw [hb _ ht hbl] at this; cases this
    · have := h3 i _ h (by omega) (List.getElem?_eq_getElem hi)
      simp [notSameAsBlank, hbl] at this
  have firstNothrow : j < ts.length → IsFirst (·.nothrowDefault = true) ts j := by
    intro c
    refine ⟨⟨ts[j], List.getElem?_eq_getElem c, h2 _ (List.getElem?_eq_getElem c)⟩, ?_⟩
    intro i t hi ht hn
    have := h1 i t hi ht
    rw [hn] at this; cases this
  rw [he]
  by_cases c1 : j + m < ts.length
  · simp only [c1, if_true, Option.some.injEq]
    have hex : ∃ t, t ∈ ts ∧ t.isBlank = true := by
      obtain ⟨⟨t, ht, hp⟩, _⟩ := firstBlank c1
      exact ⟨t, List.mem_of_getElem? ht, hp⟩
    constructor
    · rintro rfl; exact Or.inl ⟨hex, firstBlank c1⟩
    · rintro (⟨_, hk⟩ | ⟨hno, _⟩)
      · exact uniq _ _ _ (firstBlank c1) hk
      · exact absurd hex hno
  · have hno := noBlank c1
    by_cases c2 : j < ts.length
    · simp only [c1, c2, if_true, if_false, Option.some.injEq]
      constructor
      · rintro rfl; exact Or.inr ⟨hno, firstNothrow c2⟩
      · rintro (⟨hex, _⟩ | ⟨_, hk⟩)
        · exact absurd hex hno
        · exact uniq _ _ _ (firstNothrow c2) hk
    · simp only [c1, c2, if_false]
      constructor
      · intro h; cases h
      · rintro (⟨hex, _⟩ | ⟨_, ⟨⟨t, ht, hn⟩, _⟩⟩)
        · exact absurd hex hno
        · have hk := (List.getElem?_eq_some_iff.mp ht).1
          have := h1 k t (by omega) ht
          rw [hn] at this; cases this

/-- C05 for the code as written (MPL hands the predicate the iterator): always the first nothrow default
constructible type. Missing from the full property: the preference for `boost::blank`, which is false,
see `C05_blank_not_preferred`. -/
theorem C05_fallback_choice_partial (ts : List Traits) (k : Nat) :
    findFallbackType .iterator ts = some k ↔ IsFirst (·.nothrowDefault = true) ts k := by
  obtain ⟨j, m, hle, h1, h2, h3, h4, he⟩ := findFallbackType_eq .iterator ts
  have hend : j + m = ts.length := by
    rcases Nat.lt_or_ge (j + m) ts.length with h | h
    · have := h4 _ (List.getElem?_eq_getElem h)
      simp [notSameAsBlank] at this
    · omega
  rw [he]
  have c1 : ¬ j + m < ts.length := by omega
  simp only [c1, if_false]
  by_cases c2 : j < ts.length
  · simp only [c2, if_true, Option.some.injEq]
    constructor
    · rintro rfl
      refine ⟨⟨ts[j], List.getElem?_eq_getElem c2, h2 _ (List.getElem?_eq_getElem c2)⟩, ?_⟩
      intro i t hi ht hn
      have := h1 i t hi ht
      rw [hn] at this; cases this
    · rintro ⟨⟨t, ht, hn⟩, hlt⟩
      rcases Nat.lt_trichotomy j k with h | h | h
      · exact absurd (h2 _ (List.getElem?_eq_getElem c2)) (hlt j _ h (List.getElem?_eq_getElem c2))
      · exact h
      · have := h1 k t h ht
        rw [hn] at this; cases this
  · simp only [c2, if_false]
    constructor
    · intro h; cases h
    · rintro ⟨⟨t, ht, hn⟩, _⟩
      have hk := (List.getElem?_eq_some_iff.mp ht).1
      have := h1 k t (by omega) ht
      rw [hn] at this; cases this

/-! Concrete types for examples. -/

/-- `boost::blank` -/
def tBlank : Traits := ⟨true, true, true, true, true, true⟩
/-- `int` -/
def tInt : Traits := ⟨true, true, true, true, false, true⟩
/-- a type like `std::string`: nothrow default construction and move, throwing copy -/
def tString : Traits := ⟨true, false, true, true, false, false⟩
/-- a type all of whose operations may throw -/
def tThrowing : Traits := ⟨false, false, false, false, false, false⟩

/-- C05 is false for the code as written (finding F3): in `variant<Throwing, int, blank>` the fallback
type is `int` although `boost::blank` is bounded. -/
theorem C05_blank_not_preferred :
    BlankHonest [tThrowing, tInt, tBlank] ∧
    findFallbackType .iterator [tThrowing, tInt, tBlank] = some 1 ∧
    findFallbackType .element [tThrowing, tInt, tBlank] = some 2 := by
  refine ⟨?_, by decide, by decide⟩
  intro t ht
  simp at ht
  rcases ht with rfl | rfl | rfl <;> decide

example : findFallbackType .iterator [tThrowing, tThrowing] = none := by decide

/-- `variant<Throwing, string, int, blank>`, as the code is written and as it is intended. -/
example : (findFallbackType .iterator [tThrowing, tString, tInt, tBlank]).isSome = true ∧
    IsFirst (·.nothrowDefault = true) [tThrowing, tString, tInt, tBlank] 1 ∧
    (∃ t, [tThrowing, tString, tInt, tBlank][1]? = some t ∧ t.nothrowDefault = true) ∧
    IsFirst (·.isBlank = true) [tThrowing, tString, tInt, tBlank] 3 := by
  have hb : BlankHonest [tThrowing, tString, tInt, tBlank] := by
    intro t ht
    simp at ht
    rcases ht with rfl | rfl | rfl | rfl <;> decide
  have h1 : findFallbackType .iterator [tThrowing, tString, tInt, tBlank] = some 1 := by decide
  have h2 : findFallbackType .element [tThrowing, tString, tInt, tBlank] = some 3 := by decide
  refine ⟨(C05_fallback_exists_iff _ _).mpr ⟨tInt, by decide, by decide⟩, (C05_fallback_choice_partial _ _).mp h1,
    C05_fallback_nothrow .iterator _ _ hb h1, ?_⟩
  rcases (C05_fallback_choice_intended _ _ hb).mp h2 with h | h
  · exact h.2
  · exact absurd ⟨tBlank, by decide, by decide⟩ h.1

end BVariant
