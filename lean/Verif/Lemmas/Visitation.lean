/-
The unrolled switch is a plain lookup.
-/
import Verif.Meta.Visitation

namespace BVariant

theorem switchCases_hit {τ : Type u} {β : Type v} (which : Nat) (steps : List τ) (invoke : τ → β)
    (forced : β) (k : Nat) : ∀ (n i : Nat), n ≤ i → i < n + k →
    switchCases ((which + i : Nat) : Int) which steps invoke forced k n =
      some (match steps[i]? with | some t => invoke t | none => forced) := by
  induction k with
  | zero => intro n i h1 h2; omega
  | succ k ih =>
    intro n i h1 h2
    simp only [switchCases, stepType]
    by_cases h : i = n
    · subst h
      simp only [if_true]
      cases steps[i]? <;> rfl
    · have hne : ¬ ((which + i : Nat) : Int) = ((which + n : Nat) : Int) := by omega
      simp only [hne, if_false]
      exact ih (n + 1) i (by omega) (by omega)

theorem switchCases_miss {τ : Type u} {β : Type v} (logical : Int) (which : Nat) (steps : List τ)
    (invoke : τ → β) (forced : β) (k : Nat) : ∀ (n : Nat),
    (∀ i, n ≤ i → i < n + k → logical ≠ ((which + i : Nat) : Int)) →
    switchCases logical which steps invoke forced k n = none := by
  induction k with
  | zero => intro n _; rfl
  | succ k ih =>
    intro n h
    simp only [switchCases]
    have := h n (Nat.le_refl _) (by omega)
    simp only [this, if_false]
    exact ih (n + 1) (fun i h1 h2 => h i (by omega) (by omega))

theorem visitationImpl_lookup {τ : Type u} {β : Type v} (L : Nat) (invoke : τ → β) (forced : β) :
    ∀ (steps : List τ) (which i : Nat),
    visitationImpl L ((which + i : Nat) : Int) which steps invoke forced =
      match steps[i]? with | some t => invoke t | none => forced := by
  intro steps
  induction hn : steps.length using Nat.strongRecOn generalizing steps with
  | _ n ih =>
    intro which i
    rw [visitationImpl]
    by_cases hi : i < L + 1
    · rw [switchCases_hit which steps invoke forced (L + 1) 0 i (Nat.zero_le _) (by omega)]
    · rw [switchCases_miss _ which steps invoke forced (L + 1) 0 (by intro j _ hj; omega)]
      simp only [stepType]
      split
      · rename_i h
        have hlen : steps.length ≤ L + 1 := by simpa using h
        have hnone : steps[i]? = none := by simp; omega
        rw [hnone]
      · rename_i t h
        have hlen : L + 1 < steps.length := by
          obtain ⟨h', _⟩ := List.getElem?_eq_some_iff.mp h
          exact h'
        have heq : which + i = (which + (L + 1)) + (i - (L + 1)) := by omega
        rw [heq, ih (steps.drop (L + 1)).length (by simp only [List.length_drop]; omega) _ rfl]
        have : (steps.drop (L + 1))[i - (L + 1)]? = steps[i]? := by
          rw [List.getElem?_drop]; congr 1; omega
        rw [this]

theorem visitationImpl_below {τ : Type u} {β : Type v} (L : Nat) (invoke : τ → β) (forced : β) (logical : Int) :
    ∀ (steps : List τ) (which : Nat), logical < which →
    visitationImpl L logical which steps invoke forced = forced := by
  intro steps
  induction hn : steps.length using Nat.strongRecOn generalizing steps with
  | _ n ih =>
    intro which hw
    rw [visitationImpl]
    rw [switchCases_miss _ which steps invoke forced (L + 1) 0 (by intro j _ hj; omega)]
    simp only [stepType]
    split
    · rfl
    · rename_i t h
      have hlen : L + 1 < steps.length := by
        obtain ⟨h', _⟩ := List.getElem?_eq_some_iff.mp h
        exact h'
      exact ih (steps.drop (L + 1)).length (by simp only [List.length_drop]; omega) _ rfl _ (by omega)

end BVariant
