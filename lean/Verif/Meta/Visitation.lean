/-
Model of the unrolled visitation switch.
/repo/include/boost/variant/detail/visitation_impl.hpp lines 73-89 (`visitation_impl_step`),
151-181 (unrolled cases), 183-256 (`visitation_impl`).
-/

namespace BVariant

/-- `visitation_impl_step<Iter, LastIter>` followed `n` times, visitation_impl.hpp 73-89: the type at
position `n` of the remaining range, or `none` (the tag `apply_visitor_unrolled`) at or past the end. -/
def stepType {τ : Type u} (steps : List τ) (n : Nat) : Option τ := steps[n]?

/-- The `switch` of one `visitation_impl` instantiation, visitation_impl.hpp 213-235: cases
`which + n, which + n + 1, ...`, `k` of them. `none` is the `default: break`.
`forced` is `forced_return` (unreachable), reached by `visitation_impl_invoke` on
`apply_visitor_unrolled` (151-158). -/
def switchCases {τ : Type u} {β : Type v} (logical : Int) (which : Nat) (steps : List τ)
    (invoke : τ → β) (forced : β) : (k n : Nat) → Option β
  | 0, _ => none
  | k + 1, n =>
    if logical = ((which + n : Nat) : Int) then
      match stepType steps n with
      | some t => some (invoke t)
      | none => some forced
    else switchCases logical which steps invoke forced k (n + 1)

/-- `visitation_impl` with unrolling limit `L + 1` (`BOOST_VARIANT_VISITATION_UNROLLING_LIMIT`, which is
at least 1), visitation_impl.hpp 183-256. `which` is `Which::value`, `steps` the remaining range,
`forced` is `forced_return` (also the true_ overload at 166-181). The step at distance `L + 1` decides
whether the recursion goes on (245-254). -/
def visitationImpl {τ : Type u} {β : Type v} (L : Nat) (logical : Int) (which : Nat) (steps : List τ)
    (invoke : τ → β) (forced : β) : β :=
  match switchCases logical which steps invoke forced (L + 1) 0 with
  | some r => r
  | none =>
    match _h : stepType steps (L + 1) with
    | none => forced
    | some _ => visitationImpl L logical (which + (L + 1)) (steps.drop (L + 1)) invoke forced
termination_by steps.length
decreasing_by
  simp only [stepType] at _h
  have := List.getElem?_eq_some_iff.mp _h
  obtain ⟨h, _⟩ := this
  simp only [List.length_drop]
  omega

end BVariant
