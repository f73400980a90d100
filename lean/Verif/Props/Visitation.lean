/-
C04: dispatch of the unrolled visitation switch.
-/
import Verif.Lemmas.Visitation

namespace BVariant

/-- C04. For any list of bounded types, any index `w` into it and any unrolling limit `L + 1 ≥ 1`, the
unrolled switch is one call of the visitor on the `w`-th type and nothing else: its result is that
call's result, whatever the visitor and whatever the unreachable branch would do. -/
theorem C04_dispatch {τ β : Type} (L : Nat) (types : List τ) (w : Nat) (hw : w < types.length)
    (invoke : τ → β) (unreachable : β) :
    visitationImpl L (w : Int) 0 types invoke unreachable = invoke types[w] := by
  have := visitationImpl_lookup L invoke unreachable types 0 w
  simp only [Nat.zero_add] at this
  rw [this]
  simp [hw]

/-- C04, "exactly once": with a visitor that logs its calls, the log has exactly one entry, the `w`-th
type. -/
theorem C04_dispatch_once {τ : Type} (L : Nat) (types : List τ) (w : Nat) (hw : w < types.length) :
    visitationImpl L (w : Int) 0 types (fun t (log : List τ) => t :: log) (fun log => log) [] = [types[w]] := by
  rw [C04_dispatch L types w hw]

/-- Outside the range of indices only the unreachable branch is taken: no visitor call on a wrong type. -/
theorem C04_dispatch_out_of_range {τ β : Type} (L : Nat) (types : List τ) (w : Nat) (hw : types.length ≤ w)
    (invoke : τ → β) (unreachable : β) :
    visitationImpl L (w : Int) 0 types invoke unreachable = unreachable := by
  have := visitationImpl_lookup L invoke unreachable types 0 w
  simp only [Nat.zero_add] at this
  rw [this]
  simp [hw]

-- seven types, limit 3, index 6 (third chunk, past a multiple of the limit)
example : visitationImpl 2 6 0 ["a", "b", "c", "d", "e", "f", "g"] (fun t => t) "unreachable" = "g" :=
  C04_dispatch 2 ["a", "b", "c", "d", "e", "f", "g"] 6 (by decide) _ _

/-- The log of that visitation, and the index that is one too large. -/
example : visitationImpl 2 6 0 ["a", "b", "c", "d", "e", "f", "g"] (fun t log => t :: log) (fun log => log) [] = ["g"] ∧
    visitationImpl 2 7 0 ["a", "b", "c", "d", "e", "f", "g"] (fun t => t) "unreachable" = "unreachable" :=
  ⟨C04_dispatch_once 2 ["a", "b", "c", "d", "e", "f", "g"] 6 (by decide),
    C04_dispatch_out_of_range 2 ["a", "b", "c", "d", "e", "f", "g"] 7 (by decide) _ _⟩

end BVariant
