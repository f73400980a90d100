/-
Programs with variables of several variant types: finite sequences of API calls, each on variables of one type.
-/
import Verif.Core.Program

namespace BVariant

section
variable {V : Type}

/-- Run a program with variables of the declared variant types `ρ`. A statement is a pair of a variant type and an API call
on variables of this type; it does not compile (here: it is skipped) if a variable is of another type. Exceptions are
caught after each statement and the program goes on. (The user's program; the library has no such code. The statements are
those of Core/Program.lean.) -/
def runMix (K : Nat → Cfg V) (ρ : Nat → Nat) : List (Nat × Cmd V) → World V → Option (World V)
  | [], w => some w
  | (vt, c) :: cs, w =>
    if c.names.all (fun x => ρ x == vt) && c.valid (K vt) w then
      match c.code (K vt) w with
      | .ok _ w' => runMix K ρ cs w'
      | .exc _ w' => runMix K ρ cs w'
      | .fault _ => none
    else runMix K ρ cs w

end

end BVariant
