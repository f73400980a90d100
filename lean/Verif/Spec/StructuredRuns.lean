/-
What a program with control flow does, told by its structure: what each construct of the language does in terms of its parts.
-/
import Verif.Core.Structured

namespace BVariant

section
variable {V : Type} (D : Decls V) (ρ : Nat → Nat)

/-- `Runs D ρ s w e w'`: the program `s`, begun in the world `w`, comes to its end in `w'`, by an exception if `e`. (The meaning of the
constructs in the C++ language.) -/
inductive Runs : Stm V → World V → Bool → World V → Prop
  | cmd {c : MixCmd V} {w w' : World V} : c.valid D ρ w = true → c.code D ρ w = .ok () w' → Runs (.cmd c) w false w'
  | cmdThrows {c : MixCmd V} {w w' : World V} {e : Exc} : c.valid D ρ w = true → c.code D ρ w = .exc e w' → Runs (.cmd c) w true w'
  | cmdSkipped {c : MixCmd V} {w : World V} : c.valid D ρ w = false → Runs (.cmd c) w false w
  | skip {w : World V} : Runs .skip w false w
  | raise {w : World V} : Runs .raise w true w
  | seq {s t : Stm V} {w w1 w2 : World V} {e : Bool} : Runs s w false w1 → Runs t w1 e w2 → Runs (.seq s t) w e w2
  | seqThrows {s t : Stm V} {w w1 : World V} : Runs s w true w1 → Runs (.seq s t) w true w1
  | thenBranch {b : World V → Option Bool} {s t : Stm V} {w w1 : World V} {e : Bool} : b w = some true → Runs s w e w1 →
      Runs (.cond b s t) w e w1
  | elseBranch {b : World V → Option Bool} {s t : Stm V} {w w1 : World V} {e : Bool} : b w = some false → Runs t w e w1 →
      Runs (.cond b s t) w e w1
  | condThrows {b : World V → Option Bool} {s t : Stm V} {w : World V} : b w = none → Runs (.cond b s t) w true w
  | loopEnds {b : World V → Option Bool} {s : Stm V} {w : World V} : b w = some false → Runs (.loop b s) w false w
  | loopThrows {b : World V → Option Bool} {s : Stm V} {w : World V} : b w = none → Runs (.loop b s) w true w
  | loopBody {b : World V → Option Bool} {s : Stm V} {w w1 w2 : World V} {e : Bool} : b w = some true → Runs s w false w1 →
      Runs (.loop b s) w1 e w2 → Runs (.loop b s) w e w2
  | loopBodyThrows {b : World V → Option Bool} {s : Stm V} {w w1 : World V} : b w = some true → Runs s w true w1 →
      Runs (.loop b s) w true w1
  | tried {s h : Stm V} {w w1 : World V} : Runs s w false w1 → Runs (.guarded s h) w false w1
  | caught {s h : Stm V} {w w1 w2 : World V} {e : Bool} : Runs s w true w1 → Runs h w1 e w2 → Runs (.guarded s h) w e w2
  | scope {x : Nat} {s : Stm V} {w w1 w2 : World V} {e : Bool} : Runs s w e w1 → w1.vars (.user x) ≠ none →
      destroyVar (D.K (ρ x)) (.user x) w1 = .ok () w2 → Runs (.scope x s) w e w2
  | scopeUnused {x : Nat} {s : Stm V} {w w1 : World V} {e : Bool} : Runs s w e w1 → w1.vars (.user x) = none → Runs (.scope x s) w e w1

end

end BVariant
