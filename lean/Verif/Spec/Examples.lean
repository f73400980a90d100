/-
Concrete configurations, used only for non-vacuity examples and for counterexamples.
-/
import Verif.Props.Fallback
import Verif.Spec.Program

namespace BVariant

/-- Element operations on natural numbers. A moved-from object has value 0, a default-initialised one has
the recognisable value 999 where a value-initialised one has 0; failed operations leave operands alone. -/
def natOps : Ops Nat where
  valueInit := fun _ => 0
  defaultInit := fun _ => 999
  copy := fun _ v => v
  move := fun _ v => v
  movedFrom := fun _ _ => 0
  moveFailSrc := fun _ v => v
  assign := fun _ _ r => r
  assignFail := fun _ l _ => l
  moveAssign := fun _ _ r => r
  moveAssignSrc := fun _ _ _ => 0
  moveAssignFail := fun _ l _ => l
  moveAssignFailSrc := fun _ _ r => r
  selfMove := fun _ v => v
  selfMoveFail := fun _ v => v
  swapL := fun _ _ r => r
  swapR := fun _ l _ => l
  swapFailL := fun _ l _ => l
  swapFailR := fun _ _ r => r
  selfSwap := fun _ v => v
  selfSwapFail := fun _ v => v

theorem natOps_lawful : natOps.Lawful := by constructor <;> intros <;> rfl

/-- A variant over the given types as the library is written, where the operations number `bad` throw. -/
def exCfg (types : List Traits) (bad : List Nat) : Cfg Nat where
  types := types
  unroll := 19
  ops := natOps
  throws := fun t => bad.contains t
  ndebug := false
  blankPred := .iterator
  fallbackCtor := .iterator

/-- A type whose copy constructor is nothrow and whose move constructor is not (possible with a
user-declared `T(const T&) noexcept` and `T(T&&)`). -/
def tCopyOnly : Traits := ⟨false, true, false, false, false, false⟩

/-- A type with nothrow moves, but no nothrow copy and no nothrow default construction. -/
def tMovable : Traits := ⟨false, false, true, true, false, false⟩

/-- Does the run of the program end in a fault? -/
def faults (C : Cfg Nat) (cs : List (Cmd Nat)) : Bool := (run C cs (World.init Nat)).isNone

/-- The state after the run of the program (used when there is no fault). -/
def stateAfter (C : Cfg Nat) (cs : List (Cmd Nat)) : World Nat := (run C cs (World.init Nat)).getD (World.init Nat)

/-- Type and value of variable `x` after the run of the program. -/
def contentAfter (C : Cfg Nat) (cs : List (Cmd Nat)) (x : Nat) : Option (TyIx × Nat) :=
  (run C cs (World.init Nat)).bind fun w => w.content (.user x)

/-- What the statement `c` throws after the run of the program. -/
def thrownBy (C : Cfg Nat) (cs : List (Cmd Nat)) (c : Cmd Nat) : Option ExcKind :=
  (run C cs (World.init Nat)).bind fun w =>
    match c.code C w with
    | .exc e _ => some e.kind
    | _ => none

/-- Is variable `x` in the heap-backup state after the run of the program? -/
def backedUpAfter (C : Cfg Nat) (cs : List (Cmd Nat)) (x : Nat) : Bool :=
  match run C cs (World.init Nat) with
  | some w => w.backedUp x
  | none => false

end BVariant
