/-
Code with exceptions and faults over an arbitrary state. (`M` of Core/World.lean is the same over `World`.)
Used for the models of `recursive_wrapper` and of recursive variants, which have a heap of their own.
-/
import Verif.Core.World

namespace BVariant

/-- Outcome of running a piece of code. (The language. Used for recursive_wrapper.hpp and for variant.hpp 370-1923 on
trees.) -/
inductive Res (S α : Type)
  | ok (a : α) (s : S)
  | exc (e : Exc) (s : S)
  | fault (f : Fault)

/-- Code that runs in a state. (The language, as `M` in Core/World.lean.) -/
def Eff (S α : Type) := S → Res S α

namespace Eff
variable {S α β : Type}

/-- A value. (The language.) -/
def pure (a : α) : Eff S α := fun s => .ok a s

/-- Sequencing: exceptions and faults end the code. (The language.) -/
def bind (m : Eff S α) (f : α → Eff S β) : Eff S β := fun s =>
  match m s with
  | .ok a s' => f a s'
  | .exc e s' => .exc e s'
  | .fault x => .fault x

instance : Monad (Eff S) where
  pure := Eff.pure
  bind := Eff.bind

/-- Undefined behaviour and the like. (The language.) -/
def fail (f : Fault) : Eff S α := fun _ => .fault f

/-- `try { m } catch (...) { h; throw; }` (`BOOST_TRY`, variant.hpp 732-749, 770-786, 805-822, 1748-1761, 1868-1881, and
what the language does with a half-made object.) -/
def onExc (m : Eff S α) (h : Eff S Unit) : Eff S α := fun s =>
  match m s with
  | .ok a s' => .ok a s'
  | .exc e s' =>
    match h s' with
    | .ok _ s'' => .exc e s''
    | .exc _ _ => .fault .terminate
    | .fault x => .fault x
  | .fault x => .fault x

/-- A `noexcept` function. (`BOOST_NOEXCEPT`, for instance recursive_wrapper.hpp 70 and 79.) -/
def noexcept (m : Eff S α) : Eff S α := fun s =>
  match m s with
  | .ok a s' => .ok a s'
  | .exc _ _ => .fault .terminate
  | .fault x => .fault x

/-- Read the state. (Device of the model.) -/
def get : Eff S S := fun s => .ok s s

/-- Change the state. (Device of the model.) -/
def modify (f : S → S) : Eff S Unit := fun s => .ok () (f s)

end Eff

end BVariant
