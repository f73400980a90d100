/-
Programs with control flow: sequences, branches, loops, exceptions with handlers, and scopes with local variants. One step of the
machine executes one statement of Core/MixedConvert.lean, or one step of control.
-/
import Verif.Core.MixedConvert

namespace BVariant

/-- A program. Conditions may look at everything, and may throw (`none`). (The user's program; the library has no such
code.) -/
inductive Stm (V : Type)
  /-- a statement on variants: a call of the library -/
  | cmd (c : MixCmd V)
  | skip
  /-- `throw` -/
  | raise
  | seq (s t : Stm V)
  /-- `if (b) s else t` -/
  | cond (b : World V → Option Bool) (s t : Stm V)
  /-- `while (b) s` -/
  | loop (b : World V → Option Bool) (s : Stm V)
  /-- `try { s } catch (...) { h }` -/
  | guarded (s h : Stm V)
  /-- `{ s }` where `s` declares the variant `x` -/
  | scope (x : Nat) (s : Stm V)

/-- What is to be done after the current statement. (The language: the stack of the machine.) -/
inductive Frame (V : Type)
  /-- the next statement; skipped by an exception -/
  | next (s : Stm V)
  /-- a handler; skipped without an exception -/
  | handler (h : Stm V)
  /-- the end of the scope of `x` -/
  | ends (x : Nat)

/-- What the machine is about to do: execute a statement, go on after one, or look for a handler. (The language.) -/
inductive Ctl (V : Type)
  | run (s : Stm V)
  | ret
  | unwind

/-- A state of the machine. (The language.) -/
structure Conf (V : Type) where
  ctl : Ctl V
  stack : List (Frame V)
  w : World V

/-- What a step leads to: another state; the end of the program, normally or by an exception that nothing catches; or a fault.
(The language.) -/
inductive Next (V : Type)
  | conf (c : Conf V)
  | done (uncaught : Bool) (w : World V)
  | fault (f : Fault)

section
variable {V : Type} (D : Decls V) (ρ : Nat → Nat)

/-- The end of a scope: `~variant` of `x`, if it was constructed and is alive, variant.hpp 1259-1262. An exception from it would
call `std::terminate`. -/
def endScope (x : Nat) (then_ : Ctl V) (k : List (Frame V)) (w : World V) : Next V :=
  if (w.vars (.user x)).isSome then
    match destroyVar (D.K (ρ x)) (.user x) w with
    | .ok _ w' => .conf ⟨then_, k, w'⟩
    | .exc _ _ => .fault .terminate
    | .fault f => .fault f
  else .conf ⟨then_, k, w⟩

/-- One step. A statement that is not valid is skipped. (The language; the statements are calls of the functions at variant.hpp
1259-1284, 1589-1654 and 2001-2062.) -/
def step : Conf V → Next V
  | ⟨.run (.cmd c), k, w⟩ =>
    if c.valid D ρ w then
      match c.code D ρ w with
      | .ok _ w' => .conf ⟨.ret, k, w'⟩
      | .exc _ w' => .conf ⟨.unwind, k, w'⟩
      | .fault f => .fault f
    else .conf ⟨.ret, k, w⟩
  | ⟨.run .skip, k, w⟩ => .conf ⟨.ret, k, w⟩
  | ⟨.run .raise, k, w⟩ => .conf ⟨.unwind, k, w⟩
  | ⟨.run (.seq s t), k, w⟩ => .conf ⟨.run s, .next t :: k, w⟩
  | ⟨.run (.cond b s t), k, w⟩ =>
    match b w with
    | some true => .conf ⟨.run s, k, w⟩
    | some false => .conf ⟨.run t, k, w⟩
    | none => .conf ⟨.unwind, k, w⟩
  | ⟨.run (.loop b s), k, w⟩ =>
    match b w with
    | some true => .conf ⟨.run s, .next (.loop b s) :: k, w⟩
    | some false => .conf ⟨.ret, k, w⟩
    | none => .conf ⟨.unwind, k, w⟩
  | ⟨.run (.guarded s h), k, w⟩ => .conf ⟨.run s, .handler h :: k, w⟩
  | ⟨.run (.scope x s), k, w⟩ => .conf ⟨.run s, .ends x :: k, w⟩
  | ⟨.ret, [], w⟩ => .done false w
  | ⟨.ret, .next t :: k, w⟩ => .conf ⟨.run t, k, w⟩
  | ⟨.ret, .handler _ :: k, w⟩ => .conf ⟨.ret, k, w⟩
  | ⟨.ret, .ends x :: k, w⟩ => endScope D ρ x .ret k w
  | ⟨.unwind, [], w⟩ => .done true w
  | ⟨.unwind, .next _ :: k, w⟩ => .conf ⟨.unwind, k, w⟩
  | ⟨.unwind, .handler h :: k, w⟩ => .conf ⟨.run h, k, w⟩
  | ⟨.unwind, .ends x :: k, w⟩ => endScope D ρ x .unwind k w

/-- Up to `n` steps. (The language.) -/
def steps : Nat → Conf V → Next V
  | 0, c => .conf c
  | n + 1, c =>
    match step D ρ c with
    | .conf c' => steps n c'
    | r => r

/-- The machine at the beginning of a program. (The language.) -/
def Stm.start (s : Stm V) (w : World V) : Conf V := ⟨.run s, [], w⟩

end

end BVariant
