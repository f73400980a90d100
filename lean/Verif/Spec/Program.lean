/-
Specification vocabulary for theorems about programs.
-/
import Verif.Core.Program
import Verif.Spec.Invariant

namespace BVariant

section
variable {V : Type} (C : Cfg V)

/-- The raw record of variable `x` says that its content is in a heap backup. -/
def World.backedUp (w : World V) (x : Nat) : Bool :=
  match w.vars (.user x) with
  | some s => decide (s.which_ < 0)
  | none => false

/-- The raw records (`which_`) of two variables differ. -/
def World.recordsDiffer (w : World V) (x y : Nat) : Bool :=
  match w.vars (.user x), w.vars (.user y) with
  | some s, some t => decide (s.which_ ≠ t.which_)
  | _, _ => false

/-- The types held by two variables differ. -/
def World.typesDiffer (w : World V) (x y : Nat) : Bool :=
  match w.content (.user x), w.content (.user y) with
  | some p, some q => decide (p.1 ≠ q.1)
  | _, _ => false

/-- The statements concerned by finding F1: assignment from a variant in the heap-backup state to one with
another record, and swap of differently typed variants whose left operand is in the heap-backup state. -/
def Cmd.readsBackup (w : World V) : Cmd V → Bool
  | .copyAssign x y | .moveAssign x y => w.backedUp y && w.recordsDiffer x y
  | .swap x y => w.backedUp x && w.typesDiffer x y
  | _ => false

/-- The run of a program from `w` executes no statement concerned by finding F1. -/
def avoidsBackupReads : List (Cmd V) → World V → Bool
  | [], _ => true
  | c :: cs, w =>
    if c.valid C w then
      !c.readsBackup w &&
        match c.code C w with
        | .ok _ w' => avoidsBackupReads cs w'
        | .exc _ w' => avoidsBackupReads cs w'
        | .fault _ => true
    else avoidsBackupReads cs w

/-- The states between statements: well-formed, and no temporary of the library is alive. -/
structure Good (w : World V) : Prop where
  wf : WF C w
  noTmp : ∀ n, w.vars (.tmp n) = none

/-- The run of a program from `w` reaches, in a good state, a statement of finding F1, and that statement stops at a
failed assertion. -/
def StopsAtBackupRead (cs : List (Cmd V)) (w : World V) : Prop :=
  ∃ pre c post w', cs = pre ++ c :: post ∧ run C pre w = some w' ∧ Good C w' ∧ c.valid C w' = true ∧
    c.readsBackup w' = true ∧ c.code C w' = .fault .assertFailed

/-- Variant `y` is exactly as it was: same storage state, same object, same value. -/
def Unchanged (w w' : World V) (y : VarId) : Prop :=
  w'.vars y = w.vars y ∧ ∀ s id, w.vars y = some s → s.contentId = some id → w'.objs id = w.objs id

/-- All variants not named by the statement are exactly as they were. -/
def OthersKept (c : Cmd V) (w w' : World V) : Prop := ∀ z, z ∉ c.names → Unchanged w w' (.user z)

/-- `e` was thrown by an operation performed between `w` and `w'`. -/
def Thrown (w w' : World V) (e : Exc) : Prop :=
  w.tick ≤ e.tick ∧ e.tick < w'.tick ∧ C.throws e.tick = true

/-- No live variant is in the heap-backup state. -/
def AllInPlace (w : World V) : Prop := ∀ x s, w.vars x = some s → 0 ≤ s.which_

/-- The conditions of the single-storage guarantee: there is a fallback type, or every bounded type is nothrow
copy constructible, or at most one bounded type is not nothrow move constructible. -/
def SingleStorage : Prop :=
  C.hasFallback = true ∨ (∀ k, k < C.n → (C.tr k).nothrowCopy = true) ∨
    (∀ i j, i < C.n → j < C.n → (C.tr i).nothrowMove = false → (C.tr j).nothrowMove = false → i = j)

/-- No assignment can make a heap backup: if content of some bounded type is assigned by the heap-backup strategy, every
other bounded type is nothrow move constructible. (Implied by the conditions of the single-storage guarantee, and exact, see
`C60_backups_iff`.) -/
def BackupFree : Prop :=
  ∀ k kr, k < C.n → kr < C.n → k ≠ kr → C.mayBackup kr → (C.tr k).nothrowMove = true

end

end BVariant
