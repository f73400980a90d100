/-
Several threads that use variants of one type. The library (/repo/include/boost/variant/variant.hpp) has no code for threads and no objects of static
storage duration; what is modelled is a user's program whose statements (`Cmd`) are executed in some order by several threads.
Simplification: a statement is one step. Each thread has exceptions of its own: the operations of the elements are counted by thread.
-/
import Verif.Core.Program

namespace BVariant

section
variable {V : Type}

/-- The counters of operations and of allocations of a thread. (Device of the model.) -/
structure Counts where
  tick : Nat
  allocs : Nat
  deriving DecidableEq, Repr

/-- The variants with the counters of a thread. (Device of the model.) -/
def World.at (w : World V) (t : Counts) : World V := { w with tick := t.tick, allocs := t.allocs }

/-- The counters. (Device of the model.) -/
def World.counts (w : World V) : Counts := ⟨w.tick, w.allocs⟩

/-- The variant type in thread `i`: which operations throw is up to the thread. (The user's program.) -/
def Cfg.inThread (C : Cfg V) (throws : Nat → Nat → Bool) (i : Nat) : Cfg V := { C with throws := throws i }

/-- What the threads execute, in this order: each statement with its thread. As in `run`, exceptions are caught after each statement and statements that are
not valid are skipped. The result: the variants, the counters of the threads, and what each statement threw. `none`: some statement ended in a fault. (The
user's program; the library has no such code.) -/
def runThreads (C : Cfg V) (throws : Nat → Nat → Bool) : List (Nat × Cmd V) → World V → (Nat → Counts) →
    Option (World V × (Nat → Counts) × List (Nat × Option Exc))
  | [], w, t => some (w, t, [])
  | (i, c) :: p, w, t =>
    if c.valid (C.inThread throws i) w then
      match c.code (C.inThread throws i) (w.at (t i)) with
      | .ok _ w' => (runThreads C throws p w' (upd t i w'.counts)).map fun r => (r.1, r.2.1, (i, none) :: r.2.2)
      | .exc e w' => (runThreads C throws p w' (upd t i w'.counts)).map fun r => (r.1, r.2.1, (i, some e) :: r.2.2)
      | .fault _ => none
    else (runThreads C throws p w t).map fun r => (r.1, r.2.1, (i, none) :: r.2.2)

end

end BVariant
