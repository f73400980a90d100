/-
Several threads that use recursive variants of one type: the statements of Core/Tree.lean executed by several threads, as in Core/Threads.lean. The library
(/repo/include/boost/variant/variant.hpp, /repo/include/boost/variant/recursive_wrapper.hpp) has no code for threads; what is modelled is a user's program.
Simplification: a statement is one step. Each thread has exceptions of its own.
-/
import Verif.Core.Threads
import Verif.Core.Tree

namespace BVariant

section
variable {V : Type}

/-- The variants with the counters of a thread. (Device of the model.) -/
def TreeSt.at (s : TreeSt V) (t : Counts) : TreeSt V := { s with tick := t.tick, allocs := t.allocs }

/-- The counters. (Device of the model.) -/
def TreeSt.counts (s : TreeSt V) : Counts := ⟨s.tick, s.allocs⟩

/-- The variant type in thread `i`: which operations throw is up to the thread. (The user's program.) -/
def TreeCfg.inThread (C : TreeCfg V) (throws : Nat → Nat → Bool) (i : Nat) : TreeCfg V := { C with throws := throws i }

/-- What the threads execute, in this order, each on a stack of depth `n`. As in `tRun`, exceptions are caught after each statement and statements that are not
valid are skipped. The result: the variants, the counters of the threads, and what each statement threw. `none`: some statement ended in a fault. (The user's
program; the library has no such code.) -/
def tRunThreads (C : TreeCfg V) (throws : Nat → Nat → Bool) (n : Nat) : List (Nat × TCmd V) → TreeSt V → (Nat → Counts) →
    Option (TreeSt V × (Nat → Counts) × List (Nat × Option Exc))
  | [], s, t => some (s, t, [])
  | (i, c) :: p, s, t =>
    if c.valid (C.inThread throws i) s then
      match c.code (C.inThread throws i) n (s.at (t i)) with
      | .ok _ s' => (tRunThreads C throws n p s' (upd t i s'.counts)).map fun r => (r.1, r.2.1, (i, none) :: r.2.2)
      | .exc e s' => (tRunThreads C throws n p s' (upd t i s'.counts)).map fun r => (r.1, r.2.1, (i, some e) :: r.2.2)
      | .fault _ => none
    else (tRunThreads C throws n p s t).map fun r => (r.1, r.2.1, (i, none) :: r.2.2)

end

end BVariant
