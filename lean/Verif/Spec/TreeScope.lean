/-
Specification for C80: for which types programs on recursive variants are safe.
-/
import Verif.Spec.ExactTree

namespace BVariant

section
variable {V : Type}

/-- The types are such that no assignment ever leaves a content in a heap backup: there is a fallback type; or of any two types, with
the first as the left content, the left one can be moved or the right one copied or moved without failing. -/
def TreeCfg.NeverBacksUp (C : TreeCfg V) : Prop :=
  C.fallback ≠ none ∨ ∀ k0 k1, k0 ≠ k1 → C.nothrowMove k0 = true ∨ C.nothrowCopy k1 = true ∨ C.nothrowMove k1 = true

/-- Neither side of the statement is a part of the other. -/
def TCmd.Disjoint : TCmd V → Prop
  | .assign x t | .moveAssign x t | .swap x t _ => x.inside t = false ∧ t.inside x = false
  | _ => True

/-- The same types, with other operations failing. -/
def TreeCfg.failing (C : TreeCfg V) (throws : Nat → Bool) : TreeCfg V := { C with throws := throws }

/-- No program in which no side of a statement is a part of the other has undefined behaviour or fails an assertion, whichever
operations fail, on any stack that is deep enough. -/
def TreesSafe (C : TreeCfg V) : Prop :=
  ∀ (throws : Nat → Bool) (cs : List (TCmd V)) (n : Nat), (∀ c ∈ cs, c.Disjoint) → 2 ^ cs.length ≤ n →
    tRun (C.failing throws) n cs (TreeSt.init V) ≠ none

/-- After any program of supported statements, whichever operations fail: if a variant with content of type `k` is assigned (or
move-assigned: `f` is the statement) a part of that content that has type `k'` there is no undefined behaviour. -/
def OwnPartSafe (C : TreeCfg V) (f : TPlace → TPlace → TCmd V) (k k' : TyIx) : Prop :=
  ∀ (throws : Nat → Bool) (cs : List (TCmd V)) (n : Nat) (s : TreeSt V) (x t : TPlace) (c c' : TContent V) (e : Fault), 2 ^ cs.length ≤ n →
    tClean (C.failing throws) n cs (TreeSt.init V) = true → tRun (C.failing throws) n cs (TreeSt.init V) = some s → t.inside x = true →
    x.variant s = some (.plain k c) → t.variant s = some (.plain k' c') → (f x t).code (C.failing throws) n s ≠ .fault e

end

end BVariant
