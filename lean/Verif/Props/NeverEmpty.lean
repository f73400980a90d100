/-
C01 never-empty guarantee, C13 ownership, C14 provenance of failures, C18 single-storage guarantee:
properties of every program.
-/
import Verif.Lemmas.InPlace
import Verif.Lemmas.Quiet
import Verif.Spec.Examples

namespace BVariant

section
variable {V : Type} (C : Cfg V)

/-- Specification: variant `x` is not empty. It owns an object, which is alive and has a bounded type `k`;
`which()` returns `k`; and visiting `x` is calling the visitor with that object at type `k`. -/
def NonEmpty (w : World V) (x : VarId) : Prop :=
  ∃ s id k v, w.vars x = some s ∧ s.contentId = some id ∧ w.objs id = some (k, v) ∧ k < C.n ∧
    which x w = .ok (k : Int) w ∧
    ∀ (α : Type) (f : TyIx → ObjId → M V α), applyVisitor C x f w = f k id w

/-- Specification: the live objects are exactly the contents of the live variants, and no two variants share
one. -/
def Owned (w : World V) : Prop :=
  (∀ id, w.objs id ≠ none ↔ ∃ x s, w.vars x = some s ∧ s.contentId = some id) ∧
  (∀ x y sx sy id, w.vars x = some sx → w.vars y = some sy → sx.contentId = some id → sy.contentId = some id →
    x = y)

variable {C}

theorem Good.nonEmpty {w : World V} (h : Good C w) {x : VarId} (hx : w.vars x ≠ none) : NonEmpty C w x := by
  cases hs : w.vars x with
  | none => exact absurd hs hx
  | some s =>
    obtain ⟨id, k, v, hr, ho⟩ := h.wf.rep x s hs
    refine ⟨s, id, k, v, hs, hr.contentId, ho, hr.lt, ?_, fun α f => applyVisitor_eq C f hs hr ho⟩
    simp only [which, bind, M.bind, getVar, hs, hr.which]
    rfl

theorem Good.owned {w : World V} (h : Good C w) : Owned w := by
  refine ⟨fun id => ⟨h.wf.noLeak id, ?_⟩, h.wf.inj⟩
  rintro ⟨x, s, hs, hc⟩
  obtain ⟨id', k, v, hr, ho⟩ := h.wf.rep x s hs
  have := hr.contentId
  rw [hc] at this
  cases this
  rw [ho]
  exact Option.some_ne_none _

/-! ### C01 -/

/-- C01, for configurations outside findings F2 and F10 and programs that do not execute an F1 statement.
Missing for the full claim: it is false, see the three counterexamples below. -/
theorem C01_never_empty_partial (hs : Sane C) (cs : List (Cmd V))
    (ha : avoidsBackupReads C cs (World.init V) = true) :
    ∃ w, run C cs (World.init V) = some w ∧ ∀ x, w.vars x ≠ none → NonEmpty C w x := by
  obtain ⟨w, hw, hg⟩ := run_good hs cs (World.init V) good_init ha
  exact ⟨w, hw, fun x hx => hg.nonEmpty hx⟩

/-- C01 for variants without heap backups, in particular those with the single-storage guarantee: every program whatsoever. -/
theorem C01_never_empty_single_storage_partial (hb : ∀ t ∈ C.types, t.isBlank = true → t.nothrowDefault = true)
    (hss : BackupFree C) (hf : FallbackBuilt C)
    (cs : List (Cmd V)) :
    ∃ w, run C cs (World.init V) = some w ∧ ∀ x, w.vars x ≠ none → NonEmpty C w x := by
  have hs : Sane C := ⟨hb, hss.copyMove, hf⟩
  obtain ⟨w, hw, hg, -⟩ := run_inPlace hs hss cs (World.init V) good_init allInPlace_init
  exact ⟨w, hw, fun x hx => hg.nonEmpty hx⟩

/-! ### C13 -/

/-- C13 (scope as in C01): no leak, no sharing, no dangling content. That no object is destroyed twice or used
after its destruction is part of `run ... = some w`: both are faults in the model. -/
theorem C13_ownership_partial (hs : Sane C) (cs : List (Cmd V))
    (ha : avoidsBackupReads C cs (World.init V) = true) :
    ∃ w, run C cs (World.init V) = some w ∧ Owned w ∧
      ((∀ x, w.vars (.user x) = none) → ∀ id, w.objs id = none) := by
  obtain ⟨w, hw, hg⟩ := run_good hs cs (World.init V) good_init ha
  refine ⟨w, hw, hg.owned, fun hall id => ?_⟩
  cases ho : w.objs id with
  | none => rfl
  | some p =>
    obtain ⟨x, s, hx, -⟩ := hg.wf.noLeak id (by rw [ho]; exact Option.some_ne_none _)
    cases x with
    | user n => rw [hall] at hx; cases hx
    | tmp n => rw [hg.noTmp] at hx; cases hx

/-! ### C14 -/

/-- C14, first half: whatever the state, an exception leaving a statement was thrown by an element operation that is not declared
nothrow, or by an allocation, performed by that statement. -/
theorem C14_exceptions_come_from_elements (C : Cfg V) (c : Cmd V) (w w' : World V) (e : Exc)
    (h : c.code C w = .exc e w') : Thrown C w w' e ∧ e.kind.ofElement C := by
  have := Honest.code (C := C) c w
  rw [h] at this
  exact this

/-- C14, second half: from any state between statements and in any configuration, the statement returns normally
unless one of the operations it performed threw. (`hs` is a fact on `boost/blank.hpp`.) Missing for the full
claim: the statements of finding F1, where an assertion fails although nothing threw. -/
theorem C14_returns_unless_thrown_partial (hs : BlankOk C) {w : World V} (hg : Good C w) (c : Cmd V)
    (hv : c.valid C w = true) (hz : c.readsBackup w = false) :
    (∃ w', c.code C w = .ok () w') ∨
    (∃ e w', c.code C w = .exc e w' ∧ ∃ t, w.tick ≤ t ∧ t < w'.tick ∧ C.throws t = true) := by
  have h := wp_step_gen hs hg c hv hz
  unfold wp at h
  cases hc : c.code C w with
  | ok u w' => exact Or.inl ⟨w', rfl⟩
  | exc e w' => rw [hc] at h; exact Or.inr ⟨e, w', rfl, e.tick, h.2.2.1⟩
  | fault f => rw [hc] at h; exact h.elim

/-! ### C18 -/

theorem run_quiet (hf : C.hasFallback = true) : ∀ (cs : List (Cmd V)) (w w' : World V), AllInPlace w →
    run C cs w = some w' → w'.allocs = w.allocs ∧ AllInPlace w'
  | [], w, w', h0, h => by simp only [run] at h; cases h; exact ⟨rfl, h0⟩
  | c :: cs, w, w', h0, h => by
    simp only [run] at h
    split at h
    · have h1 := Quiet.code hf c w h0
      cases hc : c.code C w with
      | ok u w1 =>
        rw [hc] at h h1
        have := run_quiet hf cs w1 w' h1.2 h
        exact ⟨this.1.trans h1.1, this.2⟩
      | exc e w1 =>
        rw [hc] at h h1
        have := run_quiet hf cs w1 w' h1.2 h
        exact ⟨this.1.trans h1.1, this.2⟩
      | fault f => rw [hc] at h; cases h
    · exact run_quiet hf cs w w' h0 h

/-- C18: under any of the three conditions, at no point of any program has the library allocated backup memory,
and no variant is in the heap-backup state. (`hb` is a fact on `boost/blank.hpp`.) -/
theorem C18_single_storage (hb : ∀ t ∈ C.types, t.isBlank = true → t.nothrowDefault = true)
    (hss : SingleStorage C) (cs : List (Cmd V)) (w : World V) (h : run C cs (World.init V) = some w) :
    w.allocs = 0 ∧ ∀ x s, w.vars x = some s → 0 ≤ s.which_ := by
  cases hf : C.hasFallback with
  | true => exact run_quiet hf cs _ _ allInPlace_init h
  | false =>
    have hn : FallbackBuilt C := by
      intro k hk; simp [Cfg.hasFallback, hk] at hf
    have hss := hss.backupFree
    have hs : Sane C := ⟨hb, hss.copyMove, hn⟩
    obtain ⟨w', hw, -, hi, ha⟩ := run_inPlace hs hss cs (World.init V) good_init allInPlace_init
    rw [h] at hw
    cases hw
    exact ⟨ha, hi⟩

/-- C18 with termination: outside finding F10 no such program ends in a fault. -/
theorem C18_single_storage_no_fault (hb : ∀ t ∈ C.types, t.isBlank = true → t.nothrowDefault = true)
    (hss : SingleStorage C) (hf : FallbackBuilt C)
    (cs : List (Cmd V)) : ∃ w, run C cs (World.init V) = some w ∧ w.allocs = 0 := by
  have hss := hss.backupFree
  have hs : Sane C := ⟨hb, hss.copyMove, hf⟩
  obtain ⟨w, hw, -, -, ha⟩ := run_inPlace hs hss cs (World.init V) good_init allInPlace_init
  exact ⟨w, hw, ha⟩

end

/-! ### Non-vacuity -/

/-- Two types that throw when copied or moved. The 7th potentially throwing operation throws. -/
def exTwo : Cfg Nat := exCfg [tThrowing, tThrowing] [6]

/-- `x = T0; y = T1; x = y` where the copy of `y`'s content throws: `x` is put into the heap backup. Then `x`
is copied, assigned a value of the other type, swapped and destroyed. -/
def exProg : List (Cmd Nat) :=
  [.constructC 0 0 5, .constructC 1 1 7, .copyAssign 0 1, .copyConstruct 2 0, .assignC 2 1 3, .swap 1 2,
   .assignC 0 1 9, .destroy 1]

theorem exTwo_sane : Sane exTwo where
  blank := by unfold BlankOk; decide
  copyMove := by
    intro k kr hk hkr hm hc
    have : k = 0 ∨ k = 1 := by simp only [exTwo, exCfg, Cfg.n, List.length] at hk; omega
    rcases this with rfl | rfl <;> simp [exTwo, exCfg, Cfg.tr, tThrowing] at hc
  fallback := by
    intro k h
    have : exTwo.fallback = none := by decide
    rw [this] at h; cases h

/-- The hypotheses of C01, C13 are met by a program that goes through a heap backup. -/
example : avoidsBackupReads exTwo exProg (World.init Nat) = true ∧
    backedUpAfter exTwo (exProg.take 3) 0 = true ∧ contentAfter exTwo (exProg.take 3) 0 = some (0, 5) ∧
    contentAfter exTwo exProg 0 = some (1, 9) := by decide +kernel

/-- The hypotheses of the single-storage theorems are met through each of the three conditions. -/
example : SingleStorage (exCfg [tString, tInt] []) := Or.inl (by decide)

example : SingleStorage (exCfg [tCopyOnly, tCopyOnly] []) := by
  refine Or.inr (Or.inl ?_)
  intro k hk
  have : k = 0 ∨ k = 1 := by simp only [exCfg, Cfg.n, List.length] at hk; omega
  rcases this with rfl | rfl <;> rfl

example : SingleStorage (exCfg [tThrowing, tMovable] []) := by
  refine Or.inr (Or.inr ?_)
  intro i j hi hj h1 h2
  have hi' : i = 0 ∨ i = 1 := by simp only [exCfg, Cfg.n, List.length] at hi; omega
  have hj' : j = 0 ∨ j = 1 := by simp only [exCfg, Cfg.n, List.length] at hj; omega
  rcases hi' with rfl | rfl <;> rcases hj' with rfl | rfl <;>
    simp_all [exCfg, Cfg.tr, tThrowing, tMovable]

/-- C01 and C13 for that program. -/
example : ∃ w, run exTwo exProg (World.init Nat) = some w ∧ (∀ x, w.vars x ≠ none → NonEmpty exTwo w x) ∧ Owned w := by
  obtain ⟨w, hw, h⟩ := C01_never_empty_partial exTwo_sane exProg (by decide +kernel)
  obtain ⟨w', hw', h', -⟩ := C13_ownership_partial exTwo_sane exProg (by decide +kernel)
  rw [hw] at hw'
  cases hw'
  exact ⟨w, hw, h, h'⟩

/-- C01 and C18 for `variant<Throwing, int>`, in which the assignment of the throwing type fails and leaves an `int`. -/
example : ∃ w, run (exCfg [tThrowing, tThrowing, tInt] [4]) exProg (World.init Nat) = some w ∧
    (∀ x, w.vars x ≠ none → NonEmpty (exCfg [tThrowing, tThrowing, tInt] [4]) w x) ∧ w.allocs = 0 ∧
    contentAfter (exCfg [tThrowing, tThrowing, tInt] [4]) (exProg.take 3) 0 = some (2, 999) := by
  have hss : SingleStorage (exCfg [tThrowing, tThrowing, tInt] [4]) := Or.inl (by decide)
  have hb : ∀ t ∈ (exCfg [tThrowing, tThrowing, tInt] [4]).types, t.isBlank = true → t.nothrowDefault = true := by decide
  obtain ⟨w, hw, h⟩ := C01_never_empty_single_storage_partial hb hss.backupFree (by
    intro k hk
    have : (exCfg [tThrowing, tThrowing, tInt] [4]).fallback = some 2 := by decide
    rw [this] at hk; cases hk; exact .inr (.inl (by decide))) exProg
  exact ⟨w, hw, h, (C18_single_storage hb hss exProg w hw).1, by decide +kernel⟩

/-- C14: the assignment that throws in that program, and one that does not. -/
example : ∀ e w', (Cmd.copyAssign 0 1).code exTwo (stateAfter exTwo (exProg.take 2)) = .exc e w' →
    Thrown exTwo (stateAfter exTwo (exProg.take 2)) w' e :=
  fun _ _ h => (C14_exceptions_come_from_elements _ _ _ _ _ h).1

example : thrownBy exTwo (exProg.take 2) (.copyAssign 0 1) = some (.copyCtor 1) := by decide +kernel

/-! ### Counterexamples to the unrestricted C01 (findings F1, F2, F10) -/

/-- F1: assigning from a variant in the heap-backup state. Assertions on: the assertion in the copy constructor
of `backup_holder` fires although nothing throws. -/
theorem C01_counterexample_backup_source :
    faults exTwo [.constructC 0 0 5, .constructC 1 1 7, .copyAssign 0 1, .constructC 2 1 3, .copyAssign 2 0]
      = true := by decide +kernel

/-- F1 with assertions off: the assignment succeeds, but leaves the target with a null backup pointer recorded
as an in-place object; the next visit is undefined. -/
theorem C01_counterexample_backup_source_ndebug :
    faults { exTwo with ndebug := true }
      [.constructC 0 0 5, .constructC 1 1 7, .copyAssign 0 1, .constructC 2 1 3, .copyAssign 2 0] = false ∧
    faults { exTwo with ndebug := true }
      [.constructC 0 0 5, .constructC 1 1 7, .copyAssign 0 1, .constructC 2 1 3, .copyAssign 2 0, .mutate 2 8]
      = true := by decide +kernel

/-- F1 through swap. -/
theorem C01_counterexample_backup_swap :
    faults exTwo [.constructC 0 0 5, .constructC 1 1 7, .copyAssign 0 1, .constructC 2 1 3, .swap 0 2]
      = true := by decide +kernel

/-- F2: content of a type that is nothrow copyable but not nothrow movable is put into a heap backup, but
visitation assumes it never is. -/
theorem C01_counterexample_copy_only :
    faults (exCfg [tCopyOnly, tThrowing] [6])
      [.constructC 0 0 5, .constructC 1 1 7, .copyAssign 0 1] = false ∧
    faults (exCfg [tCopyOnly, tThrowing] [6])
      [.constructC 0 0 5, .constructC 1 1 7, .copyAssign 0 1, .mutate 0 8] = true := by decide +kernel

/-- F10: after a failed assignment with a fallback type that is not trivially default constructible, the
storage holds no object of that type. -/
theorem C01_counterexample_fallback_ctor :
    faults (exCfg [tString, tThrowing] [4])
      [.constructC 0 0 5, .constructC 1 1 7, .copyAssign 0 1] = false ∧
    faults (exCfg [tString, tThrowing] [4])
      [.constructC 0 0 5, .constructC 1 1 7, .copyAssign 0 1, .mutate 0 8] = true := by decide +kernel

/-! ### Instances -/

/-- C18: `variant<Throwing, int>` never allocates, whatever throws. -/
example : ∃ w, run (exCfg [tThrowing, tInt] [6]) exProg (World.init Nat) = some w ∧ w.allocs = 0 :=
  C18_single_storage_no_fault (by decide) (.inl (by decide)) (fun k h => by
    have : (exCfg [tThrowing, tInt] [6]).fallback = some 1 := by decide
    rw [this] at h; cases h
    exact .inr (.inl (by decide))) exProg

end BVariant
