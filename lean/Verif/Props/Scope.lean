/-
C60 Exactly which variant types keep the never-empty guarantee.
-/
import Verif.Lemmas.Scope
import Verif.Props.Asserted

namespace BVariant

section
variable {V : Type} {C : Cfg V}

/-- The same variant type and build, where other operations throw. -/
def Cfg.withThrows (C : Cfg V) (f : Nat → Bool) : Cfg V := { C with throws := f }

/-- Specification: the run of the program ends, and no variable is empty then. -/
def EndsNonEmpty (C : Cfg V) (cs : List (Cmd V)) : Prop :=
  ∃ w, run C cs (World.init V) = some w ∧ ∀ x, w.vars x ≠ none → NonEmpty C w x

/-- F2 or F1: two types with which a heap backup is made. -/
theorem backup_program {k kr : TyIx} (hk : k < C.n) (hkr : kr < C.n) (hne : k ≠ kr) (hb : C.mayBackup kr)
    (hm : (C.tr k).nothrowMove = false) (v : V) :
    ∃ w, run (C.withThrows (· == 6)) [.constructC 0 k v, .constructC 1 kr v, .copyAssign 0 1] (World.init V) = some w ∧
      BackedUp (C.withThrows (· == 6)) w k kr ∧
      avoidsBackupReads (C.withThrows (· == 6)) [.constructC 0 k v, .constructC 1 kr v, .copyAssign 0 1] (World.init V) = true := by
  obtain ⟨w, hr, hp, -⟩ := prepared (C := C.withThrows (· == 6)) hk hkr
    (fun t ht => by simp only [Cfg.withThrows, beq_eq_false_iff_ne]; omega) v
  obtain ⟨e, w', hc, hw'⟩ := hp.backup hk hkr hne hb hm rfl rfl rfl
  refine ⟨w', ?_, hw', ?_⟩
  · rw [show ([.constructC 0 k v, .constructC 1 kr v, .copyAssign 0 1] : List (Cmd V)) =
      [.constructC 0 k v, .constructC 1 kr v] ++ [.copyAssign 0 1] from rfl, run_append, hr]
    simp only [Option.bind, run, Cmd.valid, hp.v0, hp.v1, Option.isSome_some, Bool.and_self, if_true, hc]
  · rw [show ([.constructC 0 k v, .constructC 1 kr v, .copyAssign 0 1] : List (Cmd V)) =
      [.constructC 0 k v, .constructC 1 kr v] ++ [.copyAssign 0 1] from rfl,
      avoids_append (by intro c hc w; simp at hc; rcases hc with rfl | rfl <;> rfl) hr]
    simp only [avoidsBackupReads, Cmd.valid, hp.v0, hp.v1, Option.isSome_some, Bool.and_self, if_true, hc, Cmd.readsBackup,
      World.backedUp]
    simp

theorem fallback_program {k kr fb : TyIx} (hk : k < C.n) (hkr : kr < C.n) (hne : k ≠ kr) (hfb : C.fallback = some fb)
    (hnb : ¬ (C.fallbackCtor = .element ∨ (C.tr fb).trivialDefault = true)) (hm : (C.tr kr).nothrowMove = false)
    (hc : (C.tr kr).nothrowCopy = false) (v : V) :
    ∃ w, run (C.withThrows (· == 4)) [.constructC 0 k v, .constructC 1 kr v, .copyAssign 0 1] (World.init V) = some w ∧
      w.vars (.user 0) = some ⟨(fb : Int), .raw⟩ ∧
      avoidsBackupReads (C.withThrows (· == 4)) [.constructC 0 k v, .constructC 1 kr v, .copyAssign 0 1] (World.init V) = true := by
  obtain ⟨w, hr, hp, -⟩ := prepared (C := C.withThrows (· == 4)) hk hkr
    (fun t ht => by simp only [Cfg.withThrows, beq_eq_false_iff_ne]; omega) v
  obtain ⟨e, w', hc, hw'⟩ := hp.fallback hk hkr hne hfb hnb hm hc rfl
  refine ⟨w', ?_, hw', ?_⟩
  · rw [show ([.constructC 0 k v, .constructC 1 kr v, .copyAssign 0 1] : List (Cmd V)) =
      [.constructC 0 k v, .constructC 1 kr v] ++ [.copyAssign 0 1] from rfl, run_append, hr]
    simp only [Option.bind, run, Cmd.valid, hp.v0, hp.v1, Option.isSome_some, Bool.and_self, if_true, hc]
  · rw [show ([.constructC 0 k v, .constructC 1 kr v, .copyAssign 0 1] : List (Cmd V)) =
      [.constructC 0 k v, .constructC 1 kr v] ++ [.copyAssign 0 1] from rfl,
      avoids_append (by intro c hc w; simp at hc; rcases hc with rfl | rfl <;> rfl) hr]
    simp only [avoidsBackupReads, Cmd.valid, hp.v0, hp.v1, Option.isSome_some, Bool.and_self, if_true, hc, Cmd.readsBackup,
      World.backedUp]
    simp

/-- Outside `Sane` a program of three statements, none of which is concerned by finding F1, ends with an empty variant. -/
theorem not_sane_program (hb : BlankOk C) (hs : ¬ Sane C) (v : V) :
    ∃ f cs, avoidsBackupReads (C.withThrows f) cs (World.init V) = true ∧
      ∃ w, run (C.withThrows f) cs (World.init V) = some w ∧ w.vars (.user 0) ≠ none ∧ ¬ NonEmpty (C.withThrows f) w (.user 0) := by
  by_cases hc : NoCopyOnly C
  · have hf : ¬ FallbackBuilt C := fun hf => hs ⟨hb, hc, hf⟩
    simp only [FallbackBuilt, Classical.not_forall, not_or, exists_prop, Bool.not_eq_true] at hf
    obtain ⟨fb, hfb, h1, h2, k, kr, hk, hkr, hne, h3, h4⟩ := hf
    obtain ⟨w, hr, hw, ha⟩ := fallback_program hk hkr hne hfb (by simp [h1, h2]) h3 h4 v
    refine ⟨_, _, ha, w, hr, by rw [hw]; exact Option.some_ne_none _, ?_⟩
    rintro ⟨s, id, k', v', hs, hid, -⟩
    rw [hw] at hs; cases hs; cases hid
  · simp only [NoCopyOnly, Classical.not_forall, exists_prop, Bool.not_eq_true] at hc
    obtain ⟨k, kr, hk, hkr, hbk, h1, h2⟩ := hc
    have hne : k ≠ kr := by rintro rfl; rw [hbk.2.2] at h1; cases h1
    obtain ⟨w, hr, hw, ha⟩ := backup_program hk hkr hne hbk h2 v
    refine ⟨_, _, ha, w, hr, by rw [hw.v0]; exact Option.some_ne_none _, ?_⟩
    rintro ⟨s, id, k', v', hs, hid, ho, -, -, hvis⟩
    rw [hw.v0] at hs; cases hs; cases hid
    obtain ⟨a, ho'⟩ := hw.o0
    rw [ho'] at ho; cases ho
    exact hw.not_nonEmpty hk h1 ⟨_, hvis Unit⟩

theorem Sane.withThrows (h : Sane C) (f : Nat → Bool) : Sane (C.withThrows f) := ⟨h.blank, h.copyMove, h.fallback⟩

/-- C60: the conditions of C01 on the variant type are needed. For a variant type and a build, these are equivalent: whatever
throws, every program that executes no statement concerned by finding F1 ends with no variant empty; and the type is
outside findings F2 and F10 (`Sane`). (`hb` is a fact on `boost/blank.hpp`; `v` is any value.) -/
theorem C60_conditions_are_needed (hb : BlankOk C) (v : V) :
    (∀ f cs, avoidsBackupReads (C.withThrows f) cs (World.init V) = true → EndsNonEmpty (C.withThrows f) cs) ↔ Sane C := by
  constructor
  · intro h
    apply Classical.byContradiction
    intro hs
    obtain ⟨f, cs, ha, w, hr, hx, hn⟩ := not_sane_program hb hs v
    obtain ⟨w', hr', h'⟩ := h f cs ha
    rw [hr] at hr'; cases hr'
    exact hn (h' _ hx)
  · intro hs f cs ha
    exact C01_never_empty_partial (hs.withThrows f) cs ha

/-- C60 with assertions on: whatever throws, every program ends with no variant empty or stops at the failed assertion of a
statement of finding F1, exactly if the type is outside findings F2 and F10. -/
theorem C60_conditions_are_needed_asserted (hb : BlankOk C) (hd : C.ndebug = false) (v : V) :
    (∀ f cs, EndsNonEmpty (C.withThrows f) cs ∨ StopsAtBackupRead (C.withThrows f) cs (World.init V)) ↔ Sane C := by
  constructor
  · intro h
    apply Classical.byContradiction
    intro hs
    obtain ⟨f, cs, ha, w, hr, hx, hn⟩ := not_sane_program hb hs v
    rcases h f cs with ⟨w', hr', h'⟩ | ⟨pre, c, post, w', rfl, h1, -, h2, -, h3⟩
    · rw [hr] at hr'; cases hr'
      exact hn (h' _ hx)
    · rw [run_append, h1] at hr
      simp only [Option.bind, run, h2, if_true, h3] at hr
      cases hr
  · intro hs f cs
    exact (C01_never_empty_asserted_partial (hs.withThrows f) hd cs).imp_right And.left

/-- C60: exactly which variant types keep the never-empty guarantee. For a variant type and a build, with assertions on or off,
these are equivalent: whatever throws, every program whatsoever ends with no variant empty; and no assignment can make a heap backup,
and the fallback object is built whenever it is to be. -/
theorem C60_never_empty_iff (hb : BlankOk C) (v : V) :
    (∀ f cs, EndsNonEmpty (C.withThrows f) cs) ↔ BackupFree C ∧ FallbackBuilt C := by
  constructor
  · intro h
    have hs : Sane C := (C60_conditions_are_needed hb v).mp fun f cs _ => h f cs
    refine ⟨fun k kr hk hkr hne hbr => ?_, hs.fallback⟩
    apply Classical.byContradiction
    intro hm
    have hm : (C.tr k).nothrowMove = false := by simpa using hm
    have hbk := hs.mayBackup hbr hk hkr hm
    obtain ⟨w, hr, hw, -⟩ := backup_program hk hkr hne hbr hm v
    obtain ⟨w', hr', h'⟩ := h (· == 6) ([.constructC 0 k v, .constructC 1 kr v, .copyAssign 0 1] ++ [.copyAssign 1 0])
    rw [run_append, hr] at hr'
    simp only [Option.bind, run, Cmd.valid, hw.v0, hw.v1, Option.isSome_some, Bool.and_self, if_true] at hr'
    cases hd : C.ndebug with
    | true =>
      obtain ⟨w2, hc, hv⟩ := hw.source (C := C.withThrows (· == 6)) hk hkr hbk hbr hd rfl rfl
      rw [hc] at hr'
      cases hr'
      obtain ⟨s, id, k', v', hs, hid, -⟩ := h' (.user 1) (by rw [hv]; exact Option.some_ne_none _)
      rw [hv] at hs; cases hs; cases hid
    | false =>
      obtain ⟨f, hc⟩ := hw.source_asserted (C := C.withThrows (· == 6)) hk hkr hbk hbr hd rfl rfl
      rw [hc] at hr'
      cases hr'
  · rintro ⟨h1, h2⟩ f cs
    exact C01_never_empty_single_storage_partial (C := C.withThrows f) hb h1 h2 cs

/-- C60: exactly which variant types need no second storage. For a variant type and a build these are equivalent: whatever throws, no
program makes the library allocate backup memory or puts a variant into the heap-backup state; and no bounded type that can fail
both to be copied and to be moved occurs together with another one that can fail to be moved, or there is a fallback type. So the conditions
of the single-storage guarantee (C18) are sufficient, but not necessary. -/
theorem C60_backups_iff (hb : BlankOk C) (v : V) :
    (∀ f cs w, run (C.withThrows f) cs (World.init V) = some w → w.allocs = 0 ∧ ∀ x s, w.vars x = some s → 0 ≤ s.which_) ↔
      BackupFree C := by
  constructor
  · intro h k kr hk hkr hne hbr
    apply Classical.byContradiction
    intro hm
    obtain ⟨w, hr, hw, -⟩ := backup_program hk hkr hne hbr (by simpa using hm) v
    have := (h _ _ w hr).1
    rw [hw.allocs] at this
    cases this
  · intro hss f cs w h
    cases hf : C.hasFallback with
    | true => exact run_quiet (C := C.withThrows f) hf cs _ _ allInPlace_init h
    | false =>
      have hn : FallbackBuilt (C.withThrows f) := by
        intro k hk
        have : C.fallback = some k := hk
        simp [Cfg.hasFallback, this] at hf
      have hs : Sane (C.withThrows f) := ⟨hb, BackupFree.copyMove (C := C.withThrows f) hss, hn⟩
      obtain ⟨w', hw, -, hi, ha⟩ := run_inPlace hs hss cs (World.init V) good_init allInPlace_init
      rw [h] at hw
      cases hw
      exact ⟨ha, hi⟩

end

/-! ### Examples -/

/-- Two types that are nothrow copyable but not nothrow movable, and one that is nothrow movable but not nothrow copyable: there is no
fallback type and none of the conditions of the single-storage guarantee holds, but no program needs a backup. -/
def exFree : Cfg Nat := exCfg [tCopyOnly, tCopyOnly, tMovable] []

theorem exFree_free : BackupFree exFree := by
  intro k kr hk hkr _ hb
  have : kr < 3 := hkr
  obtain ⟨-, h1, h2⟩ := hb
  have : kr = 0 ∨ kr = 1 ∨ kr = 2 := by omega
  rcases this with rfl | rfl | rfl
  · cases h2
  · cases h2
  · cases h1

theorem exFree_not_single : ¬ SingleStorage exFree := by
  rintro (h | h | h)
  · exact absurd h (by decide)
  · exact absurd (h 2 (by decide)) (by decide)
  · exact absurd (h 0 1 (by decide) (by decide) rfl rfl) (by decide)

example : ∀ f cs w, run (exFree.withThrows f) cs (World.init Nat) = some w → w.allocs = 0 ∧ ∀ x s, w.vars x = some s → 0 ≤ s.which_ :=
  (C60_backups_iff (by unfold BlankOk; decide) 0).mpr exFree_free

/-- A variant over three types keeps the guarantee, one over two types that throw does not. -/
example : ∀ f cs, EndsNonEmpty (exFree.withThrows f) cs :=
  (C60_never_empty_iff (by unfold BlankOk; decide) 0).mpr
    ⟨exFree_free, fun fb h => by rw [show exFree.fallback = none by decide] at h; cases h⟩

example : ¬ ∀ f cs, EndsNonEmpty (exTwo.withThrows f) cs := fun h =>
  absurd (((C60_never_empty_iff exTwo_sane.blank 0).mp h).1 0 1 (by decide) (by decide) (by decide) ⟨by decide, by decide, by decide⟩) (by decide)

/-- Outside F2 and F10 but not free of backups: the second and third theorem. -/
example := (C60_conditions_are_needed exTwo_sane.blank 0).mpr exTwo_sane

example := (C60_conditions_are_needed_asserted exTwo_sane.blank rfl 0).mpr exTwo_sane

/-- In F2: some program outside F1 empties a variant. -/
example : ¬ ∀ f cs, avoidsBackupReads ((exCfg [tCopyOnly, tThrowing] []).withThrows f) cs (World.init Nat) = true →
    EndsNonEmpty ((exCfg [tCopyOnly, tThrowing] []).withThrows f) cs := fun h =>
  absurd (((C60_conditions_are_needed (by unfold BlankOk; decide) 0).mp h).copyMove 0 1 (by decide) (by decide)
    ⟨by decide, by decide, by decide⟩ (by decide)) (by decide)

/-- A fallback type that must be constructed, but is never needed. -/
example : (exCfg [tString, tMovable] []).fallback = some 0 ∧ ((exCfg [tString, tMovable] []).tr 0).trivialDefault = false := by decide

example : FallbackBuilt (exCfg [tString, tMovable] []) := fun fb _ => .inr (.inr (by
  intro k kr hk hkr hne
  have : kr < 2 := hkr
  have : kr = 0 ∨ kr = 1 := by omega
  rcases this with rfl | rfl <;> decide))

end BVariant
