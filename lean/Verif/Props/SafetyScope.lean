/-
C71 exactly which variant types are memory-safe, free of leaks, and behave as a plain tagged value.
-/
import Verif.Props.Guarantees
import Verif.Props.Broken

namespace BVariant

section
variable {V : Type} {C : Cfg V} {w w' : World V} {k kr : TyIx}

/-- Specification: the run of the program stops, at a statement that does not return or throw but fails so. -/
def StopsWith (C : Cfg V) (cs : List (Cmd V)) (flt : Fault) : Prop :=
  ∃ pre c post w, cs = pre ++ c :: post ∧ run C pre (World.init V) = some w ∧ c.valid C w = true ∧ c.code C w = .fault flt

/-- A run stops somewhere exactly if it has no final state. -/
theorem run_none_iff (cs : List (Cmd V)) : run C cs (World.init V) = none ↔ ∃ flt, StopsWith C cs flt := by
  suffices h : ∀ (cs : List (Cmd V)) (w : World V), run C cs w = none ↔
      ∃ flt pre c post w', cs = pre ++ c :: post ∧ run C pre w = some w' ∧ c.valid C w' = true ∧ c.code C w' = .fault flt from h cs _
  intro cs
  induction cs with
  | nil =>
    intro w
    refine ⟨fun h => (by simp [run] at h), ?_⟩
    rintro ⟨_, pre, c, post, _, h, _⟩
    simp at h
  | cons c cs ih =>
    intro w
    constructor
    · intro h
      simp only [run] at h
      split at h
      · rename_i hv
        split at h
        · rename_i hc
          obtain ⟨flt, pre, d, post, w2, rfl, h1, h2, h3⟩ := (ih _).mp h
          exact ⟨flt, c :: pre, d, post, w2, rfl, by simp [run, hv, hc, h1], h2, h3⟩
        · rename_i hc
          obtain ⟨flt, pre, d, post, w2, rfl, h1, h2, h3⟩ := (ih _).mp h
          exact ⟨flt, c :: pre, d, post, w2, rfl, by simp [run, hv, hc, h1], h2, h3⟩
        · rename_i flt hc
          exact ⟨flt, [], c, cs, w, rfl, rfl, hv, hc⟩
      · rename_i hv
        obtain ⟨flt, pre, d, post, w2, rfl, h1, h2, h3⟩ := (ih _).mp h
        exact ⟨flt, c :: pre, d, post, w2, rfl, by simp [run, hv, h1], h2, h3⟩
    · rintro ⟨flt, pre, d, post, w2, he, h1, h2, h3⟩
      rw [he, run_append, h1]
      simp only [Option.bind, run, h2, if_true, h3]

theorem fallback_lt {fb : TyIx} (h : C.fallback = some fb) : fb < C.n := by
  obtain ⟨j, m, -, -, -, -, -, he⟩ := findFallbackType_eq C.blankPred C.types
  rw [Cfg.fallback, he] at h
  simp only [Cfg.n]
  split at h
  · cases h; assumption
  · split at h
    · cases h; assumption
    · cases h

/-- Outside `Sane` a program of three statements, leaves a variant broken. -/
theorem not_sane_broken (hb : BlankOk C) (hs : ¬ Sane C) (v : V) :
    ∃ f cs w, run (C.withThrows f) cs (World.init V) = some w ∧ w.broken (C.withThrows f) (.user 0) := by
  by_cases hc : NoCopyOnly C
  · have hf : ¬ FallbackBuilt C := fun hf => hs ⟨hb, hc, hf⟩
    simp only [FallbackBuilt, Classical.not_forall, not_or, exists_prop, Bool.not_eq_true] at hf
    obtain ⟨fb, hfb, h1, h2, k, kr, hk, hkr, hne, h3, h4⟩ := hf
    obtain ⟨w, hr, hw, ha⟩ := fallback_program hk hkr hne hfb (by simp [h1, h2]) h3 h4 v
    exact ⟨_, _, w, hr, _, hw, .inPlace _ _ (fallback_lt hfb) (by simp)⟩
  · simp only [NoCopyOnly, Classical.not_forall, exists_prop, Bool.not_eq_true] at hc
    obtain ⟨k, kr, hk, hkr, hbk, h1, h2⟩ := hc
    have hne : k ≠ kr := by rintro rfl; rw [hbk.2.2] at h1; cases h1
    obtain ⟨w, hr, hw, ha⟩ := backup_program hk hkr hne hbk h2 v
    exact ⟨_, _, w, hr, _, hw.v0, .inBackup _ _ hk (by simp [Cfg.withThrows, Cfg.tr] at h1 ⊢; simp [h1]) (by simp)⟩

/-- Ending the life of a broken variant stops the program with undefined behaviour. -/
theorem broken_stops {cs : List (Cmd V)} (hr : run C cs (World.init V) = some w) (hx : w.broken C (.user x)) :
    StopsWith C (cs ++ [.destroy x]) .ub := by
  refine ⟨cs, .destroy x, [], w, rfl, hr, ?_, C63_destroy hx⟩
  obtain ⟨s, hs, -⟩ := hx
  simp [Cmd.valid, hs]

/-- C71, memory safety. For a variant type and a build, with assertions on or off, these are equivalent: whatever throws, every program
whatsoever runs to its end, without undefined behaviour, failed assertion or `std::terminate`; and no assignment can make a heap
backup, and the fallback object is built whenever it is to be. -/
theorem C71_safe_iff (hb : BlankOk C) (v : V) :
    (∀ f cs flt, ¬ StopsWith (C.withThrows f) cs flt) ↔ BackupFree C ∧ FallbackBuilt C := by
  constructor
  · intro h
    have hs : Sane C := by
      apply Classical.byContradiction
      intro hs
      obtain ⟨f, cs, w, hr, hx⟩ := not_sane_broken hb hs v
      exact h _ _ _ (broken_stops hr hx)
    refine ⟨fun k kr hk hkr hne hbr => ?_, hs.fallback⟩
    apply Classical.byContradiction
    intro hm
    have hm : (C.tr k).nothrowMove = false := by simpa using hm
    have hbk := hs.mayBackup hbr hk hkr hm
    obtain ⟨w, hr, hw, -⟩ := backup_program hk hkr hne hbr hm v
    have hv : (Cmd.copyAssign 1 0 : Cmd V).valid (C.withThrows (· == 6)) w = true := by simp [Cmd.valid, hw.v0, hw.v1]
    cases hd : C.ndebug with
    | true =>
      obtain ⟨w2, hc, hv2⟩ := hw.source (C := C.withThrows (· == 6)) hk hkr hbk hbr hd rfl rfl
      refine h (· == 6) _ _ (broken_stops (cs := [.constructC 0 k v, .constructC 1 kr v, .copyAssign 0 1] ++ [.copyAssign 1 0]) (w := w2) (x := 1) ?_
        (broken_of_holder hk hv2))
      rw [run_append, hr]
      simp only [Option.bind, run, hv, if_true, hc]
    | false =>
      obtain ⟨f, hc⟩ := hw.source_asserted (C := C.withThrows (· == 6)) hk hkr hbk hbr hd rfl rfl
      exact h _ _ f ⟨_, _, [], w, rfl, hr, hv, hc⟩
  · rintro ⟨h1, h2⟩ f cs flt h
    obtain ⟨w, hr, -⟩ := C01_never_empty_single_storage_partial (C := C.withThrows f) hb h1 h2 cs
    have := (run_none_iff cs).mpr ⟨flt, h⟩
    rw [hr] at this; cases this

/-- C71 with assertions on: whatever throws, no program has undefined behaviour or ends in `std::terminate` (it may stop at a failed
assertion), exactly if the type is outside findings F2 and F10. -/
theorem C71_safe_asserted_iff (hb : BlankOk C) (hd : C.ndebug = false) (v : V) :
    (∀ f cs flt, StopsWith (C.withThrows f) cs flt → flt = .assertFailed) ↔ Sane C := by
  constructor
  · intro h
    apply Classical.byContradiction
    intro hs
    obtain ⟨f, cs, w, hr, hx⟩ := not_sane_broken hb hs v
    cases h _ _ _ (broken_stops hr hx)
  · rintro hs f cs flt ⟨pre, c, post, w, rfl, hr, hv, hc⟩
    rcases run_asserted (hs.withThrows f) hd pre _ good_init with ⟨w', h1, hg⟩ | h1
    · rw [hr] at h1; cases h1
      rcases C14_returns_unless_thrown_asserted_partial (C := C.withThrows f) hb hd hg c hv with ⟨_, h, _⟩ | ⟨_, _, h, _⟩ | ⟨_, h⟩ <;> rw [hc] at h <;> cases h
      rfl
    · rw [h1.run_none] at hr; cases hr

/-- C71, leaks. For a variant type and a build these are equivalent: whatever throws, every program runs to its end, where the live objects
are exactly the contents of the live variants; and the conditions of `C71_safe_iff` hold. -/
theorem C71_leak_free_iff (hb : BlankOk C) (v : V) :
    (∀ f cs, ∃ w, run (C.withThrows f) cs (World.init V) = some w ∧ Owned w) ↔ BackupFree C ∧ FallbackBuilt C := by
  constructor
  · refine fun h => (C71_safe_iff hb v).mp fun f cs flt hs => ?_
    obtain ⟨w, hr, -⟩ := h f cs
    have := (run_none_iff cs).mpr ⟨flt, hs⟩
    rw [hr] at this; cases this
  · rintro ⟨h1, h2⟩ f cs
    have hs : Sane C := ⟨hb, h1.copyMove, h2⟩
    obtain ⟨w, hr, hg, -⟩ := run_inPlace (hs.withThrows f) (C := C.withThrows f) h1 cs (World.init V) good_init allInPlace_init
    exact ⟨w, hr, hg.owned⟩

/-- C71, refinement. For a variant type and a build these are equivalent: whatever throws, every program runs to its end and its variables evolve
as in a run over a plain store of (type, value) pairs in which the same statements fail; and the conditions of
`C71_safe_iff` hold. -/
theorem C71_refines_iff (hb : BlankOk C) (hl : C.ops.Lawful) (v : V) :
    (∀ f cs, ∃ w, run (C.withThrows f) cs (World.init V) = some w ∧
      StoreRun (C.withThrows f) cs (fun _ => none) (fates (C.withThrows f) cs (World.init V)) (fun x => w.content (.user x))) ↔
        BackupFree C ∧ FallbackBuilt C := by
  constructor
  · refine fun h => (C71_safe_iff hb v).mp fun f cs flt hs => ?_
    obtain ⟨w, hr, -⟩ := h f cs
    have := (run_none_iff cs).mpr ⟨flt, hs⟩
    rw [hr] at this; cases this
  · rintro ⟨h1, h2⟩ f cs
    exact C44_refinement_single_storage_partial (C := C.withThrows f) hl hb h1 h2 cs

end

/-! ### Examples

Two types that throw (`exTwo`): some program fails an assertion, or with assertions off has undefined behaviour. With `int` in front of them,
which becomes the fallback type, (`exFall`) no program does, and the variables behave as plain tagged values. -/

example : ¬ ∀ f cs flt, ¬ StopsWith (exTwo.withThrows f) cs flt := fun h =>
  absurd (((C71_safe_iff exTwo_sane.blank 0).mp h).1 0 1 (by decide) (by decide) (by decide) ⟨by decide, by decide, by decide⟩) (by decide)

example : ∀ f cs flt, StopsWith (exTwo.withThrows f) cs flt → flt = .assertFailed := (C71_safe_asserted_iff exTwo_sane.blank rfl 0).mpr exTwo_sane

theorem exFall_backupFree : BackupFree exFall := fun _ _ _ _ _ hb => absurd hb.1 (by decide)

example : ∀ f cs flt, ¬ StopsWith (exFall.withThrows f) cs flt := (C71_safe_iff exFall_sane.blank 0).mpr ⟨exFall_backupFree, exFall_sane.fallback⟩

example := (C71_leak_free_iff exFall_sane.blank 0).mpr ⟨exFall_backupFree, exFall_sane.fallback⟩

example := (C71_refines_iff exFall_sane.blank natOps_lawful 0).mpr ⟨exFall_backupFree, exFall_sane.fallback⟩

end BVariant
