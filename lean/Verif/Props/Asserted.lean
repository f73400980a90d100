/-
C01, C13, C14 and C44 with assertions on, for all programs: finding F1 then never corrupts a variant. A program either
runs to its end with the claims true, or stops at the failed assertion of a statement of F1.
-/
import Verif.Lemmas.HazardStep
import Verif.Props.Refinement

namespace BVariant

section
variable {V : Type} {C : Cfg V} {w w' : World V}

theorem Owned.noLeak (hg : Good C w) (hall : ∀ x, w.vars (.user x) = none) (id : ObjId) : w.objs id = none := by
  cases ho : w.objs id with
  | none => rfl
  | some p =>
    obtain ⟨x, s, hx, -⟩ := hg.wf.noLeak id (by rw [ho]; exact Option.some_ne_none _)
    cases x with
    | user n => rw [hall] at hx; cases hx
    | tmp n => rw [hg.noTmp] at hx; cases hx

/-- A program that stops at a statement of finding F1 has no final state. -/
theorem StopsAtBackupRead.run_none {cs : List (Cmd V)} (h : StopsAtBackupRead C cs w) : run C cs w = none := by
  obtain ⟨pre, c, post, w1, rfl, h1, -, hv, -, hc⟩ := h
  induction pre generalizing w with
  | nil => cases h1; simp [run, hv, hc]
  | cons d pre ih =>
    simp only [List.cons_append, run] at h1 ⊢
    cases hd : d.valid C w with
    | false => simp only [hd, Bool.false_eq_true, if_false] at h1 ⊢; exact ih h1
    | true =>
      simp only [hd, if_true] at h1 ⊢
      cases hm : d.code C w with
      | ok _ _ => simp only [hm] at h1 ⊢; exact ih h1
      | exc _ _ => simp only [hm] at h1 ⊢; exact ih h1
      | fault _ => rfl

/-- C01 with assertions on, for every program: it ends with no variant empty, or it stops at the failed assertion of a
statement of finding F1, reached in a state in which no variant is empty either.
Missing for the full claim: findings F2 and F10 (`Sane`), and that the statements of F1 work. -/
theorem C01_never_empty_asserted_partial (hs : Sane C) (hd : C.ndebug = false) (cs : List (Cmd V)) :
    (∃ w, run C cs (World.init V) = some w ∧ ∀ x, w.vars x ≠ none → NonEmpty C w x) ∨
      (StopsAtBackupRead C cs (World.init V) ∧ run C cs (World.init V) = none) := by
  rcases run_asserted hs hd cs _ good_init with ⟨w, h, hg⟩ | h
  · exact Or.inl ⟨w, h, fun x hx => hg.nonEmpty hx⟩
  · exact Or.inr ⟨h, h.run_none⟩

/-- C13 with assertions on, for every program (scope as above). -/
theorem C13_ownership_asserted_partial (hs : Sane C) (hd : C.ndebug = false) (cs : List (Cmd V)) :
    (∃ w, run C cs (World.init V) = some w ∧ Owned w ∧
      ((∀ x, w.vars (.user x) = none) → ∀ id, w.objs id = none)) ∨
      (StopsAtBackupRead C cs (World.init V) ∧ run C cs (World.init V) = none) := by
  rcases run_asserted hs hd cs _ good_init with ⟨w, h, hg⟩ | h
  · exact Or.inl ⟨w, h, hg.owned, fun hall => Owned.noLeak hg hall⟩
  · exact Or.inr ⟨h, h.run_none⟩

/-- C14 with assertions on: from any state between statements, in any configuration, a statement returns, or throws
because one of the operations it performed threw, or it is a statement of finding F1 and stops at the failed assertion.
In particular no execution ends in `std::terminate` or in undefined behaviour of the library.
Missing for the full claim: that the statements of F1 return when nothing throws, which is false. -/
theorem C14_returns_unless_thrown_asserted_partial (hb : BlankOk C) (hd : C.ndebug = false) (hg : Good C w)
    (c : Cmd V) (hv : c.valid C w = true) :
    (∃ w', c.code C w = .ok () w' ∧ c.readsBackup w = false) ∨
    (∃ e w', c.code C w = .exc e w' ∧ ∃ t, w.tick ≤ t ∧ t < w'.tick ∧ C.throws t = true) ∨
    (c.readsBackup w = true ∧ c.code C w = .fault .assertFailed) := by
  cases hz : c.readsBackup w with
  | false =>
    rcases C14_returns_unless_thrown_partial hb hg c hv hz with ⟨w', h⟩ | h
    · exact Or.inl ⟨w', h, rfl⟩
    · exact Or.inr (Or.inl h)
  | true =>
    rcases step_hazard hd hg c hv hz with h | ⟨e, w', h, -, -, ht⟩
    · exact Or.inr (Or.inr ⟨rfl, h⟩)
    · exact Or.inr (Or.inl ⟨e, w', h, e.tick, ht⟩)

/-! ### C44 -/

/-- A statement of finding F1 that throws leaves one of the documented states. -/
theorem failed_refines_asserted (hs : Sane C) (hd : C.ndebug = false) (hg : Good C w) (c : Cmd V)
    (hv : c.valid C w = true) (hz : c.readsBackup w = true) {e : Exc} (h : c.code C w = .exc e w') :
    c.failedBy C w.store w'.store := by
  have hrest : Rest w w' c.names := by
    rcases step_hazard hd hg c hv hz with h1 | ⟨_, _, h1, -, h2, -⟩
    · rw [h] at h1; cases h1
    · rw [h] at h1; cases h1; exact h2
  have key : ∀ {x y : Nat}, (w.backedUp y && w.recordsDiffer x y) = true →
      ∃ sx ix kx vx sy iy ky vy, Owns C w (.user x) sx ix kx vx ∧ Owns C w (.user y) sy iy ky vy ∧
        sx.which_ ≠ sy.which_ ∧ sy.which_ < 0 := by
    intro x y h
    simp only [World.backedUp, World.recordsDiffer, Bool.and_eq_true] at h
    cases hx : w.vars (.user x) with
    | none => simp [hx] at h
    | some sx =>
      cases hy : w.vars (.user y) with
      | none => simp [hy] at h
      | some sy =>
        simp only [hx, hy, decide_eq_true_eq] at h
        obtain ⟨ix, kx, vx, hrx, hox⟩ := hg.wf.rep _ _ hx
        obtain ⟨iy, ky, vy, hry, hoy⟩ := hg.wf.rep _ _ hy
        exact ⟨sx, ix, kx, vx, sy, iy, ky, vy, ⟨hx, hrx, hox⟩, ⟨hy, hry, hoy⟩, h.2, h.1⟩
  have self : ∀ {σ : Store V} {x : Nat} {p : TyIx × V}, σ x = some p → upd σ x (some p) = σ := by
    intro σ x p hp
    funext z; simp only [upd]; split
    · rename_i he; rw [he]; exact hp.symm
    · rfl
  cases c with
  | copyAssign x y =>
    obtain ⟨sx, ix, kx, vx, sy, iy, ky, vy, hx, hy, hne, hb⟩ := key hz
    have hh := copyAssign_hazard_exc hx hy hne hb h
    refine ⟨_, _, _, _, hx.content, hy.content, Or.inl rfl, ?_⟩
    rw [self hx.content]
    exact store_same hh.vars hh.objs
  | moveAssign x y =>
    obtain ⟨sx, ix, kx, vx, sy, iy, ky, vy, hx, hy, hne, hb⟩ := key hz
    have hh := moveAssign_hazard_exc hx hy hne hb h
    refine ⟨_, _, _, _, vy, hx.content, hy.content, Or.inl rfl, ?_⟩
    rw [self (σ := w.store) hy.content, self (σ := w.store) hx.content]
    exact store_same hh.vars hh.objs
  | swap x y =>
    simp only [Cmd.valid, Bool.and_eq_true] at hv
    obtain ⟨kx, vx, hx⟩ := holds_of_valid hg hv.1
    obtain ⟨ky, vy, hy⟩ := holds_of_valid hg hv.2
    obtain ⟨⟨k1, v1, h1, h2⟩, ⟨k3, v3, h3, h4⟩, -⟩ := C21_swap_failure_partial hs hg hx hy (Or.inl hd) h
    refine ⟨(kx, vx), (ky, vy), (k1, v1), (k3, v3), hx, hy, h2, h4,
      store_upd2 (fun z hz => hrest z (by simp [Cmd.names] at hz ⊢; exact ⟨hz.2, hz.1⟩)) ?_ h3 h1⟩
    rintro rfl; exact h3.symm.trans h1
  | _ => cases hz

/-- C44 with assertions on, for every program: it runs to its end and its variables evolve as in a run over the plain
store in which the same statements fail, or it stops at the failed assertion of a statement of finding F1.
Missing for the full claim: findings F2 and F10 (`Sane`), and that the statements of F1 work. -/
theorem C44_refinement_asserted_partial (hl : C.ops.Lawful) (hs : Sane C) (hd : C.ndebug = false) (cs : List (Cmd V)) :
    (∃ w, run C cs (World.init V) = some w ∧
      StoreRun C cs (fun _ => none) (fates C cs (World.init V)) (fun x => w.content (.user x))) ∨
      (StopsAtBackupRead C cs (World.init V) ∧ run C cs (World.init V) = none) := by
  suffices h : ∀ (cs : List (Cmd V)) (w : World V), Good C w →
      (∃ w', run C cs w = some w' ∧ StoreRun C cs w.store (fates C cs w) w'.store) ∨ StopsAtBackupRead C cs w by
    rcases h cs _ good_init with h | h
    · exact Or.inl h
    · exact Or.inr ⟨h, h.run_none⟩
  intro cs
  induction cs with
  | nil => exact fun w _ => Or.inl ⟨w, rfl, .nil _⟩
  | cons c cs ih =>
    intro w hg
    have stop : ∀ w1, (∀ ds, run C (c :: ds) w = run C ds w1) → StopsAtBackupRead C cs w1 →
        StopsAtBackupRead C (c :: cs) w := by
      rintro w1 h1 ⟨pre, d, post, w', rfl, h2, h3⟩
      exact ⟨c :: pre, d, post, w', rfl, by rw [h1]; exact h2, h3⟩
    cases hv : c.valid C w with
    | false =>
      have hr : ∀ ds, run C (c :: ds) w = run C ds w := fun ds => by simp [run, hv]
      rcases ih w hg with ⟨w', h1, h2⟩ | h
      · refine Or.inl ⟨w', by rw [hr]; exact h1, ?_⟩
        simp only [fates, hv, Bool.false_eq_true, if_false]
        exact .skip (fun hv' => by rw [(valid_iff hg c).mpr hv'] at hv; cases hv) h2
      · exact Or.inr (stop w hr h)
    | true =>
      have hv' := (valid_iff hg c).mp hv
      have failing : ∀ e w1, c.code C w = .exc e w1 → Good C w1 → c.failedBy C w.store w1.store →
          (∃ w', run C (c :: cs) w = some w' ∧ StoreRun C (c :: cs) w.store (fates C (c :: cs) w) w'.store) ∨
            StopsAtBackupRead C (c :: cs) w := by
        intro e w1 hm hg1 hf
        have hr : ∀ ds, run C (c :: ds) w = run C ds w1 := fun ds => by simp [run, hv, hm]
        rcases ih w1 hg1 with ⟨w', h1, h2⟩ | h
        · refine Or.inl ⟨w', by rw [hr]; exact h1, ?_⟩
          simp only [fates, hv, if_true, hm]
          exact .fail hv' hf h2
        · exact Or.inr (stop w1 hr h)
      cases hz : c.readsBackup w with
      | false =>
        rcases wp_elim (wp_step hs hg c hv hz) with ⟨a, w1, hm, hg', _⟩ | ⟨e, w1, hm, hg', _, _⟩
        · have hr : ∀ ds, run C (c :: ds) w = run C ds w1 := fun ds => by simp [run, hv, hm]
          rcases ih w1 hg' with ⟨w', h1, h2⟩ | h
          · refine Or.inl ⟨w', by rw [hr]; exact h1, ?_⟩
            simp only [fates, hv, if_true, hm]
            exact .done hv' (done_refines hl hs.1 hg c hv hz hm) h2
          · exact Or.inr (stop w1 hr h)
        · exact failing e w1 hm hg' (failed_refines hl hs hg c hv hz hm)
      | true =>
        rcases step_hazard hd hg c hv hz with h | ⟨e, w1, hm, hg', -⟩
        · exact Or.inr ⟨[], c, cs, w, rfl, rfl, hg, hv, hz, h⟩
        · exact failing e w1 hm hg' (failed_refines_asserted hs hd hg c hv hz hm)

end

/-! ### Examples -/

/-- Both outcomes occur. `exProg` runs to its end through a heap backup; with `y = x` put after the third statement, `x` being
in the heap-backup state, it stops; and if the heap copy of `y`'s content throws there, it goes on to its end although it
executes a statement of finding F1. -/
example : exTwo.ndebug = false ∧ faults exTwo exProg = false ∧
    faults exTwo (exProg.take 3 ++ [.copyAssign 1 0]) = true ∧
    (let E := exCfg [tThrowing, tThrowing] [6, 7]
     faults E (exProg.take 3 ++ [.copyAssign 1 0, .destroy 0]) = false ∧
     avoidsBackupReads E (exProg.take 3 ++ [.copyAssign 1 0, .destroy 0]) (World.init Nat) = false ∧
     contentAfter E (exProg.take 3 ++ [.copyAssign 1 0, .destroy 0]) 1 = some (1, 7)) := by decide +kernel

/-- The second outcome, from the theorem. -/
example : StopsAtBackupRead exTwo (exProg.take 3 ++ [.copyAssign 1 0]) (World.init Nat) := by
  rcases C01_never_empty_asserted_partial exTwo_sane rfl (exProg.take 3 ++ [.copyAssign 1 0]) with ⟨w, h, -⟩ | h
  · have : faults exTwo (exProg.take 3 ++ [.copyAssign 1 0]) = true := by decide +kernel
    rw [faults, h] at this
    cases this
  · exact h.1

/-- The three outcomes of C14. -/
example : let w := stateAfter exTwo (exProg.take 3)
    Good exTwo w ∧ (Cmd.copyAssign 1 0 : Cmd Nat).valid exTwo w = true ∧
      (Cmd.copyAssign 1 0 : Cmd Nat).readsBackup w = true ∧
      thrownBy exTwo (exProg.take 2) (.copyAssign 0 1) = some (.copyCtor 1) :=
  ⟨exBackup_good, by decide +kernel, by decide +kernel, by decide +kernel⟩

/-- C13 and C14 with assertions: the program goes on, or it stops where a backup is read. -/
example : ∃ w, run exTwo exProg (World.init Nat) = some w ∧ Owned w := by
  rcases C13_ownership_asserted_partial exTwo_sane rfl exProg with ⟨w, hw, h, -⟩ | ⟨-, h⟩
  · exact ⟨w, hw, h⟩
  · have : (run exTwo exProg (World.init Nat)).isSome = true := by decide +kernel
    rw [h] at this; cases this

example : (Cmd.copyAssign 1 0).code exTwo exBackup = .fault .assertFailed := by
  rcases C14_returns_unless_thrown_asserted_partial exTwo_blankOk rfl exBackup_good (.copyAssign 1 0) (by decide +kernel) with
    ⟨w', -, h⟩ | ⟨e, w', h, -⟩ | ⟨-, h⟩
  · have : (Cmd.copyAssign 1 0 : Cmd Nat).readsBackup exBackup = true := by decide +kernel
    rw [h] at this; cases this
  · have : endsExc ((Cmd.copyAssign 1 0 : Cmd Nat).code exTwo) exBackup = false := by decide +kernel
    simp [endsExc, h] at this
  · exact h

/-! ### Instances -/

/-- C44 with assertions on: `exProg`, in which an assignment throws. -/
example : ∃ w, run exTwo exProg (World.init Nat) = some w ∧
    StoreRun exTwo exProg (fun _ => none) (fates exTwo exProg (World.init Nat)) (fun x => w.content (.user x)) := by
  rcases C44_refinement_asserted_partial natOps_lawful exTwo_sane rfl exProg with h | ⟨-, h⟩
  · exact h
  · have : (run exTwo exProg (World.init Nat)).isSome = true := by decide +kernel
    rw [h] at this; cases this

end BVariant
