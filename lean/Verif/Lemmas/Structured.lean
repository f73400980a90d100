/-
Lemmas for programs with control flow, C59: the statements keep contents in place, and what a step of the machine does to the variables.
-/
import Verif.Spec.Structured
import Verif.Props.MixedConvert
import Verif.Lemmas.InPlace

namespace BVariant

section
variable {V : Type} {D : Decls V} {ρ : Nat → Nat} {w w' : World V} {x : Nat} {c : Conf V}

/-- One statement where no type needs a backup: everything stays in place. -/
theorem mix_inPlace (hs : ∀ vt, Sane (D.K vt)) (hss : D.BackupFree) (hD : D.Fits) (hg : GoodMix D.K ρ w) (ha : AllInPlace w)
    (m : MixCmd V) (hv : m.valid D ρ w = true) :
    wp (m.code D ρ) (fun _ w' => AllInPlace w') (fun _ w' => AllInPlace w') w := by
  cases m with
  | on vt c =>
    simp only [MixCmd.valid, Bool.and_eq_true, List.all_eq_true, beq_iff_eq] at hv
    have hon : AllInPlace (w.only ρ vt) := by
      intro z s hz
      cases z with
      | tmp n => exact ha (.tmp n) s hz
      | user n =>
        by_cases h : ρ n = vt
        · exact ha (.user n) s (by rw [← GoodMix.only_var w h]; exact hz)
        · simp [World.only, h] at hz
    have back : ∀ {wh' w' : World V}, AllInPlace wh' → LikeAlone ρ vt w w' wh' → AllInPlace w' := by
      intro wh' w' hh hl z s hz
      cases z with
      | tmp n => exact hh (.tmp n) s (by rw [← hl.only]; exact hz)
      | user n =>
        by_cases h : ρ n = vt
        · exact hh (.user n) s (by rw [← hl.only, GoodMix.only_var w' h]; exact hz)
        · exact ha (.user n) s (by rw [← (hl.others n h).1]; exact hz)
    have h := C52_other_types_do_not_matter hg hv.1
    rcases wp_elim (wp_step_inPlace (hs vt) (hss vt) (hg.only vt) hon c ((GoodMix.valid_only w _ c hv.1).trans hv.2)) with
      ⟨a, wh', hm, hi, -⟩ | ⟨e, wh', hm, hi, -⟩
    · obtain ⟨w', h1, h2⟩ := h.1 wh' hm
      unfold wp
      rw [show (MixCmd.on vt c).code D ρ w = _ from h1]
      exact back hi h2
    · obtain ⟨w', h1, h2⟩ := h.2 e wh' hm
      unfold wp
      rw [show (MixCmd.on vt c).code D ρ w = _ from h1]
      exact back hi h2
  | constructFrom rv const x y =>
    simp only [MixCmd.valid, Bool.and_eq_true, Option.isNone_iff_eq_none] at hv
    obtain ⟨⟨⟨⟨⟨h1, h2⟩, -⟩, -⟩, h3⟩, h4⟩ := hv
    obtain ⟨s, id, j, v, hyo⟩ := hg.alive_owns h2
    obtain ⟨o, ho⟩ := hg.overload_of_valid hD hyo.holds' h3 h4
    refine wp_mono (wp_constructFrom hg.toFresh hyo ho (hD.index_lt ho)) ?_ ?_
    · rintro _ w' ⟨q, id', hq, hid', -, hc⟩
      exact hc.allInPlace ha (by simp)
    · rintro e w' ⟨q, hq, hth, hv, -⟩
      intro z s hz; rw [hv] at hz; exact ha z s hz
  | assignFrom rv const x y =>
    simp only [MixCmd.valid, Bool.and_eq_true, decide_eq_true_eq] at hv
    obtain ⟨⟨⟨⟨⟨h1, h2⟩, hne⟩, -⟩, h3⟩, h4⟩ := hv
    obtain ⟨s, id, j, v, hyo⟩ := hg.alive_owns h2
    obtain ⟨sx, ix, kx, vx, hxo⟩ := hg.alive_owns h1
    obtain ⟨o, ho⟩ := hg.overload_of_valid hD hyo.holds' h3 h4
    have hn := hg.apart hxo hyo (fun e => hne (by rw [e]))
    have hp := ha _ _ hxo.var
    refine wp_mono (wp_assignFrom (hs _) hg.toFresh hyo hxo hn ho (hD.index_lt ho) (by simp) (hg.noTmp 0)) ?_ ?_
    · rintro _ w' ⟨q, s', id', v', hq, hr, hres⟩
      refine hr.allInPlace ha ?_
      rcases hres with ⟨-, -, rfl, -⟩ | ⟨-, rfl, -⟩
      · exact hp
      · simp
    · rintro e w' ⟨q, s', id', k', v', hq, -, hr, hres⟩
      refine hr.allInPlace ha ?_
      rcases hres with ⟨-, rfl, -⟩ | ⟨hl, hsame⟩
      · exact hp
      · by_cases hw : sx.which_ = (o.index : Int)
        · rw [hsame hw]; exact hp
        · refine hl.inPlace (hss _) (Rep.lt _ hxo.rep) (hD.index_lt ho) ?_ hp
          rw [hxo.rep.inPlace_of_nonneg hp] at hw
          intro he; exact hw (by rw [he])

/-- `~variant` at the end of a scope returns; it is the statement `x.~variant()`. -/
theorem endScope_spec (hs : ∀ vt, Sane (D.K vt)) (hD : D.Fits) (hg : GoodMix D.K ρ w) (then_ : Ctl V) (k : List (Frame V)) :
    ∃ w', endScope D ρ x then_ k w = .conf ⟨then_, k, w'⟩ ∧ GoodMix D.K ρ w' ∧ w'.vars (.user x) = none ∧
      Rest w w' [x] ∧ runConv D ρ [.on (ρ x) (.destroy x)] w = some w' ∧ (∀ z s, w'.vars z = some s → w.vars z = some s) := by
  unfold endScope
  have hval : (MixCmd.on (ρ x) (.destroy x) : MixCmd V).valid D ρ w = (w.vars (.user x)).isSome := by
    simp [MixCmd.valid, Cmd.names, Cmd.valid]
  cases hx : (w.vars (.user x)).isSome with
  | false =>
    rw [if_neg (by simp)]
    refine ⟨w, rfl, hg, by simpa using hx, fun z _ => ⟨rfl, fun _ _ _ _ => rfl⟩, ?_, fun _ _ h => h⟩
    rw [runConv, if_neg (by rw [hval, hx]; simp), runConv]
  | true =>
    rw [if_pos rfl]
    obtain ⟨s, id, k, v, ho⟩ := hg.alive_owns hx
    have h := wp_destroyVar_intro (Q := fun _ w' => w' = { w with objs := upd w.objs id none, vars := upd w.vars (.user x) none })
      (E := fun _ _ => False) ho hg.flat rfl
    rcases wp_elim h with ⟨a, w', h1, h2⟩ | ⟨e, w', h1, h2⟩
    · rcases C01_statement_with_conversions_partial hs hD hg (.on (ρ x) (.destroy x)) (hval.trans hx) rfl with
        ⟨b, w2, e1, e2, e3⟩ | ⟨b, w2, e1, -⟩
      · obtain rfl : w' = w2 := by
          have := h1.symm.trans e1
          cases this; rfl
        refine ⟨w', by rw [h1], e2, by rw [h2]; exact upd_same _ _ _, e3, ?_, ?_⟩
        · rw [runConv, if_pos (hval.trans hx), e1]; rfl
        · intro z t hz
          by_cases hzx : z = .user x
          · rw [h2, hzx] at hz; simp [upd_same] at hz
          · rw [h2] at hz; exact (upd_ne _ _ hzx).symm.trans hz
      · have := h1.symm.trans e1
        cases this
    · exact h2.elim

/-- What one step of the machine is, in a state between statements: control only, or one statement, which returns or throws. -/
theorem step_spec (hs : ∀ vt, Sane (D.K vt)) (hD : D.Fits) (hg : GoodMix D.K ρ c.w) (hz : c.readsBackup D ρ = false) :
    ∃ w' cs, (step D ρ c).world = some w' ∧ GoodMix D.K ρ w' ∧ runConv D ρ cs c.w = some w' ∧
      (D.BackupFree → AllInPlace c.w → AllInPlace w') := by
  have ctl : (step D ρ c).world = some c.w → ∃ w' cs, (step D ρ c).world = some w' ∧ GoodMix D.K ρ w' ∧ runConv D ρ cs c.w = some w' ∧
      (D.BackupFree → AllInPlace c.w → AllInPlace w') := fun h => ⟨c.w, [], h, hg, rfl, fun _ h => h⟩
  obtain ⟨t, k, w⟩ := c
  have scp : ∀ (y : Nat) (t' : Ctl V) (k' : List (Frame V)), step D ρ ⟨t, k, w⟩ = endScope D ρ y t' k' w →
      ∃ w' cs, (step D ρ ⟨t, k, w⟩).world = some w' ∧ GoodMix D.K ρ w' ∧ runConv D ρ cs w = some w' ∧
        (D.BackupFree → AllInPlace w → AllInPlace w') := by
    intro y t' k' h
    obtain ⟨w', h1, h2, -, -, h3, h4⟩ := endScope_spec (x := y) hs hD hg t' k'
    exact ⟨w', _, by rw [h, h1]; rfl, h2, h3, fun _ ha z s hz => ha z s (h4 z s hz)⟩
  cases t with
  | run s =>
    cases s with
    | cmd m =>
      by_cases hv : m.valid D ρ w = true
      · have hz' : m.readsBackup w = false := by simpa [Conf.readsBackup, hv] using hz
        rcases C01_statement_with_conversions_partial hs hD hg m hv hz' with ⟨a, w', e1, e2, -⟩ | ⟨e, w', e1, e2, -⟩
        all_goals
          refine ⟨w', [m], ?_, e2, ?_, fun h ha => ?_⟩
          · simp only [step]; rw [if_pos hv, e1]; rfl
          · rw [runConv, if_pos hv, e1]; rfl
          · have := mix_inPlace hs h hD hg ha m hv
            unfold wp at this; rw [e1] at this; exact this
      · refine ctl ?_
        simp only [step]; rw [if_neg hv]; rfl
    | skip => exact ctl rfl
    | raise => exact ctl rfl
    | seq s t => exact ctl rfl
    | cond b s t =>
      refine ctl ?_
      simp only [step]
      cases b w with
      | none => rfl
      | some r => cases r <;> rfl
    | loop b s =>
      refine ctl ?_
      simp only [step]
      cases b w with
      | none => rfl
      | some r => cases r <;> rfl
    | guarded s h => exact ctl rfl
    | scope y s => exact ctl rfl
  | ret =>
    cases k with
    | nil => exact ctl rfl
    | cons f k =>
      cases f with
      | next s => exact ctl rfl
      | handler h => exact ctl rfl
      | ends y => exact scp y _ k rfl
  | unwind =>
    cases k with
    | nil => exact ctl rfl
    | cons f k =>
      cases f with
      | next s => exact ctl rfl
      | handler h => exact ctl rfl
      | ends y => exact scp y _ k rfl

theorem runConv_append (as bs : List (MixCmd V)) (w : World V) :
    runConv D ρ (as ++ bs) w = (runConv D ρ as w).bind (runConv D ρ bs) := by
  induction as generalizing w with
  | nil => rfl
  | cons a as ih =>
    simp only [List.cons_append, runConv]
    split
    · split
      · exact ih _
      · exact ih _
      · rfl
    · exact ih w

theorem NeverReadsBackup.step {c' : Conf V} (h : NeverReadsBackup D ρ c) (hc : step D ρ c = .conf c') : NeverReadsBackup D ρ c' := by
  intro n c2 h2
  refine h (n + 1) c2 ?_
  simp only [steps, hc]; exact h2

/-- Any number of steps. -/
theorem steps_spec (hs : ∀ vt, Sane (D.K vt)) (hD : D.Fits) (n : Nat) (c : Conf V) (hg : GoodMix D.K ρ c.w)
    (hz : NeverReadsBackup D ρ c) :
    ∃ w' cs, (steps D ρ n c).world = some w' ∧ GoodMix D.K ρ w' ∧ runConv D ρ cs c.w = some w' := by
  induction n generalizing c with
  | zero => exact ⟨c.w, [], rfl, hg, rfl⟩
  | succ n ih =>
    obtain ⟨w', cs, h1, h2, h3, -⟩ := step_spec hs hD hg (hz 0 c rfl)
    cases hst : step D ρ c with
    | conf c' =>
      rw [hst] at h1
      obtain rfl : c'.w = w' := by simpa [Next.world] using h1
      obtain ⟨w2, cs2, e1, e2, e3⟩ := ih c' h2 (hz.step hst)
      refine ⟨w2, cs ++ cs2, ?_, e2, ?_⟩
      · simp only [steps, hst]; exact e1
      · rw [runConv_append, h3]; exact e3
    | done u w2 =>
      rw [hst] at h1
      refine ⟨w', cs, ?_, h2, h3⟩
      simp only [steps, hst]; exact h1
    | fault f => rw [hst] at h1; cases h1

theorem Conf.readsBackup_inPlace (ha : AllInPlace c.w) : c.readsBackup D ρ = false := by
  unfold Conf.readsBackup
  split
  · rename_i m _
    cases m with
    | on vt c0 => simp [MixCmd.readsBackup, ha.readsBackup c0]
    | _ => simp [MixCmd.readsBackup]
  · rfl

theorem backupFree_never (hs : ∀ vt, Sane (D.K vt)) (hss : D.BackupFree) (hD : D.Fits) (hg : GoodMix D.K ρ c.w)
    (ha : AllInPlace c.w) : NeverReadsBackup D ρ c := by
  intro n
  induction n generalizing c with
  | zero => intro c' h; cases h; exact Conf.readsBackup_inPlace ha
  | succ n ih =>
    intro c' h
    obtain ⟨w', cs, h1, h2, -, h4⟩ := step_spec hs hD hg (Conf.readsBackup_inPlace ha)
    simp only [steps] at h
    cases hst : step D ρ c with
    | conf c2 =>
      rw [hst] at h h1
      obtain rfl : c2.w = w' := by simpa [Next.world] using h1
      exact ih h2 (h4 hss ha) c' h
    | done u w2 => rw [hst] at h; cases h
    | fault f => rw [hst] at h; cases h

/-! ### Scopes -/

/-- The statements that are to be executed use variables in scope only. -/
def stackScoped : List (Frame V) → Prop
  | [] => True
  | .next s :: k | .handler s :: k => s.scoped (scopes k) ∧ stackScoped k
  | .ends x :: k => x ∉ scopes k ∧ stackScoped k

/-- Likewise for a state of the machine; the live variables are all in scope. -/
structure Conf.Scoped (c : Conf V) : Prop where
  ctl : ∀ s, c.ctl = .run s → s.scoped (scopes c.stack)
  stack : stackScoped c.stack
  alive : ∀ x, c.w.vars (.user x) ≠ none → x ∈ scopes c.stack

theorem step_scoped (hs : ∀ vt, Sane (D.K vt)) (hD : D.Fits) (hg : GoodMix D.K ρ c.w) (hz : c.readsBackup D ρ = false) (h : c.Scoped) :
    (∀ c', step D ρ c = .conf c' → c'.Scoped) ∧ (∀ u w, step D ρ c = .done u w → ∀ x, w.vars (.user x) = none) := by
  obtain ⟨t, k, w⟩ := c
  obtain ⟨h1, h2, h3⟩ := h
  have plain : ∀ (t' : Ctl V) (k' : List (Frame V)), step D ρ ⟨t, k, w⟩ = .conf ⟨t', k', w⟩ →
      (Conf.mk t' k' w).Scoped →
      (∀ c', step D ρ ⟨t, k, w⟩ = .conf c' → c'.Scoped) ∧ (∀ u w', step D ρ ⟨t, k, w⟩ = .done u w' → ∀ x, w'.vars (.user x) = none) := by
    intro t' k' he hsc
    constructor
    · intro c' hc; rw [he] at hc; cases hc; exact hsc
    · intro u w' hc; rw [he] at hc; cases hc
  have scp : ∀ (y : Nat) (t' : Ctl V) (k' : List (Frame V)), step D ρ ⟨t, k, w⟩ = endScope D ρ y t' k' w → k = .ends y :: k' →
      (∀ s, t' ≠ .run s) →
      (∀ c', step D ρ ⟨t, k, w⟩ = .conf c' → c'.Scoped) ∧ (∀ u w', step D ρ ⟨t, k, w⟩ = .done u w' → ∀ x, w'.vars (.user x) = none) := by
    intro y t' k' he hk ht
    obtain ⟨w', e1, e2, e3, e4, -⟩ := endScope_spec (x := y) hs hD hg t' k'
    rw [e1] at he
    subst hk
    constructor
    · intro c' hc; rw [he] at hc; cases hc
      refine ⟨fun s hs' => absurd hs' (ht s), h2.2, fun x hx => ?_⟩
      by_cases hxy : x = y
      · exact absurd (hxy ▸ e3) hx
      · have := h3 x (by rw [← (e4 x (by simpa using hxy)).1]; exact hx)
        simpa [scopes, hxy] using this
    · intro u w2 hc; rw [he] at hc; cases hc
  cases t with
  | run s =>
    have hsc := h1 s rfl
    cases s with
    | cmd m =>
      by_cases hv : m.valid D ρ w = true
      · have hz' : m.readsBackup w = false := by simpa [Conf.readsBackup, hv] using hz
        have keep : ∀ {w' : World V}, Rest w w' m.names → ∀ x, w'.vars (.user x) ≠ none → x ∈ scopes k := by
          intro w' hr x hx
          by_cases hm : x ∈ m.names
          · exact hsc x hm
          · exact h3 x (by rw [← (hr x hm).1]; exact hx)
        rcases C01_statement_with_conversions_partial hs hD hg m hv hz' with ⟨a, w', e1, e2, e3⟩ | ⟨e, w', e1, e2, e3⟩
        all_goals
          constructor
          · intro c' hc
            simp only [step] at hc; rw [if_pos hv, e1] at hc; cases hc
            exact ⟨fun _ h => by (cases h), h2, keep e3⟩
          · intro u w2 hc
            simp only [step] at hc; rw [if_pos hv, e1] at hc; cases hc
      · refine plain .ret k ?_ ⟨(fun _ h => by cases h), h2, h3⟩
        simp only [step]; rw [if_neg hv]
    | skip => exact plain .ret k rfl ⟨(fun _ h => by cases h), h2, h3⟩
    | raise => exact plain .unwind k rfl ⟨(fun _ h => by cases h), h2, h3⟩
    | seq s t => exact plain (.run s) (.next t :: k) rfl ⟨fun _ h => by cases h; exact hsc.1, ⟨hsc.2, h2⟩, h3⟩
    | cond b s t =>
      cases hb : b w with
      | none => exact plain .unwind k (by simp only [step, hb]) ⟨(fun _ h => by cases h), h2, h3⟩
      | some r =>
        cases r with
        | true => exact plain (.run s) k (by simp only [step, hb]) ⟨fun _ h => by cases h; exact hsc.1, h2, h3⟩
        | false => exact plain (.run t) k (by simp only [step, hb]) ⟨fun _ h => by cases h; exact hsc.2, h2, h3⟩
    | loop b s =>
      cases hb : b w with
      | none => exact plain .unwind k (by simp only [step, hb]) ⟨(fun _ h => by cases h), h2, h3⟩
      | some r =>
        cases r with
        | true => exact plain (.run s) (.next (.loop b s) :: k) (by simp only [step, hb]) ⟨fun _ h => by cases h; exact hsc, ⟨hsc, h2⟩, h3⟩
        | false => exact plain .ret k (by simp only [step, hb]) ⟨(fun _ h => by cases h), h2, h3⟩
    | guarded s h => exact plain (.run s) (.handler h :: k) rfl ⟨fun _ h => by cases h; exact hsc.1, ⟨hsc.2, h2⟩, h3⟩
    | scope y s =>
      exact plain (.run s) (.ends y :: k) rfl ⟨fun _ h => by cases h; exact hsc.2, ⟨hsc.1, h2⟩, fun x hx => List.mem_cons_of_mem _ (h3 x hx)⟩
  | ret =>
    cases k with
    | nil =>
      refine ⟨(fun c' hc => by cases hc), fun u w' hc x => ?_⟩
      cases hc
      cases hx : w.vars (.user x) with
      | none => rfl
      | some s => exact absurd (h3 x (by simp [hx])) (by simp [scopes])
    | cons f k =>
      cases f with
      | next s => exact plain (.run s) k rfl ⟨fun _ h => by cases h; exact h2.1, h2.2, h3⟩
      | handler h => exact plain .ret k rfl ⟨(fun _ h => by cases h), h2.2, h3⟩
      | ends y => exact scp y .ret k rfl rfl (by intro s h; cases h)
  | unwind =>
    cases k with
    | nil =>
      refine ⟨(fun c' hc => by cases hc), fun u w' hc x => ?_⟩
      cases hc
      cases hx : w.vars (.user x) with
      | none => rfl
      | some s => exact absurd (h3 x (by simp [hx])) (by simp [scopes])
    | cons f k =>
      cases f with
      | next s => exact plain .unwind k rfl ⟨(fun _ h => by cases h), h2.2, h3⟩
      | handler h => exact plain (.run h) k rfl ⟨fun _ h => by cases h; exact h2.1, h2.2, h3⟩
      | ends y => exact scp y .unwind k rfl rfl (by intro s h; cases h)

theorem steps_scoped (hs : ∀ vt, Sane (D.K vt)) (hD : D.Fits) (n : Nat) (c : Conf V) (hg : GoodMix D.K ρ c.w)
    (hz : NeverReadsBackup D ρ c) (h : c.Scoped) {u : Bool} {w' : World V} (he : steps D ρ n c = .done u w') :
    ∀ x, w'.vars (.user x) = none := by
  induction n generalizing c with
  | zero => cases he
  | succ n ih =>
    have hsc := step_scoped hs hD hg (hz 0 c rfl) h
    obtain ⟨w2, cs, h1, h2, -, -⟩ := step_spec hs hD hg (hz 0 c rfl)
    simp only [steps] at he
    cases hst : step D ρ c with
    | conf c' =>
      rw [hst] at h1 he
      obtain rfl : c'.w = w2 := by simpa [Next.world] using h1
      exact ih c' h2 (hz.step hst) (hsc.1 c' hst) he
    | done u2 w3 => rw [hst] at he; cases he; exact hsc.2 _ _ hst
    | fault f => rw [hst] at he; cases he

/-! ### Unwinding -/

theorem Rest.trans' {w1 w2 w3 : World V} {xs ys : List Nat} (h : Rest w1 w2 xs) (h' : Rest w2 w3 ys) : Rest w1 w3 (xs ++ ys) := by
  intro z hz
  simp only [List.mem_append, not_or] at hz
  obtain ⟨e1, e2⟩ := h z hz.1
  obtain ⟨e3, e4⟩ := h' z hz.2
  exact ⟨e3.trans e1, fun s id hs hi => (e4 s id (e1.trans hs) hi).trans (e2 s id hs hi)⟩

theorem steps_unwind (hs : ∀ vt, Sane (D.K vt)) (hD : D.Fits) (pre : List (Frame V)) (hpre : ∀ f ∈ pre, f.isHandler = false)
    (k : List (Frame V)) (w : World V) (hg : GoodMix D.K ρ w) :
    ∃ w', steps D ρ pre.length ⟨.unwind, pre ++ k, w⟩ = .conf ⟨.unwind, k, w'⟩ ∧ GoodMix D.K ρ w' ∧ Rest w w' (scopes pre) ∧
      (∀ z s, w'.vars z = some s → w.vars z = some s) ∧ ∀ x ∈ scopes pre, w'.vars (.user x) = none := by
  induction pre generalizing w with
  | nil => exact ⟨w, rfl, hg, fun z _ => ⟨rfl, fun _ _ _ _ => rfl⟩, fun _ _ h => h, fun x hx => by cases hx⟩
  | cons f pre ih =>
    have ih := ih (fun f hf => hpre f (List.mem_cons_of_mem _ hf))
    cases f with
    | next s => exact ih w hg
    | handler h => have := hpre _ List.mem_cons_self; cases this
    | ends y =>
      obtain ⟨w1, e1, e2, e3, e4, -, e5⟩ := endScope_spec (x := y) hs hD hg .unwind (pre ++ k)
      obtain ⟨w2, f1, f2, f3, f4, f5⟩ := ih w1 e2
      refine ⟨w2, ?_, f2, Rest.trans' e4 f3, fun z s hz => e5 z s (f4 z s hz), fun x hx => ?_⟩
      · simp only [List.length_cons, steps, List.cons_append, step, e1]; exact f1
      · rcases List.mem_cons.mp hx with rfl | hx
        · cases h : w2.vars (.user x) with
          | none => rfl
          | some s => rw [f4 _ s h] at e3; cases e3
        · exact f5 x hx

theorem steps_add (n m : Nat) (c c' : Conf V) (h : steps D ρ n c = .conf c') : steps D ρ (n + m) c = steps D ρ m c' := by
  induction n generalizing c with
  | zero => cases h; rw [Nat.zero_add]
  | succ n ih =>
    rw [Nat.add_right_comm]
    simp only [steps] at h ⊢
    cases hst : step D ρ c with
    | conf c2 => rw [hst] at h; exact ih c2 h
    | done u w => rw [hst] at h; cases h
    | fault f => rw [hst] at h; cases h

end

end BVariant
