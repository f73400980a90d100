/-
C63: every breach of the never-empty guarantee is fatal. The statements of findings F1, F2 and F10 leave a variant with no object where the
library looks for one; it stays so for good, and every use of it, even its destruction, has undefined behaviour. So a program
that ends the lives of all its variables, and has no undefined behaviour, was never empty.
-/
import Verif.Lemmas.HazardBroken
import Verif.Props.StructuredAsserted

namespace BVariant

section
variable {V : Type} {D : Decls V} {ρ : Nat → Nat} {w w' : World V} {c : Conf V} {x : Nat} {s : VarSt}

/-! ### A broken variant -/

/-- C63, visitation: whatever the visitor, visiting a broken variant has undefined behaviour. -/
theorem C63_visit {C : Cfg V} {α : Type} {y : VarId} (hx : w.broken C y) (vis : Visitor V α) :
    internalApplyVisitor C y vis w = .fault .ub := by
  obtain ⟨s, hs, hb⟩ := hx
  exact hb.visit vis w hs

/-- C63, destruction: so has `~variant`. -/
theorem C63_destroy {C : Cfg V} {y : VarId} (hx : w.broken C y) : destroyVar C y w = .fault .ub := by
  obtain ⟨s, hs, hb⟩ := hx
  exact hb.destroyVar w hs

/-- C63, use: no statement that names a broken variant returns. -/
theorem C63_use (hx : w.broken (D.K (ρ x)) (.user x)) (m : MixCmd V) (hv : m.valid D ρ w = true) (hm : x ∈ m.names) (a : Unit) :
    m.code D ρ w ≠ .ok a w' := by
  obtain ⟨s, hs, hb⟩ := hx
  exact StuckBroken.mix m hv hs hm hb w hs a w'

/-- C63, no repair: a statement that returns or throws leaves a broken variant broken, whether it names it or not. -/
theorem C63_no_repair (hx : w.broken (D.K (ρ x)) (.user x)) (m : MixCmd V) (hv : m.valid D ρ w = true)
    (h : (∃ a, m.code D ρ w = .ok a w') ∨ ∃ e, m.code D ρ w = .exc e w') :
    w'.broken (D.K (ρ x)) (.user x) ∧ w'.vars (.user x) = w.vars (.user x) := by
  obtain ⟨s, hs, hb⟩ := hx
  have hk := KeepsBroken.mix m hv hs hb w hs
  have : w'.vars (.user x) = some s := by
    rcases h with ⟨a, h⟩ | ⟨e, h⟩
    · exact hk.1 a w' h
    · exact hk.2 e w' h
  exact ⟨⟨s, this, hb⟩, by rw [this, hs]⟩

/-- C63, programs: a program that comes to its end leaves it broken. -/
theorem C63_program_no_repair (cs : List (MixCmd V)) (w : World V) (hx : w.broken (D.K (ρ x)) (.user x))
    (h : runConv D ρ cs w = some w') : w'.broken (D.K (ρ x)) (.user x) := by
  induction cs generalizing w with
  | nil => cases h; exact hx
  | cons m cs ih =>
    simp only [runConv] at h
    split at h
    · rename_i hv
      split at h
      · rename_i hm; exact ih _ (C63_no_repair hx m hv (.inl ⟨_, hm⟩)).1 h
      · rename_i hm; exact ih _ (C63_no_repair hx m hv (.inr ⟨_, hm⟩)).1 h
      · cases h
    · exact ih _ hx h

/-! ### Statements -/

/-- The state of all the variables is as it should be, or a variable of the list is broken. -/
def GoodOrBroken (D : Decls V) (ρ : Nat → Nat) (xs : List Nat) (w w' : World V) : Prop :=
  (GoodMix D.K ρ w' ∧ Rest w w' xs) ∨ ∃ x ∈ xs, w'.broken (D.K (ρ x)) (.user x)

/-- C63, statements: from any state between statements, in any configuration, a statement returns or throws, and leaves a state between
statements in which the variables that it does not name are unchanged, or leaves one that it names broken; or it is a statement of
finding F1 that stops at the failed assertion. -/
theorem C63_statement (hs : ∀ vt, BlankOk (D.K vt)) (hD : D.Fits) (hg : GoodMix D.K ρ w) (m : MixCmd V) (hv : m.valid D ρ w = true) :
    Ends (m.code D ρ) w (fun _ => GoodOrBroken D ρ m.names w) (fun _ => GoodOrBroken D ρ m.names w) ∨
      (m.readsBackup w = true ∧ m.code D ρ w = .fault .assertFailed) := by
  cases m with
  | on vt c =>
    simp only [MixCmd.valid, Bool.and_eq_true, List.all_eq_true, beq_iff_eq] at hv
    have hf := framed_code (C := D.K vt) c (Q := fun x => ∃ n, x = .user n ∧ ρ n ≠ vt)
      (by rintro x hx ⟨n, hn', hne⟩; cases hn'; exact hne (hv.1 x hx)) (by rintro n ⟨m, hm, _⟩; cases hm) (hg.only vt) (hg.fr vt)
    have hvo := (GoodMix.valid_only w _ c hv.1).trans hv.2
    have good : ∀ {wh' w' : World V}, Fr (w.foreign ρ vt) (fun x => ∃ n, x = .user n ∧ ρ n ≠ vt) w wh' w' → Good (D.K vt) wh' →
        OthersKept c (w.only ρ vt) wh' → GoodOrBroken D ρ c.names w w' :=
      fun h2 hg' hk => .inl ⟨h2.goodMix hg hg', h2.othersKept hg hk⟩
    have broken : ∀ {wh' w' : World V}, Fr (w.foreign ρ vt) (fun x => ∃ n, x = .user n ∧ ρ n ≠ vt) w wh' w' →
        (∃ x ∈ c.names, wh'.broken (D.K vt) (.user x)) → GoodOrBroken D ρ c.names w w' := by
      rintro wh' w' h2 ⟨x, hx, s, hs, hb⟩
      refine .inr ⟨x, hx, s, ?_, by rw [hv.1 x hx]; exact hb⟩
      exact (h2.aliveVar hs).2
    cases hz : c.readsBackup w with
    | false =>
      rcases wp_elim (wp_step_gen (hs vt) (hg.only vt) c hvo ((hg.readsBackup_only c hv.1).trans hz)) with
        ⟨a, wh', h, h1, h2⟩ | ⟨e, wh', h, -, h1, -, h2⟩
      · rw [h] at hf
        obtain ⟨w', e1, e2⟩ := hf
        exact .inl (.inl ⟨a, w', e1, good e2 h1 h2⟩)
      · rw [h] at hf
        obtain ⟨w', e1, e2⟩ := hf
        refine .inl (.inr ⟨e, w', e1, ?_⟩)
        rcases h2 with h2 | h2
        · exact good e2 h2 h1
        · exact broken e2 h2
    | true =>
      rcases step_hazard_ends (hs vt) (hg.only vt) c hvo ((hg.readsBackup_only c hv.1).trans hz) with
        h | ⟨a, wh', h, h2⟩ | ⟨e, wh', h, h2⟩
      · exact .inr ⟨hz, C52_assertions hg hv.1 h⟩
      · rw [h] at hf
        obtain ⟨w', e1, e2⟩ := hf
        exact .inl (.inl ⟨a, w', e1, broken e2 h2⟩)
      · rw [h] at hf
        obtain ⟨w', e1, e2⟩ := hf
        refine .inl (.inr ⟨e, w', e1, ?_⟩)
        rcases h2 with ⟨h2, h3⟩ | h2
        · exact good e2 h2 h3
        · exact broken e2 h2
  | constructFrom rv const x y =>
    simp only [MixCmd.valid, Bool.and_eq_true, Option.isNone_iff_eq_none] at hv
    obtain ⟨⟨⟨⟨⟨h1, h2⟩, -⟩, -⟩, h3⟩, h4⟩ := hv
    obtain ⟨s, id, j, v, hyo⟩ := hg.alive_owns h2
    obtain ⟨o, ho⟩ := hg.overload_of_valid hD hyo.holds' h3 h4
    rcases C40_in_programs_construction hD hg hyo.holds' ho h1 with ⟨a, w', e1, e2, e3, -⟩ | ⟨e, w', e1, e2, e3, -⟩
    · exact .inl (.inl ⟨a, w', e1, .inl ⟨e2, e3⟩⟩)
    · exact .inl (.inr ⟨e, w', e1, .inl ⟨e2, e3⟩⟩)
  | assignFrom rv const x y =>
    simp only [MixCmd.valid, Bool.and_eq_true, decide_eq_true_eq] at hv
    obtain ⟨⟨⟨⟨⟨h1, h2⟩, hne⟩, -⟩, h3⟩, h4⟩ := hv
    obtain ⟨s, id, j, v, hyo⟩ := hg.alive_owns h2
    obtain ⟨sx, ix, kx, vx, hxo⟩ := hg.alive_owns h1
    obtain ⟨o, ho⟩ := hg.overload_of_valid hD hyo.holds' h3 h4
    have hn := hg.apart hxo hyo (fun e => hne (by rw [e]))
    have good : ∀ {w' : World V} {q : V} {s' : VarSt} {id' k' : Nat} {v' : V},
        Replace (D.K (ρ x)) w w' (upd w.objs id (some (j, q))) (.user x) ix s' id' k' v' → GoodOrBroken D ρ [x, y] w w' := by
      intro w' q s' id' k' v' hr
      refine .inl ⟨hr.goodMix hg hxo (SameTypes.setAt hyo.obj q), fun z hz => ?_⟩
      simp only [List.mem_cons, List.not_mem_nil, or_false, not_or] at hz
      refine ⟨by rw [hr.vars]; simp [hz.1], fun s i hs hi => ?_⟩
      have hi' : i ≠ ix := fun e => hz.1 (hg.inj z x s sx i hs hxo.var hi (e ▸ hxo.rep.contentId))
      rw [hr.keep i (hg.lt_next hs hi) hi', hg.unchanged_upd hyo hz.2 hs hi]
    refine .inl (wp_elim (wp_mono (wp_assignFrom_gen (hs _) hg.toFresh hyo hxo hn ho (hD.index_lt ho) (by simp) (hg.noTmp 0)) ?_ ?_))
    · rintro _ w' ⟨q, s', id', v', -, hr, -⟩
      exact good hr
    · rintro e w' ⟨-, hbr | ⟨q, s', id', k', v', -, -, hr, -⟩⟩
      · exact .inr ⟨x, by simp [MixCmd.names], hbr⟩
      · exact good hr

/-- C63, finding F1 with assertions off: no such statement faults, and one that returns has left a broken variant. -/
theorem C63_backup_source {C : Cfg V} (hd : C.ndebug = true) (hs : BlankOk C) (hg : Good C w) (c : Cmd V) (hz : c.readsBackup w = true) :
    Ends (c.code C) w (fun _ w' => ∃ x ∈ c.names, w'.broken C (.user x))
      (fun _ w' => Good C w' ∨ ∃ x ∈ c.names, w'.broken C (.user x)) := by
  have hl := step_hazard_leaves hg c hz
  rcases wp_elim (step_hazard_no_fault hd hs hg c hz) with ⟨a, w', h, -⟩ | ⟨e, w', h, -⟩
  · exact .inl ⟨a, w', h, hl.1 a w' h⟩
  · refine .inr ⟨e, w', h, ?_⟩
    rcases hl.2 e w' h with h | h
    · exact .inl h.1
    · exact .inr h

/-! ### Programs -/

theorem runConv_good_or_broken (hs : ∀ vt, BlankOk (D.K vt)) (hD : D.Fits) (cs : List (MixCmd V)) (w : World V) (hg : GoodMix D.K ρ w)
    (h : runConv D ρ cs w = some w') :
    ((∀ as bs, cs = as ++ bs → ∃ wa, runConv D ρ as w = some wa ∧ GoodMix D.K ρ wa) ∧
      ∀ x, (∀ m ∈ cs, x ∉ m.names) → w'.vars (.user x) = w.vars (.user x)) ∨
    ∃ m ∈ cs, ∃ x ∈ m.names, w'.broken (D.K (ρ x)) (.user x) := by
  induction cs generalizing w with
  | nil =>
    cases h
    refine .inl ⟨fun as bs he => ⟨_, ?_, hg⟩, fun _ _ => rfl⟩
    obtain ⟨rfl, -⟩ := List.append_eq_nil_iff.mp he.symm
    rfl
  | cons m cs ih =>
    have next : ∀ {w1 : World V}, (∀ cs, runConv D ρ (m :: cs) w = runConv D ρ cs w1) → GoodMix D.K ρ w1 → Rest w w1 m.names →
        ((∀ as bs, m :: cs = as ++ bs → ∃ wa, runConv D ρ as w = some wa ∧ GoodMix D.K ρ wa) ∧
          ∀ x, (∀ m' ∈ m :: cs, x ∉ m'.names) → w'.vars (.user x) = w.vars (.user x)) ∨
        ∃ m' ∈ m :: cs, ∃ x ∈ m'.names, w'.broken (D.K (ρ x)) (.user x) := by
      intro w1 he hg1 hr
      rcases ih w1 hg1 ((he cs).symm.trans h) with ⟨h1, h4⟩ | ⟨m', hm', h1⟩
      · refine .inl ⟨fun as bs hab => ?_, fun x hx => ?_⟩
        · cases as with
          | nil => exact ⟨w, rfl, hg⟩
          | cons a as =>
            cases hab
            obtain ⟨wa, h2, h3⟩ := h1 as bs rfl
            exact ⟨wa, (he as).trans h2, h3⟩
        · rw [h4 x fun m' hm' => hx m' (List.mem_cons_of_mem _ hm'), (hr x (hx m List.mem_cons_self)).1]
      · exact .inr ⟨m', List.mem_cons_of_mem _ hm', h1⟩
    have lost : ∀ {w1 : World V}, (∀ cs, runConv D ρ (m :: cs) w = runConv D ρ cs w1) → (∃ x ∈ m.names, w1.broken (D.K (ρ x)) (.user x)) →
        ∃ m' ∈ m :: cs, ∃ x ∈ m'.names, w'.broken (D.K (ρ x)) (.user x) := by
      rintro w1 he ⟨x, hm, hx⟩
      exact ⟨m, List.mem_cons_self, x, hm, C63_program_no_repair cs w1 hx ((he cs).symm.trans h)⟩
    by_cases hv : m.valid D ρ w = true
    · rcases C63_statement hs hD hg m hv with (⟨a, w1, e1, e2⟩ | ⟨e, w1, e1, e2⟩) | ⟨-, hf⟩
      · have he : ∀ cs, runConv D ρ (m :: cs) w = runConv D ρ cs w1 := fun cs => by simp only [runConv]; rw [if_pos hv, e1]
        rcases e2 with ⟨e2, e3⟩ | e2
        · exact next he e2 e3
        · exact .inr (lost he e2)
      · have he : ∀ cs, runConv D ρ (m :: cs) w = runConv D ρ cs w1 := fun cs => by simp only [runConv]; rw [if_pos hv, e1]
        rcases e2 with ⟨e2, e3⟩ | e2
        · exact next he e2 e3
        · exact .inr (lost he e2)
      · simp only [runConv] at h
        rw [if_pos hv, hf] at h
        cases h
    · exact next (fun cs => by simp only [runConv]; rw [if_neg hv]) hg fun _ _ => ⟨rfl, fun _ _ _ _ => rfl⟩

/-- C63, programs: in any configuration, if a program on variables of any number of variant types comes to its end, then after each
of its statements every live variable was non-empty, and the live objects were exactly the contents of the variables; or one of its
variables is broken at the end. -/
theorem C63_program (hs : ∀ vt, BlankOk (D.K vt)) (hD : D.Fits) (cs : List (MixCmd V)) (h : runConv D ρ cs (World.init V) = some w') :
    (∀ as bs, cs = as ++ bs → ∃ wa, runConv D ρ as (World.init V) = some wa ∧ Owned wa ∧
      ∀ x, wa.vars (.user x) ≠ none → NonEmpty (D.K (ρ x)) wa (.user x)) ∨
    ∃ m ∈ cs, ∃ x ∈ m.names, w'.broken (D.K (ρ x)) (.user x) := by
  rcases runConv_good_or_broken hs hD cs _ goodMix_init h with ⟨h1, -⟩ | h1
  · refine .inl fun as bs he => ?_
    obtain ⟨wa, h2, h3⟩ := h1 as bs he
    exact ⟨wa, h2, h3.owned, fun x hx => h3.nonEmpty hx⟩
  · exact .inr h1

/-- C63, never empty: in any configuration, a program that comes to its end with all its variables destroyed was never empty after any of its
statements, and has left no variable and no object. -/
theorem C63_never_empty (hs : ∀ vt, BlankOk (D.K vt)) (hD : D.Fits) (cs : List (MixCmd V)) (h : runConv D ρ cs (World.init V) = some w')
    (hdead : ∀ m ∈ cs, ∀ x ∈ m.names, w'.vars (.user x) = none) :
    (∀ as bs, cs = as ++ bs → ∃ wa, runConv D ρ as (World.init V) = some wa ∧ Owned wa ∧
      ∀ x, wa.vars (.user x) ≠ none → NonEmpty (D.K (ρ x)) wa (.user x)) ∧
    (∀ x, w'.vars x = none) ∧ ∀ id, w'.objs id = none := by
  rcases runConv_good_or_broken hs hD cs _ goodMix_init h with ⟨h1, h4⟩ | ⟨m, hm, x, hx, s, hs, -⟩
  · obtain ⟨wa, h2, h3⟩ := h1 cs [] (by simp)
    rw [h] at h2; cases h2
    have hv : ∀ x, w'.vars (.user x) = none := by
      intro x
      by_cases hn : ∀ m ∈ cs, x ∉ m.names
      · exact h4 x hn
      · obtain ⟨m, hn⟩ := Classical.not_forall.mp hn
        obtain ⟨hm, hn⟩ := Classical.not_imp.mp hn
        exact hdead m hm x (Classical.not_not.mp hn)
    refine ⟨fun as bs he => ?_, fun x => ?_, fun id => ?_⟩
    · obtain ⟨wa, h5, h6⟩ := h1 as bs he
      exact ⟨wa, h5, h6.owned, fun x hx => h6.nonEmpty hx⟩
    · cases x with
      | user n => exact hv n
      | tmp n => exact h3.noTmp n
    · cases ho : w'.objs id with
      | none => rfl
      | some p =>
        obtain ⟨x, t, hx, -⟩ := h3.noLeak id (by rw [ho]; simp)
        rw [hv x] at hx; cases hx
  · rw [hdead m hm x hx] at hs; cases hs

/-! ### Programs with control flow -/

/-- What a step is: control, the end of the program, the end of a scope, or a statement. -/
theorem step_cases (D : Decls V) (ρ : Nat → Nat) (c : Conf V) :
    (∃ t k, step D ρ c = .conf ⟨t, k, c.w⟩ ∧ (∀ x ∈ scopes c.stack, x ∈ scopes k) ∧ (c.Scoped → (Conf.mk t k c.w).Scoped)) ∨
    (c.stack = [] ∧ ∃ u, step D ρ c = .done u c.w) ∨
    (∃ y t k, c.stack = .ends y :: k ∧ (∀ s, t ≠ .run s) ∧ step D ρ c = endScope D ρ y t k c.w) ∨
    (∃ m, c.ctl = .run (.cmd m) ∧ m.valid D ρ c.w = true ∧
      step D ρ c = match m.code D ρ c.w with
        | .ok _ w' => .conf ⟨.ret, c.stack, w'⟩
        | .exc _ w' => .conf ⟨.unwind, c.stack, w'⟩
        | .fault f => .fault f) := by
  obtain ⟨t, k, w⟩ := c
  have same : ∀ x ∈ scopes k, x ∈ scopes k := fun _ h => h
  cases t with
  | run s =>
    cases s with
    | cmd m =>
      by_cases hv : m.valid D ρ w = true
      · exact .inr (.inr (.inr ⟨m, rfl, hv, by simp only [step]; rw [if_pos hv]; cases m.code D ρ w <;> rfl⟩))
      · exact .inl ⟨.ret, k, by simp only [step]; rw [if_neg hv], same, fun h => ⟨nofun, h.stack, h.alive⟩⟩
    | skip => exact .inl ⟨.ret, k, rfl, same, fun h => ⟨nofun, h.stack, h.alive⟩⟩
    | raise => exact .inl ⟨.unwind, k, rfl, same, fun h => ⟨nofun, h.stack, h.alive⟩⟩
    | seq s t =>
      exact .inl ⟨.run s, .next t :: k, rfl, same, fun h => ⟨fun _ e => by cases e; exact (h.ctl _ rfl).1, ⟨(h.ctl _ rfl).2, h.stack⟩, h.alive⟩⟩
    | cond b s t =>
      cases hb : b w with
      | none => exact .inl ⟨.unwind, k, by simp only [step, hb], same, fun h => ⟨nofun, h.stack, h.alive⟩⟩
      | some r =>
        cases r with
        | true => exact .inl ⟨.run s, k, by simp only [step, hb], same, fun h => ⟨fun _ e => by cases e; exact (h.ctl _ rfl).1, h.stack, h.alive⟩⟩
        | false => exact .inl ⟨.run t, k, by simp only [step, hb], same, fun h => ⟨fun _ e => by cases e; exact (h.ctl _ rfl).2, h.stack, h.alive⟩⟩
    | loop b s =>
      cases hb : b w with
      | none => exact .inl ⟨.unwind, k, by simp only [step, hb], same, fun h => ⟨nofun, h.stack, h.alive⟩⟩
      | some r =>
        cases r with
        | true =>
          exact .inl ⟨.run s, .next (.loop b s) :: k, by simp only [step, hb], same,
            fun h => ⟨fun _ e => by cases e; exact h.ctl (.loop b s) rfl, ⟨h.ctl (.loop b s) rfl, h.stack⟩, h.alive⟩⟩
        | false => exact .inl ⟨.ret, k, by simp only [step, hb], same, fun h => ⟨nofun, h.stack, h.alive⟩⟩
    | guarded s t =>
      exact .inl ⟨.run s, .handler t :: k, rfl, same, fun h => ⟨fun _ e => by cases e; exact (h.ctl _ rfl).1, ⟨(h.ctl _ rfl).2, h.stack⟩, h.alive⟩⟩
    | scope y s =>
      exact .inl ⟨.run s, .ends y :: k, rfl, fun x hx => List.mem_cons_of_mem _ hx,
        fun h => ⟨fun _ e => by cases e; exact (h.ctl _ rfl).2, ⟨(h.ctl _ rfl).1, h.stack⟩, fun x hx => List.mem_cons_of_mem _ (h.alive x hx)⟩⟩
  | ret =>
    cases k with
    | nil => exact .inr (.inl ⟨rfl, _, rfl⟩)
    | cons f k =>
      cases f with
      | next s => exact .inl ⟨.run s, k, rfl, same, fun h => ⟨fun _ e => by cases e; exact h.stack.1, h.stack.2, h.alive⟩⟩
      | handler s => exact .inl ⟨.ret, k, rfl, same, fun h => ⟨nofun, h.stack.2, h.alive⟩⟩
      | ends y => exact .inr (.inr (.inl ⟨y, .ret, k, rfl, nofun, rfl⟩))
  | unwind =>
    cases k with
    | nil => exact .inr (.inl ⟨rfl, _, rfl⟩)
    | cons f k =>
      cases f with
      | next s => exact .inl ⟨.unwind, k, rfl, same, fun h => ⟨nofun, h.stack.2, h.alive⟩⟩
      | handler s => exact .inl ⟨.run s, k, rfl, same, fun h => ⟨fun _ e => by cases e; exact h.stack.1, h.stack.2, h.alive⟩⟩
      | ends y => exact .inr (.inr (.inl ⟨y, .unwind, k, rfl, nofun, rfl⟩))

/-- `~variant` at the end of a scope, in any configuration. -/
theorem endScope_gen (hs : ∀ vt, BlankOk (D.K vt)) (hD : D.Fits) (hg : GoodMix D.K ρ w) (t : Ctl V) (k : List (Frame V)) :
    ∃ w', endScope D ρ x t k w = .conf ⟨t, k, w'⟩ ∧ GoodMix D.K ρ w' ∧ w'.vars (.user x) = none ∧ Rest w w' [x] := by
  unfold endScope
  cases hx : (w.vars (.user x)).isSome with
  | false => exact ⟨w, by rw [if_neg (by simp)], hg, by simpa using hx, fun z _ => ⟨rfl, fun _ _ _ _ => rfl⟩⟩
  | true =>
    rw [if_pos rfl]
    obtain ⟨s, id, k', v, ho⟩ := hg.alive_owns hx
    have h := wp_destroyVar_intro (Q := fun _ w' => w' = { w with objs := upd w.objs id none, vars := upd w.vars (.user x) none })
      (E := fun _ _ => False) ho hg.flat rfl
    have hval : (MixCmd.on (ρ x) (.destroy x) : MixCmd V).valid D ρ w = true := by
      simpa [MixCmd.valid, Cmd.names, Cmd.valid] using hx
    rcases wp_elim h with ⟨a, w', h1, h2⟩ | ⟨e, w', h1, h2⟩
    · have hv : w'.vars (.user x) = none := by rw [h2]; exact upd_same _ _ _
      refine ⟨w', by rw [h1], ?_⟩
      rcases C63_statement hs hD hg _ hval with (⟨b, w2, e1, e2⟩ | ⟨b, w2, e1, -⟩) | ⟨-, e1⟩
      · have := h1.symm.trans e1
        cases this
        rcases e2 with ⟨e2, e3⟩ | ⟨z, hz, s, hs, -⟩
        · exact ⟨e2, hv, e3⟩
        · obtain rfl : z = x := by simpa [MixCmd.names, Cmd.names] using hz
          rw [hv] at hs; cases hs
      · have := h1.symm.trans e1
        cases this
      · have := h1.symm.trans e1
        cases this
    · exact h2.elim

/-- A step in a state with a broken variable. -/
theorem step_broken (hx : c.w.broken (D.K (ρ x)) (.user x)) :
    (∀ c', step D ρ c = .conf c' → c'.w.broken (D.K (ρ x)) (.user x) ∧ (x ∈ scopes c.stack → x ∈ scopes c'.stack)) ∧
    (∀ u w', step D ρ c = .done u w' → w'.broken (D.K (ρ x)) (.user x) ∧ x ∉ scopes c.stack) := by
  rcases step_cases D ρ c with ⟨t, k, h, hk, -⟩ | ⟨hk, u, h⟩ | ⟨y, t, k, hk, -, h⟩ | ⟨m, -, hv, h⟩ <;> rw [h]
  · refine ⟨fun c' e => ?_, nofun⟩
    cases e
    exact ⟨hx, hk x⟩
  · refine ⟨nofun, fun u w' e => ?_⟩
    cases e
    exact ⟨hx, by rw [hk]; exact List.not_mem_nil⟩
  · unfold endScope
    by_cases hy : (c.w.vars (.user y)).isSome = true
    · rw [if_pos hy]
      by_cases hxy : y = x
      · subst hxy
        rw [C63_destroy hx]
        exact ⟨nofun, nofun⟩
      · obtain ⟨s, hs, hb⟩ := hx
        have hk' := KeepsBroken.destroyVar (C := D.K (ρ y)) (x := .user x) (l := .user y) (s := s) (by simpa using Ne.symm hxy) c.w hs
        split
        · rename_i w1 h1
          refine ⟨fun c' e => ?_, nofun⟩
          cases e
          refine ⟨⟨s, hk'.1 _ _ h1, hb⟩, fun hm => ?_⟩
          rw [hk] at hm
          exact (List.mem_cons.mp hm).resolve_left (Ne.symm hxy)
        · exact ⟨nofun, nofun⟩
        · exact ⟨nofun, nofun⟩
    · rw [if_neg hy]
      have hxy : x ≠ y := by
        rintro rfl
        obtain ⟨s, hs, -⟩ := hx
        rw [hs] at hy; exact hy rfl
      refine ⟨fun c' e => ?_, nofun⟩
      cases e
      refine ⟨hx, fun hm => ?_⟩
      rw [hk] at hm
      exact (List.mem_cons.mp hm).resolve_left hxy
  · split
    · rename_i hm
      refine ⟨fun c' e => ?_, nofun⟩
      cases e
      exact ⟨(C63_no_repair hx m hv (.inl ⟨_, hm⟩)).1, fun h => h⟩
    · rename_i hm
      refine ⟨fun c' e => ?_, nofun⟩
      cases e
      exact ⟨(C63_no_repair hx m hv (.inr ⟨_, hm⟩)).1, fun h => h⟩
    · exact ⟨nofun, nofun⟩

/-- C63, control flow: a broken variable stays broken through any number of steps, whatever the program does, and the program
never gets out of its scope: it ends, if it ends, in a fault. -/
theorem C63_no_way_out (n : Nat) (c : Conf V) (hx : c.w.broken (D.K (ρ x)) (.user x)) :
    (∀ w', (steps D ρ n c).world = some w' → w'.broken (D.K (ρ x)) (.user x)) ∧
    (x ∈ scopes c.stack → ∀ u w', steps D ρ n c ≠ .done u w') := by
  induction n generalizing c with
  | zero => exact ⟨fun w' h => by cases h; exact hx, fun _ => nofun⟩
  | succ n ih =>
    have h := step_broken hx
    simp only [steps]
    cases hst : step D ρ c with
    | conf c' =>
      obtain ⟨h1, h2⟩ := h.1 c' hst
      exact ⟨(ih c' h1).1, fun hm => (ih c' h1).2 (h2 hm)⟩
    | done u w2 =>
      obtain ⟨h1, h2⟩ := h.2 u w2 hst
      exact ⟨fun w' e => by cases e; exact h1, fun hm => absurd hm h2⟩
    | fault f => exact ⟨nofun, fun _ => nofun⟩

/-- A step from a state between statements, in any configuration. -/
theorem step_good_or_broken (hs : ∀ vt, BlankOk (D.K vt)) (hD : D.Fits) (hg : GoodMix D.K ρ c.w) :
    (∀ c', step D ρ c = .conf c' → (GoodMix D.K ρ c'.w ∧ (c.Scoped → c'.Scoped)) ∨
      ∃ x, c'.w.broken (D.K (ρ x)) (.user x) ∧ (c.Scoped → x ∈ scopes c'.stack)) ∧
    (∀ u w', step D ρ c = .done u w' → GoodMix D.K ρ w' ∧ (c.Scoped → ∀ x, w'.vars (.user x) = none)) := by
  rcases step_cases D ρ c with ⟨t, k, h, -, hsc⟩ | ⟨hk, u, h⟩ | ⟨y, t, k, hk, ht, h⟩ | ⟨m, hc, hv, h⟩ <;> rw [h]
  · refine ⟨fun c' e => ?_, nofun⟩
    cases e
    exact .inl ⟨hg, hsc⟩
  · refine ⟨nofun, fun u w' e => ?_⟩
    cases e
    refine ⟨hg, fun hsc x => ?_⟩
    cases hx : c.w.vars (.user x) with
    | none => rfl
    | some s => exact absurd (hsc.alive x (by simp [hx])) (by rw [hk]; simp [scopes])
  · obtain ⟨w', e1, e2, e3, e4⟩ := endScope_gen (x := y) hs hD hg t k
    rw [e1]
    refine ⟨fun c' e => ?_, nofun⟩
    cases e
    refine .inl ⟨e2, fun hsc => ⟨fun s hs' => absurd hs' (ht s), ?_, fun x hx => ?_⟩⟩
    · have := hsc.stack
      rw [hk] at this
      exact this.2
    · by_cases hxy : x = y
      · exact absurd (hxy ▸ e3) hx
      · have := hsc.alive x (by rw [← (e4 x (by simpa using hxy)).1]; exact hx)
        rw [hk] at this
        exact (List.mem_cons.mp this).resolve_left hxy
  · have fin : ∀ {w1 : World V} (t : Ctl V), (∀ s, t ≠ .run s) → GoodOrBroken D ρ m.names c.w w1 →
        (GoodMix D.K ρ w1 ∧ (c.Scoped → (Conf.mk t c.stack w1).Scoped)) ∨
          ∃ x, w1.broken (D.K (ρ x)) (.user x) ∧ (c.Scoped → x ∈ scopes c.stack) := by
      rintro w1 t ht (⟨e2, e3⟩ | ⟨x, hm, e2⟩)
      · refine .inl ⟨e2, fun hsc => ⟨fun s hs' => absurd hs' (ht s), hsc.stack, fun x hx => ?_⟩⟩
        by_cases hm : x ∈ m.names
        · exact hsc.ctl _ hc x hm
        · exact hsc.alive x (by rw [← (e3 x hm).1]; exact hx)
      · exact .inr ⟨x, e2, fun hsc => hsc.ctl _ hc x hm⟩
    rcases C63_statement hs hD hg m hv with (⟨a, w1, e1, e2⟩ | ⟨e, w1, e1, e2⟩) | ⟨-, e1⟩ <;> rw [e1]
    · refine ⟨fun c' e => ?_, nofun⟩
      cases e
      exact fin .ret nofun e2
    · refine ⟨fun c' e => ?_, nofun⟩
      cases e
      exact fin .unwind nofun e2
    · exact ⟨nofun, nofun⟩

theorem steps_good_or_broken (hs : ∀ vt, BlankOk (D.K vt)) (hD : D.Fits) (n : Nat) (c : Conf V) (hg : GoodMix D.K ρ c.w)
    (hw : (steps D ρ n c).world = some w') :
    (GoodMix D.K ρ w' ∧ ∀ m c', m ≤ n → steps D ρ m c = .conf c' → GoodMix D.K ρ c'.w) ∨ ∃ x, w'.broken (D.K (ρ x)) (.user x) := by
  induction n generalizing c with
  | zero =>
    cases hw
    refine .inl ⟨hg, fun m c' hm h => ?_⟩
    obtain rfl : m = 0 := by omega
    cases h; exact hg
  | succ n ih =>
    have h := step_good_or_broken hs hD hg
    simp only [steps] at hw
    cases hst : step D ρ c with
    | conf c1 =>
      rw [hst] at hw
      rcases h.1 c1 hst with ⟨h1, -⟩ | ⟨x, h1, -⟩
      · rcases ih c1 h1 hw with ⟨h2, h3⟩ | h2
        · refine .inl ⟨h2, fun m c' hm he => ?_⟩
          cases m with
          | zero => cases he; exact hg
          | succ m =>
            simp only [steps, hst] at he
            exact h3 m c' (by omega) he
        · exact .inr h2
      · exact .inr ⟨x, (C63_no_way_out n c1 h1).1 w' hw⟩
    | done u w2 =>
      rw [hst] at hw
      cases hw
      refine .inl ⟨(h.2 u _ hst).1, fun m c' hm he => ?_⟩
      cases m with
      | zero => cases he; exact hg
      | succ m => simp only [steps, hst] at he; cases he
    | fault f => rw [hst] at hw; cases hw

/-- C63, every program: in any configuration, after any number of steps of any program without a fault, every live variable was non-empty in every
state on the way, and the live objects were exactly the contents of the variables; or a variable is broken now. -/
theorem C63_every_program (hs : ∀ vt, BlankOk (D.K vt)) (hD : D.Fits) (s : Stm V) (n : Nat)
    (hw : (steps D ρ n (s.start (World.init V))).world = some w') :
    (∀ m c, m ≤ n → steps D ρ m (s.start (World.init V)) = .conf c → Owned c.w ∧
      ∀ x, c.w.vars (.user x) ≠ none → NonEmpty (D.K (ρ x)) c.w (.user x)) ∨
    ∃ x, w'.broken (D.K (ρ x)) (.user x) := by
  rcases steps_good_or_broken hs hD n (s.start (World.init V)) goodMix_init hw with ⟨-, h⟩ | h
  · exact .inl fun m c hm hc => ⟨(h m c hm hc).owned, fun x hx => (h m c hm hc).nonEmpty hx⟩
  · exact .inr h

theorem steps_done (hs : ∀ vt, BlankOk (D.K vt)) (hD : D.Fits) (n : Nat) (c : Conf V) (hg : GoodMix D.K ρ c.w) (hsc : c.Scoped) {u : Bool}
    (he : steps D ρ n c = .done u w') :
    GoodMix D.K ρ w' ∧ (∀ x, w'.vars (.user x) = none) ∧ ∀ m c', steps D ρ m c = .conf c' → GoodMix D.K ρ c'.w := by
  induction n generalizing c with
  | zero => cases he
  | succ n ih =>
    have h := step_good_or_broken hs hD hg
    simp only [steps] at he
    cases hst : step D ρ c with
    | conf c1 =>
      rw [hst] at he
      rcases h.1 c1 hst with ⟨h1, h2⟩ | ⟨x, h1, h2⟩
      · obtain ⟨e1, e2, e3⟩ := ih c1 h1 (h2 hsc) he
        refine ⟨e1, e2, fun m c' hm => ?_⟩
        cases m with
        | zero => cases hm; exact hg
        | succ m => simp only [steps, hst] at hm; exact e3 m c' hm
      · exact absurd he ((C63_no_way_out n c1 h1).2 (h2 hsc) u w')
    | done u2 w2 =>
      rw [hst] at he
      cases he
      obtain ⟨e1, e2⟩ := h.2 _ _ hst
      refine ⟨e1, e2 hsc, fun m c' hm => ?_⟩
      cases m with
      | zero => cases hm; exact hg
      | succ m => simp only [steps, hst] at hm; cases hm
    | fault f => rw [hst] at he; cases he

/-- C63, scopes: in any configuration, a program with scoped variables that ends, normally or by an exception that nothing catches, was
never empty: in every state on the way every live variable was non-empty and the live objects were exactly the contents of the variables;
and it has left no variable and no object. -/
theorem C63_scoped_program (hs : ∀ vt, BlankOk (D.K vt)) (hD : D.Fits) (s : Stm V) (hsc : s.scoped []) {n : Nat} {u : Bool}
    (he : steps D ρ n (s.start (World.init V)) = .done u w') :
    (∀ m c, steps D ρ m (s.start (World.init V)) = .conf c → Owned c.w ∧
      ∀ x, c.w.vars (.user x) ≠ none → NonEmpty (D.K (ρ x)) c.w (.user x)) ∧
    (∀ x, w'.vars x = none) ∧ ∀ id, w'.objs id = none := by
  obtain ⟨h1, h2, h3⟩ := steps_done hs hD n (s.start (World.init V)) goodMix_init
    ⟨fun t ht => by cases ht; exact hsc, trivial, fun x hx => absurd rfl hx⟩ he
  refine ⟨fun m c hc => ⟨(h3 m c hc).owned, fun x hx => (h3 m c hc).nonEmpty hx⟩, fun x => ?_, fun id => ?_⟩
  · cases x with
    | user n => exact h2 n
    | tmp n => exact h1.noTmp n
  · cases ho : w'.objs id with
    | none => rfl
    | some p =>
      obtain ⟨x, t, hx, -⟩ := h1.noLeak id (by rw [ho]; simp)
      rw [h2 x] at hx; cases hx

end

/-! ### Examples -/

/-- A variant type with finding F2 (a type that is nothrow copyable but not nothrow movable) and one with finding F10 (a fallback
type that is not trivially default constructible), assertions off. The operations number 6 and 18 throw. -/
def exBadK (vt : Nat) : Cfg Nat :=
  { exCfg (if vt = 0 then [tCopyOnly, tThrowing] else [tString, tThrowing]) [6, 18] with ndebug := true }

theorem exBadK_blank (vt : Nat) : BlankOk (exBadK vt) := by
  unfold exBadK
  by_cases h : vt = 0 <;> simp only [h, if_true, if_false] <;> intro t ht hb <;>
    simp only [exCfg, List.mem_cons, List.not_mem_nil, or_false] at ht <;> rcases ht with rfl | rfl <;> cases hb

/-- They are `variant<class 3, class 4>` and `variant<class 5, class 4>`. -/
def exBadDecls : Decls Nat where
  K := exBadK
  L := exLang
  cls vt := if vt = 0 then ⟨20, [.val (tyN 3), .val (tyN 4)]⟩ else ⟨21, [.val (tyN 5), .val (tyN 4)]⟩
  cv _ _ := exConv

theorem exBadDecls_fits : exBadDecls.Fits := by
  intro vt
  unfold exBadDecls exBadK
  by_cases h : vt = 0 <;> simp only [h, if_true, if_false] <;> rfl

/-- Variables 0 and 1 are of the first type, 2 and 3 of the second. -/
def exBadR (x : Nat) : Nat := if x < 2 then 0 else 1

/-- The assignment of variable 1 to variable 0 fails. -/
def exBad0 : List (MixCmd Nat) := [.on 0 (.constructC 0 0 5), .on 0 (.constructC 1 1 7), .on 0 (.copyAssign 0 1)]

/-- The state after it: variable 0 is broken (F2). -/
def exBadW : World Nat := (runConv exBadDecls exBadR exBad0 (World.init Nat)).getD (World.init Nat)

theorem exBadW_run : runConv exBadDecls exBadR exBad0 (World.init Nat) = some exBadW := by
  have h : (runConv exBadDecls exBadR exBad0 (World.init Nat)).isSome = true := by decide +kernel
  obtain ⟨w, hw⟩ := Option.isSome_iff_exists.mp h
  rw [exBadW, hw]; rfl

theorem exBadW_broken : exBadW.broken (exBadDecls.K (exBadR 0)) (.user 0) :=
  ⟨⟨-1, .holder 0 (some 4)⟩, by decide +kernel, .inBackup 0 _ (by decide) (by decide) nofun⟩

example := C63_visit exBadW_broken (α := Unit) ⟨fun _ _ => pure (), fun _ _ => pure ()⟩
example := C63_destroy exBadW_broken
example := C63_use (w' := exBadW) exBadW_broken (.on 0 (.copyAssign 1 0)) (by decide +kernel) (by decide) ()
example := C63_program_no_repair (w' := exBadW) [] exBadW exBadW_broken rfl

/-- An assignment between other variables goes on as if nothing had happened. -/
example : ∃ w', runConv exBadDecls exBadR [.on 1 (.constructC 2 0 5), .on 1 (.constructC 3 1 7), .on 1 (.moveAssign 2 3)] exBadW = some w' ∧
    w'.broken (exBadDecls.K (exBadR 0)) (.user 0) := by
  have h : (runConv exBadDecls exBadR [.on 1 (.constructC 2 0 5), .on 1 (.constructC 3 1 7), .on 1 (.moveAssign 2 3)] exBadW).isSome = true := by
    decide +kernel
  obtain ⟨w, hw⟩ := Option.isSome_iff_exists.mp h
  exact ⟨w, hw, C63_program_no_repair _ _ exBadW_broken hw⟩

example := C63_no_repair (w' := exBadW) exBadW_broken (.on 1 (.constructC 2 0 5)) (by decide +kernel)

example := C63_program exBadK_blank exBadDecls_fits exBad0 exBadW_run
example := C63_statement (ρ := exBadR) exBadK_blank exBadDecls_fits goodMix_init (.on 0 (.constructC 0 0 5)) (by decide +kernel)

/-- Finding F1 with assertions off: variable 0 is in a heap backup. -/
def exF1 : Cfg Nat := { exTwo with ndebug := true }

theorem exF1_sane : Sane exF1 := ⟨exTwo_sane.blank, exTwo_sane.copyMove, exTwo_sane.fallback⟩

def exF1W : World Nat :=
  (run exF1 [.constructC 0 0 5, .constructC 1 1 7, .copyAssign 0 1, .constructC 2 1 3] (World.init Nat)).getD (World.init Nat)

theorem exF1W_good : Good exF1 exF1W := by
  obtain ⟨w, hw, hg⟩ := run_good exF1_sane [.constructC 0 0 5, .constructC 1 1 7, .copyAssign 0 1, .constructC 2 1 3] (World.init Nat) good_init
    (by decide +kernel)
  rw [exF1W, hw]; exact hg

example := C63_backup_source rfl exF1_sane.blank exF1W_good (.copyAssign 2 0) (by decide +kernel)
example := C63_backup_source rfl exF1_sane.blank exF1W_good (.swap 0 2) (by decide +kernel)

/-- Both return. -/
example : (match Cmd.code exF1 (.copyAssign 2 0) exF1W with | .ok .. => true | _ => false) = true ∧
    (match Cmd.code exF1 (.swap 0 2) exF1W with | .ok .. => true | _ => false) = true := by decide +kernel

/-- A program in which no failed assignment breaks a variable, and that destroys its variables. -/
def exFineProg : List (MixCmd Nat) :=
  [.on 0 (.constructC 0 0 5), .on 0 (.constructC 1 1 7), .on 1 (.constructC 2 1 4), .on 0 (.copyAssign 0 1), .on 1 (.moveConstruct 3 2),
   .on 0 (.destroy 0), .on 0 (.destroy 1), .on 1 (.destroy 2), .on 1 (.destroy 3)]

def exFine : World Nat := (runConv exBadDecls exBadR exFineProg (World.init Nat)).getD (World.init Nat)

theorem exFine_run : runConv exBadDecls exBadR exFineProg (World.init Nat) = some exFine := by
  have h : (runConv exBadDecls exBadR exFineProg (World.init Nat)).isSome = true := by decide +kernel
  obtain ⟨w, hw⟩ := Option.isSome_iff_exists.mp h
  rw [exFine, hw]; rfl

example := C63_never_empty exBadK_blank exBadDecls_fits exFineProg exFine_run (by decide +kernel)

/-- The same configuration, with scopes: the assignment in the `try` block is executed only if `b` says so. -/
def exScoped (b : Bool) : Stm Nat :=
  .scope 0 (.scope 1 (.seq (.cmd (.on 0 (.constructC 0 0 5))) (.seq (.cmd (.on 0 (.constructC 1 1 7)))
    (.seq (.cond (fun _ => some b) (.guarded (.cmd (.on 0 (.copyAssign 0 1))) .skip) .skip)
      (.scope 2 (.seq (.cmd (.on 1 (.constructC 2 1 4))) .raise))))))

theorem exScoped_scoped (b : Bool) : (exScoped b).scoped [] := by
  simp [exScoped, Stm.scoped, MixCmd.names, Cmd.names]

/-- Without it the program ends, by the exception of its last statement; with it it breaks variable 0 and dies at the end of its scope. -/
example : (match steps exBadDecls exBadR 60 ((exScoped false).start (World.init Nat)) with | .done u _ => u | _ => false) = true ∧
    (match steps exBadDecls exBadR 60 ((exScoped true).start (World.init Nat)) with | .fault f => decide (f = .ub) | _ => false) = true := by
  decide +kernel

example {w : World Nat} (h : steps exBadDecls exBadR 60 ((exScoped false).start (World.init Nat)) = .done true w) :=
  C63_scoped_program exBadK_blank exBadDecls_fits (exScoped false) (exScoped_scoped false) h

/-- The state in which it goes on after the handler. -/
example : ∃ c, steps exBadDecls exBadR 14 ((exScoped true).start (World.init Nat)) = .conf c ∧ c.w.broken (exBadDecls.K (exBadR 0)) (.user 0) ∧
    ∀ n u w, steps exBadDecls exBadR n c ≠ .done u w := by
  cases h : steps exBadDecls exBadR 14 ((exScoped true).start (World.init Nat)) with
  | conf c =>
    have h1 : (match steps exBadDecls exBadR 14 ((exScoped true).start (World.init Nat)) with
        | .conf c => decide (c.w.vars (.user 0) = some ⟨-1, .holder 0 (some 4)⟩ ∧ 0 ∈ scopes c.stack)
        | _ => false) = true := by decide +kernel
    rw [h] at h1
    simp only [decide_eq_true_eq] at h1
    have hb : c.w.broken (exBadDecls.K (exBadR 0)) (.user 0) := ⟨_, h1.1, .inBackup 0 _ (by decide) (by decide) nofun⟩
    exact ⟨c, rfl, hb, fun n => (C63_no_way_out n c hb).2 h1.2⟩
  | done u w =>
    have h1 : (match steps exBadDecls exBadR 14 ((exScoped true).start (World.init Nat)) with | .conf _ => true | _ => false) = true := by
      decide +kernel
    rw [h] at h1; cases h1
  | fault f =>
    have h1 : (match steps exBadDecls exBadR 14 ((exScoped true).start (World.init Nat)) with | .conf _ => true | _ => false) = true := by
      decide +kernel
    rw [h] at h1; cases h1

example {w : World Nat} (h : (steps exBadDecls exBadR 14 ((exScoped true).start (World.init Nat))).world = some w) :=
  C63_every_program exBadK_blank exBadDecls_fits (exScoped true) 14 h

end BVariant
