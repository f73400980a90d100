/-
C01, C13, C14, C52 and C59 with assertions on, for all programs with variables of several variant types: without a condition on what
statements the program reaches.
-/
import Verif.Props.Structured
import Verif.Props.Asserted

namespace BVariant

section
variable {V : Type} {D : Decls V} {ρ : Nat → Nat} {w w' : World V} {c : Conf V}

/-- C52 and failed assertions: a statement on variables of one type that stops at a failed assertion if no variable of another type
exists stops at it in any case. -/
theorem C52_assertions {K : Nat → Cfg V} {vt : Nat} (hg : GoodMix K ρ w) {c : Cmd V} (hn : ∀ x ∈ c.names, ρ x = vt)
    (h : c.code (K vt) (w.only ρ vt) = .fault .assertFailed) : c.code (K vt) w = .fault .assertFailed := by
  have hf := framed_code (C := K vt) c (Q := fun x => ∃ n, x = .user n ∧ ρ n ≠ vt)
    (by rintro x hx ⟨n, hn', hne⟩; cases hn'; exact hne (hn x hx)) (by rintro n ⟨m, hm, _⟩; cases hm) (hg.only vt) (hg.fr vt)
  rw [h] at hf
  exact hf rfl

/-- A statement of finding F1, with assertions on. -/
theorem mix_hazard (hd : ∀ vt, (D.K vt).ndebug = false) (hg : GoodMix D.K ρ w) (m : MixCmd V) (hv : m.valid D ρ w = true)
    (hz : m.readsBackup w = true) :
    m.code D ρ w = .fault .assertFailed ∨
      ∃ e w', m.code D ρ w = .exc e w' ∧ GoodMix D.K ρ w' ∧ Rest w w' m.names := by
  cases m with
  | on vt c =>
    simp only [MixCmd.valid, Bool.and_eq_true, List.all_eq_true, beq_iff_eq] at hv
    rcases step_hazard (hd vt) (hg.only vt) c ((GoodMix.valid_only w _ c hv.1).trans hv.2) ((hg.readsBackup_only c hv.1).trans hz) with
      h | ⟨e, wh', h, hg', hk, -⟩
    · exact .inl (C52_assertions hg hv.1 h)
    · have hf := framed_code (C := D.K vt) c (Q := fun x => ∃ n, x = .user n ∧ ρ n ≠ vt)
        (by rintro x hx ⟨n, hn', hne⟩; cases hn'; exact hne (hv.1 x hx)) (by rintro n ⟨m, hm, _⟩; cases hm) (hg.only vt) (hg.fr vt)
      rw [h] at hf
      obtain ⟨w', h1, h2⟩ := hf
      exact .inr ⟨e, w', h1, h2.goodMix hg hg', h2.othersKept hg hk⟩
  | constructFrom => cases hz
  | assignFrom => cases hz

/-- C01, C13 and C14 with assertions on (scope: `Sane`), for every statement on variables of any number of variant types, conversions included:
from any state between statements it returns or throws, keeps the invariant of all the variables, and changes none that it does not name; or
it is a statement of finding F1 and stops at the failed assertion. -/
theorem C01_statement_with_conversions_asserted_partial (hs : ∀ vt, Sane (D.K vt)) (hD : D.Fits)
    (hd : ∀ vt, (D.K vt).ndebug = false) (hg : GoodMix D.K ρ w) (m : MixCmd V) (hv : m.valid D ρ w = true) :
    Ends (m.code D ρ) w (fun _ w' => GoodMix D.K ρ w' ∧ Rest w w' m.names) (fun _ w' => GoodMix D.K ρ w' ∧ Rest w w' m.names) ∨
      (m.readsBackup w = true ∧ m.code D ρ w = .fault .assertFailed) := by
  cases hz : m.readsBackup w with
  | false => exact .inl (C01_statement_with_conversions_partial hs hD hg m hv hz)
  | true =>
    rcases mix_hazard hd hg m hv hz with h | ⟨e, w', h1, h2⟩
    · exact .inr ⟨rfl, h⟩
    · exact .inl (.inr ⟨e, w', h1, h2⟩)

/-- One step, with assertions on. -/
theorem step_spec_asserted (hs : ∀ vt, Sane (D.K vt)) (hD : D.Fits) (hd : ∀ vt, (D.K vt).ndebug = false) (hg : GoodMix D.K ρ c.w) :
    (∃ w' cs, (step D ρ c).world = some w' ∧ GoodMix D.K ρ w' ∧ runConv D ρ cs c.w = some w') ∨
      (c.readsBackup D ρ = true ∧ step D ρ c = .fault .assertFailed) := by
  cases hz : c.readsBackup D ρ with
  | false =>
    obtain ⟨w', cs, h1, h2, h3, -⟩ := step_spec hs hD hg hz
    exact .inl ⟨w', cs, h1, h2, h3⟩
  | true =>
    obtain ⟨t, k, w⟩ := c
    unfold Conf.readsBackup at hz
    split at hz
    · rename_i m ht
      simp only at ht
      subst ht
      simp only [Bool.and_eq_true] at hz
      rcases mix_hazard hd hg m hz.1 hz.2 with h | ⟨e, w', h1, h2, -⟩
      · refine .inr ⟨rfl, ?_⟩
        simp only [step]; rw [if_pos hz.1, h]
      · refine .inl ⟨w', [m], ?_, h2, ?_⟩
        · simp only [step]; rw [if_pos hz.1, h1]; rfl
        · rw [runConv, if_pos hz.1, h1]; rfl
    · cases hz

theorem step_scoped_asserted (hs : ∀ vt, Sane (D.K vt)) (hD : D.Fits) (hd : ∀ vt, (D.K vt).ndebug = false) (hg : GoodMix D.K ρ c.w)
    (h : c.Scoped) :
    (∀ c', step D ρ c = .conf c' → c'.Scoped) ∧ (∀ u w, step D ρ c = .done u w → ∀ x, w.vars (.user x) = none) := by
  cases hz : c.readsBackup D ρ with
  | false => exact step_scoped hs hD hg hz h
  | true =>
    obtain ⟨t, k, w⟩ := c
    obtain ⟨h1, h2, h3⟩ := h
    unfold Conf.readsBackup at hz
    split at hz
    · rename_i m ht
      simp only at ht
      subst ht
      simp only [Bool.and_eq_true] at hz
      have hst : step D ρ ⟨.run (.cmd m), k, w⟩ = .fault .assertFailed ∨
          ∃ w', step D ρ ⟨.run (.cmd m), k, w⟩ = .conf ⟨.unwind, k, w'⟩ ∧ Rest w w' m.names := by
        rcases mix_hazard hd hg m hz.1 hz.2 with h | ⟨e, w', e1, e2, e3⟩
        · left; simp only [step]; rw [if_pos hz.1, h]
        · right; refine ⟨w', ?_, e3⟩; simp only [step]; rw [if_pos hz.1, e1]
      rcases hst with h | ⟨w', h, hr⟩
      · exact ⟨(fun c' hc => by rw [h] at hc; cases hc), (fun u w hc => by rw [h] at hc; cases hc)⟩
      · refine ⟨fun c' hc => ?_, (fun u w hc => by rw [h] at hc; cases hc)⟩
        rw [h] at hc; cases hc
        refine ⟨nofun, h2, fun x hx => ?_⟩
        by_cases hm : x ∈ m.names
        · exact h1 _ rfl x hm
        · exact h3 x (by rw [← (hr x hm).1]; exact hx)
    · cases hz

/-- Any number of steps, with assertions on. -/
theorem steps_spec_asserted (hs : ∀ vt, Sane (D.K vt)) (hD : D.Fits) (hd : ∀ vt, (D.K vt).ndebug = false) (n : Nat) (c : Conf V)
    (hg : GoodMix D.K ρ c.w) :
    (∃ w' cs, (steps D ρ n c).world = some w' ∧ GoodMix D.K ρ w' ∧ runConv D ρ cs c.w = some w') ∨
      (steps D ρ n c = .fault .assertFailed ∧
        ∃ m c', steps D ρ m c = .conf c' ∧ GoodMix D.K ρ c'.w ∧ c'.readsBackup D ρ = true ∧ step D ρ c' = .fault .assertFailed) := by
  induction n generalizing c with
  | zero => exact .inl ⟨c.w, [], rfl, hg, rfl⟩
  | succ n ih =>
    rcases step_spec_asserted hs hD hd hg with ⟨w', cs, h1, h2, h3⟩ | ⟨hz, h⟩
    · cases hst : step D ρ c with
      | conf c' =>
        rw [hst] at h1
        obtain rfl : c'.w = w' := by simpa [Next.world] using h1
        simp only [steps, hst]
        rcases ih c' h2 with ⟨w2, cs2, e1, e2, e3⟩ | ⟨e1, m, c2, e2, e3⟩
        · exact .inl ⟨w2, cs ++ cs2, e1, e2, by rw [runConv_append, h3]; exact e3⟩
        · exact .inr ⟨e1, m + 1, c2, by simp only [steps, hst]; exact e2, e3⟩
      | done u w2 =>
        rw [hst] at h1
        exact .inl ⟨w', cs, by simp only [steps, hst]; exact h1, h2, h3⟩
      | fault f => rw [hst] at h1; cases h1
    · exact .inr ⟨by simp only [steps, h], 0, c, rfl, hg, hz, h⟩

theorem steps_scoped_asserted (hs : ∀ vt, Sane (D.K vt)) (hD : D.Fits) (hd : ∀ vt, (D.K vt).ndebug = false) (n : Nat) (c : Conf V)
    (hg : GoodMix D.K ρ c.w) (h : c.Scoped) {u : Bool} {w' : World V} (he : steps D ρ n c = .done u w') :
    ∀ x, w'.vars (.user x) = none := by
  induction n generalizing c with
  | zero => cases he
  | succ n ih =>
    have hsc := step_scoped_asserted hs hD hd hg h
    simp only [steps] at he
    rcases step_spec_asserted hs hD hd hg with ⟨w2, cs, h1, h2, -⟩ | ⟨-, hf⟩
    · cases hst : step D ρ c with
      | conf c' =>
        rw [hst] at h1 he
        obtain rfl : c'.w = w2 := by simpa [Next.world] using h1
        exact ih c' h2 (hsc.1 c' hst) he
      | done u2 w3 => rw [hst] at he; cases he; exact hsc.2 _ _ hst
      | fault f => rw [hst] at he; cases he
    · rw [hf] at he; cases he

/-- C59 never empty, with assertions on (scope: `Sane`), for every program whatsoever: after any number of steps every live variable is non-empty
for its type and the live objects are exactly the contents of the variables; or the program has stopped at the failed assertion of a
statement of finding F1, in a state in which all this holds.
Missing for the full claim: findings F2 and F10, and that the statements of F1 work. -/
theorem C59_never_empty_asserted_partial (hs : ∀ vt, Sane (D.K vt)) (hD : D.Fits) (hd : ∀ vt, (D.K vt).ndebug = false) (s : Stm V)
    (n : Nat) :
    (∃ w, (steps D ρ n (s.start (World.init V))).world = some w ∧ Owned w ∧
      ∀ x, w.vars (.user x) ≠ none → NonEmpty (D.K (ρ x)) w (.user x)) ∨
    (steps D ρ n (s.start (World.init V)) = .fault .assertFailed ∧
      ∃ m c, steps D ρ m (s.start (World.init V)) = .conf c ∧ c.readsBackup D ρ = true ∧ step D ρ c = .fault .assertFailed ∧ Owned c.w ∧
        ∀ x, c.w.vars (.user x) ≠ none → NonEmpty (D.K (ρ x)) c.w (.user x)) := by
  rcases steps_spec_asserted hs hD hd n (s.start (World.init V)) goodMix_init with ⟨w, cs, h1, h2, -⟩ | ⟨h, m, c, h1, h2, h3, h4⟩
  · exact .inl ⟨w, h1, h2.owned, fun x hx => h2.nonEmpty hx⟩
  · exact .inr ⟨h, m, c, h1, h3, h4, h2.owned, fun x hx => h2.nonEmpty hx⟩

/-- C59 scopes, with assertions on (scope: `Sane`): every program with scoped variables that ends, normally or by an exception that nothing
catches, leaves no variable and no object. -/
theorem C59_nothing_left_asserted_partial (hs : ∀ vt, Sane (D.K vt)) (hD : D.Fits) (hd : ∀ vt, (D.K vt).ndebug = false) (s : Stm V)
    (hsc : s.scoped []) {n : Nat} {u : Bool} {w : World V} (he : steps D ρ n (s.start (World.init V)) = .done u w) :
    (∀ x, w.vars x = none) ∧ ∀ id, w.objs id = none := by
  have hv := steps_scoped_asserted hs hD hd n (s.start (World.init V)) goodMix_init
    ⟨fun t ht => by cases ht; exact hsc, trivial, fun x hx => absurd rfl hx⟩ he
  rcases steps_spec_asserted hs hD hd n (s.start (World.init V)) goodMix_init with ⟨w2, cs, h1, h2, -⟩ | ⟨h, -⟩
  · rw [he] at h1
    obtain rfl : w = w2 := by simpa [Next.world] using h1
    refine ⟨fun x => ?_, fun id => ?_⟩
    · cases x with
      | user n => exact hv n
      | tmp n => exact h2.noTmp n
    · cases ho : w.objs id with
      | none => rfl
      | some p =>
        obtain ⟨x, t, hx, -⟩ := h2.noLeak id (by rw [ho]; simp)
        rw [hv x] at hx; cases hx
  · rw [he] at h; cases h

end

/-! ### Examples -/

/-- `x0` is in a heap backup; assigning it to `x1` is a statement of finding F1 and stops. -/
def exHazardStm : Stm Nat :=
  .seq (Stm.ofList (exConvProg.take 3)) (.cmd (.on 0 (.copyAssign 1 0)))

example : (match steps exDecls exMixR 40 (exHazardStm.start (World.init Nat)) with | .fault f => decide (f = .assertFailed) | _ => false) = true := by
  decide +kernel

example := C59_never_empty_asserted_partial (D := exDecls) (ρ := exMixR) exConvK_sane exDecls_fits
  (fun _ => rfl) exHazardStm 40

example := C01_statement_with_conversions_asserted_partial exConvK_sane exDecls_fits (fun _ => rfl)
  (exConv_good 3 (by decide +kernel)) (.on 0 (.copyAssign 1 0)) (by decide +kernel)

example : (match steps exDecls exMixR 60 (exStm.start (World.init Nat)) with
    | .done _ w => (w.vars (.user 0)).isNone && (w.objs 0).isNone && (w.objs 3).isNone
    | _ => false) = true := by decide +kernel

example {u : Bool} {w : World Nat} (h : steps exDecls exMixR 60 (exStm.start (World.init Nat)) = .done u w) :=
  C59_nothing_left_asserted_partial exConvK_sane exDecls_fits (fun _ => rfl) exStm exStm_scoped h

/-- The failed assertion without the variable of the other type, and hence with it. -/
example : Cmd.code (exDecls.K 0) (.copyAssign 1 0) ((exConvAfter 7).only exMixR 0) = .fault .assertFailed ∧
    Cmd.code (exDecls.K 0) (.copyAssign 1 0) (exConvAfter 7) = .fault .assertFailed := by
  have hg : GoodMix exDecls.K exMixR (exConvAfter 7) := exConv_good 7 (by decide +kernel)
  have h : Cmd.code (exDecls.K 0) (.copyAssign 1 0) ((exConvAfter 7).only exMixR 0) = .fault .assertFailed := by
    rcases step_hazard (C := exDecls.K 0) rfl (hg.only 0) (.copyAssign 1 0) ((GoodMix.valid_only _ _ _ (by decide)).trans (by decide +kernel))
      ((hg.readsBackup_only _ (by decide)).trans (by decide +kernel)) with h | ⟨e, wh', h, -⟩
    · exact h
    · exfalso
      obtain ⟨w', h2, -⟩ := (C52_other_types_do_not_matter hg (by decide)).2 e wh' h
      have h3 : (match Cmd.code (exDecls.K 0) (.copyAssign 1 0) (exConvAfter 7) with | .exc .. => true | _ => false) = false := by
        decide +kernel
      rw [h2] at h3
      cases h3
  exact ⟨h, C52_assertions hg (by decide) h⟩

end BVariant
