/-
C59: the machine for programs with control flow does what the constructs of the language mean.
-/
import Verif.Spec.StructuredRuns
import Verif.Props.Structured

namespace BVariant

section
variable {V : Type} {D : Decls V} {ρ : Nat → Nat}

/-- What the machine goes on with after a statement. -/
def Ctl.after : Bool → Ctl V
  | false => .ret
  | true => .unwind

theorem steps_succ' {n : Nat} {c c' : Conf V} (h : step D ρ c = .conf c') : steps D ρ (n + 1) c = steps D ρ n c' := by
  simp only [steps, h]

theorem steps_trans {c c' c'' : Conf V} (h : ∃ n, steps D ρ n c = .conf c') (h' : ∃ n, steps D ρ n c' = .conf c'') :
    ∃ n, steps D ρ n c = .conf c'' := by
  obtain ⟨n, hn⟩ := h
  obtain ⟨m, hm⟩ := h'
  exact ⟨n + m, by rw [steps_add _ _ _ _ hn, hm]⟩

theorem steps_then {c c' c'' : Conf V} (h : step D ρ c = .conf c') (h' : ∃ n, steps D ρ n c' = .conf c'') :
    ∃ n, steps D ρ n c = .conf c'' := by
  obtain ⟨m, hm⟩ := h'
  exact ⟨m + 1, by rw [steps_succ' h, hm]⟩

theorem steps_one {c c' : Conf V} (h : step D ρ c = .conf c') : ∃ n, steps D ρ n c = .conf c' := ⟨1, by rw [steps_succ' h]; rfl⟩

theorem step_ends {x : Nat} {k : List (Frame V)} {w w' : World V} (e : Bool)
    (h : endScope D ρ x (Ctl.after e) k w = .conf ⟨Ctl.after e, k, w'⟩) :
    step D ρ ⟨Ctl.after e, .ends x :: k, w⟩ = .conf ⟨Ctl.after e, k, w'⟩ := by
  cases e <;> exact h

/-- Whatever a program does, the machine does. -/
theorem Runs.steps {s : Stm V} {w w' : World V} {e : Bool} (h : Runs D ρ s w e w') (k : List (Frame V)) :
    ∃ n, steps D ρ n ⟨.run s, k, w⟩ = .conf ⟨Ctl.after e, k, w'⟩ := by
  induction h generalizing k with
  | cmd h1 h2 => exact steps_one (by simp only [step, h1, h2, if_true]; rfl)
  | cmdThrows h1 h2 => exact steps_one (by simp only [step, h1, h2, if_true]; rfl)
  | cmdSkipped h1 => exact steps_one (by simp only [step, h1]; rfl)
  | skip => exact steps_one rfl
  | raise => exact steps_one rfl
  | seq _ _ ih1 ih2 => exact steps_then rfl (steps_trans (ih1 _) (steps_then rfl (ih2 _)))
  | seqThrows _ ih => exact steps_then rfl (steps_trans (ih _) (steps_one rfl))
  | thenBranch hb _ ih => exact steps_then (by simp only [step, hb]) (ih _)
  | elseBranch hb _ ih => exact steps_then (by simp only [step, hb]) (ih _)
  | condThrows hb => exact steps_one (by simp only [step, hb]; rfl)
  | loopEnds hb => exact steps_one (by simp only [step, hb]; rfl)
  | loopThrows hb => exact steps_one (by simp only [step, hb]; rfl)
  | loopBody hb _ _ ih1 ih2 => exact steps_then (by simp only [step, hb]; rfl) (steps_trans (ih1 _) (steps_then rfl (ih2 _)))
  | loopBodyThrows hb _ ih => exact steps_then (by simp only [step, hb]; rfl) (steps_trans (ih _) (steps_one rfl))
  | tried _ ih => exact steps_then rfl (steps_trans (ih _) (steps_one rfl))
  | caught _ _ ih1 ih2 => exact steps_then rfl (steps_trans (ih1 _) (steps_then rfl (ih2 _)))
  | @scope x _ _ w1 _ e _ hv hd ih =>
    refine steps_then rfl (steps_trans (ih _) (steps_one (step_ends e ?_)))
    have : (w1.vars (.user x)).isSome = true := by cases h : w1.vars (.user x) <;> simp_all
    simp only [endScope, this, if_true, hd]
  | @scopeUnused x _ _ w1 e _ hv ih =>
    refine steps_then rfl (steps_trans (ih _) (steps_one (step_ends e ?_)))
    simp only [endScope, hv, Option.isSome_none, Bool.false_eq_true, if_false]

theorem steps_done_succ {n : Nat} {c : Conf V} {u : Bool} {w' : World V} (h : steps D ρ (n + 1) c = .done u w') {c' : Conf V}
    (hc : step D ρ c = .conf c') : steps D ρ n c' = .done u w' := by rwa [steps_succ' hc] at h

/-- If the machine comes to its end then it has come to the end of the current statement, and this did what its structure says. -/
theorem steps_runs (n : Nat) : ∀ {s : Stm V} {k : List (Frame V)} {w : World V} {u : Bool} {w' : World V},
    steps D ρ n ⟨.run s, k, w⟩ = .done u w' →
    ∃ m e w1, m < n ∧ Runs D ρ s w e w1 ∧ steps D ρ m ⟨Ctl.after e, k, w1⟩ = .done u w' := by
  induction n using Nat.strongRecOn with
  | ind n ih =>
    intro s k w u w' h
    cases n with
    | zero => cases h
    | succ n =>
      cases s with
      | cmd c =>
        cases hv : c.valid D ρ w with
        | false => exact ⟨n, false, w, by omega, .cmdSkipped hv, steps_done_succ h (by simp only [step, hv]; rfl)⟩
        | true =>
          cases hc : c.code D ρ w with
          | ok a w1 => exact ⟨n, false, w1, by omega, .cmd hv hc, steps_done_succ h (by simp only [step, hv, hc, if_true]; rfl)⟩
          | exc e w1 => exact ⟨n, true, w1, by omega, .cmdThrows hv hc, steps_done_succ h (by simp only [step, hv, hc, if_true]; rfl)⟩
          | fault f => simp [steps, step, hv, hc] at h
      | skip => exact ⟨n, false, w, by omega, .skip, steps_done_succ h rfl⟩
      | raise => exact ⟨n, true, w, by omega, .raise, steps_done_succ h rfl⟩
      | seq s t =>
        obtain ⟨m, e, w1, hm, h1, h2⟩ := ih n (by omega) (steps_done_succ h rfl)
        cases m with
        | zero => cases h2
        | succ m =>
          cases e with
          | true => exact ⟨m, true, w1, by omega, .seqThrows h1, steps_done_succ h2 rfl⟩
          | false =>
            obtain ⟨m', e', w2, hm', h3, h4⟩ := ih m (by omega) (steps_done_succ h2 rfl)
            exact ⟨m', e', w2, by omega, .seq h1 h3, h4⟩
      | cond b s t =>
        cases hb : b w with
        | none => exact ⟨n, true, w, by omega, .condThrows hb, steps_done_succ h (by simp only [step, hb]; rfl)⟩
        | some c =>
          cases c with
          | true =>
            obtain ⟨m, e, w1, hm, h1, h2⟩ := ih n (by omega) (steps_done_succ h (by simp only [step, hb]; rfl))
            exact ⟨m, e, w1, by omega, .thenBranch hb h1, h2⟩
          | false =>
            obtain ⟨m, e, w1, hm, h1, h2⟩ := ih n (by omega) (steps_done_succ h (by simp only [step, hb]; rfl))
            exact ⟨m, e, w1, by omega, .elseBranch hb h1, h2⟩
      | loop b s =>
        cases hb : b w with
        | none => exact ⟨n, true, w, by omega, .loopThrows hb, steps_done_succ h (by simp only [step, hb]; rfl)⟩
        | some c =>
          cases c with
          | false => exact ⟨n, false, w, by omega, .loopEnds hb, steps_done_succ h (by simp only [step, hb]; rfl)⟩
          | true =>
            obtain ⟨m, e, w1, hm, h1, h2⟩ := ih n (by omega) (steps_done_succ h (by simp only [step, hb]; rfl))
            cases m with
            | zero => cases h2
            | succ m =>
              cases e with
              | true => exact ⟨m, true, w1, by omega, .loopBodyThrows hb h1, steps_done_succ h2 rfl⟩
              | false =>
                obtain ⟨m', e', w2, hm', h3, h4⟩ := ih m (by omega) (steps_done_succ h2 rfl)
                exact ⟨m', e', w2, by omega, .loopBody hb h1 h3, h4⟩
      | guarded s t =>
        obtain ⟨m, e, w1, hm, h1, h2⟩ := ih n (by omega) (steps_done_succ h rfl)
        cases m with
        | zero => cases h2
        | succ m =>
          cases e with
          | false => exact ⟨m, false, w1, by omega, .tried h1, steps_done_succ h2 rfl⟩
          | true =>
            obtain ⟨m', e', w2, hm', h3, h4⟩ := ih m (by omega) (steps_done_succ h2 rfl)
            exact ⟨m', e', w2, by omega, .caught h1 h3, h4⟩
      | scope x s =>
        obtain ⟨m, e, w1, hm, h1, h2⟩ := ih n (by omega) (steps_done_succ h rfl)
        cases m with
        | zero => cases h2
        | succ m =>
          cases hv : w1.vars (.user x) with
          | none =>
            refine ⟨m, e, w1, by omega, .scopeUnused h1 hv, steps_done_succ h2 (step_ends e ?_)⟩
            simp only [endScope, hv, Option.isSome_none, Bool.false_eq_true, if_false]
          | some v =>
            cases hd : destroyVar (D.K (ρ x)) (.user x) w1 with
            | ok a w2 =>
              refine ⟨m, e, w2, by omega, .scope h1 (by rw [hv]; nofun) hd, steps_done_succ h2 (step_ends e ?_)⟩
              simp only [endScope, hv, Option.isSome_some, if_true, hd]
            | exc _ _ => cases e <;> simp [steps, step, Ctl.after, endScope, hv, hd] at h2
            | fault _ => cases e <;> simp [steps, step, Ctl.after, endScope, hv, hd] at h2

/-- C59, what a program does: the machine comes to the end of a program, by an exception that nothing catches or not, in exactly the
worlds in which the program ends by what its constructs mean: a sequence is left by an exception, a handler runs if and only if
there was one, and the variable of a scope is destroyed on every path out of it. -/
theorem C59_means (s : Stm V) (w : World V) (u : Bool) (w' : World V) :
    (∃ n, steps D ρ n (s.start w) = .done u w') ↔ Runs D ρ s w u w' := by
  constructor
  · rintro ⟨n, h⟩
    obtain ⟨m, e, w1, _, h1, h2⟩ := steps_runs n h
    cases m with
    | zero => cases h2
    | succ m => cases e <;> (cases h2; exact h1)
  · intro h
    obtain ⟨n, hn⟩ := h.steps []
    exact ⟨n + 1, by rw [Stm.start, steps_add _ _ _ _ hn]; cases u <;> rfl⟩

end

/-- The loop with an assignment that throws, a handler, and a condition that throws in the end, as its constructs mean it. -/
example : ∃ w, Runs exDecls exMixR exStm (World.init Nat) true w ∧ w.vars (.user 0) = none := by
  have h : (match steps exDecls exMixR 60 (exStm.start (World.init Nat)) with | .done u _ => u | _ => false) = true := by decide +kernel
  cases hst : steps exDecls exMixR 60 (exStm.start (World.init Nat)) with
  | conf c => rw [hst] at h; cases h
  | fault f => rw [hst] at h; cases h
  | done u w =>
    rw [hst] at h
    obtain rfl : u = true := h
    exact ⟨w, (C59_means _ _ _ _).mp ⟨60, hst⟩,
      (C59_nothing_left_partial exConvK_sane exDecls_fits exStm exStm_scoped exStm_never hst).1 _⟩

end BVariant
