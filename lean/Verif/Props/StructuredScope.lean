/-
C71 for programs with control flow: exactly for which variant types the claims of C59 hold.
-/
import Verif.Props.SafetyScope
import Verif.Props.StructuredAsserted

namespace BVariant

section
variable {V : Type} {D : Decls V}

/-- The same variant types, with other operations throwing. (Device of the specification.) -/
def Decls.withThrows (D : Decls V) (f : Nat → Bool) : Decls V := { D with K := fun vt => (D.K vt).withThrows f }

/-- Specification: the program, with variables of the types `ρ`, comes to a statement that does not return or throw but fails so. -/
def Stm.Fails (D : Decls V) (ρ : Nat → Nat) (s : Stm V) (flt : Fault) : Prop := ∃ n, steps D ρ n (s.start (World.init V)) = .fault flt

/-- How the machine fails on a plain sequence of statements is how the run of the sequence stops. -/
theorem steps_ofList_fault (cs : List (Cmd V)) (vt : Nat) {flt : Fault} (k : List (Frame V)) (w : World V) :
    (∃ pre c post w', cs = pre ++ c :: post ∧ run (D.K vt) pre w = some w' ∧ c.valid (D.K vt) w' = true ∧ c.code (D.K vt) w' = .fault flt) →
      ∃ n, steps D (fun _ => vt) n ⟨.run (Stm.ofList (cs.map (MixCmd.on vt))), k, w⟩ = .fault flt := by
  rintro ⟨pre, c, post, w', rfl, hr, hv, hc⟩
  induction pre generalizing w with
  | nil =>
    cases hr
    refine ⟨3, ?_⟩
    simp [steps, step, Stm.ofList, MixCmd.valid, MixCmd.code, hv, hc]
  | cons d pre ih =>
    simp only [run] at hr
    have hnext : ∀ w2, run (D.K vt) pre w2 = some w' →
        (∃ m, steps D (fun _ => vt) m ⟨.run (.guarded (.cmd (.on vt d)) .skip), .next (Stm.ofList ((pre ++ c :: post).map (MixCmd.on vt))) :: k, w⟩ =
          .conf ⟨.ret, .next (Stm.ofList ((pre ++ c :: post).map (MixCmd.on vt))) :: k, w2⟩) →
        ∃ n, steps D (fun _ => vt) n ⟨.run (Stm.ofList ((d :: pre ++ c :: post).map (MixCmd.on vt))), k, w⟩ = .fault flt := by
      rintro w2 h2 ⟨m, hm⟩
      obtain ⟨n, hn⟩ := ih w2 h2
      refine ⟨1 + (m + (1 + n)), ?_⟩
      have h0 : steps D (fun _ => vt) 1 ⟨.run (Stm.ofList ((d :: pre ++ c :: post).map (MixCmd.on vt))), k, w⟩ =
        .conf ⟨.run (.guarded (.cmd (.on vt d)) .skip), .next (Stm.ofList ((pre ++ c :: post).map (MixCmd.on vt))) :: k, w⟩ := rfl
      rw [steps_add _ _ _ _ h0, steps_add _ _ _ _ hm, steps_add _ _ _ _ (rfl : steps D (fun _ => vt) 1 ⟨.ret, .next _ :: k, w2⟩ = _)]
      exact hn
    split at hr
    · rename_i hvd
      split at hr
      · rename_i hcd
        exact hnext _ hr ⟨3, by simp [steps, step, MixCmd.valid, MixCmd.code, hvd, hcd]⟩
      · rename_i hcd
        exact hnext _ hr ⟨4, by simp [steps, step, MixCmd.valid, MixCmd.code, hvd, hcd]⟩
      · cases hr
    · rename_i hvd
      exact hnext _ hr ⟨3, by simp [steps, step, MixCmd.valid, hvd]⟩

theorem StopsWith.fails {vt : Nat} {cs : List (Cmd V)} {flt : Fault} (h : StopsWith (D.K vt) cs flt) :
    (Stm.ofList (cs.map (MixCmd.on vt))).Fails D (fun _ => vt) flt :=
  steps_ofList_fault cs vt [] _ h

/-- C71 for programs with control flow, memory safety. For variant types and a build, with assertions on or off, these are
equivalent: whatever throws, and of whichever of the types its variables are, no program with branches, loops, exceptions, scopes
and conversions between the types has undefined behaviour, fails an assertion or ends in `std::terminate`; and for each of the
types no assignment can make a heap backup, and the fallback object is built whenever it is to be. -/
theorem C71_control_flow_safe_iff (hb : ∀ vt, BlankOk (D.K vt)) (hD : D.Fits) (v : V) :
    (∀ f ρ (s : Stm V) flt, ¬ s.Fails (D.withThrows f) ρ flt) ↔ ∀ vt, BackupFree (D.K vt) ∧ FallbackBuilt (D.K vt) := by
  constructor
  · intro h vt
    exact (C71_safe_iff (hb vt) v).mp fun f cs flt hst => h f (fun _ => vt) _ flt (StopsWith.fails (D := D.withThrows f) (vt := vt) hst)
  · rintro h f ρ s flt ⟨n, hn⟩
    have hs : ∀ vt, Sane ((D.withThrows f).K vt) := fun vt => Sane.withThrows ⟨hb vt, (h vt).1.copyMove, (h vt).2⟩ f
    obtain ⟨w, h1, -⟩ := C59_never_empty_single_storage_partial (D := D.withThrows f) (ρ := ρ) hs (fun vt => (h vt).1) hD s n
    rw [hn] at h1; cases h1

/-- C71 for programs with control flow, the never-empty guarantee and leaks. Likewise for: after any number of steps the program is
somewhere, every live variant is non-empty, and the live objects are exactly the contents of the live variants. -/
theorem C71_control_flow_never_empty_iff (hb : ∀ vt, BlankOk (D.K vt)) (hD : D.Fits) (v : V) :
    (∀ f ρ (s : Stm V) n, ∃ w, (steps (D.withThrows f) ρ n (s.start (World.init V))).world = some w ∧ Owned w ∧
      ∀ x, w.vars (.user x) ≠ none → NonEmpty ((D.withThrows f).K (ρ x)) w (.user x)) ↔
        ∀ vt, BackupFree (D.K vt) ∧ FallbackBuilt (D.K vt) := by
  constructor
  · refine fun h => (C71_control_flow_safe_iff hb hD v).mp ?_
    rintro f ρ s flt ⟨n, hn⟩
    obtain ⟨w, h1, -⟩ := h f ρ s n
    rw [hn] at h1; cases h1
  · intro h f ρ s n
    have hs : ∀ vt, Sane ((D.withThrows f).K vt) := fun vt => Sane.withThrows ⟨hb vt, (h vt).1.copyMove, (h vt).2⟩ f
    exact C59_never_empty_single_storage_partial (D := D.withThrows f) (ρ := ρ) hs (fun vt => (h vt).1) hD s n

/-- C71 for programs with control flow, with assertions on: no program has undefined behaviour or ends in `std::terminate` (it may stop
at a failed assertion) exactly if every type is outside findings F2 and F10. -/
theorem C71_control_flow_asserted_iff (hb : ∀ vt, BlankOk (D.K vt)) (hD : D.Fits) (hd : ∀ vt, (D.K vt).ndebug = false) (v : V) :
    (∀ f ρ (s : Stm V) flt, s.Fails (D.withThrows f) ρ flt → flt = .assertFailed) ↔ ∀ vt, Sane (D.K vt) := by
  constructor
  · intro h vt
    exact (C71_safe_asserted_iff (hb vt) (hd vt) v).mp fun f cs flt hst =>
      h f (fun _ => vt) _ flt (StopsWith.fails (D := D.withThrows f) (vt := vt) hst)
  · rintro hs f ρ s flt ⟨n, hn⟩
    rcases C59_never_empty_asserted_partial (D := D.withThrows f) (ρ := ρ) (fun vt => (hs vt).withThrows f) hD hd s n with ⟨w, h1, -⟩ | ⟨h1, -⟩
    · rw [hn] at h1; cases h1
    · rw [hn] at h1; cases h1; rfl

end

/-! ### Examples

Of the variant types of `exDecls` one has two types that throw and no fallback type: some program fails an assertion, but with assertions on none
does worse. All variant types of `exSingle` have a fallback type: no program fails. -/

example : ¬ ∀ f ρ (s : Stm Nat) flt, ¬ s.Fails (exDecls.withThrows f) ρ flt := fun h =>
  absurd (((C71_control_flow_safe_iff (fun vt => (exConvK_sane vt).blank) exDecls_fits 0).mp h 0).1 0 1 (by decide) (by decide) (by decide)
    ⟨by decide, by decide, by decide⟩) (by decide)

example := (C71_control_flow_asserted_iff (fun vt => (exConvK_sane vt).blank) exDecls_fits (fun _ => rfl) 0).mpr exConvK_sane

theorem exSingle_scope (vt : Nat) : BackupFree (exSingle.K vt) ∧ FallbackBuilt (exSingle.K vt) :=
  ⟨SingleStorage.backupFree (.inl (show (exConvK 1).hasFallback = true by decide)), (exConvK_sane 1).fallback⟩

example := (C71_control_flow_safe_iff (D := exSingle) (fun _ => (exConvK_sane 1).blank) (fun _ => exDecls_fits 1) 0).mpr exSingle_scope

example := (C71_control_flow_never_empty_iff (D := exSingle) (fun _ => (exConvK_sane 1).blank) (fun _ => exDecls_fits 1) 0).mpr exSingle_scope

end BVariant
