/-
C20 swap that returns, C21 swap that throws.
-/
import Verif.Props.Assignment

namespace BVariant

section
variable {V : Type} {C : Cfg V} {w w' : World V} {x y : Nat} {kx ky : TyIx} {vx vy : V}

/-- `v'` is what the left variant holds after a swap of values `vl` of type `kl` and `vr` of type `kr`: the element's
own swap for equal types, otherwise the result of moving or copying `vr`. -/
def SwappedL (C : Cfg V) (kl : TyIx) (vl : V) (kr : TyIx) (vr v' : V) : Prop :=
  (kl = kr ∧ v' = C.ops.swapL kl vl vr) ∨
    (kl ≠ kr ∧ (v' = C.ops.move kr (C.ops.move kr vr) ∨ v' = C.ops.copy kr (C.ops.move kr vr)))

/-- `v'` is what the right variant holds after a swap. -/
def SwappedR (C : Cfg V) (kl : TyIx) (vl : V) (kr : TyIx) (vr v' : V) : Prop :=
  (kl = kr ∧ v' = C.ops.swapR kl vl vr) ∨
    (kl ≠ kr ∧ (v' = C.ops.move kl vl ∨ v' = C.ops.copy kl vl))

theorem moveAssignVal_cases (C : Cfg V) (k : TyIx) (v : V) :
    moveAssignVal C k v = C.ops.move k v ∨ moveAssignVal C k v = C.ops.copy k v := by
  unfold moveAssignVal; repeat' split
  all_goals simp

/-- Outside finding F1: assertions are on, or the statement is not of the kind concerned. -/
theorem swap_no_hazard {sx sy : VarSt} {ix iy : ObjId} (hxo : Owns C w (.user x) sx ix kx vx)
    (hyo : Owns C w (.user y) sy iy ky vy) (hz : C.ndebug = false ∨ (w.backedUp x && w.typesDiffer x y) = false) :
    (kx = ky ∨ 0 ≤ sx.which_) ∨ (C.ndebug = false ∧ kx ≠ ky ∧ sx.which_ < 0) := by
  rcases hz with hd | hz
  · by_cases h : kx = ky ∨ 0 ≤ sx.which_
    · exact Or.inl h
    · exact Or.inr ⟨hd, fun he => h (Or.inl he), by have := fun he => h (Or.inr he); omega⟩
  · exact Or.inl (swapHazard_of hxo hyo hz)

/-- C20: when `x.swap(y)` of two different variants returns, `x` holds the type and value `y` had and conversely,
and all others are exactly as they were.
Scope: with assertions on, every state; with assertions off, all but the swaps of finding F1, for which it is
false (see the counterexample). -/
theorem C20_swap_exchanges_partial (hb : BlankOk C) (hg : Good C w) (hxy : x ≠ y)
    (hx : w.holds x kx vx) (hy : w.holds y ky vy)
    (hz : C.ndebug = false ∨ (w.backedUp x && w.typesDiffer x y) = false)
    (h : swap C (.user x) (.user y) w = .ok () w') :
    (∃ v', w'.holds x ky v' ∧ SwappedL C kx vx ky vy v') ∧ (∃ v', w'.holds y kx v' ∧ SwappedR C kx vx ky vy v') ∧
      WhichIs w' x ky ∧ WhichIs w' y kx ∧ Rest w w' [x, y] ∧ Good C w' := by
  obtain ⟨sx, ix, hxo⟩ := hg.holds hx
  obtain ⟨sy, iy, hyo⟩ := hg.holds hy
  have hne : VarId.user x ≠ VarId.user y := fun he => hxy (VarId.user.inj he)
  rcases swap_no_hazard hxo hyo hz with hn | ⟨hd, hk, hlt⟩
  · obtain ⟨hw', ho, hs⟩ := wp_ok (wp_swap_gen hb hg.wf hxo hyo (by simp) (by simp) (hg.noTmp 0) hn) h
    have hgood : Good C w' := ⟨hw', fun n => by rw [(ho (.tmp n) (by simp) (by simp)).1]; exact hg.noTmp n⟩
    have hrest : Rest w w' [x, y] := fun z hz => ho _ (user_ne hz) (user_ne2 hz)
    cases hs with
    | self he => exact absurd he hne
    | sameType _ hk hr ha =>
      subst hk
      have hid : ix ≠ iy := by
        rcases hg.wf.distinct hxo hyo with ⟨he, -⟩ | ⟨-, hid⟩
        · exact absurd he hne
        · exact hid
      have h1 : Owns C w' (.user x) sx ix kx (C.ops.swapL kx vx vy) :=
        ⟨by rw [hr.vars]; exact hxo.var, hxo.rep, by rw [hr.objs]; simp [upd_ne _ _ hid]⟩
      have h2 : Owns C w' (.user y) sy iy kx (C.ops.swapR kx vx vy) :=
        ⟨by rw [hr.vars]; exact hyo.var, hyo.rep, by rw [hr.objs]; simp⟩
      exact ⟨⟨_, h1.holds, Or.inl ⟨rfl, rfl⟩⟩, ⟨_, h2.holds, Or.inl ⟨rfl, rfl⟩⟩, h1.whichIs, h2.whichIs, hrest, hgood⟩
    | changed hk ix' iy' h1 h2 _ =>
      exact ⟨⟨_, h1.holds, Or.inr ⟨hk, moveAssignVal_cases _ _ _⟩⟩, ⟨_, h2.holds, Or.inr ⟨hk, moveAssignVal_cases _ _ _⟩⟩,
        h1.whichIs, h2.whichIs, hrest, hgood⟩
  · exact absurd h ((swap_hazard hd hg.wf hxo hyo (by simp) (by simp) (hg.noTmp 0) hk hlt).1 () w')

/-- C20 for element types whose operations preserve values: the contents are exchanged. -/
theorem C20_swap_exchanges_values_partial (hl : C.ops.Lawful) (hb : BlankOk C) (hg : Good C w) (hxy : x ≠ y)
    (hx : w.holds x kx vx) (hy : w.holds y ky vy)
    (hz : C.ndebug = false ∨ (w.backedUp x && w.typesDiffer x y) = false)
    (h : swap C (.user x) (.user y) w = .ok () w') : w'.holds x ky vy ∧ w'.holds y kx vx := by
  obtain ⟨⟨v1, h1, h1'⟩, ⟨v2, h2, h2'⟩, -⟩ := C20_swap_exchanges_partial hb hg hxy hx hy hz h
  have e1 : v1 = vy := by
    rcases h1' with ⟨rfl, rfl⟩ | ⟨-, rfl | rfl⟩
    · exact hl.swapL_eq _ _ _
    · rw [hl.move_eq, hl.move_eq]
    · rw [hl.copy_eq, hl.move_eq]
  have e2 : v2 = vx := by
    rcases h2' with ⟨rfl, rfl⟩ | ⟨-, rfl | rfl⟩
    · exact hl.swapR_eq _ _ _
    · exact hl.move_eq _ _
    · exact hl.copy_eq _ _
  subst e1 e2
  exact ⟨h1, h2⟩

/-- C20, swap with itself, in every configuration and state: only the element's own self-swap runs. -/
theorem C20_self_swap (hb : BlankOk C) (hg : Good C w) (hx : w.holds x kx vx)
    (h : swap C (.user x) (.user x) w = .ok () w') :
    NothingBuilt w w' ∧ w'.holds x kx (C.ops.selfSwap kx vx) ∧ (C.ops.Lawful → w'.holds x kx vx) ∧ Rest w w' [x] := by
  obtain ⟨sx, ix, hxo⟩ := hg.holds hx
  obtain ⟨hw', ho, hs⟩ := wp_ok (wp_swap_gen hb hg.wf hxo hxo (by simp) (by simp) (hg.noTmp 0) (Or.inl rfl)) h
  cases hs with
  | self _ hr ha =>
    have h1 : Owns C w' (.user x) sx ix kx (C.ops.selfSwap kx vx) :=
      ⟨by rw [hr.vars]; exact hxo.var, hxo.rep, by rw [hr.objs]; simp⟩
    exact ⟨⟨hr.vars, SameObjects.of_types (SameTypes.upd _ _ hxo.obj) hr.objs, hr.next, ha⟩, h1.holds,
      fun hl => by have := h1.holds; rw [hl.selfSwap_eq] at this; exact this,
      fun z hz => ho _ (user_ne hz) (user_ne hz)⟩
  | sameType hne => exact absurd rfl hne
  | changed hk => exact absurd rfl hk

/-- What the two hold after a swap that threw. -/
theorem swapExc_holds (hg : Good C w) {sx sy : VarSt} {ix iy : ObjId} (hxo : Owns C w (.user x) sx ix kx vx)
    (hyo : Owns C w (.user y) sy iy ky vy) {e : Exc} (hse : SwapExc C w w' (.user x) (.user y) sx sy ix iy kx ky vx vy e) :
    (∃ k v, w'.holds x k v ∧ (k = kx ∨ C.fallback = some k)) ∧
      (∃ k v, w'.holds y k v ∧ (k = ky ∨ k = kx ∨ C.fallback = some k)) := by
  have hnt : kx ≠ ky → VarId.user x ≠ VarId.user y ∧ ix ≠ iy := by
    intro hk
    rcases hg.wf.distinct hxo hyo with ⟨-, he⟩ | h
    · subst he
      have h1 := hxo.obj; rw [hyo.obj] at h1; cases h1; exact absurd rfl hk
    · exact h
  have left : ∀ {s : VarSt} {i : ObjId} {k : TyIx} {v : V} {kr : TyIx} {s' : VarSt} {i' : ObjId} {k' : TyIx} {v' : V},
      Leftover C s i k v kr s' i' k' v' → k' = k ∨ C.fallback = some k' := by
    intro s i k v kr s' i' k' v' hlo
    cases hlo with
    | same => exact Or.inl rfl
    | restored => exact Or.inl rfl
    | backup => exact Or.inl rfl
    | fallback _ _ _ hfb => exact Or.inr hfb
  suffices hsuf : (∃ s i k v, Owns C w' (.user x) s i k v ∧ (k = kx ∨ C.fallback = some k)) ∧
      (∃ s i k v, Owns C w' (.user y) s i k v ∧ (k = ky ∨ k = kx ∨ C.fallback = some k)) by
    obtain ⟨⟨_, _, k1, v1, h1, h1'⟩, ⟨_, _, k2, v2, h2, h2'⟩⟩ := hsuf
    exact ⟨⟨k1, v1, h1.holds, h1'⟩, ⟨k2, v2, h2.holds, h2'⟩⟩
  cases hse with
  | self he _ hr _ =>
    have h1 : Owns C w' (.user x) sx ix kx (C.ops.selfSwapFail kx vx) :=
      ⟨by rw [hr.vars]; exact hxo.var, hxo.rep, by rw [hr.objs]; simp⟩
    exact ⟨⟨_, _, _, _, h1, Or.inl rfl⟩, ⟨_, _, _, _, he ▸ h1, Or.inr (Or.inl rfl)⟩⟩
  | sameType hne hk _ hr _ =>
    subst hk
    have hid : ix ≠ iy := by
      rcases hg.wf.distinct hxo hyo with ⟨he, -⟩ | ⟨-, hid⟩
      · exact absurd he hne
      · exact hid
    have h1 : Owns C w' (.user x) sx ix kx (C.ops.swapFailL kx vx vy) :=
      ⟨by rw [hr.vars]; exact hxo.var, hxo.rep, by rw [hr.objs]; simp [upd_ne _ _ hid]⟩
    have h2 : Owns C w' (.user y) sy iy kx (C.ops.swapFailR kx vx vy) :=
      ⟨by rw [hr.vars]; exact hyo.var, hyo.rep, by rw [hr.objs]; simp⟩
    exact ⟨⟨_, _, _, _, h1, Or.inl rfl⟩, ⟨_, _, _, _, h2, Or.inl rfl⟩⟩
  | stage1 hk _ hr _ =>
    have h1 : Owns C w' (.user x) sx ix kx vx :=
      ⟨by rw [hr.vars]; exact hxo.var, hxo.rep, by rw [hr.objs, upd_ne _ _ (hnt hk).2]; exact hxo.obj⟩
    have h2 : Owns C w' (.user y) sy iy ky (C.ops.moveFailSrc ky vy) :=
      ⟨by rw [hr.vars]; exact hyo.var, hyo.rep, by rw [hr.objs]; simp⟩
    exact ⟨⟨_, _, _, _, h1, Or.inl rfl⟩, ⟨_, _, _, _, h2, Or.inl rfl⟩⟩
  | stage2 hk _ _ _ _ _ h1 h2 hlo _ =>
    refine ⟨⟨_, _, _, _, h1, Or.inl rfl⟩, ⟨_, _, _, _, h2, ?_⟩⟩
    rcases left hlo with h | h
    · exact Or.inl h
    · exact Or.inr (Or.inr h)
  | stage3 hk _ _ _ _ _ _ h1 hlo h2 _ =>
    exact ⟨⟨_, _, _, _, h1, left hlo⟩, ⟨_, _, _, _, h2, Or.inr (Or.inl rfl)⟩⟩

/-- C21: when `x.swap(y)` throws, both variants are good: `x` holds its type or the fallback type, `y` holds its type,
`x`'s type or the fallback type, nothing is leaked (`Good`), and all others are exactly as they were.
Scope: configurations outside findings F2 and F10; with assertions off, swaps outside finding F1. -/
theorem C21_swap_failure_partial (hs : Sane C) (hg : Good C w) (hx : w.holds x kx vx) (hy : w.holds y ky vy)
    (hz : C.ndebug = false ∨ (w.backedUp x && w.typesDiffer x y) = false) {e : Exc}
    (h : swap C (.user x) (.user y) w = .exc e w') :
    (∃ k v, w'.holds x k v ∧ (k = kx ∨ C.fallback = some k)) ∧
      (∃ k v, w'.holds y k v ∧ (k = ky ∨ k = kx ∨ C.fallback = some k)) ∧
      Rest w w' [x, y] ∧ Good C w' ∧ Thrown C w w' e := by
  obtain ⟨sx, ix, hxo⟩ := hg.holds hx
  obtain ⟨sy, iy, hyo⟩ := hg.holds hy
  have hnt : kx ≠ ky → VarId.user x ≠ VarId.user y ∧ ix ≠ iy := by
    intro hk
    rcases hg.wf.distinct hxo hyo with ⟨-, he⟩ | h
    · subst he
      have h1 := hxo.obj; rw [hyo.obj] at h1; cases h1; exact absurd rfl hk
    · exact h
  rcases swap_no_hazard hxo hyo hz with hn | ⟨hd, hk, hlt⟩
  · obtain ⟨hth, ho, hse⟩ := wp_exc (wp_swap_gen hs.blank hg.wf hxo hyo (by simp) (by simp) (hg.noTmp 0) hn) h
    obtain ⟨hw', hse⟩ := hse.1 hs
    obtain ⟨h1, h2⟩ := swapExc_holds hg hxo hyo hse
    exact ⟨h1, h2, fun z hz => ho _ (user_ne hz) (user_ne2 hz),
      ⟨hw', fun n => by rw [(ho (.tmp n) (by simp) (by simp)).1]; exact hg.noTmp n⟩, hth⟩
  · obtain ⟨hth, hw', ho, hse⟩ :=
      (swap_hazard hd hg.wf hxo hyo (by simp) (by simp) (hg.noTmp 0) hk hlt).2 e w' h
    have hgood : Good C w' := ⟨hw', fun n => by rw [(ho (.tmp n) (by simp) (by simp)).1]; exact hg.noTmp n⟩
    have hrest : Rest w w' [x, y] := fun z hz => ho _ (user_ne hz) (user_ne2 hz)
    cases hse with
    | stage1 _ hr =>
      have h1 : Owns C w' (.user x) sx ix kx vx :=
        ⟨by rw [hr.vars]; exact hxo.var, hxo.rep, by rw [hr.objs, upd_ne _ _ (hnt hk).2]; exact hxo.obj⟩
      have h2 : Owns C w' (.user y) sy iy ky (C.ops.moveFailSrc ky vy) :=
        ⟨by rw [hr.vars]; exact hyo.var, hyo.rep, by rw [hr.objs]; simp⟩
      exact ⟨⟨_, _, h1.holds, Or.inl rfl⟩, ⟨_, _, h2.holds, Or.inl rfl⟩, hrest, hgood, hth⟩
    | stage2 h1 h2 => exact ⟨⟨_, _, h1.holds, Or.inl rfl⟩, ⟨_, _, h2.holds, Or.inl rfl⟩, hrest, hgood, hth⟩

end

/-! ### Non-vacuity -/

/-- C20: differently typed variants, the right one in the heap-backup state. -/
example : ∃ w', swap exTwo (.user 1) (.user 0) exBackup = .ok () w' ∧ w'.holds 1 0 5 ∧ w'.holds 0 1 7 := by
  obtain ⟨w', h⟩ := of_endsOk (m := swap exTwo (.user 1) (.user 0)) (w := exBackup) (by decide +kernel)
  exact ⟨w', h, C20_swap_exchanges_values_partial natOps_lawful exTwo_blankOk exBackup_good (by decide)
    exBackup_facts1 exBackup_facts.2.1 (Or.inl rfl) h⟩

/-- C20: a variant in the heap-backup state swapped with itself. -/
example : ∃ w', swap exTwo (.user 0) (.user 0) exBackup = .ok () w' ∧ w'.holds 0 0 5 := by
  obtain ⟨w', h⟩ := of_endsOk (m := swap exTwo (.user 0) (.user 0)) (w := exBackup) (by decide +kernel)
  exact ⟨w', h, (C20_self_swap exTwo_blankOk exBackup_good exBackup_facts.2.1 h).2.2.1 natOps_lawful⟩

/-- C21: a swap of differently typed variants that throws in its second stage. -/
example : ∃ e w', swap exTwo (.user 0) (.user 1) exPlain = .exc e w' ∧ Good exTwo w' := by
  obtain ⟨e, w', h⟩ := of_endsExc (m := swap exTwo (.user 0) (.user 1)) (w := exPlain) (by decide +kernel)
  exact ⟨e, w', h, (C21_swap_failure_partial exTwo_sane exPlain_good exPlain_facts.1 exPlain_facts.2 (Or.inl rfl) h).2.2.2.1⟩

/-- C20 in full: what `which()` gives, and everything else. -/
example : ∃ w', swap exTwo (.user 1) (.user 0) exBackup = .ok () w' ∧ WhichIs w' 1 0 ∧ WhichIs w' 0 1 ∧
    Rest exBackup w' [1, 0] := by
  obtain ⟨w', h⟩ := of_endsOk (m := swap exTwo (.user 1) (.user 0)) (w := exBackup) (by decide +kernel)
  have := C20_swap_exchanges_partial exTwo_blankOk exBackup_good (by decide) exBackup_facts1 exBackup_facts.2.1 (Or.inl rfl) h
  exact ⟨w', h, this.2.2.1, this.2.2.2.1, this.2.2.2.2.1⟩

/-! ### Counterexamples to the unrestricted claims -/

/-- F1 with assertions off: the swap returns, but the right variant holds nothing afterwards (C20). -/
theorem C20_counterexample_backup_swap :
    thrownBy { exTwo with ndebug := true } (exProg.take 3 ++ [.constructC 2 1 3]) (.swap 0 2) = none ∧
    faults { exTwo with ndebug := true } (exProg.take 3 ++ [.constructC 2 1 3, .swap 0 2]) = false ∧
    contentAfter { exTwo with ndebug := true } (exProg.take 3 ++ [.constructC 2 1 3, .swap 0 2]) 2 = none := by
  decide +kernel

/-- F1 with assertions off: the swap throws in its last stage, and the right variant holds nothing afterwards (C21). -/
theorem C21_counterexample_backup_swap :
    thrownBy { exCfg [tThrowing, tThrowing] [6, 12] with ndebug := true }
      (exProg.take 3 ++ [.constructC 2 1 3]) (.swap 0 2) = some (.copyCtor 1) ∧
    contentAfter { exCfg [tThrowing, tThrowing] [6, 12] with ndebug := true }
      (exProg.take 3 ++ [.constructC 2 1 3, .swap 0 2]) 2 = none := by
  decide +kernel

/-- F9: a failed swap need not restore the values: the right variant may be left moved-from. -/
theorem C21_swap_failure_not_strong :
    thrownBy (exCfg [tThrowing, tThrowing] [6]) (exProg.take 2) (.swap 0 1) ≠ none ∧
    contentAfter (exCfg [tThrowing, tThrowing] [6]) (exProg.take 2 ++ [.swap 0 1]) 1 ≠ some (1, 7) := by
  decide +kernel

end BVariant
