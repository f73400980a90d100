/-
Assignment between variants: C09, C10 (success), C11, C12 (failure), C15 (throws clause), C17 (noexcept),
C19 (return to in-place storage). `Good w`: any state between statements.
-/
import Verif.Lemmas.Hazard
import Verif.Props.Construction

namespace BVariant

section
variable {V : Type} {C : Cfg V} {w w' : World V} {x y : Nat} {kx ky : TyIx} {vx vy : V}

theorem Good.sane_of (hb : BlankOk C) (h1 : NoCopyOnly C) (h2 : FallbackBuilt C) : Sane C := ⟨hb, h1, h2⟩

theorem NoCopyOnly.of_fallback (h : C.hasFallback = true) : NoCopyOnly C := by
  rintro k kr - - ⟨hn, -⟩ -
  rw [h] at hn; cases hn

theorem FallbackBuilt.of_none (h : C.hasFallback = false) : FallbackBuilt C := by
  intro k hk
  simp [Cfg.hasFallback, hk] at h

/-- Either the assignment is not hazardous, or it is and the records are as stated. -/
theorem hazard_cases (sl sr : VarSt) : NoHazard sl sr ∨ (sl.which_ ≠ sr.which_ ∧ sr.which_ < 0) := by
  by_cases h1 : sl.which_ = sr.which_
  · exact Or.inl (Or.inl h1)
  · rcases Int.lt_or_le sr.which_ 0 with h | h
    · exact Or.inr ⟨h1, h⟩
    · exact Or.inl (Or.inr h)

/-- What a copy assignment that returned has done. -/
theorem copyAssign_ok (hb : BlankOk C) (hg : Good C w) {sx sy : VarSt} {ix iy : ObjId}
    (hx : Owns C w (.user x) sx ix kx vx) (hy : Owns C w (.user y) sy iy ky vy)
    (hz : C.ndebug = false ∨ (w.backedUp y && w.recordsDiffer x y) = false)
    (h : copyAssign C (.user x) (.user y) w = .ok () w') :
    CopyAssignOk0 C w w' (.user x) sx sy ix kx ky vx vy := by
  rcases hazard_cases sx sy with hn | ⟨hne, hlt⟩
  · exact (wp_ok (wp_copyAssign_gen hb hx hy (hg.wf.distinct hx hy) hg.wf.toFresh hn) h).1
  · rcases hz with hd | hz
    · exact absurd h (copyAssign_hazard_not_ok hd hx hy hne hlt _)
    · exact (wp_ok (wp_copyAssign_gen hb hx hy (hg.wf.distinct hx hy) hg.wf.toFresh
        (noHazard_of hx.var hy.var hz)) h).1

theorem moveAssign_ok (hb : BlankOk C) (hg : Good C w) {sx sy : VarSt} {ix iy : ObjId}
    (hx : Owns C w (.user x) sx ix kx vx) (hy : Owns C w (.user y) sy iy ky vy)
    (hz : C.ndebug = false ∨ (w.backedUp y && w.recordsDiffer x y) = false)
    (h : moveAssign C (.user x) (.user y) w = .ok () w') :
    MoveAssignOk0 C w w' (.user x) (.user y) sx sy ix iy kx ky vx vy := by
  rcases hazard_cases sx sy with hn | ⟨hne, hlt⟩
  · exact (wp_ok (wp_moveAssign_gen hb hx hy (hg.wf.distinct hx hy) hg.wf.toFresh hn) h).1
  · rcases hz with hd | hz
    · exact absurd h (moveAssign_hazard_not_ok hd hx hy hne hlt _)
    · exact (wp_ok (wp_moveAssign_gen hb hx hy (hg.wf.distinct hx hy) hg.wf.toFresh
        (noHazard_of hx.var hy.var hz)) h).1

theorem copyAssignVal_result : CopyResult C kx vx ky vy (copyAssignVal C ky vy) := by
  unfold copyAssignVal CopyResult
  split
  · simp
  · split <;> simp

theorem moveAssignVal_result : MoveResult C kx vx ky vy (moveAssignVal C ky vy) := by
  unfold moveAssignVal MoveResult
  split
  · simp
  · split
    · simp
    · split <;> simp

/-! ### C09 -/

/-- C09: when `x = y` returns, `which()` of `x` is the type held by `y`, the content of `x` is a copy of `y`'s
content or was assigned from it, `y` and all other variants are exactly as they were, and the state is good.
In any configuration with assertions on; with assertions off, except for the statements of finding F1.
Missing for the full claim: it is false for those, see the counterexample. -/
theorem C09_copy_assignment_partial (hb : BlankOk C) (hg : Good C w) (hx : w.holds x kx vx) (hy : w.holds y ky vy)
    (hz : C.ndebug = false ∨ (w.backedUp y && w.recordsDiffer x y) = false)
    (h : copyAssign C (.user x) (.user y) w = .ok () w') :
    WhichIs w' x ky ∧ (∃ v', w'.holds x ky v' ∧ CopyResult C kx vx ky vy v') ∧ Rest w w' [x] ∧
      (x ≠ y → w'.holds y ky vy) ∧ Good C w' := by
  obtain ⟨sx, ix, hxo⟩ := hg.holds hx
  obtain ⟨sy, iy, hyo⟩ := hg.holds hy
  have key : ∀ {s' id' v'}, Replace C w w' w.objs (.user x) ix s' id' ky v' → CopyResult C kx vx ky vy v' →
      WhichIs w' x ky ∧ (∃ v', w'.holds x ky v' ∧ CopyResult C kx vx ky vy v') ∧ Rest w w' [x] ∧
      (x ≠ y → w'.holds y ky vy) ∧ Good C w' := by
    intro s' id' v' hr hv
    have hu : ∀ z, z ≠ VarId.user x → Unchanged w w' z := fun z hz => hr.unchanged hg.wf hxo hz (fun _ _ _ _ => rfl)
    exact ⟨hr.owns.whichIs, ⟨v', hr.owns.holds, hv⟩, fun z hz => hu _ (user_ne hz),
      fun hne => ((hu (.user y) (fun he => hne (VarId.user.inj he).symm)).owns hyo).holds,
      hr.good hg hxo (SameTypes.refl _)⟩
  rcases copyAssign_ok hb hg hxo hyo hz h with ⟨-, rfl, hr, -⟩ | ⟨-, id', -, hr⟩
  · exact key hr (Or.inl ⟨rfl, rfl⟩)
  · exact key hr copyAssignVal_result

/-- C09 for element types whose operations preserve values: `x` then holds the value of `y`. -/
theorem C09_copy_assignment_value_partial (hl : C.ops.Lawful) (hb : BlankOk C) (hg : Good C w)
    (hx : w.holds x kx vx) (hy : w.holds y ky vy)
    (hz : C.ndebug = false ∨ (w.backedUp y && w.recordsDiffer x y) = false)
    (h : copyAssign C (.user x) (.user y) w = .ok () w') : w'.holds x ky vy := by
  obtain ⟨-, ⟨v', h1, h2⟩, -⟩ := C09_copy_assignment_partial hb hg hx hy hz h
  have : v' = vy := by
    rcases h2 with ⟨-, rfl⟩ | rfl | rfl
    · exact hl.assign_eq _ _ _
    · exact hl.copy_eq _ _
    · rw [hl.move_eq, hl.copy_eq]
  exact this ▸ h1

/-! ### C10 -/

/-- C10: when `x = std::move(y)` returns (`x`, `y` different), `which()` of `x` is the type `y` held, the content of
`x` was moved, move-assigned or copied from `y`'s content, `y` keeps its storage state and still holds an object
of its type, and all other variants are exactly as they were. Scope as for C09. -/
theorem C10_move_assignment_partial (hb : BlankOk C) (hg : Good C w) (hxy : x ≠ y)
    (hx : w.holds x kx vx) (hy : w.holds y ky vy)
    (hz : C.ndebug = false ∨ (w.backedUp y && w.recordsDiffer x y) = false)
    (h : moveAssign C (.user x) (.user y) w = .ok () w') :
    WhichIs w' x ky ∧ (∃ v', w'.holds x ky v' ∧ MoveResult C kx vx ky vy v') ∧ Rest w w' [x, y] ∧
      (w'.vars (.user y) = w.vars (.user y) ∧ ∃ v', w'.holds y ky v') ∧ Good C w' := by
  obtain ⟨sx, ix, hxo⟩ := hg.holds hx
  obtain ⟨sy, iy, hyo⟩ := hg.holds hy
  have hne : VarId.user y ≠ VarId.user x := fun he => hxy (VarId.user.inj he).symm
  have key : ∀ {s' id' v' q}, Replace C w w' (upd w.objs iy (some (ky, q))) (.user x) ix s' id' ky v' →
      MoveResult C kx vx ky vy v' →
      WhichIs w' x ky ∧ (∃ v', w'.holds x ky v' ∧ MoveResult C kx vx ky vy v') ∧ Rest w w' [x, y] ∧
      (w'.vars (.user y) = w.vars (.user y) ∧ ∃ v', w'.holds y ky v') ∧ Good C w' := by
    intro s' id' v' q hr hv
    have hy' := hr.owns_other hg.wf hxo hyo hne (upd_same _ _ _)
    exact ⟨hr.owns.whichIs, ⟨v', hr.owns.holds, hv⟩,
      fun z hz => hr.unchanged hg.wf hxo (user_ne hz) (hg.wf.upd_other hyo (user_ne2 hz)),
      ⟨by rw [hy'.var, hyo.var], q, hy'.holds⟩, hr.good hg hxo (SameTypes.upd _ _ hyo.obj)⟩
  rcases moveAssign_ok hb hg hxo hyo hz h with ⟨he, -⟩ | ⟨-, -, rfl, hr, -⟩ | ⟨-, -, id', -, hr⟩
  · exact absurd he.symm hne
  · exact key hr (Or.inl ⟨rfl, rfl⟩)
  · exact key hr moveAssignVal_result

/-- C10 for element types whose operations preserve values: `x` then holds the value `y` had. -/
theorem C10_move_assignment_value_partial (hl : C.ops.Lawful) (hb : BlankOk C) (hg : Good C w) (hxy : x ≠ y)
    (hx : w.holds x kx vx) (hy : w.holds y ky vy)
    (hz : C.ndebug = false ∨ (w.backedUp y && w.recordsDiffer x y) = false)
    (h : moveAssign C (.user x) (.user y) w = .ok () w') : w'.holds x ky vy := by
  obtain ⟨-, ⟨v', h1, h2⟩, -⟩ := C10_move_assignment_partial hb hg hxy hx hy hz h
  have : v' = vy := by
    rcases h2 with ⟨-, rfl⟩ | rfl | rfl
    · exact hl.moveAssign_eq _ _ _
    · exact hl.move_eq _ _
    · exact hl.copy_eq _ _
  exact this ▸ h1

/-! ### C11 and C12 -/

/-- What a type-changing copy assignment that threw has done. -/
theorem copyAssign_exc (hs : Sane C) (hg : Good C w) {sx sy : VarSt} {ix iy : ObjId}
    (hx : Owns C w (.user x) sx ix kx vx) (hy : Owns C w (.user y) sy iy ky vy) (hk : kx ≠ ky) {e : Exc}
    (h : copyAssign C (.user x) (.user y) w = .exc e w') :
    ∃ s' id' k' v', Replace C w w' w.objs (.user x) ix s' id' k' v' ∧
      Leftover C sx ix kx vx ky s' id' k' v' := by
  rcases hazard_cases sx sy with hn | ⟨hne, hlt⟩
  · rcases wp_exc (wp_copyAssign hs hx hy (hg.wf.distinct hx hy) hg.wf.toFresh hn) h with
      ⟨-, hk', -⟩ | ⟨-, -, ⟨-, h'⟩, -⟩
    · exact absurd hk' hk
    · exact h'
  · have hz := copyAssign_hazard_exc hx hy hne hlt h
    have hl := hg.wf.toFresh.lt hx.obj
    refine ⟨sx, ix, kx, vx, ⟨?_, hx.rep, by rw [hz.objs, hx.obj], Or.inl rfl, by rw [hz.next]; exact hl, ?_, ?_, ?_, ?_, ?_⟩, .same⟩
    · intro z; rw [hz.vars]; split
      · rename_i he; rw [he, hx.var]
      · rfl
    · intro i _ _; rw [hz.objs]
    · intro i hi hne; rw [hz.objs]; exact hg.wf.fresh i (by rcases hi with hi | hi; exact absurd hi hne; exact hi)
    · rw [hz.next]; exact Nat.le_refl _
    · exact hz.sub
    · have := hz.thrown; unfold Thrown at this; omega

/-- What a type-changing move assignment that threw has done. -/
theorem moveAssign_exc (hs : Sane C) (hg : Good C w) {sx sy : VarSt} {ix iy : ObjId}
    (hx : Owns C w (.user x) sx ix kx vx) (hy : Owns C w (.user y) sy iy ky vy) (hk : kx ≠ ky) {e : Exc}
    (h : moveAssign C (.user x) (.user y) w = .exc e w') :
    ∃ s' id' k' v', Replace C w w' (upd w.objs iy (some (ky, moveAssignExcSrcVal C ky vy))) (.user x) ix s' id' k' v' ∧
      Leftover C sx ix kx vx ky s' id' k' v' := by
  rcases hazard_cases sx sy with hn | ⟨hne, hlt⟩
  · obtain ⟨-, h'⟩ := wp_exc (wp_moveAssign hs hx hy (hg.wf.distinct hx hy) hg.wf.toFresh hn) h
    rcases h' with ⟨he, -⟩ | ⟨-, -, hk', -⟩ | ⟨-, -, -, ⟨-, s', id', k', v', h'⟩, -⟩
    · have hxv := hx.var; rw [he, hy.var] at hxv; cases hxv
      have h1 := hx.rep.contentId; rw [hy.rep.contentId] at h1; cases h1
      have h2 := hx.obj; rw [hy.obj] at h2; cases h2; exact absurd rfl hk
    · exact absurd hk' hk
    · exact ⟨s', id', k', v', h'⟩
  · have hz := moveAssign_hazard_exc hx hy hne hlt h
    have hl := hg.wf.toFresh.lt hx.obj
    refine ⟨sx, ix, kx, vx, ⟨?_, hx.rep, by rw [hz.objs, hx.obj], Or.inl rfl, by rw [hz.next]; exact hl, ?_, ?_, ?_, ?_, ?_⟩, .same⟩
    · intro z; rw [hz.vars]; split
      · rename_i he; rw [he, hx.var]
      · rfl
    · intro i _ _; rw [hz.objs, moveAssignExcSrcVal, hz.noFallback]; simp [upd_self _ _ _ hy.obj]
    · intro i hi hne; rw [hz.objs]; exact hg.wf.fresh i (by rcases hi with hi | hi; exact absurd hi hne; exact hi)
    · rw [hz.next]; exact Nat.le_refl _
    · exact hz.sub
    · have := hz.thrown; unfold Thrown at this; omega

theorem Leftover.restored_of {sx s' : VarSt} {ix id' : ObjId} {k' : TyIx} {v' : V} (hnf : C.hasFallback = false)
    (h : Leftover C sx ix kx vx ky s' id' k' v') : k' = kx ∧ Restored C kx vx v' := by
  cases h with
  | same => exact ⟨rfl, Or.inl rfl⟩
  | restored => exact ⟨rfl, Or.inr (Or.inl rfl)⟩
  | backup => exact ⟨rfl, Or.inr (Or.inr rfl)⟩
  | fallback fb _ _ hfb => simp [Cfg.hasFallback, hfb] at hnf

theorem Restored.eq (hl : C.ops.Lawful) {k : TyIx} {v v' : V} (h : Restored C k v v') : v' = v := by
  rcases h with rfl | rfl | rfl
  · rfl
  · rw [hl.move_eq, hl.move_eq]
  · exact hl.copy_eq _ _

/-- C11, copy assignment: without a fallback type, `x = y` that would change the type of `x` and throws leaves `x`
with its type and its value (possibly copied, or moved away and back), and everything else as it was.
Missing for the full claim: the configurations of finding F2, for which it is false. -/
theorem C11_copy_assignment_rolled_back_partial (hb : BlankOk C) (hc : NoCopyOnly C) (hnf : C.hasFallback = false)
    (hg : Good C w) (hx : w.holds x kx vx) (hy : w.holds y ky vy) (hk : kx ≠ ky) {e : Exc}
    (h : copyAssign C (.user x) (.user y) w = .exc e w') :
    WhichIs w' x kx ∧ (∃ v', w'.holds x kx v' ∧ Restored C kx vx v') ∧ (C.ops.Lawful → w'.holds x kx vx) ∧
      Rest w w' [x] ∧ Good C w' := by
  obtain ⟨sx, ix, hxo⟩ := hg.holds hx
  obtain ⟨sy, iy, hyo⟩ := hg.holds hy
  obtain ⟨s', id', k', v', hr, hlo⟩ := copyAssign_exc ⟨hb, hc, FallbackBuilt.of_none hnf⟩ hg hxo hyo hk h
  obtain ⟨rfl, hv⟩ := hlo.restored_of hnf
  exact ⟨hr.owns.whichIs, ⟨v', hr.owns.holds, hv⟩, fun hl => hv.eq hl ▸ hr.owns.holds,
    fun z hz => hr.unchanged hg.wf hxo (user_ne hz) (fun _ _ _ _ => rfl), hr.good hg hxo (SameTypes.refl _)⟩

/-- C11, move assignment. -/
theorem C11_move_assignment_rolled_back_partial (hb : BlankOk C) (hc : NoCopyOnly C) (hnf : C.hasFallback = false)
    (hg : Good C w) (hx : w.holds x kx vx) (hy : w.holds y ky vy) (hk : kx ≠ ky) {e : Exc}
    (h : moveAssign C (.user x) (.user y) w = .exc e w') :
    WhichIs w' x kx ∧ (∃ v', w'.holds x kx v' ∧ Restored C kx vx v') ∧ (C.ops.Lawful → w'.holds x kx vx) ∧
      Rest w w' [x] ∧ Good C w' := by
  obtain ⟨sx, ix, hxo⟩ := hg.holds hx
  obtain ⟨sy, iy, hyo⟩ := hg.holds hy
  obtain ⟨s', id', k', v', hr, hlo⟩ := moveAssign_exc ⟨hb, hc, FallbackBuilt.of_none hnf⟩ hg hxo hyo hk h
  have hq : upd w.objs iy (some (ky, moveAssignExcSrcVal C ky vy)) = w.objs := by
    rw [moveAssignExcSrcVal, hnf]; simp [upd_self _ _ _ hyo.obj]
  rw [hq] at hr
  obtain ⟨rfl, hv⟩ := hlo.restored_of hnf
  exact ⟨hr.owns.whichIs, ⟨v', hr.owns.holds, hv⟩, fun hl => hv.eq hl ▸ hr.owns.holds,
    fun z hz => hr.unchanged hg.wf hxo (user_ne hz) (fun _ _ _ _ => rfl), hr.good hg hxo (SameTypes.refl _)⟩

/-- The state after a failed assignment with a fallback type: the target is exactly as it was, or holds in its own
storage a new default-initialised object of the fallback type. -/
def AsBeforeOrFallback (C : Cfg V) (w w' : World V) (x : Nat) (fb : TyIx) : Prop :=
  Unchanged w w' (.user x) ∨ (BuiltInPlace w w' x fb (C.ops.defaultInit fb) ∧ WhichIs w' x fb)

theorem Leftover.fallback_of {sx s' : VarSt} {ix id' : ObjId} {k' : TyIx} {v' : V} {fb : TyIx} {x : Nat}
    {base : ObjId → Option (TyIx × V)} (hw : WF C w)
    (hx : Owns C w (.user x) sx ix kx vx) (hfb : C.fallback = some fb)
    (hr : Replace C w w' base (.user x) ix s' id' k' v')
    (h : Leftover C sx ix kx vx ky s' id' k' v') : AsBeforeOrFallback C w w' x fb := by
  have ht : C.hasFallback = true := by simp [Cfg.hasFallback, hfb]
  cases h with
  | same =>
    refine Or.inl ⟨by rw [hr.vars]; simp [hx.var], fun s id hs hc => ?_⟩
    rw [hx.var] at hs; cases hs
    rw [hx.rep.contentId] at hc; cases hc
    rw [hr.obj, hx.obj]
  | restored _ _ hnf => rw [ht] at hnf; cases hnf
  | backup _ _ hm => have := hm.1; rw [ht] at this; cases this
  | fallback fb' _ hne hfb' =>
    rw [hfb] at hfb'; cases hfb'
    refine Or.inr ⟨⟨id', ?_, hr.owns.var, hr.owns.obj⟩, hr.owns.whichIs⟩
    rcases hr.idNew with rfl | hid
    · exact absurd rfl hne
    · exact hw.fresh _ hid


theorem Good.allInPlace (hg : Good C w) (hf : C.hasFallback = true) : AllInPlace w := by
  intro z s hs
  obtain ⟨id, k, v, ho⟩ := hg.wf.owns hs
  obtain ⟨-, hr, -⟩ := ho
  cases hr with
  | inPlace => simp
  | inBackup _ _ _ hm => exact absurd (hf.symm.trans hm.1) (by simp)

/-- C12, copy assignment: with a fallback type, `x = y` that would change the type of `x` and throws leaves `x` exactly
as it was or holding a new default-initialised object of the fallback type, and everything else as it was;
no backup is allocated and no variant is in the heap-backup state.
Missing for the full claim: the configurations of finding F10, for which it is false. -/
theorem C12_copy_assignment_fallback_partial (hb : BlankOk C) (hfc : FallbackBuilt C) {fb : TyIx}
    (hfb : C.fallback = some fb) (hg : Good C w) (hx : w.holds x kx vx) (hy : w.holds y ky vy) (hk : kx ≠ ky) {e : Exc}
    (h : copyAssign C (.user x) (.user y) w = .exc e w') :
    AsBeforeOrFallback C w w' x fb ∧ Rest w w' [x] ∧ w'.allocs = w.allocs ∧ AllInPlace w' ∧ Good C w' := by
  have ht : C.hasFallback = true := by simp [Cfg.hasFallback, hfb]
  obtain ⟨sx, ix, hxo⟩ := hg.holds hx
  obtain ⟨sy, iy, hyo⟩ := hg.holds hy
  obtain ⟨s', id', k', v', hr, hlo⟩ := copyAssign_exc ⟨hb, NoCopyOnly.of_fallback ht, hfc⟩ hg hxo hyo hk h
  have hq := Quiet.code ht (Cmd.copyAssign x y) w (hg.allInPlace ht)
  simp only [Cmd.code, h] at hq
  exact ⟨hlo.fallback_of hg.wf hxo hfb hr, fun z hz => hr.unchanged hg.wf hxo (user_ne hz) (fun _ _ _ _ => rfl),
    hq.1, hq.2, hr.good hg hxo (SameTypes.refl _)⟩

/-- C12, move assignment. -/
theorem C12_move_assignment_fallback_partial (hb : BlankOk C) (hfc : FallbackBuilt C) {fb : TyIx}
    (hfb : C.fallback = some fb) (hg : Good C w) (hx : w.holds x kx vx) (hy : w.holds y ky vy) (hk : kx ≠ ky) {e : Exc}
    (h : moveAssign C (.user x) (.user y) w = .exc e w') :
    AsBeforeOrFallback C w w' x fb ∧ Rest w w' [x, y] ∧ w'.holds y ky (C.ops.moveFailSrc ky vy) ∧
      w'.allocs = w.allocs ∧ AllInPlace w' ∧ Good C w' := by
  have ht : C.hasFallback = true := by simp [Cfg.hasFallback, hfb]
  obtain ⟨sx, ix, hxo⟩ := hg.holds hx
  obtain ⟨sy, iy, hyo⟩ := hg.holds hy
  have hne : VarId.user y ≠ VarId.user x := by
    intro he
    have h1 : w.content (.user y) = some (kx, vx) := by rw [he]; exact hx
    rw [show w.content (.user y) = _ from hy] at h1; cases h1; exact hk rfl
  obtain ⟨s', id', k', v', hr, hlo⟩ := moveAssign_exc ⟨hb, NoCopyOnly.of_fallback ht, hfc⟩ hg hxo hyo hk h
  have hq := Quiet.code ht (Cmd.moveAssign x y) w (hg.allInPlace ht)
  simp only [Cmd.code, h] at hq
  have hv : moveAssignExcSrcVal C ky vy = C.ops.moveFailSrc ky vy := by simp [moveAssignExcSrcVal, ht]
  rw [hv] at hr
  exact ⟨hlo.fallback_of hg.wf hxo hfb hr,
    fun z hz => hr.unchanged hg.wf hxo (user_ne hz) (hg.wf.upd_other hyo (user_ne2 hz)),
    (hr.owns_other hg.wf hxo hyo hne (upd_same _ _ _)).holds,
    hq.1, hq.2, hr.good hg hxo (SameTypes.upd _ _ hyo.obj)⟩

/-! ### C15 -/

/-- Every exception a copy assignment that changes the type can throw. The first two kinds are the documented ones;
the third occurs only if there is no fallback type and neither operand's type can be moved without throwing. -/
theorem C15_copy_assignment_throws (hb : BlankOk C) (hg : Good C w) (hx : w.holds x kx vx) (hy : w.holds y ky vy)
    (hk : kx ≠ ky) {e : Exc} (h : copyAssign C (.user x) (.user y) w = .exc e w') :
    e.kind = .badAlloc ∨ e.kind = .copyCtor ky ∨
      (e.kind = .copyCtor kx ∧ C.mayBackup ky ∧ (C.tr kx).nothrowMove = false) := by
  obtain ⟨sx, ix, hxo⟩ := hg.holds hx
  obtain ⟨sy, iy, hyo⟩ := hg.holds hy
  rcases hazard_cases sx sy with hn | ⟨hne, hlt⟩
  · rcases (wp_exc (wp_copyAssign_gen hb hxo hyo (hg.wf.distinct hxo hyo) hg.wf.toFresh hn) h).1 with
      ⟨-, hk', -⟩ | ⟨-, h1 | ⟨h1 | h1, ⟨-, h2⟩, h3, -⟩, -⟩
    · exact absurd hk' hk
    · exact Or.inr (Or.inl h1)
    · exact Or.inr (Or.inr ⟨h1, h3, h2⟩)
    · exact Or.inl h1
  · have hz := copyAssign_hazard_exc hxo hyo hne hlt h
    rcases hz.kind with h1 | h1
    · exact Or.inr (Or.inr ⟨h1, (hyo.backup hlt).2, hz.noMove⟩)
    · exact Or.inl h1

/-- Every exception a move assignment that changes the type can throw. -/
theorem C15_move_assignment_throws (hb : BlankOk C) (hg : Good C w) (hx : w.holds x kx vx) (hy : w.holds y ky vy)
    (hk : kx ≠ ky) {e : Exc} (h : moveAssign C (.user x) (.user y) w = .exc e w') :
    e.kind = .badAlloc ∨ e.kind = .moveCtor ky ∨ (e.kind = .copyCtor ky ∧ C.mayBackup ky) ∨
      (e.kind = .copyCtor kx ∧ C.mayBackup ky ∧ (C.tr kx).nothrowMove = false) := by
  obtain ⟨sx, ix, hxo⟩ := hg.holds hx
  obtain ⟨sy, iy, hyo⟩ := hg.holds hy
  rcases hazard_cases sx sy with hn | ⟨hne, hlt⟩
  · rcases (wp_exc (wp_moveAssign_gen hb hxo hyo (hg.wf.distinct hxo hyo) hg.wf.toFresh hn) h).2.1 with
      ⟨he, -⟩ | ⟨-, -, hk', -⟩ | ⟨-, -, ⟨h1, -⟩ | ⟨hm, h1 | ⟨h1 | h1, ⟨-, h2⟩, h3, -⟩⟩, -⟩
    · have h1 : w.content (.user y) = some (kx, vx) := by rw [← he]; exact hx
      rw [show w.content (.user y) = _ from hy] at h1; cases h1; exact absurd rfl hk
    · exact absurd hk' hk
    · exact Or.inr (Or.inl h1)
    · exact Or.inr (Or.inr (Or.inl ⟨h1, hm⟩))
    · exact Or.inr (Or.inr (Or.inr ⟨h1, h3, h2⟩))
    · exact Or.inl h1
  · have hz := moveAssign_hazard_exc hxo hyo hne hlt h
    rcases hz.kind with h1 | h1
    · exact Or.inr (Or.inr (Or.inr ⟨h1, (hyo.backup hlt).2, hz.noMove⟩))
    · exact Or.inl h1

/-- C15 as documented, for copy assignment, when there is a fallback type, or the held type is nothrow movable, or the
assigned type is nothrow copyable or movable. Missing: the other configurations (finding F6). -/
theorem C15_copy_assignment_documented_partial (hb : BlankOk C) (hg : Good C w) (hx : w.holds x kx vx)
    (hy : w.holds y ky vy) (hk : kx ≠ ky) (hc : ¬ C.mayBackup ky ∨ (C.tr kx).nothrowMove = true) {e : Exc}
    (h : copyAssign C (.user x) (.user y) w = .exc e w') : e.kind = .badAlloc ∨ e.kind = .copyCtor ky := by
  rcases C15_copy_assignment_throws hb hg hx hy hk h with h1 | h1 | ⟨-, h2, h3⟩
  · exact Or.inl h1
  · exact Or.inr h1
  · rcases hc with hc | hc
    · exact absurd h2 hc
    · rw [h3] at hc; cases hc

/-- C15 as documented, for move assignment, when there is a fallback type or the assigned type is nothrow copyable or
movable; in fact only the move constructor can throw then. Missing: the other configurations (finding F6). -/
theorem C15_move_assignment_documented_partial (hb : BlankOk C) (hg : Good C w) (hx : w.holds x kx vx)
    (hy : w.holds y ky vy) (hk : kx ≠ ky) (hc : ¬ C.mayBackup ky) {e : Exc}
    (h : moveAssign C (.user x) (.user y) w = .exc e w') : e.kind = .badAlloc ∨ e.kind = .moveCtor ky := by
  rcases C15_move_assignment_throws hb hg hx hy hk h with h1 | h1 | ⟨-, h2⟩ | ⟨-, h2, -⟩
  · exact Or.inl h1
  · exact Or.inr h1
  · exact absurd h2 hc
  · exact absurd h2 hc

/-! ### C17 -/

/-- C17: if every bounded type is nothrow move constructible and nothrow move assignable, `x = std::move(y)` returns,
whatever the oracle says. -/
theorem C17_move_assignment_noexcept (hb : BlankOk C) (hg : Good C w)
    (h1 : ∀ t, t ∈ C.types → t.nothrowMove = true) (h2 : ∀ t, t ∈ C.types → t.nothrowMoveAssign = true)
    (hx : w.alive x) (hy : w.alive y) : ∃ w', moveAssign C (.user x) (.user y) w = .ok () w' := by
  obtain ⟨sx, ix, kx, vx, hxo⟩ := hg.owns hx
  obtain ⟨sy, iy, ky, vy, hyo⟩ := hg.owns hy
  have hm := tr_of_all (p := (·.nothrowMove)) (List.all_eq_true.mpr h1) hyo.rep.lt
  have hn : NoHazard sx sy := by
    rcases hazard_cases sx sy with hn | ⟨-, hlt⟩
    · exact hn
    · have := (hyo.backup hlt).2.2.1; simp [hm] at this
  rcases wp_elim (wp_moveAssign_gen hb hxo hyo (hg.wf.distinct hxo hyo) hg.wf.toFresh hn) with
    ⟨u, w', h, -⟩ | ⟨e, w', -, h, -⟩
  · exact ⟨w', h⟩
  · have e1 : moveNoexceptConstructible C = true := List.all_eq_true.mpr h1
    have e2 : moveNoexceptAssignable C = true := List.all_eq_true.mpr h2
    rw [e1, e2] at h; cases h

/-! ### C19 -/

/-- C19: after `x = y` returns, `x` is in the heap-backup state only if it was before and `y` held the same type, also
in the heap-backup state. Missing for the full claim: it is false in that case (finding F7). -/
theorem C19_copy_assignment_in_place_partial (hb : BlankOk C) (hg : Good C w) (hx : w.holds x kx vx)
    (hy : w.holds y ky vy) (hz : C.ndebug = false ∨ (w.backedUp y && w.recordsDiffer x y) = false)
    (h : copyAssign C (.user x) (.user y) w = .ok () w') (hbk : w'.backedUp x = true) :
    w.backedUp x = true ∧ w.backedUp y = true ∧ kx = ky := by
  obtain ⟨sx, ix, hxo⟩ := hg.holds hx
  obtain ⟨sy, iy, hyo⟩ := hg.holds hy
  rcases copyAssign_ok hb hg hxo hyo hz h with ⟨he, hk, hr, -⟩ | ⟨-, id', -, hr⟩
  · rw [hr.owns.backedUp] at hbk
    exact ⟨by rw [hxo.backedUp, hbk], by rw [hyo.backedUp, ← he, hbk], hk⟩
  · rw [hr.owns.backedUp] at hbk; simp at hbk; omega

/-- C19 for move assignment. -/
theorem C19_move_assignment_in_place_partial (hb : BlankOk C) (hg : Good C w) (hx : w.holds x kx vx)
    (hy : w.holds y ky vy) (hz : C.ndebug = false ∨ (w.backedUp y && w.recordsDiffer x y) = false)
    (h : moveAssign C (.user x) (.user y) w = .ok () w') (hbk : w'.backedUp x = true) :
    w.backedUp x = true ∧ w.backedUp y = true ∧ kx = ky := by
  obtain ⟨sx, ix, hxo⟩ := hg.holds hx
  obtain ⟨sy, iy, hyo⟩ := hg.holds hy
  rcases moveAssign_ok hb hg hxo hyo hz h with ⟨he, hr, -⟩ | ⟨-, he, hk, hr, -⟩ | ⟨-, -, id', -, hr⟩
  · rw [hr.owns.backedUp] at hbk
    cases he
    have h1 : some (kx, vx) = some (ky, vy) := hx.symm.trans hy
    cases h1
    have := hxo.backedUp
    exact ⟨by rw [this, hbk], by rw [this, hbk], rfl⟩
  · rw [hr.owns.backedUp] at hbk
    exact ⟨by rw [hxo.backedUp, hbk], by rw [hyo.backedUp, ← he, hbk], hk⟩
  · rw [hr.owns.backedUp] at hbk; simp at hbk; omega

end

/-! ### Non-vacuity -/

theorem exTwo_blankOk : BlankOk exTwo := by unfold BlankOk; decide

theorem exTwo_noCopyOnly : NoCopyOnly exTwo := exTwo_sane.2

theorem exBackup_facts1 : exBackup.holds 1 1 7 := by unfold World.holds; decide +kernel

/-- Two variants of different types, in place; the next assignment between them throws. -/
def exPlain : World Nat := stateAfter exTwo (exProg.take 2)

theorem exPlain_good : Good exTwo exPlain := stateAfter_good exTwo_sane (by decide +kernel)

theorem exPlain_facts : exPlain.holds 0 0 5 ∧ exPlain.holds 1 1 7 := by unfold World.holds; decide +kernel

/-- C09 and C19: a copy assignment of a new type to a variant in the heap-backup state, which leaves that state. -/
example : ∃ w', copyAssign exTwo (.user 0) (.user 1) exBackup = .ok () w' ∧ w'.holds 0 1 7 ∧ w'.backedUp 0 = false := by
  obtain ⟨w', h⟩ := of_endsOk (m := copyAssign exTwo (.user 0) (.user 1)) (w := exBackup) (by decide +kernel)
  have hc := C09_copy_assignment_value_partial natOps_lawful exTwo_blankOk exBackup_good exBackup_facts.2.1
    exBackup_facts1 (Or.inl rfl) h
  refine ⟨w', h, hc, ?_⟩
  cases hbk : w'.backedUp 0 with
  | false => rfl
  | true => exact absurd (C19_copy_assignment_in_place_partial exTwo_blankOk exBackup_good exBackup_facts.2.1
      exBackup_facts1 (Or.inl rfl) h hbk).2.2 (by decide)

/-- C10 and C19: the same with move assignment. -/
example : ∃ w', moveAssign exTwo (.user 0) (.user 1) exBackup = .ok () w' ∧ w'.holds 0 1 7 ∧ w'.backedUp 0 = false := by
  obtain ⟨w', h⟩ := of_endsOk (m := moveAssign exTwo (.user 0) (.user 1)) (w := exBackup) (by decide +kernel)
  have hc := C10_move_assignment_value_partial natOps_lawful exTwo_blankOk exBackup_good (by decide) exBackup_facts.2.1
    exBackup_facts1 (Or.inl rfl) h
  refine ⟨w', h, hc, ?_⟩
  cases hbk : w'.backedUp 0 with
  | false => rfl
  | true => exact absurd (C19_move_assignment_in_place_partial exTwo_blankOk exBackup_good exBackup_facts.2.1
      exBackup_facts1 (Or.inl rfl) h hbk).2.2 (by decide)

/-- C11 and C15: a copy assignment that throws and is rolled back. -/
example : ∃ e w', copyAssign exTwo (.user 0) (.user 1) exPlain = .exc e w' ∧ w'.holds 0 0 5 ∧
    (e.kind = .badAlloc ∨ e.kind = .copyCtor 1 ∨
      (e.kind = .copyCtor 0 ∧ exTwo.mayBackup 1 ∧ (exTwo.tr 0).nothrowMove = false)) := by
  obtain ⟨e, w', h⟩ := of_endsExc (m := copyAssign exTwo (.user 0) (.user 1)) (w := exPlain) (by decide +kernel)
  exact ⟨e, w', h, (C11_copy_assignment_rolled_back_partial exTwo_blankOk exTwo_noCopyOnly (by decide) exPlain_good
    exPlain_facts.1 exPlain_facts.2 (by decide) h).2.2.1 natOps_lawful,
    C15_copy_assignment_throws exTwo_blankOk exPlain_good exPlain_facts.1 exPlain_facts.2 (by decide) h⟩

/-- C11 and C15: a move assignment that throws and is rolled back. -/
example : ∃ e w', moveAssign exTwo (.user 0) (.user 1) exPlain = .exc e w' ∧ w'.holds 0 0 5 ∧ w'.holds 1 1 7 := by
  obtain ⟨e, w', h⟩ := of_endsExc (m := moveAssign exTwo (.user 0) (.user 1)) (w := exPlain) (by decide +kernel)
  obtain ⟨-, -, h1, h2, -⟩ := C11_move_assignment_rolled_back_partial exTwo_blankOk exTwo_noCopyOnly (by decide)
    exPlain_good exPlain_facts.1 exPlain_facts.2 (by decide) h
  exact ⟨e, w', h, h1 natOps_lawful, by rw [World.holds, (h2 1 (by decide)).content]; exact exPlain_facts.2⟩

/-- A variant with fallback type `int` (number 0) and two throwing types. -/
def exFall : Cfg Nat := exCfg [tInt, tThrowing, tThrowing] [4]

theorem exFall_built : FallbackBuilt exFall := by
  intro k hk
  have : exFall.fallback = some 0 := by decide
  rw [this] at hk; cases hk; exact .inr (.inl (by decide))

theorem exFall_sane : Sane exFall :=
  ⟨by unfold BlankOk; decide, NoCopyOnly.of_fallback (by decide), exFall_built⟩

def exFallSt : World Nat := stateAfter exFall [.constructC 0 1 5, .constructC 1 2 7]

theorem exFallSt_good : Good exFall exFallSt := stateAfter_good exFall_sane (by decide +kernel)

/-- C12 applies, and here the fallback type is what remains. -/
example : ∃ e w', copyAssign exFall (.user 0) (.user 1) exFallSt = .exc e w' ∧
    AsBeforeOrFallback exFall exFallSt w' 0 0 ∧
    contentAfter exFall [.constructC 0 1 5, .constructC 1 2 7, .copyAssign 0 1] 0 = some (0, 999) := by
  obtain ⟨e, w', h⟩ := of_endsExc (m := copyAssign exFall (.user 0) (.user 1)) (w := exFallSt) (by decide +kernel)
  exact ⟨e, w', h, (C12_copy_assignment_fallback_partial exFall_sane.1 exFall_built (by decide) exFallSt_good
    (kx := 1) (vx := 5) (ky := 2) (vy := 7) (by unfold World.holds; decide +kernel)
    (by unfold World.holds; decide +kernel) (by decide) h).1, by decide +kernel⟩

example : ∃ e w', moveAssign exFall (.user 0) (.user 1) exFallSt = .exc e w' ∧
    AsBeforeOrFallback exFall exFallSt w' 0 0 ∧ e.kind = .moveCtor 2 := by
  obtain ⟨e, w', h⟩ := of_endsExc (m := moveAssign exFall (.user 0) (.user 1)) (w := exFallSt) (by decide +kernel)
  have h0 : exFallSt.holds 0 1 5 := by unfold World.holds; decide +kernel
  have h1 : exFallSt.holds 1 2 7 := by unfold World.holds; decide +kernel
  refine ⟨e, w', h, (C12_move_assignment_fallback_partial exFall_sane.1 exFall_built (by decide) exFallSt_good
    h0 h1 (by decide) h).1, ?_⟩
  have hm : ¬ exFall.mayBackup 2 := fun hm => absurd hm.1 (by decide)
  rcases C15_move_assignment_documented_partial exFall_sane.1 exFallSt_good h0 h1 (by decide) hm h with h2 | h2
  · have : thrownBy exFall [.constructC 0 1 5, .constructC 1 2 7] (.moveAssign 0 1) = some (.moveCtor 2) := by
      decide +kernel
    have hrun : run exFall [.constructC 0 1 5, .constructC 1 2 7] (World.init Nat) = some exFallSt := by
      have : (run exFall [.constructC 0 1 5, .constructC 1 2 7] (World.init Nat)).isSome = true := by decide +kernel
      obtain ⟨w, hw⟩ := Option.isSome_iff_exists.mp this
      simp [exFallSt, stateAfter, hw]
    simp [thrownBy, hrun, Cmd.code, h] at this
    exact this
  · exact h2

/-- A variant over two nothrow movable types, one of which throws when copied. -/
def exMov : Cfg Nat := exCfg [tMovable, tInt] [4, 5, 6, 7]

theorem exMov_sane : Sane exMov := by
  refine ⟨by unfold BlankOk; decide, NoCopyOnly.of_fallback (by decide), ?_⟩
  intro k hk
  have : exMov.fallback = some 1 := by decide
  rw [this] at hk; cases hk; exact .inr (.inl (by decide))

/-- C17 applies to a variant over two nothrow movable types, whatever throws. -/
example : ∃ w', moveAssign exMov (.user 0) (.user 1) (stateAfter exMov [.constructC 0 0 5, .constructC 1 1 7]) = .ok () w' := by
  refine C17_move_assignment_noexcept (by unfold BlankOk; decide) (stateAfter_good exMov_sane (by decide +kernel))
    (by decide) (by decide) (by unfold World.alive; decide +kernel) (by unfold World.alive; decide +kernel)

/-- C09 and C10 in full for the same assignments: `which()`, the value, and everything else. -/
example : ∃ w', copyAssign exTwo (.user 0) (.user 1) exBackup = .ok () w' ∧ WhichIs w' 0 1 ∧ Rest exBackup w' [0] ∧
    w'.holds 1 1 7 := by
  obtain ⟨w', h⟩ := of_endsOk (m := copyAssign exTwo (.user 0) (.user 1)) (w := exBackup) (by decide +kernel)
  have hc := C09_copy_assignment_partial exTwo_blankOk exBackup_good exBackup_facts.2.1 exBackup_facts1 (Or.inl rfl) h
  exact ⟨w', h, hc.1, hc.2.2.1, hc.2.2.2.1 (by decide)⟩

example : ∃ w', moveAssign exTwo (.user 0) (.user 1) exBackup = .ok () w' ∧ WhichIs w' 0 1 ∧ Rest exBackup w' [0, 1] := by
  obtain ⟨w', h⟩ := of_endsOk (m := moveAssign exTwo (.user 0) (.user 1)) (w := exBackup) (by decide +kernel)
  have hc := C10_move_assignment_partial exTwo_blankOk exBackup_good (by decide) exBackup_facts.2.1 exBackup_facts1
    (Or.inl rfl) h
  exact ⟨w', h, hc.1, hc.2.2.1⟩

/-- C15: what the failing move assignment may throw, and what it does throw. -/
example : ∃ e w', moveAssign exTwo (.user 0) (.user 1) exPlain = .exc e w' ∧
    (e.kind = .badAlloc ∨ e.kind = .moveCtor 1 ∨ (e.kind = .copyCtor 1 ∧ exTwo.mayBackup 1) ∨
      (e.kind = .copyCtor 0 ∧ exTwo.mayBackup 1 ∧ (exTwo.tr 0).nothrowMove = false)) ∧
    thrownBy exTwo (exProg.take 2) (.moveAssign 0 1) = some (.copyCtor 1) := by
  obtain ⟨e, w', h⟩ := of_endsExc (m := moveAssign exTwo (.user 0) (.user 1)) (w := exPlain) (by decide +kernel)
  exact ⟨e, w', h, C15_move_assignment_throws exTwo_blankOk exPlain_good exPlain_facts.1 exPlain_facts.2 (by decide) h,
    by decide +kernel⟩

/-- C15, documented part: with a fallback type only the copy constructor of the right side may throw. -/
example : ∃ e w', copyAssign exFall (.user 0) (.user 1) exFallSt = .exc e w' ∧
    (e.kind = .badAlloc ∨ e.kind = .copyCtor 2) := by
  obtain ⟨e, w', h⟩ := of_endsExc (m := copyAssign exFall (.user 0) (.user 1)) (w := exFallSt) (by decide +kernel)
  exact ⟨e, w', h, C15_copy_assignment_documented_partial exFall_sane.1 exFallSt_good (kx := 1) (vx := 5) (vy := 7)
    (by unfold World.holds; decide +kernel) (by unfold World.holds; decide +kernel) (by decide)
    (Or.inl fun hm => absurd hm.1 (by decide)) h⟩

/-- C14: a statement in the state of that example that throws, and one that returns. -/
example : ∃ e w', (Cmd.copyAssign 0 1).code exTwo exPlain = .exc e w' ∧
    ∃ t, exPlain.tick ≤ t ∧ t < w'.tick ∧ exTwo.throws t = true := by
  obtain ⟨e, w', h⟩ := of_endsExc (m := (Cmd.copyAssign 0 1).code exTwo) (w := exPlain) (by decide +kernel)
  rcases C14_returns_unless_thrown_partial exTwo_blankOk exPlain_good (.copyAssign 0 1) (by decide +kernel)
    (by decide +kernel) with ⟨w'', h'⟩ | h'
  · rw [h] at h'; cases h'
  · exact h'

/-! ### Counterexamples to the unrestricted claims -/

/-- F1 with assertions off: the copy assignment returns, but the target holds nothing afterwards (C09); so does the
move assignment (C10). -/
theorem C09_counterexample_backup_source :
    thrownBy { exTwo with ndebug := true } (exProg.take 3 ++ [.constructC 2 1 3]) (.copyAssign 2 0) = none ∧
    faults { exTwo with ndebug := true } (exProg.take 3 ++ [.constructC 2 1 3, .copyAssign 2 0]) = false ∧
    contentAfter { exTwo with ndebug := true } (exProg.take 3 ++ [.constructC 2 1 3, .copyAssign 2 0]) 2 = none ∧
    contentAfter { exTwo with ndebug := true } (exProg.take 3 ++ [.constructC 2 1 3, .moveAssign 2 0]) 2 = none := by
  decide +kernel

/-- F2: without a fallback type, a failed assignment leaves content in a heap backup that the library cannot find
again: the next visit of the target is undefined (C11). -/
theorem C11_counterexample_copy_only :
    (exCfg [tCopyOnly, tThrowing] [6]).hasFallback = false ∧
    thrownBy (exCfg [tCopyOnly, tThrowing] [6]) [.constructC 0 0 5, .constructC 1 1 7] (.copyAssign 0 1)
      = some (.copyCtor 1) ∧
    faults (exCfg [tCopyOnly, tThrowing] [6])
      [.constructC 0 0 5, .constructC 1 1 7, .copyAssign 0 1, .mutate 0 8] = true := by decide +kernel

/-- F10: after a failed assignment with fallback type `std::string` the target holds no object (C12). -/
theorem C12_counterexample_fallback_ctor :
    thrownBy (exCfg [tString, tThrowing] [4]) [.constructC 0 0 5, .constructC 1 1 7] (.copyAssign 0 1)
      = some (.copyCtor 1) ∧
    contentAfter (exCfg [tString, tThrowing] [4]) [.constructC 0 0 5, .constructC 1 1 7, .copyAssign 0 1] 0 = none := by
  decide +kernel

/-- F6: a copy assignment of content of type 1 throws what the copy constructor of type 0 throws (the old content is
copied to the heap first), and a move assignment throws that, or what the copy constructor of type 1 throws (C15). -/
theorem C15_counterexample_backup_copy :
    thrownBy (exCfg [tThrowing, tThrowing] [5]) [.constructC 0 0 5, .constructC 1 1 7] (.copyAssign 0 1)
      = some (.copyCtor 0) ∧
    thrownBy (exCfg [tThrowing, tThrowing] [5]) [.constructC 0 0 5, .constructC 1 1 7] (.moveAssign 0 1)
      = some (.copyCtor 0) ∧
    thrownBy (exCfg [tThrowing, tThrowing] [6]) [.constructC 0 0 5, .constructC 1 1 7] (.moveAssign 0 1)
      = some (.copyCtor 1) := by decide +kernel

/-- F7: assignment between two variants that hold the same type in the heap-backup state succeeds and leaves the
target in that state (C19). -/
theorem C19_counterexample_same_type :
    let C := exCfg [tThrowing, tThrowing] [8, 11]
    let p : List (Cmd Nat) := [.constructC 0 0 5, .constructC 1 0 6, .constructC 2 1 7, .copyAssign 0 2, .copyAssign 1 2]
    faults C (p ++ [.copyAssign 0 1]) = false ∧ thrownBy C p (.copyAssign 0 1) = none ∧
    contentAfter C (p ++ [.copyAssign 0 1]) 0 = some (0, 6) ∧ backedUpAfter C (p ++ [.copyAssign 0 1]) 0 = true := by
  decide +kernel

end BVariant
