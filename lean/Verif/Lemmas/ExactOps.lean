/-
What construction, destruction and assignment do to the variables, without objects and addresses.
-/
import Verif.Lemmas.Exact

set_option linter.unusedSimpArgs false

namespace BVariant

section
variable {V : Type} {C : Cfg V} {w w' : World V} {T : List (ObjId × TyIx)} {x y l r : VarId} {s sl sr : VarSt} {id idl idr : ObjId} {k kl kr : TyIx}
  {v vl vr : V}

/-- The state differs from `w` in the variables that `r` names. -/
theorem view_eq {f : VarId → Option (Tag V)} (h : w'.tagged = f) : w'.view = ⟨f, w'.tick, w'.allocs⟩ := by
  rw [← h]; rfl

macro "exact_simp" "[" ts:Lean.Parser.Tactic.simpLemma,* "]" : tactic =>
  `(tactic| simp only [bind, Eff.bind, xGet, xMay, xPut, Eff.modify, Eff.onExc, World.view, xCopy, xMove, xMoveLocal, XSt.changed, $ts,*])

section
variable {base : ObjId → Option (TyIx × V)} {ch : Option (VarId × Tag V)} {s' : VarSt} {id' : ObjId} {k' : TyIx} {v' : V}

theorem did_revalue_ok {α : Type} {a : α} {R : Res (XSt V) α} (hw : Inv C T w) (hb : SameTypes w.objs base) (hc : Changes C w base ch)
    (hR : Revalue w w' base) (hX : R = Res.ok a ⟨XSt.changed w.tagged ch, w'.tick, w'.allocs⟩) : R = Res.ok a w'.view ∧ Inv C T w' :=
  ⟨by rw [view_eq (hR.tagged hw hc)]; exact hX, hR.inv hw hb⟩

theorem did_revalue_exc {α : Type} {e : Exc} {R : Res (XSt V) α} (hw : Inv C T w) (hb : SameTypes w.objs base) (hc : Changes C w base ch)
    (hR : Revalue w w' base) (hX : R = Res.exc e ⟨XSt.changed w.tagged ch, w'.tick, w'.allocs⟩) : R = Res.exc e w'.view ∧ Inv C T w' :=
  ⟨by rw [view_eq (hR.tagged hw hc)]; exact hX, hR.inv hw hb⟩

theorem did_create_ok {α : Type} {a : α} {R : Res (XSt V) α} (hw : Inv C T w) (hx : w.vars x = none) (hb : SameTypes w.objs base) (hc : Changes C w base ch)
    (hR : Create C w w' base x s' id' k' v') (hX : R = Res.ok a ⟨upd (XSt.changed w.tagged ch) x (some ⟨k', v', s'.backed⟩), w'.tick, w'.allocs⟩) : R = Res.ok a w'.view ∧ Inv C T w' :=
  ⟨by rw [view_eq (hR.tagged hw hc)]; exact hX, hR.inv hw hx hb⟩

theorem did_create_exc {α : Type} {e : Exc} {R : Res (XSt V) α} (hw : Inv C T w) (hx : w.vars x = none) (hb : SameTypes w.objs base) (hc : Changes C w base ch)
    (hR : Create C w w' base x s' id' k' v') (hX : R = Res.exc e ⟨upd (XSt.changed w.tagged ch) x (some ⟨k', v', s'.backed⟩), w'.tick, w'.allocs⟩) : R = Res.exc e w'.view ∧ Inv C T w' :=
  ⟨by rw [view_eq (hR.tagged hw hc)]; exact hX, hR.inv hw hx hb⟩

theorem did_replace_ok {α : Type} {a : α} {R : Res (XSt V) α} (hw : Inv C T w) (hl : Owns C w l sl idl kl vl) (hb : SameTypes w.objs base) (hc : Changes C w base ch)
    (hR : Replace C w w' base l idl s' id' k' v') (hX : R = Res.ok a ⟨upd (XSt.changed w.tagged ch) l (some ⟨k', v', s'.backed⟩), w'.tick, w'.allocs⟩) : R = Res.ok a w'.view ∧ Inv C T w' :=
  ⟨by rw [view_eq (hR.tagged hw hl hc)]; exact hX, hR.inv hw hl hb⟩

theorem did_replace_exc {α : Type} {e : Exc} {R : Res (XSt V) α} (hw : Inv C T w) (hl : Owns C w l sl idl kl vl) (hb : SameTypes w.objs base) (hc : Changes C w base ch)
    (hR : Replace C w w' base l idl s' id' k' v') (hX : R = Res.exc e ⟨upd (XSt.changed w.tagged ch) l (some ⟨k', v', s'.backed⟩), w'.tick, w'.allocs⟩) : R = Res.exc e w'.view ∧ Inv C T w' :=
  ⟨by rw [view_eq (hR.tagged hw hl hc)]; exact hX, hR.inv hw hl hb⟩

theorem did_remove_ok {α : Type} {a : α} {R : Res (XSt V) α} (hw : Inv C T w) (hl : Owns C w l sl idl kl vl)
    (hR : Remove w w' l idl) (hX : R = Res.ok a ⟨upd w.tagged l none, w'.tick, w'.allocs⟩) : R = Res.ok a w'.view ∧ Inv C T w' :=
  ⟨by rw [view_eq (hR.tagged hw hl)]; exact hX, hR.inv hw hl⟩

theorem did_remove_exc {α : Type} {e : Exc} {R : Res (XSt V) α} (hw : Inv C T w) (hl : Owns C w l sl idl kl vl)
    (hR : Remove w w' l idl) (hX : R = Res.exc e ⟨upd w.tagged l none, w'.tick, w'.allocs⟩) : R = Res.exc e w'.view ∧ Inv C T w' :=
  ⟨by rw [view_eq (hR.tagged hw hl)]; exact hX, hR.inv hw hl⟩

theorem inPlace_backed (k : TyIx) (i : ObjId) : VarSt.backed ⟨(k : Int), .obj i⟩ = false := by simp only [VarSt.backed, decide_eq_false_iff_not]; omega

theorem inBackup_backed (k : TyIx) (i : Option ObjId) : VarSt.backed ⟨-((k : Int) + 1), .holder k i⟩ = true := by simp only [VarSt.backed, decide_eq_true_eq]; omega

end

theorem ref_copyConstruct (hw : Inv C T w) (hx : w.vars x = none) (hy : Owns C w y s id k v) : Conforms C T (copyConstruct C x y) (xCopyConstruct C x y) w := by
  have hlt := hw.fresh.lt hy.obj
  have hfr := hw.fresh.fresh
  have hk := Rep.lt C hy.rep
  unfold Conforms
  simp only [copyConstruct, wp_bind, wp_iav_copyInto hy]
  simp only [wpx_copyCtor, hy.obj, if_true, wpx_which, hy.var, Rep.which C hy.rep, wp_beginVar, indicateWhich]
  split
  · rename_i hth
    refine did_revalue_exc hw (SameTypes.refl _) .refl ?_ ?_
    · exact ⟨rfl, rfl, rfl, rfl⟩
    exact_simp [xCopyConstruct, hy.tagged, hth, and_self, if_true]
  · rename_i hth
    refine did_create_ok (s' := ⟨(k : Int), .obj w.next⟩) (id' := w.next) (k' := k) (v' := C.ops.copy k v) hw hx
      (SameTypes.refl _) .refl ?_ ?_
    · frame_tac
    exact_simp [xCopyConstruct, hy.tagged, hth, if_false, inPlace_backed]

theorem ref_moveConstruct (hw : Inv C T w) (hx : w.vars x = none) (hy : Owns C w y s id k v) : Conforms C T (moveConstruct C x y) (xMoveConstruct C x y) w := by
  have hlt := hw.fresh.lt hy.obj
  have hfr := hw.fresh.fresh
  have hk := Rep.lt C hy.rep
  unfold Conforms
  simp only [moveConstruct, wp_noexceptIf, wp_bind, wp_iav_moveInto hy]
  simp only [wpx_moveCtor, hy.obj, if_true, wpx_which, hy.var, Rep.which C hy.rep, wp_beginVar, indicateWhich]
  split
  · rename_i hth
    have hb : moveNoexceptConstructible C = false := by
      cases hb : moveNoexceptConstructible C with
      | false => rfl
      | true => have := tr_of_all hb hk; simp [hth.1] at this
    refine ⟨hb, did_revalue_exc hw (SameTypes.upd _ _ hy.obj) (.var hy (C.ops.moveFailSrc k v)) ?_ ?_⟩
    · exact ⟨rfl, rfl, rfl, rfl⟩
    exact_simp [xMoveConstruct, hy.tagged, hth, and_self, if_true]
  · rename_i hth
    refine did_create_ok (s' := ⟨(k : Int), .obj w.next⟩) (id' := w.next) (k' := k) (v' := C.ops.move k v) hw hx
      (SameTypes.upd _ _ hy.obj) (.var hy (C.ops.movedFrom k v)) ?_ ?_
    · frame_tac
    exact_simp [xMoveConstruct, hy.tagged, hth, if_false, inPlace_backed]

theorem ref_defaultConstruct (hw : Inv C T w) (hx : w.vars x = none) (hn : 0 < C.n) : Conforms C T (defaultConstruct C x) (xDefault C x) w := by
  have hfr := hw.fresh.fresh
  unfold Conforms
  simp only [defaultConstruct, wp_noexceptIf, wp_bind, wp_valueCtor, wp_beginVar, indicateWhich]
  split
  · rename_i hth
    refine ⟨hth.1, did_revalue_exc hw (SameTypes.refl _) .refl ?_ ?_⟩
    · exact ⟨rfl, rfl, rfl, rfl⟩
    exact_simp [xDefault, hth, and_self, if_true]
  · rename_i hth
    have hrep : Rep C ⟨0, .obj w.next⟩ w.next 0 := Rep.inPlace w.next 0 hn
    refine did_create_ok (s' := ⟨0, .obj w.next⟩) (id' := w.next) (k' := 0) (v' := C.ops.valueInit 0) hw hx
      (SameTypes.refl _) .refl ?_ ?_
    · frame_tac
    exact_simp [xDefault, hth, if_false]
    simp [VarSt.backed]

theorem ref_destroyVar (hw : Inv C T w) (hx : Owns C w x s id k v) : Conforms C T (destroyVar C x) (xPut x none) w := by
  refine wp_destroyVar_intro hx hw.fresh.flat ?_
  refine did_remove_ok hw hx ?_ ?_
  · exact ⟨fun _ => by simp only [upd], fun _ => by simp only [upd], rfl, rfl⟩
  exact_simp [xPut]

/-! ### Assignment -/

theorem Rep.record_iff (hl : Rep C sl idl kl) (hr : Rep C sr idr kr) : (kl = kr ∧ sl.backed = sr.backed) ↔ sl.which_ = sr.which_ := by
  cases hl <;> cases hr <;> simp only [inPlace_backed, inBackup_backed, and_true, Bool.false_eq_true, Bool.true_eq_false, and_false, false_iff] <;> omega

theorem Rep.backed_iff (h : Rep C s id k) : (s.backed = true ∧ s = ⟨-((k : Int) + 1), .holder k (some id)⟩ ∧ C.mayBackup k) ∨
    (s.backed = false ∧ s = ⟨(k : Int), .obj id⟩) := by
  cases h with
  | inPlace => exact .inr ⟨inPlace_backed _ _, rfl⟩
  | inBackup _ _ _ hb => exact .inl ⟨inBackup_backed _ _, rfl, hb⟩

/-- The old content is kept meanwhile. -/
theorem ref_guardedCopy (hs : Sane C) (hmbr : C.mayBackup kr) (hw : Inv C T w) (hl : Owns C w l sl idl kl vl) (hro : w.objs idr = some (kr, vr))
    (hne : idl ≠ idr) (hkr : kr < C.n) :
    Conforms C T (assignImpl C l kr (.obj kr idr) false false false) (xGuardedCopy C l ⟨kl, vl, sl.backed⟩ kr vr) w := by
  have hlt1 := hw.fresh.lt hl.obj
  have hlt2 := hw.fresh.lt hro
  have hfr := hw.fresh.fresh
  have hfl := hw.fresh.flat
  have hnf := hmbr.1
  have n1 : w.next ≠ idl := by omega
  have n2 : w.next ≠ idr := by omega
  have n3 : idr ≠ w.next := by omega
  have n4 : idl ≠ w.next := by omega
  have n5 : w.next ≠ w.next + 1 := by omega
  have hl' := hl
  obtain ⟨hx, hr, ho⟩ := hl
  have hmb : (C.tr kl).nothrowMove = false → C.mayBackup kl := hs.mayBackup hmbr hr.lt hkr
  unfold Conforms
  simp only [assignImpl, Bool.false_eq_true, if_false]
  cases hr with
  | inPlace _ _ hk =>
    rw [wp_iav_inPlace C hx hk ho]
    simp only [backupAssigner]
    by_cases hm : (C.tr kl).nothrowMove = true
    · simp only [hm, if_true, wp_bind, wpx_moveCtor, ho, Bool.true_eq_false, false_and, if_false, wp_withLocal,
        wpx_destroyObj, hfl, implies_true, upd_ne _ _ n4, upd_same, wp_onExc, copyRhsInto, copyRhs, wpx_copyCtor,
        upd_ne _ _ n3, upd_ne _ _ hne.symm, hro, wp_pure, wpx_setSlot, wpx_setWhich, hx, upd_upd_same,
        upd_ne _ _ n1, indicateWhich, upd_ne _ _ n5]
      split
      · rename_i hth
        refine did_replace_exc (s' := ⟨(kl : Int), .obj (w.next + 1)⟩) (id' := w.next + 1) (k' := kl) (v' := C.ops.move kl (C.ops.move kl vl)) hw hl'
          (SameTypes.refl _) .refl ?_ ?_
        · frame_tac
        · exact_simp [xGuardedCopy, inPlace_backed, hm, hth, and_self, if_true, Bool.false_eq_true, if_false, Bool.true_eq_false, false_and]
      · rename_i hth
        refine did_replace_ok (s' := ⟨(kr : Int), .obj (w.next + 1)⟩) (id' := w.next + 1) (k' := kr) (v' := C.ops.copy kr vr) hw hl'
          (SameTypes.refl _) .refl ?_ ?_
        · frame_tac
        · exact_simp [xGuardedCopy, inPlace_backed, hm, hth, and_self, if_true, Bool.false_eq_true, if_false, Bool.true_eq_false, false_and]
    · have hm' : (C.tr kl).nothrowMove = false := by simpa using hm
      have hmb' := hmb hm'
      simp only [hm', Bool.false_eq_true, if_false, wp_bind, wpx_heapCopy, ho, if_true]
      split
      · rename_i hth
        refine did_revalue_exc hw (SameTypes.refl _) .refl ?_ ?_
        · exact ⟨rfl, rfl, rfl, rfl⟩
        · exact_simp [xGuardedCopy, xNew, inPlace_backed, hm', hth, and_self, if_true, Bool.false_eq_true, if_false, Bool.true_eq_false, false_and]
      split
      · rename_i hth0 hth
        refine did_revalue_exc hw (SameTypes.refl _) .refl ?_ ?_
        · exact ⟨rfl, rfl, rfl, rfl⟩
        · exact_simp [xGuardedCopy, xNew, inPlace_backed, hm', hth0, hth, and_self, if_true, Bool.false_eq_true, if_false, Bool.true_eq_false, false_and,
            and_false]
      simp only [wpx_destroyObj, hfl, implies_true, upd_ne _ _ n4, upd_same, wp_onExc, copyRhsInto, copyRhs,
        wpx_copyCtor, upd_ne _ _ n3, upd_ne _ _ hne.symm, hro, wp_pure, wpx_setSlot, wpx_setWhich, hx, upd_upd_same,
        upd_ne _ _ n1, indicateWhich, upd_ne _ _ n5, wp_bind, ho, if_true, wpx_which, whichOf_natCast,
        indicateBackupWhich]
      split
      · rename_i hth0 hth1 hth
        refine did_replace_exc (s' := ⟨-((kl : Int) + 1), .holder kl (some w.next)⟩) (id' := w.next) (k' := kl) (v' := C.ops.copy kl vl) hw hl'
          (SameTypes.refl _) .refl ?_ ?_
        · frame_tac
        · exact_simp [xGuardedCopy, xNew, inPlace_backed, inBackup_backed, hm', hth0, hth1, hth, and_self, if_true, Bool.false_eq_true, if_false,
            Bool.true_eq_false, false_and, and_false]
      · rename_i hth0 hth1 hth
        refine did_replace_ok (s' := ⟨(kr : Int), .obj (w.next + 1)⟩) (id' := w.next + 1) (k' := kr) (v' := C.ops.copy kr vr) hw hl'
          (SameTypes.refl _) .refl ?_ ?_
        · frame_tac
        · exact_simp [xGuardedCopy, xNew, inPlace_backed, inBackup_backed, hm', hth0, hth1, hth, and_self, if_true, Bool.false_eq_true, if_false,
            Bool.true_eq_false, false_and, and_false]
  | inBackup _ _ hk hb =>
    rw [wp_iav_backup C hx hk hb]
    simp only [backupAssigner, holderDtor, wp_bind, wp_pure, wpx_setSlot, hx, upd_upd_same, upd_same, wp_onExc,
      copyRhsInto, copyRhs, wpx_copyCtor, hro, if_true, wpx_setWhich, indicateWhich, wpx_destroyObj, hfl,
      implies_true, upd_ne _ _ n4, ho]
    split
    · rename_i hth
      refine did_replace_exc (s' := ⟨-((kl : Int) + 1), .holder kl (some idl)⟩) (id' := idl) (k' := kl) (v' := vl) hw hl'
        (SameTypes.refl _) .refl ?_ ?_
      · frame_tac
      · have := upd_self w.tagged l _ hl'.tagged
        rw [inBackup_backed] at this
        exact_simp [xGuardedCopy, inBackup_backed, hth, and_self, if_true, this]
    · rename_i hth
      refine did_replace_ok (s' := ⟨(kr : Int), .obj w.next⟩) (id' := w.next) (k' := kr) (v' := C.ops.copy kr vr) hw hl'
        (SameTypes.refl _) .refl ?_ ?_
      · frame_tac
      · exact_simp [xGuardedCopy, inBackup_backed, inPlace_backed, hth, and_self, if_true, if_false]

/-- Assignment of one object to the content of a variable. -/
theorem ref_assignObj (hw : Inv C T w) (hl : Owns C w l sl idl kl vl) (hro : w.objs idr = some (kl, vr)) :
    Conforms C T (assignObj C kl idl idr) (xAssignElem C l ⟨kl, vl, sl.backed⟩ vr) w := by
  have hlt1 := hw.fresh.lt hl.obj
  have hfr := hw.fresh.fresh
  have hl' := hl
  obtain ⟨hxl, hrl, hol⟩ := hl
  unfold Conforms
  rw [wpx_assignObj C kl hol hro]
  split
  · rename_i hth
    refine did_replace_exc (s' := sl) (id' := idl) (k' := kl) (v' := C.ops.assignFail kl vl vr) hw hl' (SameTypes.refl _) .refl ?_ ?_
    · frame_tac
    · exact_simp [xAssignElem, hth, and_self, if_true]
  · rename_i hth
    refine did_replace_ok (s' := sl) (id' := idl) (k' := kl) (v' := C.ops.assign kl vl vr) hw hl' (SameTypes.refl _) .refl ?_ ?_
    · frame_tac
    · exact_simp [xAssignElem, hth, and_false, Bool.false_eq_true, if_false]

/-- Move assignment between the contents of two variables. -/
theorem ref_moveAssignObj (hw : Inv C T w) (hl : Owns C w l sl idl kl vl) (hr : Owns C w r sr idr kl vr) :
    Conforms C T (moveAssignObj C kl idl idr) (xMoveAssignElems C l r ⟨kl, vl, sl.backed⟩ ⟨kl, vr, sr.backed⟩) w := by
  have hlt1 := hw.fresh.lt hl.obj
  have hfr := hw.fresh.fresh
  have hl' := hl
  obtain ⟨hxl, hrl, hol⟩ := hl
  unfold Conforms
  by_cases hne : l = r
  · subst hne
    have hs : sl = sr := by have := hr.var; rw [hxl] at this; cases this; rfl
    subst hs
    have hi : idl = idr := by have h1 := hrl.contentId; have h2 := hr.rep.contentId; rw [h1] at h2; cases h2; rfl
    subst hi
    rw [wpx_moveAssignObj_self C kl hol]
    split
    · rename_i hth
      refine did_replace_exc (s' := sl) (id' := idl) (k' := kl) (v' := C.ops.selfMoveFail kl vl) hw hl' (SameTypes.refl _) .refl ?_ ?_
      · frame_tac
      · exact_simp [xMoveAssignElems, hth, and_self, if_true]
    · rename_i hth
      refine did_replace_ok (s' := sl) (id' := idl) (k' := kl) (v' := C.ops.selfMove kl vl) hw hl' (SameTypes.refl _) .refl ?_ ?_
      · frame_tac
      · exact_simp [xMoveAssignElems, hth, if_false, if_true]
  · have hid := hw.distinct hl' hr hne
    have hlt2 := hw.fresh.lt hr.obj
    have hor := hr.obj
    rw [wpx_moveAssignObj C kl hid hol hor]
    split
    · rename_i hth
      refine did_replace_exc (s' := sl) (id' := idl) (k' := kl) (v' := C.ops.moveAssignFail kl vl vr) hw hl' (SameTypes.upd _ _ hor)
        (.var hr (C.ops.moveAssignFailSrc kl vl vr)) ?_ ?_
      · frame_tac
      · exact_simp [xMoveAssignElems, hth, and_self, if_true, hne, if_false]
    · rename_i hth
      refine did_replace_ok (s' := sl) (id' := idl) (k' := kl) (v' := C.ops.moveAssign kl vl vr) hw hl' (SameTypes.upd _ _ hor)
        (.var hr (C.ops.moveAssignSrc kl vl vr)) ?_ ?_
      · frame_tac
      · exact_simp [xMoveAssignElems, hth, hne, if_false]

/-- Move assignment from an object of no variable. -/
theorem ref_moveAssignLoose (hw : Inv C T w) (hl : Owns C w l sl idl kl vl) (hT : (idr, kl) ∈ T) (hor : w.objs idr = some (kl, vr)) :
    Conforms C T (moveAssignObj C kl idl idr) (xMoveAssignElem C l ⟨kl, vl, sl.backed⟩ vr) w := by
  have hlt1 := hw.fresh.lt hl.obj
  have hlt2 := hw.fresh.lt hor
  have hfr := hw.fresh.fresh
  have hl' := hl
  obtain ⟨hxl, hrl, hol⟩ := hl
  have hid : idl ≠ idr := by
    rintro rfl
    exact (hw.loose _ hT).2 _ _ hxl hrl.contentId
  unfold Conforms
  rw [wpx_moveAssignObj C kl hid hol hor]
  split
  · rename_i hth
    refine did_replace_exc (s' := sl) (id' := idl) (k' := kl) (v' := C.ops.moveAssignFail kl vl vr) hw hl' (SameTypes.upd _ _ hor)
      (.loose hw hT (some (kl, C.ops.moveAssignFailSrc kl vl vr))) ?_ ?_
    · frame_tac
    · exact_simp [xMoveAssignElem, hth, and_self, if_true]
  · rename_i hth
    refine did_replace_ok (s' := sl) (id' := idl) (k' := kl) (v' := C.ops.moveAssign kl vl vr) hw hl' (SameTypes.upd _ _ hor)
      (.loose hw hT (some (kl, C.ops.moveAssignSrc kl vl vr))) ?_ ?_
    · frame_tac
    · exact_simp [xMoveAssignElem, hth, if_false]

/-- Copy assignment that is not assignment of the contents. -/
theorem ref_assignerVisit (hs : Sane C) (hw : Inv C T w) (hl : Owns C w l sl idl kl vl) (hro : w.objs idr = some (kr, vr))
    (hne : idl ≠ idr) (hkr : kr < C.n) (hkk : C.hasFallback = true → kl ≠ kr) (b : Bool) :
    Conforms C T (assignerVisit C l kr (.obj kr idr)) (xReplaceCopy C l ⟨kl, vl, sl.backed⟩ ⟨kr, vr, b⟩) w := by
  have hlt1 := hw.fresh.lt hl.obj
  have hlt2 := hw.fresh.lt hro
  have hfr := hw.fresh.fresh
  have hfl := hw.fresh.flat
  simp only [assignerVisit, RhsContent.nothrowCopy, RhsContent.nothrowMove]
  cases hc : (C.tr kr).nothrowCopy with
  | true =>
    unfold Conforms
    simp only [assignImpl, if_true, wp_noexceptIf, wp_bind]
    rw [wp_destroyContent hl hfl]
    simp only [copyRhsInto, copyRhs, wp_bind, wpx_copyCtor, wp_pure, wpx_setSlot, wpx_setWhich, upd_same,
      hc, Bool.true_eq_false, false_and, if_false, upd_ne _ _ hne.symm, hro, if_true, upd_upd_same, indicateWhich]
    refine did_replace_ok (s' := ⟨(kr : Int), .obj w.next⟩) (id' := w.next) (k' := kr) (v' := C.ops.copy kr vr) hw hl (SameTypes.refl _) .refl ?_ ?_
    · frame_tac
    · exact_simp [xReplaceCopy, hc, Bool.true_eq_false, false_and, if_false, if_true, inPlace_backed]
  | false =>
    cases hm : (C.tr kr).nothrowMove with
    | true =>
      have hl' := hl
      obtain ⟨hx, hr, ho⟩ := hl
      unfold Conforms
      simp only [assignImpl, Bool.or_true, Bool.or_false, Bool.true_or, if_true, Bool.false_eq_true, if_false, wp_bind, wpx_copyCtor, hro]
      split
      · rename_i hth
        refine did_revalue_exc hw (SameTypes.refl _) .refl ?_ ?_
        · exact ⟨rfl, rfl, rfl, rfl⟩
        · exact_simp [xReplaceCopy, hc, hm, hth, and_self, if_true, Bool.false_eq_true, if_false]
      · rename_i hth
        rw [wp_withLocal]
        simp only [wp_bind]
        refine wp_destroyContent_intro (s := sl) (k := kl) (v := vl) ⟨hx, hr, by simp only [upd]; grind⟩ hfl ?_
        have h1 : w.next ≠ idl := by omega
        simp only [wpx_moveCtor, upd_same, upd_ne _ _ h1, hm, Bool.true_eq_false, false_and, if_false, if_true,
          wpx_setSlot, wpx_setWhich, upd_upd_same, indicateWhich]
        have h2 : w.next ≠ w.next + 1 := by omega
        simp only [wpx_destroyObj, hfl, implies_true, upd_ne _ _ h2, upd_same, if_true]
        refine did_replace_ok (s' := ⟨(kr : Int), .obj (w.next + 1)⟩) (id' := w.next + 1) (k' := kr) (v' := C.ops.move kr (C.ops.copy kr vr)) hw hl'
          (SameTypes.refl _) .refl ?_ ?_
        · frame_tac
        · simp only [hc, true_and, Bool.not_eq_true] at hth
          exact_simp [xReplaceCopy, hc, hm, hth, if_true, Bool.false_eq_true, if_false, Bool.true_eq_false, false_and, and_false, inPlace_backed]
    | false =>
      cases hfb : C.hasFallback with
      | true =>
        obtain ⟨fb, hfb'⟩ := Option.isSome_iff_exists.mp hfb
        obtain ⟨hfbn, hfbd⟩ := hs.fallback_spec hfb'
        unfold Conforms
        simp only [assignImpl, Bool.or_self, if_true, Bool.false_eq_true, if_false, wp_bind]
        rw [wp_destroyContent hl hfl]
        simp only [wp_onExc, copyRhsInto, copyRhs, wp_bind, wpx_copyCtor, wp_pure, wpx_setSlot, wpx_setWhich, upd_same,
          upd_ne _ _ hne.symm, hro, if_true, upd_upd_same, indicateWhich]
        split
        · rename_i hth
          rw [wp_constructFallback (s := { sl with slot := .raw }) hs.blank (hs.built hfb' hl.rep.lt hkr (hkk hfb) hm hc) (by simp) hfb']
          refine did_replace_exc (s' := ⟨(fb : Int), .obj w.next⟩) (id' := w.next) (k' := fb) (v' := C.ops.defaultInit fb) hw hl
            (SameTypes.refl _) .refl ?_ ?_
          · obtain ⟨hx, hr, ho⟩ := hl
            frame_tac
          · exact_simp [xReplaceCopy, xFallback, hc, hm, hth, hfb', and_self, if_true, Bool.false_eq_true, if_false, Bool.true_eq_false, false_and, inPlace_backed]
        · rename_i hth
          refine did_replace_ok (s' := ⟨(kr : Int), .obj w.next⟩) (id' := w.next) (k' := kr) (v' := C.ops.copy kr vr) hw hl
            (SameTypes.refl _) .refl ?_ ?_
          · obtain ⟨hx, hr, ho⟩ := hl
            frame_tac
          · simp only [hc, true_and, Bool.not_eq_true] at hth
            exact_simp [xReplaceCopy, hc, hm, hth, hfb', if_false, Bool.false_eq_true, if_true, and_self, and_false, inPlace_backed]
      | false =>
        have hn : C.fallback = none := by simpa [Cfg.hasFallback] using hfb
        have he : xReplaceCopy C l ⟨kl, vl, sl.backed⟩ ⟨kr, vr, b⟩ = xGuardedCopy C l ⟨kl, vl, sl.backed⟩ kr vr := by
          simp only [xReplaceCopy, hc, hm, hn, Bool.false_eq_true, if_false]
        rw [he]
        exact ref_guardedCopy hs ⟨hfb, hm, hc⟩ hw hl hro hne hkr

theorem ref_copyAssign (hs : Sane C) (hw : Inv C T w) (hl : Owns C w l sl idl kl vl) (hr : Owns C w r sr idr kr vr) (hz : NoHazard sl sr) :
    Conforms C T (copyAssign C l r) (xCopyAssign C l r) w := by
  have hspec : ∀ (m : M V Unit), Conforms C T m (if kl = kr ∧ sl.backed = sr.backed then xAssignElem C l ⟨kl, vl, sl.backed⟩ vr
      else xReplaceCopy C l ⟨kl, vl, sl.backed⟩ ⟨kr, vr, sr.backed⟩) w → Conforms C T m (xCopyAssign C l r) w := by
    intro m h
    unfold Conforms at h ⊢
    have he : xCopyAssign C l r w.view = (if kl = kr ∧ sl.backed = sr.backed then xAssignElem C l ⟨kl, vl, sl.backed⟩ vr
      else xReplaceCopy C l ⟨kl, vl, sl.backed⟩ ⟨kr, vr, sr.backed⟩) w.view := by
      exact_simp [xCopyAssign, hl.tagged, hr.tagged]
    rw [he]
    exact h
  refine hspec _ ?_
  by_cases hwh : sl.which_ = sr.which_
  · rw [if_pos ((hl.rep.record_iff hr.rep).mpr hwh)]
    unfold Conforms
    simp only [copyAssign, wp_bind, wpx_getVar, hl.var, hr.var]
    simp only [hwh, if_true]
    obtain ⟨rfl, hsh⟩ := hl.rep.same_which hr.rep hwh
    have key := ref_assignObj hw hl hr.obj
    obtain ⟨hxl, hrl, hol⟩ := hl
    obtain ⟨hxr, hrr, hor⟩ := hr
    rcases hsh with ⟨rfl, rfl⟩ | ⟨rfl, rfl, hb⟩
    · rw [wp_iav_inPlace C hxl (Rep.lt C hrl) hol]
      simp only [assignStorage, castObj, wp_bind, wpx_getVar, hxr, wpx_readAs, hor, if_true, wp_pure]
      exact key
    · rw [wp_iav_backup C hxl (Rep.lt C hrl) hb]
      simp only [assignStorage, castHolder, holderGet, wp_bind, wpx_getVar, hxr, if_true, wp_pure]
      exact key
  · rw [if_neg fun h => hwh ((hl.rep.record_iff hr.rep).mp h)]
    have hlr : l ≠ r := by
      rintro rfl
      have h1 := hl.var; rw [hr.var] at h1; cases h1; exact hwh rfl
    have hne := hw.distinct hl hr hlr
    unfold Conforms
    simp only [copyAssign, wp_bind, wpx_getVar, hl.var, hr.var]
    simp only [hwh, if_false]
    have hsr := hr.rep.inPlace_of_nonneg (hz.resolve_left hwh)
    have hwr : whichOf sr.which_ = kr := Rep.which C hr.rep
    rw [hwr, wp_iav_inPlace C (by rw [hr.var, hsr]) (Rep.lt C hr.rep) hr.obj]
    exact ref_assignerVisit hs hw hl hr.obj hne (Rep.lt C hr.rep) (fun hfb hkk => hwh (hl.rep.sameRecord hr.rep hfb hkk)) _

/-- Move assignment that is not assignment of the contents. -/
theorem ref_moveAssignerVisit (hs : Sane C) (hw : Inv C T w) (hl : Owns C w l sl idl kl vl) (hr : Owns C w r sr idr kr vr)
    (hlr : l ≠ r) (hkk : C.hasFallback = true → kl ≠ kr) :
    Conforms C T (moveAssignerVisit C l kr (.obj kr idr)) (xReplaceMove C l r ⟨kl, vl, sl.backed⟩ ⟨kr, vr, sr.backed⟩) w := by
  have hne := hw.distinct hl hr hlr
  have hro := hr.obj
  have hkr := Rep.lt C hr.rep
  have hlt1 := hw.fresh.lt hl.obj
  have hlt2 := hw.fresh.lt hro
  have hfr := hw.fresh.fresh
  have hfl := hw.fresh.flat
  simp only [moveAssignerVisit, RhsContent.nothrowCopy, RhsContent.nothrowMove]
  cases hm : (C.tr kr).nothrowMove with
  | true =>
    unfold Conforms
    simp only [moveAssignImpl, if_true, wp_noexceptIf, wp_bind]
    rw [wp_destroyContent hl hfl]
    simp only [moveRhsInto, wp_bind, wpx_moveCtor, upd_ne _ _ hne.symm, hro, if_true, hm, Bool.true_eq_false,
      false_and, if_false, wpx_setSlot, wpx_setWhich, upd_same, upd_upd_same, indicateWhich]
    refine did_replace_ok (s' := ⟨(kr : Int), .obj w.next⟩) (id' := w.next) (k' := kr) (v' := C.ops.move kr vr) hw hl (SameTypes.upd _ _ hro)
      (.var hr (C.ops.movedFrom kr vr)) ?_ ?_
    · frame_tac
    · exact_simp [xReplaceMove, hm, Bool.true_eq_false, false_and, if_false, if_true, inPlace_backed]
  | false =>
    simp only [Bool.false_or]
    cases hc : (C.tr kr).nothrowCopy with
    | true =>
      unfold Conforms
      simp only [moveAssignImpl, Bool.false_eq_true, if_false, if_true, wp_noexceptIf]
      simp only [assignImpl, if_true, wp_noexceptIf, wp_bind]
      rw [wp_destroyContent hl hfl]
      simp only [copyRhsInto, copyRhs, wp_bind, wpx_copyCtor, wp_pure, wpx_setSlot, wpx_setWhich, upd_same,
        hc, Bool.true_eq_false, false_and, if_false, upd_ne _ _ hne.symm, hro, if_true, upd_upd_same, indicateWhich]
      refine did_replace_ok (s' := ⟨(kr : Int), .obj w.next⟩) (id' := w.next) (k' := kr) (v' := C.ops.copy kr vr) hw hl (SameTypes.refl _) .refl ?_ ?_
      · frame_tac
      · exact_simp [xReplaceMove, hc, hm, Bool.true_eq_false, Bool.false_eq_true, false_and, if_false, if_true, inPlace_backed]
    | false =>
      cases hfb : C.hasFallback with
      | true =>
        obtain ⟨fb, hfb'⟩ := Option.isSome_iff_exists.mp hfb
        obtain ⟨hfbn, hfbd⟩ := hs.fallback_spec hfb'
        unfold Conforms
        simp only [moveAssignImpl, if_true, Bool.false_eq_true, if_false, wp_bind]
        rw [wp_destroyContent hl hfl]
        simp only [wp_onExc, moveRhsInto, wp_bind, wpx_moveCtor, wp_pure, wpx_setSlot, wpx_setWhich, upd_same,
          upd_ne _ _ hne.symm, hro, if_true, upd_upd_same, indicateWhich]
        split
        · rename_i hth
          rw [wp_constructFallback (s := { sl with slot := .raw }) hs.blank (hs.built hfb' hl.rep.lt hkr (hkk hfb) hm hc) (by simp) hfb']
          refine did_replace_exc (s' := ⟨(fb : Int), .obj w.next⟩) (id' := w.next) (k' := fb) (v' := C.ops.defaultInit fb) hw hl
            (SameTypes.upd _ _ hro) (.var hr (C.ops.moveFailSrc kr vr)) ?_ ?_
          · obtain ⟨hx, hr, ho⟩ := hl
            frame_tac
          · exact_simp [xReplaceMove, xFallback, hc, hm, hth, hfb', and_self, if_true, Bool.false_eq_true, if_false, Bool.true_eq_false, false_and, inPlace_backed]
        · rename_i hth
          refine did_replace_ok (s' := ⟨(kr : Int), .obj w.next⟩) (id' := w.next) (k' := kr) (v' := C.ops.move kr vr) hw hl
            (SameTypes.upd _ _ hro) (.var hr (C.ops.movedFrom kr vr)) ?_ ?_
          · obtain ⟨hx, hr, ho⟩ := hl
            frame_tac
          · simp only [hm, true_and, Bool.not_eq_true] at hth
            exact_simp [xReplaceMove, hc, hm, hth, hfb', if_false, Bool.false_eq_true, if_true, and_self, and_false, inPlace_backed]
      | false =>
        have hn : C.fallback = none := by simpa [Cfg.hasFallback] using hfb
        have he : xReplaceMove C l r ⟨kl, vl, sl.backed⟩ ⟨kr, vr, sr.backed⟩ = xGuardedCopy C l ⟨kl, vl, sl.backed⟩ kr vr := by
          simp only [xReplaceMove, hc, hm, hn, Bool.false_eq_true, if_false]
        rw [he]
        simp only [moveAssignImpl, Bool.false_eq_true, if_false]
        exact ref_guardedCopy hs ⟨hfb, hm, hc⟩ hw hl hro hne hkr

theorem ref_variantMoveAssign (hs : Sane C) (hw : Inv C T w) (hl : Owns C w l sl idl kl vl) (hr : Owns C w r sr idr kr vr) (hz : NoHazard sl sr) :
    Conforms C T (variantMoveAssign C l r) (xMoveAssign C l r) w := by
  have hspec : ∀ (m : M V Unit), Conforms C T m (if kl = kr ∧ sl.backed = sr.backed then xMoveAssignElems C l r ⟨kl, vl, sl.backed⟩ ⟨kr, vr, sr.backed⟩
      else xReplaceMove C l r ⟨kl, vl, sl.backed⟩ ⟨kr, vr, sr.backed⟩) w → Conforms C T m (xMoveAssign C l r) w := by
    intro m h
    unfold Conforms at h ⊢
    have he : xMoveAssign C l r w.view = (if kl = kr ∧ sl.backed = sr.backed then xMoveAssignElems C l r ⟨kl, vl, sl.backed⟩ ⟨kr, vr, sr.backed⟩
      else xReplaceMove C l r ⟨kl, vl, sl.backed⟩ ⟨kr, vr, sr.backed⟩) w.view := by
      exact_simp [xMoveAssign, hl.tagged, hr.tagged]
    rw [he]
    exact h
  refine hspec _ ?_
  by_cases hwh : sl.which_ = sr.which_
  · rw [if_pos ((hl.rep.record_iff hr.rep).mpr hwh)]
    unfold Conforms
    simp only [variantMoveAssign, wp_bind, wpx_getVar, hl.var, hr.var]
    simp only [hwh, if_true]
    obtain ⟨rfl, hsh⟩ := hl.rep.same_which hr.rep hwh
    have key := ref_moveAssignObj hw hl hr
    obtain ⟨hxl, hrl, hol⟩ := hl
    obtain ⟨hxr, hrr, hor⟩ := hr
    rcases hsh with ⟨rfl, rfl⟩ | ⟨rfl, rfl, hb⟩
    · rw [wp_iav_inPlace C hxl (Rep.lt C hrl) hol]
      simp only [moveStorage, castObj, wp_bind, wpx_getVar, hxr, wpx_readAs, hor, if_true, wp_pure]
      exact key
    · rw [wp_iav_backup C hxl (Rep.lt C hrl) hb]
      simp only [moveStorage, castHolder, holderGet, wp_bind, wpx_getVar, hxr, if_true, wp_pure]
      exact key
  · rw [if_neg fun h => hwh ((hl.rep.record_iff hr.rep).mp h)]
    have hlr : l ≠ r := by
      rintro rfl
      have h1 := hl.var; rw [hr.var] at h1; cases h1; exact hwh rfl
    unfold Conforms
    simp only [variantMoveAssign, wp_bind, wpx_getVar, hl.var, hr.var]
    simp only [hwh, if_false]
    have hsr := hr.rep.inPlace_of_nonneg (hz.resolve_left hwh)
    have hwr : whichOf sr.which_ = kr := Rep.which C hr.rep
    rw [hwr, wp_iav_inPlace C (by rw [hr.var, hsr]) (Rep.lt C hr.rep) hr.obj]
    exact ref_moveAssignerVisit hs hw hl hr hlr (fun hfb hkk => hwh (hl.rep.sameRecord hr.rep hfb hkk))

theorem ref_moveAssign (hs : Sane C) (hw : Inv C T w) (hl : Owns C w l sl idl kl vl) (hr : Owns C w r sr idr kr vr) (hz : NoHazard sl sr) :
    Conforms C T (moveAssign C l r) (xMoveAssign C l r) w := by
  have hd : Distinct l r idl idr := by
    by_cases h : l = r
    · subst h
      have h1 := hl.var; rw [hr.var] at h1; cases h1
      have h1 := hl.rep.contentId; rw [hr.rep.contentId] at h1; cases h1
      exact .inl ⟨rfl, rfl⟩
    · exact .inr ⟨h, hw.distinct hl hr h⟩
  have h1 := ref_variantMoveAssign hs hw hl hr hz
  have h2 := wp_moveAssign_gen hs.blank hl hr hd hw.fresh hz
  unfold Conforms at h1 ⊢
  rw [moveAssign, wp_noexceptIf] at h2 ⊢
  unfold wp at h1 h2 ⊢
  revert h1 h2
  cases variantMoveAssign C l r w with
  | ok => exact fun h1 _ => h1
  | exc => exact fun h1 h2 => ⟨h2.1, h1⟩
  | fault => exact fun h1 _ => h1

end

end BVariant
