/-
Effect of `operator=` between variants, from any pair of properly represented variants.
-/
import Verif.Lemmas.Assign

set_option linter.unusedSimpArgs false

namespace BVariant

section
variable {V : Type} {C : Cfg V} {w : World V}

theorem Rep.same_which {s s' : VarSt} {id id' : ObjId} {k k' : TyIx} (h : Rep C s id k) (h' : Rep C s' id' k')
    (he : s.which_ = s'.which_) :
    k = k' ∧ ((s = ⟨(k : Int), .obj id⟩ ∧ s' = ⟨(k : Int), .obj id'⟩) ∨
      (s = ⟨-((k : Int) + 1), .holder k (some id)⟩ ∧ s' = ⟨-((k : Int) + 1), .holder k (some id')⟩ ∧
        C.mayBackup k)) := by
  cases h <;> cases h' <;> simp only at he
  · have : k = k' := by omega
    subst this; exact ⟨rfl, Or.inl ⟨rfl, rfl⟩⟩
  · omega
  · omega
  · have : k = k' := by omega
    subst this; rename_i hb _ _; exact ⟨rfl, Or.inr ⟨rfl, rfl, hb⟩⟩

/-- No two variants share an object. -/
def Distinct (l r : VarId) (idl idr : ObjId) : Prop := (l = r ∧ idl = idr) ∨ (l ≠ r ∧ idl ≠ idr)

/-- The assignment does not copy from a heap backup to a variant with another record (finding F1). -/
def NoHazard (sl sr : VarSt) : Prop := sl.which_ = sr.which_ ∨ 0 ≤ sr.which_

variable {l r : VarId} {sl sr : VarSt} {idl idr : ObjId} {kl kr : TyIx} {vl vr : V}

theorem Rep.inPlace_of_nonneg {s : VarSt} {id : ObjId} {k : TyIx} (h : Rep C s id k) (hn : 0 ≤ s.which_) :
    s = ⟨(k : Int), .obj id⟩ := by
  cases h
  · rfl
  · simp only at hn; omega

/-- Everything `x = y` can do. -/
def CopyAssignOk (C : Cfg V) (w w' : World V) (l : VarId) (sl sr : VarSt) (idl : ObjId) (kl kr : TyIx)
    (vl vr : V) : Prop :=
  (sl.which_ = sr.which_ ∧ kl = kr ∧ Replace C w w' w.objs l idl sl idl kl (C.ops.assign kl vl vr) ∧
    w'.allocs = w.allocs) ∨
  (sl.which_ ≠ sr.which_ ∧ AssignOk C w w' w.objs l idl kr (copyAssignVal C kr vr) ∧
    AllocBound C w w' kl kr)

@[inherit_doc CopyAssignOk]
def CopyAssignExc (C : Cfg V) (w w' : World V) (l : VarId) (sl sr : VarSt) (idl : ObjId) (kl kr : TyIx)
    (vl vr : V) (e : Exc) : Prop :=
  (sl.which_ = sr.which_ ∧ kl = kr ∧ e.kind = .copyAssign kl ∧ Thrown C w w' e ∧
    Replace C w w' w.objs l idl sl idl kl (C.ops.assignFail kl vl vr) ∧ w'.allocs = w.allocs) ∨
  (sl.which_ ≠ sr.which_ ∧ CopyExcKind C w w' kl kr e ∧ AssignExc C w w' w.objs l sl idl kl vl kr e ∧
    AllocBound C w w' kl kr)

/-- Assignment between variants with the same record. -/
theorem wp_copyAssign_same (hl : Owns C w l sl idl kl vl) (hr : Owns C w r sr idr kr vr)
    (hf : Fresh w) (hw : sl.which_ = sr.which_) :
    wp (copyAssign C l r) (fun _ w' => CopyAssignOk C w w' l sl sr idl kl kr vl vr)
      (fun e w' => CopyAssignExc C w w' l sl sr idl kl kr vl vr e) w := by
  have hlt1 := hf.lt hl.obj
  have hlt2 := hf.lt hr.obj
  have hfr := hf.fresh
  simp only [copyAssign, wp_bind, wpx_getVar, hl.var, hr.var]
  simp only [hw, if_true]
  obtain ⟨rfl, hsh⟩ := hl.rep.same_which hr.rep hw
  obtain ⟨hxl, hrl, hol⟩ := hl
  obtain ⟨hxr, hrr, hor⟩ := hr
  rcases hsh with ⟨rfl, rfl⟩ | ⟨rfl, rfl, hb⟩
  · rw [wp_iav_inPlace C hxl (Rep.lt C hrl) hol]
    simp only [assignStorage, castObj, wp_bind, wpx_getVar, hxr, wpx_readAs, hor, if_true, wp_pure]
    rw [wpx_assignObj C kl hol hor]
    split
    · rename_i hth
      refine Or.inl ⟨rfl, rfl, rfl, ⟨by simp, by simp, hth⟩, ?_, rfl⟩
      frame_tac
    · refine Or.inl ⟨rfl, rfl, ?_, rfl⟩
      frame_tac
  · rw [wp_iav_backup C hxl (Rep.lt C hrl) hb]
    simp only [assignStorage, castHolder, holderGet, wp_bind, wpx_getVar, hxr, if_true, wp_pure]
    rw [wpx_assignObj C kl hol hor]
    split
    · rename_i hth
      refine Or.inl ⟨rfl, rfl, rfl, ⟨by simp, by simp, hth⟩, ?_, rfl⟩
      frame_tac
    · refine Or.inl ⟨rfl, rfl, ?_, rfl⟩
      frame_tac

/-- Everything `x = y` can do, in any configuration. -/
def CopyAssignOk0 (C : Cfg V) (w w' : World V) (l : VarId) (sl sr : VarSt) (idl : ObjId) (kl kr : TyIx)
    (vl vr : V) : Prop :=
  (sl.which_ = sr.which_ ∧ kl = kr ∧ Replace C w w' w.objs l idl sl idl kl (C.ops.assign kl vl vr) ∧
    w'.allocs = w.allocs) ∨
  (sl.which_ ≠ sr.which_ ∧ AssignOk C w w' w.objs l idl kr (copyAssignVal C kr vr))

@[inherit_doc CopyAssignOk0]
def CopyAssignExc0 (C : Cfg V) (w w' : World V) (l : VarId) (sl sr : VarSt) (idl : ObjId) (kl kr : TyIx)
    (vl vr : V) (e : Exc) : Prop :=
  (sl.which_ = sr.which_ ∧ kl = kr ∧ e.kind = .copyAssign kl ∧ Thrown C w w' e ∧
    Replace C w w' w.objs l idl sl idl kl (C.ops.assignFail kl vl vr) ∧ w'.allocs = w.allocs) ∨
  (sl.which_ ≠ sr.which_ ∧ CopyExcKind0 C w w' kl kr e ∧ AssignExc0 C w w' w.objs l sl idl kl vl kr e)

/-- With a fallback type, variants of the same content type have the same record. -/
theorem Rep.sameRecord {s t : VarSt} {i j : ObjId} {k k' : TyIx} (h : Rep C s i k) (h' : Rep C t j k') (hfb : C.hasFallback = true)
    (hk : k = k') : s.which_ = t.which_ := by
  subst hk
  cases h with
  | inPlace =>
    cases h' with
    | inPlace => rfl
    | inBackup _ _ _ hb => have := hb.1; rw [hfb] at this; cases this
  | inBackup _ _ _ hb => have := hb.1; rw [hfb] at this; cases this

theorem wp_copyAssign_gen (hb : BlankOk C) (hl : Owns C w l sl idl kl vl) (hr : Owns C w r sr idr kr vr)
    (hd : Distinct l r idl idr) (hf : Fresh w) (hz : NoHazard sl sr) :
    wp (copyAssign C l r) (fun _ w' => CopyAssignOk0 C w w' l sl sr idl kl kr vl vr ∧
        (Sane C → CopyAssignOk C w w' l sl sr idl kl kr vl vr))
      (fun e w' => CopyAssignExc0 C w w' l sl sr idl kl kr vl vr e ∧
        (Sane C → CopyAssignExc C w w' l sl sr idl kl kr vl vr e)) w := by
  by_cases hw : sl.which_ = sr.which_
  · refine wp_mono (wp_copyAssign_same hl hr hf hw) ?_ ?_
    · intro _ w' h
      refine ⟨?_, fun _ => h⟩
      rcases h with h | h
      · exact Or.inl h
      · exact absurd hw h.1
    · intro _ w' h
      refine ⟨?_, fun _ => h⟩
      rcases h with h | h
      · exact Or.inl h
      · exact absurd hw h.1
  · simp only [copyAssign, wp_bind, wpx_getVar, hl.var, hr.var]
    simp only [hw, if_false]
    have hne : idl ≠ idr := by
      rcases hd with ⟨rfl, rfl⟩ | ⟨_, h⟩
      · have h1 := hl.var; have h2 := hr.var
        rw [h1] at h2; cases h2; exact absurd rfl hw
      · exact h
    have hsr := hr.rep.inPlace_of_nonneg (hz.resolve_left hw)
    have hwr : whichOf sr.which_ = kr := Rep.which C hr.rep
    rw [hwr, wp_iav_inPlace C (by rw [hr.var, hsr]) (Rep.lt C hr.rep) hr.obj]
    refine wp_mono (wp_assignerVisit_gen hb hl hr.obj hne hf (Rep.lt C hr.rep) fun hfb hkk => hw (hl.rep.sameRecord hr.rep hfb hkk)) ?_ ?_
    · intro _ w' h; exact ⟨Or.inr ⟨hw, h.1⟩, fun hs => Or.inr ⟨hw, h.1, h.2 hs⟩⟩
    · intro e w' h; exact ⟨Or.inr ⟨hw, h.1, h.2.1⟩, fun hs => Or.inr ⟨hw, h.2.2 hs⟩⟩

theorem wp_copyAssign (hs : Sane C) (hl : Owns C w l sl idl kl vl) (hr : Owns C w r sr idr kr vr)
    (hd : Distinct l r idl idr) (hf : Fresh w) (hz : NoHazard sl sr) :
    wp (copyAssign C l r) (fun _ w' => CopyAssignOk C w w' l sl sr idl kl kr vl vr)
      (fun e w' => CopyAssignExc C w w' l sl sr idl kl kr vl vr e) w :=
  wp_mono (wp_copyAssign_gen hs.blank hl hr hd hf hz) (fun _ _ h => h.2 hs) (fun _ _ h => h.2 hs)

/-- Everything `x = std::move(y)` can do. -/
def MoveAssignOk (C : Cfg V) (w w' : World V) (l r : VarId) (sl sr : VarSt) (idl idr : ObjId) (kl kr : TyIx)
    (vl vr : V) : Prop :=
  (l = r ∧ Replace C w w' w.objs l idl sl idl kl (C.ops.selfMove kl vl) ∧ w'.allocs = w.allocs) ∨
  (l ≠ r ∧ sl.which_ = sr.which_ ∧ kl = kr ∧
    Replace C w w' (upd w.objs idr (some (kr, C.ops.moveAssignSrc kl vl vr))) l idl sl idl kl
      (C.ops.moveAssign kl vl vr) ∧ w'.allocs = w.allocs) ∨
  (l ≠ r ∧ sl.which_ ≠ sr.which_ ∧
    AssignOk C w w' (upd w.objs idr (some (kr, moveAssignSrcVal C kr vr))) l idl kr (moveAssignVal C kr vr) ∧
    AllocBound C w w' kl kr)

@[inherit_doc MoveAssignOk]
def MoveAssignExc (C : Cfg V) (w w' : World V) (l r : VarId) (sl sr : VarSt) (idl idr : ObjId) (kl kr : TyIx)
    (vl vr : V) (e : Exc) : Prop :=
  (l = r ∧ e.kind = .moveAssign kl ∧ (C.tr kl).nothrowMoveAssign = false ∧ Thrown C w w' e ∧
    Replace C w w' w.objs l idl sl idl kl (C.ops.selfMoveFail kl vl) ∧ w'.allocs = w.allocs) ∨
  (l ≠ r ∧ sl.which_ = sr.which_ ∧ kl = kr ∧ e.kind = .moveAssign kl ∧ (C.tr kl).nothrowMoveAssign = false ∧
    Thrown C w w' e ∧
    Replace C w w' (upd w.objs idr (some (kr, C.ops.moveAssignFailSrc kl vl vr))) l idl sl idl kl
      (C.ops.moveAssignFail kl vl vr) ∧ w'.allocs = w.allocs) ∨
  (l ≠ r ∧ sl.which_ ≠ sr.which_ ∧ MoveExcKind C w w' kl kr e ∧
    AssignExc C w w' (upd w.objs idr (some (kr, moveAssignExcSrcVal C kr vr))) l sl idl kl vl kr e ∧
    AllocBound C w w' kl kr)

/-- Move assignment between variants with the same record. -/
theorem wp_variantMoveAssign_same (hl : Owns C w l sl idl kl vl) (hr : Owns C w r sr idr kr vr)
    (hd : Distinct l r idl idr) (hf : Fresh w) (hw : sl.which_ = sr.which_) :
    wp (variantMoveAssign C l r) (fun _ w' => MoveAssignOk C w w' l r sl sr idl idr kl kr vl vr)
      (fun e w' => MoveAssignExc C w w' l r sl sr idl idr kl kr vl vr e) w := by
  have hlt1 := hf.lt hl.obj
  have hlt2 := hf.lt hr.obj
  have hfr := hf.fresh
  simp only [variantMoveAssign, wp_bind, wpx_getVar, hl.var, hr.var]
  simp only [hw, if_true]
  obtain ⟨rfl, hsh⟩ := hl.rep.same_which hr.rep hw
  obtain ⟨hxl, hrl, hol⟩ := hl
  obtain ⟨hxr, hrr, hor⟩ := hr
  have key : ∀ (P : M V Unit), P = moveAssignObj C kl idl idr →
      wp P (fun _ w' => MoveAssignOk C w w' l r sl sr idl idr kl kl vl vr)
        (fun e w' => MoveAssignExc C w w' l r sl sr idl idr kl kl vl vr e) w := by
    rintro _ rfl
    rcases hd with ⟨rfl, rfl⟩ | ⟨hne, hid⟩
    · rw [wpx_moveAssignObj_self C kl hol]
      split
      · rename_i hth
        refine Or.inl ⟨rfl, rfl, hth.1, ⟨by simp, by simp, hth.2⟩, ?_, rfl⟩
        frame_tac
      · refine Or.inl ⟨rfl, ?_, rfl⟩
        frame_tac
    · rw [wpx_moveAssignObj C kl hid hol hor]
      split
      · rename_i hth
        refine Or.inr (Or.inl ⟨hne, hw, rfl, rfl, hth.1, ⟨by simp, by simp, hth.2⟩, ?_, rfl⟩)
        frame_tac
      · refine Or.inr (Or.inl ⟨hne, hw, rfl, ?_, rfl⟩)
        frame_tac
  rcases hsh with ⟨rfl, rfl⟩ | ⟨rfl, rfl, hb⟩
  · rw [wp_iav_inPlace C hxl (Rep.lt C hrl) hol]
    simp only [moveStorage, castObj, wp_bind, wpx_getVar, hxr, wpx_readAs, hor, if_true, wp_pure]
    exact key _ rfl
  · rw [wp_iav_backup C hxl (Rep.lt C hrl) hb]
    simp only [moveStorage, castHolder, holderGet, wp_bind, wpx_getVar, hxr, if_true, wp_pure]
    exact key _ rfl

/-- Everything `x = std::move(y)` can do, in any configuration. -/
def MoveAssignOk0 (C : Cfg V) (w w' : World V) (l r : VarId) (sl sr : VarSt) (idl idr : ObjId) (kl kr : TyIx)
    (vl vr : V) : Prop :=
  (l = r ∧ Replace C w w' w.objs l idl sl idl kl (C.ops.selfMove kl vl) ∧ w'.allocs = w.allocs) ∨
  (l ≠ r ∧ sl.which_ = sr.which_ ∧ kl = kr ∧
    Replace C w w' (upd w.objs idr (some (kr, C.ops.moveAssignSrc kl vl vr))) l idl sl idl kl
      (C.ops.moveAssign kl vl vr) ∧ w'.allocs = w.allocs) ∨
  (l ≠ r ∧ sl.which_ ≠ sr.which_ ∧
    AssignOk C w w' (upd w.objs idr (some (kr, moveAssignSrcVal C kr vr))) l idl kr (moveAssignVal C kr vr))

@[inherit_doc MoveAssignOk0]
def MoveAssignExc0 (C : Cfg V) (w w' : World V) (l r : VarId) (sl sr : VarSt) (idl idr : ObjId) (kl kr : TyIx)
    (vl vr : V) (e : Exc) : Prop :=
  (l = r ∧ e.kind = .moveAssign kl ∧ (C.tr kl).nothrowMoveAssign = false ∧ Thrown C w w' e ∧
    Replace C w w' w.objs l idl sl idl kl (C.ops.selfMoveFail kl vl) ∧ w'.allocs = w.allocs) ∨
  (l ≠ r ∧ sl.which_ = sr.which_ ∧ kl = kr ∧ e.kind = .moveAssign kl ∧ (C.tr kl).nothrowMoveAssign = false ∧
    Thrown C w w' e ∧
    Replace C w w' (upd w.objs idr (some (kr, C.ops.moveAssignFailSrc kl vl vr))) l idl sl idl kl
      (C.ops.moveAssignFail kl vl vr) ∧ w'.allocs = w.allocs) ∨
  (l ≠ r ∧ sl.which_ ≠ sr.which_ ∧ MoveExcKind0 C w w' kl kr e ∧
    AssignExc0 C w w' (upd w.objs idr (some (kr, moveAssignExcSrcVal C kr vr))) l sl idl kl vl kr e)

theorem wp_variantMoveAssign_gen (hb : BlankOk C) (hl : Owns C w l sl idl kl vl) (hr : Owns C w r sr idr kr vr)
    (hd : Distinct l r idl idr) (hf : Fresh w) (hz : NoHazard sl sr) :
    wp (variantMoveAssign C l r) (fun _ w' => MoveAssignOk0 C w w' l r sl sr idl idr kl kr vl vr ∧
        (Sane C → MoveAssignOk C w w' l r sl sr idl idr kl kr vl vr))
      (fun e w' => MoveAssignExc0 C w w' l r sl sr idl idr kl kr vl vr e ∧
        (Sane C → MoveAssignExc C w w' l r sl sr idl idr kl kr vl vr e)) w := by
  by_cases hw : sl.which_ = sr.which_
  · refine wp_mono (wp_variantMoveAssign_same hl hr hd hf hw) ?_ ?_
    · intro _ w' h
      refine ⟨?_, fun _ => h⟩
      rcases h with h | h | h
      · exact Or.inl h
      · exact Or.inr (Or.inl h)
      · exact absurd hw h.2.1
    · intro _ w' h
      refine ⟨?_, fun _ => h⟩
      rcases h with h | h | h
      · exact Or.inl h
      · exact Or.inr (Or.inl h)
      · exact absurd hw h.2.1
  · simp only [variantMoveAssign, wp_bind, wpx_getVar, hl.var, hr.var]
    simp only [hw, if_false]
    have hne : l ≠ r ∧ idl ≠ idr := by
      rcases hd with ⟨rfl, rfl⟩ | h
      · have h1 := hl.var; have h2 := hr.var
        rw [h1] at h2; cases h2; exact absurd rfl hw
      · exact h
    have hsr := hr.rep.inPlace_of_nonneg (hz.resolve_left hw)
    have hwr : whichOf sr.which_ = kr := Rep.which C hr.rep
    rw [hwr, wp_iav_inPlace C (by rw [hr.var, hsr]) (Rep.lt C hr.rep) hr.obj]
    refine wp_mono (wp_moveAssignerVisit_gen hb hl hr.obj hne.2 hf (Rep.lt C hr.rep) fun hfb hkk => hw (hl.rep.sameRecord hr.rep hfb hkk)) ?_ ?_
    · intro _ w' h
      exact ⟨Or.inr (Or.inr ⟨hne.1, hw, h.1⟩), fun hs => Or.inr (Or.inr ⟨hne.1, hw, h.1, h.2 hs⟩)⟩
    · intro e w' h
      exact ⟨Or.inr (Or.inr ⟨hne.1, hw, h.1, h.2.1⟩), fun hs => Or.inr (Or.inr ⟨hne.1, hw, h.2.2 hs⟩)⟩

theorem wp_variantMoveAssign (hs : Sane C) (hl : Owns C w l sl idl kl vl) (hr : Owns C w r sr idr kr vr)
    (hd : Distinct l r idl idr) (hf : Fresh w) (hz : NoHazard sl sr) :
    wp (variantMoveAssign C l r) (fun _ w' => MoveAssignOk C w w' l r sl sr idl idr kl kr vl vr)
      (fun e w' => MoveAssignExc C w w' l r sl sr idl idr kl kr vl vr e) w :=
  wp_mono (wp_variantMoveAssign_gen hs.blank hl hr hd hf hz) (fun _ _ h => h.2 hs) (fun _ _ h => h.2 hs)

theorem tr_of_all {p : Traits → Bool} (h : C.types.all p = true) {k : TyIx} (hk : k < C.n) : p (C.tr k) = true := by
  have hmem : C.tr k ∈ C.types := by
    simp only [Cfg.tr, List.getD, List.getElem?_eq_getElem (show k < C.types.length from hk), Option.getD]
    exact List.getElem_mem _
  exact List.all_eq_true.mp h _ hmem

theorem wp_moveAssign_gen (hb : BlankOk C) (hl : Owns C w l sl idl kl vl) (hr : Owns C w r sr idr kr vr)
    (hd : Distinct l r idl idr) (hf : Fresh w) (hz : NoHazard sl sr) :
    wp (moveAssign C l r) (fun _ w' => MoveAssignOk0 C w w' l r sl sr idl idr kl kr vl vr ∧
        (Sane C → MoveAssignOk C w w' l r sl sr idl idr kl kr vl vr))
      (fun e w' => (moveNoexceptConstructible C && moveNoexceptAssignable C) = false ∧
        MoveAssignExc0 C w w' l r sl sr idl idr kl kr vl vr e ∧
        (Sane C → MoveAssignExc C w w' l r sl sr idl idr kl kr vl vr e)) w := by
  rw [moveAssign, wp_noexceptIf]
  refine wp_mono (wp_variantMoveAssign_gen hb hl hr hd hf hz) (fun _ _ h => h) ?_
  intro e w' h
  have hkl := Rep.lt C hl.rep
  have hkr := Rep.lt C hr.rep
  refine ⟨?_, ?_, h⟩ <;>
  · cases hb : (moveNoexceptConstructible C && moveNoexceptAssignable C) with
    | false => rfl
    | true =>
      simp only [Bool.and_eq_true, moveNoexceptConstructible, moveNoexceptAssignable] at hb
      have h1 := tr_of_all hb.1 hkr
      have h2 := tr_of_all hb.2 hkl
      rcases h.1 with h | h | ⟨_, _, h | h, _⟩
      · simp [h.2.2.1] at h2
      · simp [h.2.2.2.2.1] at h2
      · simp [h.2.2.1] at h1
      · simp [h.1.2.1] at h1

theorem wp_moveAssign (hs : Sane C) (hl : Owns C w l sl idl kl vl) (hr : Owns C w r sr idr kr vr)
    (hd : Distinct l r idl idr) (hf : Fresh w) (hz : NoHazard sl sr) :
    wp (moveAssign C l r) (fun _ w' => MoveAssignOk C w w' l r sl sr idl idr kl kr vl vr)
      (fun e w' => (moveNoexceptConstructible C && moveNoexceptAssignable C) = false ∧
        MoveAssignExc C w w' l r sl sr idl idr kl kr vl vr e) w :=
  wp_mono (wp_moveAssign_gen hs.blank hl hr hd hf hz) (fun _ _ h => h.2 hs) (fun _ _ h => ⟨h.1, h.2.2 hs⟩)

end

end BVariant
