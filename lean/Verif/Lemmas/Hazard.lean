/-
What assignment and swap do in the cases of finding F1 (the right-hand content is a `backup_holder`): with assertions
on they never return, and if they throw the operands are as before.
-/
import Verif.Lemmas.NeverOk
import Verif.Lemmas.Step

set_option linter.unusedSimpArgs false

namespace BVariant

section
variable {V α β : Type} {C : Cfg V}

/-- The code throws no exception. -/
def NoExc (m : M V α) : Prop := ∀ w e w', m w ≠ .exc e w'

theorem NoExc.pure (a : α) : NoExc (Pure.pure a : M V α) := fun _ _ _ h => by cases h

theorem NoExc.fail (f : Fault) : NoExc (M.fail f : M V α) := fun _ _ _ h => by cases h

theorem NoExc.modify (f : World V → World V) : NoExc (M.modify f) := fun _ _ _ h => by cases h

theorem NoExc.bind {m : M V β} {f : β → M V α} (h : NoExc m) (hf : ∀ b, NoExc (f b)) : NoExc (m >>= f) := by
  intro w e w' he
  simp only [Bind.bind, M.bind] at he
  cases hm : m w with
  | ok b w1 => rw [hm] at he; exact hf _ _ _ _ he
  | exc e w1 => exact h _ _ _ hm
  | fault f => rw [hm] at he; cases he

theorem NoExc.onExc {m : M V α} {d : M V Unit} (h : NoExc m) : NoExc (M.onExc m d) := by
  intro w e w' he
  simp only [M.onExc] at he
  cases hm : m w with
  | ok b w1 => rw [hm] at he; cases he
  | exc e w1 => exact h _ _ _ hm
  | fault f => rw [hm] at he; cases he

theorem NoExc.withLocal {m : M V α} {d : M V Unit} (h : NoExc m) (hd : NoExc d) : NoExc (M.withLocal m d) := by
  intro w e w' he
  simp only [M.withLocal] at he
  cases hm : m w with
  | ok b w1 =>
    rw [hm] at he
    simp only at he
    cases hd' : d w1 with
    | ok _ _ => rw [hd'] at he; cases he
    | exc _ _ => exact hd _ _ _ hd'
    | fault _ => rw [hd'] at he; cases he
  | exc e w1 => exact h _ _ _ hm
  | fault f => rw [hm] at he; cases he

theorem NoExc.readAs (ty : TyIx) (id : ObjId) : NoExc (readAs (V := V) ty id) := by
  intro w e w' he
  simp only [BVariant.readAs] at he
  split at he
  · split at he <;> cases he
  · cases he

theorem NoExc.destroyObj (ty : TyIx) (id : ObjId) : NoExc (destroyObj (V := V) ty id) :=
  NoExc.bind (NoExc.readAs _ _) fun _ => NoExc.modify _

theorem NoExc.getVar (x : VarId) : NoExc (getVar (V := V) x) := by
  intro w e w' he
  simp only [BVariant.getVar] at he
  split at he <;> cases he

theorem NoExc.setSlot (x : VarId) (s : Slot) : NoExc (setSlot (V := V) x s) :=
  NoExc.bind (NoExc.getVar _) fun _ => NoExc.modify _

theorem NoExc.setWhich (x : VarId) (i : Int) : NoExc (setWhich (V := V) x i) :=
  NoExc.bind (NoExc.getVar _) fun _ => NoExc.modify _

theorem NoExc.newObj (ty : TyIx) (v : V) : NoExc (newObj ty v) := fun _ _ _ h => by cases h

theorem NoExc.moveCtor (ty : TyIx) (id : ObjId) (h : (C.tr ty).nothrowMove = true) : NoExc (moveCtor C ty id) := by
  refine NoExc.bind (NoExc.readAs _ _) fun v => NoExc.bind ?_ fun _ =>
    NoExc.bind (NoExc.modify _) fun _ => NoExc.newObj _ _
  intro w e w' he
  simp [mayThrow, h] at he

theorem NoExc.holderDtor (ty : TyIx) (p : Option ObjId) : NoExc (holderDtor (V := V) ty p) := by
  cases p with
  | none => exact NoExc.pure _
  | some id => exact NoExc.destroyObj _ _

theorem NoExc.copyRhsInto (l : VarId) (ty : TyIx) (p : Option ObjId) : NoExc (copyRhsInto C l (.holder ty p)) := by
  refine NoExc.bind (NoExc.bind ?_ fun _ => NoExc.pure _) fun _ => NoExc.setSlot _ _
  unfold holderCopyCtor
  split
  · exact NoExc.pure _
  · exact NoExc.fail _

/-- Effect of an assignment from a heap backup that throws: nothing has changed. -/
structure HazardExc (C : Cfg V) (w w' : World V) (kl : TyIx) (e : Exc) : Prop where
  kind : e.kind = .copyCtor kl ∨ e.kind = .badAlloc
  noFallback : C.hasFallback = false
  noMove : (C.tr kl).nothrowMove = false
  thrown : Thrown C w w' e
  vars : w'.vars = w.vars
  objs : w'.objs = w.objs
  next : w'.next = w.next
  sub : w'.sub = w.sub

variable {w w' : World V} {l r : VarId} {sl sr : VarSt} {idl idr : ObjId} {kl kr : TyIx} {vl vr : V}

theorem assignImpl_holder_exc (hl : Owns C w l sl idl kl vl) (hnf : C.hasFallback = false) {i : Int}
    {p : Option ObjId} {e : Exc}
    (h : assignImpl C l i (.holder kr p) false false false w = .exc e w') : HazardExc C w w' kl e := by
  simp only [assignImpl, Bool.false_eq_true, if_false] at h
  obtain ⟨hx, hr, ho⟩ := hl
  cases hr with
  | inPlace _ _ hk =>
    rw [iav_inPlace C _ hx hk ho] at h
    simp only [backupAssigner] at h
    by_cases hm : (C.tr kl).nothrowMove = true
    · rw [if_pos hm] at h
      refine absurd h (NoExc.bind (NoExc.moveCtor _ _ hm) (fun b => NoExc.withLocal ?_ (NoExc.destroyObj _ _)) _ _ _)
      exact NoExc.bind (NoExc.destroyObj _ _) fun _ => NoExc.bind (NoExc.onExc (NoExc.copyRhsInto _ _ _)) fun _ =>
        NoExc.setWhich _ _
    · rw [if_neg hm] at h
      have hm' : (C.tr kl).nothrowMove = false := by simpa using hm
      have hrest : ∀ b : ObjId, NoExc (do
          destroyObj kl idl
          M.onExc (copyRhsInto C l (.holder kr p)) (do
            setSlot l (.holder kl (some b))
            let i ← which l
            setWhich l (indicateBackupWhich i))
          setWhich l (indicateWhich i)
          destroyObj kl b) := fun b =>
        NoExc.bind (NoExc.destroyObj _ _) fun _ => NoExc.bind (NoExc.onExc (NoExc.copyRhsInto _ _ _)) fun _ =>
          NoExc.bind (NoExc.setWhich _ _) fun _ => NoExc.destroyObj _ _
      have hwp : wp (heapCopy C kl idl) (fun _ _ => True) (fun e w' => HazardExc C w w' kl e) w := by
        simp only [wpx_heapCopy, ho, if_true]
        split
        · rename_i hth
          exact ⟨Or.inr rfl, hnf, hm', ⟨by simp, by simp, hth⟩, rfl, rfl, rfl, rfl⟩
        · split
          · rename_i hth
            exact ⟨Or.inl rfl, hnf, hm', ⟨by simp, by simp, hth.2⟩, rfl, rfl, rfl, rfl⟩
          · trivial
      rcases wp_elim hwp with ⟨b, w1, h1, -⟩ | ⟨e1, w1, h1, h2⟩
      · simp only [Bind.bind, M.bind] at h
        rw [h1] at h
        exact absurd h (hrest b _ _ _)
      · simp only [Bind.bind, M.bind] at h
        rw [h1] at h
        cases h
        exact h2
  | inBackup _ _ hk hb =>
    rw [iav_backup C _ hx hk hb] at h
    refine absurd h (NoExc.bind (NoExc.setSlot _ _) (fun _ => NoExc.bind (NoExc.holderDtor _ _) fun _ =>
      NoExc.bind (NoExc.setSlot _ _) fun _ => NoExc.bind (NoExc.onExc (NoExc.copyRhsInto _ _ _)) fun _ =>
      NoExc.bind (NoExc.setWhich _ _) fun _ => NoExc.holderDtor _ _) _ _ _)

/-- The content of a variant in the heap-backup state. -/
theorem Owns.backup (h : Owns C w r sr idr kr vr) (hb : sr.which_ < 0) :
    sr = ⟨-((kr : Int) + 1), .holder kr (some idr)⟩ ∧ C.mayBackup kr := by
  obtain ⟨-, hr, -⟩ := h
  cases hr with
  | inPlace _ _ hk => simp only at hb; omega
  | inBackup _ _ hk hm => exact ⟨rfl, hm⟩

/-- A hazardous copy assignment is the last of the four strategies, with a `backup_holder` to copy. -/
theorem copyAssign_hazard_eq (hl : Owns C w l sl idl kl vl) (hr : Owns C w r sr idr kr vr)
    (hne : sl.which_ ≠ sr.which_) (hb : sr.which_ < 0) :
    copyAssign C l r w = assignImpl C l (kr : Int) (.holder kr (some idr)) false false false w := by
  obtain ⟨rfl, hm⟩ := hr.backup hb
  simp only [copyAssign, bind, M.bind, getVar, hl.var, hr.var, hne, if_false]
  rw [iav_backup C _ hr.var hr.rep.lt hm]
  simp [assigner, assignerVisit, RhsContent.nothrowCopy, RhsContent.nothrowMove, hm.1]

theorem variantMoveAssign_hazard_eq (hl : Owns C w l sl idl kl vl) (hr : Owns C w r sr idr kr vr)
    (hne : sl.which_ ≠ sr.which_) (hb : sr.which_ < 0) :
    variantMoveAssign C l r w = assignImpl C l (kr : Int) (.holder kr (some idr)) false false false w := by
  obtain ⟨rfl, hm⟩ := hr.backup hb
  simp only [variantMoveAssign, bind, M.bind, getVar, hl.var, hr.var, hne, if_false]
  rw [iav_backup C _ hr.var hr.rep.lt hm]
  simp [moveAssigner, moveAssignerVisit, moveAssignImpl, RhsContent.nothrowCopy, RhsContent.nothrowMove, hm.1]

theorem copyAssign_hazard_not_ok (hd : C.ndebug = false) (hl : Owns C w l sl idl kl vl)
    (hr : Owns C w r sr idr kr vr) (hne : sl.which_ ≠ sr.which_) (hb : sr.which_ < 0) (u : Unit) :
    copyAssign C l r w ≠ .ok u w' := by
  rw [copyAssign_hazard_eq hl hr hne hb]
  exact NeverOk.assignImpl hd _ _ _ _ _ _ _ _ _ _

theorem copyAssign_hazard_exc (hl : Owns C w l sl idl kl vl) (hr : Owns C w r sr idr kr vr)
    (hne : sl.which_ ≠ sr.which_) (hb : sr.which_ < 0) {e : Exc} (h : copyAssign C l r w = .exc e w') :
    HazardExc C w w' kl e := by
  rw [copyAssign_hazard_eq hl hr hne hb] at h
  exact assignImpl_holder_exc hl (hr.backup hb).2.1 h

theorem moveAssign_hazard_not_ok (hd : C.ndebug = false) (hl : Owns C w l sl idl kl vl)
    (hr : Owns C w r sr idr kr vr) (hne : sl.which_ ≠ sr.which_) (hb : sr.which_ < 0) (u : Unit) :
    moveAssign C l r w ≠ .ok u w' := by
  intro h
  simp only [moveAssign, M.noexceptIf] at h
  rw [variantMoveAssign_hazard_eq hl hr hne hb] at h
  split at h
  · rename_i h'; exact NeverOk.assignImpl hd _ _ _ _ _ _ _ _ _ _ h'
  · split at h <;> cases h
  · cases h

theorem moveAssign_hazard_exc (hl : Owns C w l sl idl kl vl) (hr : Owns C w r sr idr kr vr)
    (hne : sl.which_ ≠ sr.which_) (hb : sr.which_ < 0) {e : Exc} (h : moveAssign C l r w = .exc e w') :
    HazardExc C w w' kl e := by
  simp only [moveAssign, M.noexceptIf] at h
  rw [variantMoveAssign_hazard_eq hl hr hne hb] at h
  split at h
  · cases h
  · rename_i h'
    split at h
    · cases h
    · cases h; exact assignImpl_holder_exc hl (hr.backup hb).2.1 h'
  · cases h

theorem Rep.which_ne {s s' : VarSt} {id id' : ObjId} {k k' : TyIx} (h : Rep C s id k) (h' : Rep C s' id' k')
    (hk : k ≠ k') : s.which_ ≠ s'.which_ := fun he => hk (h.same_which h' he).1

/-- The two ways a hazardous swap can end by an exception. -/
inductive SwapHazardExc (C : Cfg V) (w w' : World V) (x y : VarId) (sx sy : VarSt) (ix iy : ObjId) (kx ky : TyIx)
    (vx vy : V) (e : Exc) : Prop
  | stage1 (hek : e.kind = .moveCtor ky) (hr : Revalue w w' (upd w.objs iy (some (ky, C.ops.moveFailSrc ky vy))))
  | stage2 (hx : Owns C w' x sx ix kx vx) (hy : Owns C w' y sy iy ky (C.ops.movedFrom ky vy))

theorem swap_hazard (hd : C.ndebug = false) {x y : VarId} {sx sy : VarSt} {ix iy : ObjId} {kx ky : TyIx} {vx vy : V} (hw : WF C w)
    (hx : Owns C w x sx ix kx vx) (hy : Owns C w y sy iy ky vy)
    (hxt : x ≠ .tmp 0) (hyt : y ≠ .tmp 0) (htn : w.vars (.tmp 0) = none) (hk : kx ≠ ky) (hb : sx.which_ < 0) :
    (∀ u w', swap C x y w ≠ .ok u w') ∧
    (∀ e w', swap C x y w = .exc e w' →
      Thrown C w w' e ∧ WF C w' ∧ OthersUnchanged w w' x y ∧ SwapHazardExc C w w' x y sx sy ix iy kx ky vx vy e) := by
  have hki : ¬ ((kx : Int) = (ky : Int)) := by omega
  have hxy : x ≠ y ∧ ix ≠ iy := by
    rcases hw.distinct hx hy with ⟨rfl, rfl⟩ | h
    · have h1 := hx.obj; rw [hy.obj] at h1; cases h1; exact absurd rfl hk
    · exact h
  have hsw : swap C x y w = (do
      moveConstruct C (.tmp 0) y
      M.withLocal (do
        moveAssign C y x
        moveAssign C x (.tmp 0)) (destroyVar C (.tmp 0)) : M V Unit) w := by
    simp only [swap, bind, M.bind, which, getVar, hx.var, hy.var, pure, M.pure, Rep.which C hx.rep,
      Rep.which C hy.rep, hki, if_false]
  rw [hsw]
  simp only [bind, M.bind]
  rcases wp_elim (wp_moveConstruct (x := .tmp 0) hy hw.toFresh) with
    ⟨u, w1, h1, hc, -⟩ | ⟨e, w1, h1, hek, -, hth, -, hw1⟩
  · rw [h1]
    have hst1 : SameTypes w.objs (upd w.objs iy (some (ky, C.ops.movedFrom ky vy))) := SameTypes.upd _ _ hy.obj
    have hwf1 := hc.wf hw htn hst1
    have hx1 : Owns C w1 x sx ix kx vx := hc.owns_other hw hx hxt (by rw [upd_ne _ _ hxy.2]; exact hx.obj)
    have hy1 : Owns C w1 y sy iy ky (C.ops.movedFrom ky vy) := hc.owns_other hw hy hyt (by simp)
    have hne1 := hy.rep.which_ne hx.rep hk.symm
    simp only [M.withLocal, M.bind]
    cases hm : moveAssign C y x w1 with
    | ok u2 w2 => exact absurd hm (moveAssign_hazard_not_ok hd hy1 hx1 hne1 hb _)
    | fault f => exact ⟨fun _ _ h => (by cases h), fun _ _ h => (by cases h)⟩
    | exc e2 w2 =>
      have hz := moveAssign_hazard_exc hy1 hx1 hne1 hb hm
      have hr2 : Revalue w1 w2 w1.objs := ⟨hz.vars, hz.objs, hz.next, hz.sub⟩
      have hwf2 := hr2.wf hwf1 (SameTypes.refl _)
      have hu2 : ∀ z, Unchanged w1 w2 z := fun z => ⟨by rw [hz.vars], fun _ _ _ _ => by rw [hz.objs]⟩
      have ht2 := (hu2 (.tmp 0)).owns hc.owns
      rcases wp_elim (wp_destroyVar_intro (Q := fun _ w3 => Remove w2 w3 (.tmp 0) w.next ∧ w3.tick = w2.tick)
        (E := fun _ _ => False) ht2 hwf2.flat
        ⟨⟨fun _ => by simp only [upd], fun _ => by simp only [upd], rfl, rfl⟩, rfl⟩) with ⟨u3, w3, h3, hrm, htk⟩ | ⟨_, _, _, hf⟩
      · simp only [h3]
        refine ⟨fun _ _ h => (by cases h), fun e w' h => ?_⟩
        cases h
        have hu3 := fun z (hz : z ≠ .tmp 0) => (hu2 z).trans (hrm.unchanged hwf2 ht2 hz)
        refine ⟨⟨?_, ?_, hz.thrown.2.2⟩, hrm.wf hwf2 ht2.var ht2.rep.contentId, ?_, .stage2 ((hu3 _ hxt).owns hx1) ((hu3 _ hyt).owns hy1)⟩
        · have := hz.thrown.1; have := hc.tick; omega
        · have := hz.thrown.2.1; omega
        · intro z hzx hzy
          by_cases hzt : z = .tmp 0
          · subst hzt
            refine ⟨by rw [hrm.vars]; simp [htn], fun s id hh => ?_⟩
            rw [htn] at hh; cases hh
          · exact (hc.unchanged hw hzt (hw.upd_other hy hzy)).trans (hu3 z hzt)
      · exact hf.elim
  · rw [h1]
    refine ⟨fun u w' => by simp, fun e' w' h => ?_⟩
    cases h
    have hr : Revalue w w1 (upd w.objs iy (some (ky, C.ops.moveFailSrc ky vy))) := by subst hw1; exact ⟨rfl, rfl, rfl, rfl⟩
    refine ⟨hth, hr.wf hw (SameTypes.upd _ _ hy.obj), fun z _ h2 => ⟨by rw [hr.vars], fun s id hs hc => ?_⟩, .stage1 hek hr⟩
    rw [hr.objs]; exact hw.upd_other hy h2 s id hs hc

end

end BVariant
