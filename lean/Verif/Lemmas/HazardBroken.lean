/-
The statements of finding F1, with assertions on or off: what they leave if they return, or throw.
-/
import Verif.Lemmas.HazardStep
import Verif.Lemmas.Broken

namespace BVariant

section
variable {V α β : Type} {C : Cfg V} {w w' : World V} {l r x y : VarId} {s sl sr : VarSt} {idl idr : ObjId} {kl kr : TyIx}
  {vl vr : V}

/-- If the code returns, `x` has this record. -/
def LeadsBroken (x : VarId) (s : VarSt) (m : M V α) : Prop := ∀ w a w', m w = .ok a w' → w'.vars x = some s

theorem LeadsBroken.bind_right {m : M V β} {f : β → M V α} (h : ∀ b, LeadsBroken x s (f b)) : LeadsBroken x s (m >>= f) := by
  intro w a w' he
  simp only [Bind.bind, M.bind] at he
  cases hm : m w with
  | ok b w1 => rw [hm] at he; exact h _ _ _ _ he
  | exc e w1 => rw [hm] at he; cases he
  | fault f => rw [hm] at he; cases he

theorem LeadsBroken.bind_left {m : M V β} {f : β → M V α} (h : LeadsBroken x s m) (hf : ∀ b, KeepsBroken x s (f b)) : LeadsBroken x s (m >>= f) := by
  intro w a w' he
  simp only [Bind.bind, M.bind] at he
  cases hm : m w with
  | ok b w1 => rw [hm] at he; exact (hf b w1 (h _ _ _ hm)).1 _ _ he
  | exc e w1 => rw [hm] at he; cases he
  | fault f => rw [hm] at he; cases he

theorem LeadsBroken.withLocal {m : M V α} {d : M V Unit} (h : LeadsBroken x s m) (hd : KeepsBroken x s d) : LeadsBroken x s (M.withLocal m d) := by
  intro w a w' he
  simp only [M.withLocal] at he
  cases hm : m w with
  | ok b w1 =>
    rw [hm] at he
    simp only at he
    cases hm2 : d w1 with
    | ok _ w2 => rw [hm2] at he; cases he; exact (hd w1 (h _ _ _ hm)).1 _ _ hm2
    | exc _ _ => rw [hm2] at he; cases he
    | fault _ => rw [hm2] at he; cases he
  | exc e w1 =>
    rw [hm] at he
    simp only at he
    cases hd : d w1 <;> rw [hd] at he <;> cases he
  | fault f => rw [hm] at he; cases he

/-- A `backup_holder` was copied into the storage of `l`. -/
theorem copyHolder_leads (kr : TyIx) (p : Option ObjId) (d : M V Unit) (i : Int) :
    LeadsBroken l ⟨i, .holder kr none⟩ (do M.onExc (copyRhsInto C l (.holder kr p)) d; setWhich l i) := by
  intro w a w' he
  simp only [copyRhsInto, copyRhs, holderCopyCtor, bind, M.bind, M.onExc, setSlot, setWhich, getVar, M.modify] at he
  cases hd : C.ndebug with
  | false => simp only [hd, Bool.false_eq_true, if_false, M.fail] at he; cases he
  | true =>
    simp only [hd, if_true, pure, M.pure] at he
    cases hv : w.vars l with
    | none => simp only [hv] at he; cases he
    | some st =>
      simp only [hv, upd_same] at he
      cases he
      simp

theorem assignImpl_holder_leads (hl : Owns C w l sl idl kl vl) {i : Nat} {p : Option ObjId} {a : Unit}
    (h : assignImpl C l (i : Int) (.holder kr p) false false false w = .ok a w') :
    w'.vars l = some ⟨(i : Int), .holder kr none⟩ := by
  simp only [assignImpl, Bool.false_eq_true, if_false] at h
  obtain ⟨hx, hr, ho⟩ := hl
  have key : ∀ (d d2 : M V Unit), KeepsBroken l ⟨(i : Int), .holder kr none⟩ d2 → LeadsBroken l ⟨(i : Int), .holder kr none⟩ (do
      M.onExc (copyRhsInto C l (.holder kr p)) d
      setWhich l (indicateWhich i)
      d2) := by
    intro d d2 h2 w a w' he
    refine LeadsBroken.bind_left (copyHolder_leads (C := C) (l := l) kr p d i) (fun _ => h2) w a w' ?_
    rw [← he]
    simp only [bind, M.bind, indicateWhich]
    cases M.onExc (copyRhsInto C l (.holder kr p)) d w <;> rfl
  cases hr with
  | inPlace _ _ hk =>
    rw [iav_inPlace C _ hx hk ho] at h
    simp only [backupAssigner] at h
    split at h
    · exact LeadsBroken.bind_right (fun b => LeadsBroken.withLocal (LeadsBroken.bind_right fun _ => copyHolder_leads kr p _ _) (KeepsBroken.destroyObj _ _)) _ _ _ h
    · exact LeadsBroken.bind_right (fun b => LeadsBroken.bind_right fun _ => key _ _ (KeepsBroken.destroyObj _ _)) _ _ _ h
  | inBackup _ _ hk hb =>
    rw [iav_backup C _ hx hk hb] at h
    exact LeadsBroken.bind_right (fun _ => LeadsBroken.bind_right fun _ => LeadsBroken.bind_right fun _ => key _ _ (KeepsBroken.holderDtor _ _)) _ _ _ h

theorem broken_of_holder {k ty : TyIx} (hk : k < C.n) (h : w.vars l = some ⟨(k : Int), .holder ty none⟩) : w.broken C l :=
  ⟨_, h, .inPlace _ _ hk (by simp)⟩

theorem copyAssign_hazard_ok (hl : Owns C w l sl idl kl vl) (hr : Owns C w r sr idr kr vr)
    (hne : sl.which_ ≠ sr.which_) (hb : sr.which_ < 0) {u : Unit} (h : copyAssign C l r w = .ok u w') :
    w'.vars l = some ⟨(kr : Int), .holder kr none⟩ := by
  rw [copyAssign_hazard_eq hl hr hne hb] at h
  exact assignImpl_holder_leads hl h

theorem moveAssign_hazard_ok (hl : Owns C w l sl idl kl vl) (hr : Owns C w r sr idr kr vr)
    (hne : sl.which_ ≠ sr.which_) (hb : sr.which_ < 0) {u : Unit} (h : moveAssign C l r w = .ok u w') :
    w'.vars l = some ⟨(kr : Int), .holder kr none⟩ := by
  simp only [moveAssign, M.noexceptIf] at h
  rw [variantMoveAssign_hazard_eq hl hr hne hb] at h
  split at h
  · rename_i h'; cases h; exact assignImpl_holder_leads hl h'
  · split at h <;> cases h
  · cases h

theorem swap_hazard_leaves {sx sy : VarSt} {ix iy : ObjId} {kx ky : TyIx} {vx vy : V} (hw : WF C w)
    (hx : Owns C w x sx ix kx vx) (hy : Owns C w y sy iy ky vy)
    (hxt : x ≠ .tmp 0) (hyt : y ≠ .tmp 0) (htn : w.vars (.tmp 0) = none) (hk : kx ≠ ky) (hb : sx.which_ < 0) :
    (∀ u w', swap C x y w = .ok u w' → w'.vars y = some ⟨(kx : Int), .holder kx none⟩) ∧
    (∀ e w', swap C x y w = .exc e w' → w'.broken C y ∨
      (WF C w' ∧ OthersUnchanged w w' x y ∧ Owns C w' x sx ix kx vx ∧ ∃ q, Owns C w' y sy iy ky q)) := by
  have hki : ¬ ((kx : Int) = (ky : Int)) := by omega
  have hxy : x ≠ y ∧ ix ≠ iy := by
    rcases hw.distinct hx hy with ⟨rfl, rfl⟩ | h
    · have h1 := hx.obj; rw [hy.obj] at h1; cases h1; exact absurd rfl hk
    · exact h
  have hsw : swap C x y w = (do
      moveConstruct C (.tmp 0) y
      M.withLocal (do
        moveAssign C y x
        moveAssign C x (.tmp 0)) (destroyVar C (.tmp 0)) : M V Unit) w := by
    simp only [swap, bind, M.bind, which, getVar, hx.var, hy.var, pure, M.pure, Rep.which C hx.rep,
      Rep.which C hy.rep, hki, if_false]
  rw [hsw]
  simp only [bind, M.bind]
  rcases wp_elim (wp_moveConstruct (x := .tmp 0) hy hw.toFresh) with
    ⟨u, w1, h1, hc, -⟩ | ⟨e, w1, h1, hek, -, hth, -, hw1⟩
  · rw [h1]
    have hst1 : SameTypes w.objs (upd w.objs iy (some (ky, C.ops.movedFrom ky vy))) := SameTypes.upd _ _ hy.obj
    have hwf1 := hc.wf hw htn hst1
    have hx1 : Owns C w1 x sx ix kx vx := hc.owns_other hw hx hxt (by rw [upd_ne _ _ hxy.2]; exact hx.obj)
    have hy1 : Owns C w1 y sy iy ky (C.ops.movedFrom ky vy) := hc.owns_other hw hy hyt (by simp)
    have hne1 := hy.rep.which_ne hx.rep hk.symm
    cases hm : moveAssign C y x w1 with
    | ok u2 w2 =>
      have hv2 := moveAssign_hazard_ok hy1 hx1 hne1 hb hm
      have hkeep : KeepsBroken y ⟨(kx : Int), .holder kx none⟩ (M.withLocal (moveAssign C x (.tmp 0)) (destroyVar C (.tmp 0))) :=
        KeepsBroken.withLocal (KeepsBroken.moveAssign fun h => absurd h hxy.1) (KeepsBroken.destroyVar hyt)
      have heq : M.withLocal (M.bind (moveAssign C y x) fun _ => moveAssign C x (.tmp 0)) (destroyVar C (.tmp 0)) w1 =
          M.withLocal (moveAssign C x (.tmp 0)) (destroyVar C (.tmp 0)) w2 := by
        simp only [M.withLocal, M.bind, hm]
      simp only
      rw [heq]
      refine ⟨fun u w' h => (hkeep w2 hv2).1 _ _ h, fun e w' h => .inl (broken_of_holder hx.rep.lt ((hkeep w2 hv2).2 _ _ h))⟩
    | fault f => simp only [M.withLocal, M.bind, hm]; exact ⟨fun _ _ h => (by cases h), fun _ _ h => (by cases h)⟩
    | exc e2 w2 =>
      simp only [M.withLocal, M.bind, hm]
      have hz := moveAssign_hazard_exc hy1 hx1 hne1 hb hm
      have hr2 : Revalue w1 w2 w1.objs := ⟨hz.vars, hz.objs, hz.next, hz.sub⟩
      have hwf2 := hr2.wf hwf1 (SameTypes.refl _)
      have hu2 : ∀ z, Unchanged w1 w2 z := fun z => ⟨by rw [hz.vars], fun _ _ _ _ => by rw [hz.objs]⟩
      have ht2 := (hu2 (.tmp 0)).owns hc.owns
      rcases wp_elim (wp_destroyVar_intro (Q := fun _ w3 => Remove w2 w3 (.tmp 0) w.next ∧ w3.tick = w2.tick)
        (E := fun _ _ => False) ht2 hwf2.flat
        ⟨⟨fun _ => by simp only [upd], fun _ => by simp only [upd], rfl, rfl⟩, rfl⟩) with ⟨u3, w3, h3, hrm, htk⟩ | ⟨_, _, _, hf⟩
      · simp only [h3]
        refine ⟨fun _ _ h => (by cases h), fun e w' h => .inr ?_⟩
        cases h
        have hu3 := fun z (hz : z ≠ .tmp 0) => (hu2 z).trans (hrm.unchanged hwf2 ht2 hz)
        refine ⟨hrm.wf hwf2 ht2.var ht2.rep.contentId, ?_, (hu3 x hxt).owns hx1, _, (hu3 y hyt).owns hy1⟩
        intro z hzx hzy
        by_cases hzt : z = .tmp 0
        · subst hzt
          refine ⟨by rw [hrm.vars]; simp [htn], fun s id hh => ?_⟩
          rw [htn] at hh; cases hh
        · exact (hc.unchanged hw hzt (hw.upd_other hy hzy)).trans (hu3 z hzt)
      · exact hf.elim
  · rw [h1]
    refine ⟨fun u w' h => (by simp at h), fun e' w' h => .inr ?_⟩
    cases h
    have hr : Revalue w w1 (upd w.objs iy (some (ky, C.ops.moveFailSrc ky vy))) := by subst hw1; exact ⟨rfl, rfl, rfl, rfl⟩
    refine ⟨hr.wf hw (SameTypes.upd _ _ hy.obj), fun z _ h2 => ⟨by rw [hr.vars], fun s id hs hc => ?_⟩, ?_, C.ops.moveFailSrc ky vy, ?_⟩
    · rw [hr.objs]; exact hw.upd_other hy h2 s id hs hc
    · exact ⟨by rw [hr.vars]; exact hx.var, hx.rep, by rw [hr.objs, upd_ne _ _ hxy.2]; exact hx.obj⟩
    · exact ⟨by rw [hr.vars]; exact hy.var, hy.rep, by rw [hr.objs, upd_same]⟩

/-- Effect of a statement of finding F1 on its target, with assertions off: the old content is gone, and the storage has an empty
`backup_holder`. -/
structure Gutted (w w' : World V) (l : VarId) (old : ObjId) (k : TyIx) : Prop where
  vars : ∀ y, w'.vars y = if y = l then some ⟨(k : Int), .holder k none⟩ else w.vars y
  objs : ∀ i, w'.objs i = if i = old then none else w.objs i
  next : w.next ≤ w'.next
  sub : w'.sub = w.sub

theorem wp_assignImpl_holder (hd : C.ndebug = true) (hl : Owns C w l sl idl kl vl) (hf : Fresh w) (p : Option ObjId) :
    wp (assignImpl C l (kr : Int) (.holder kr p) false false false)
      (fun _ w' => Gutted w w' l idl kr) (fun _ w' => w'.vars = w.vars ∧ w'.objs = w.objs ∧ w'.sub = w.sub) w := by
  have hlt := hf.lt hl.obj
  have hfl := hf.flat
  have n1 : w.next ≠ idl := by omega
  have n4 : idl ≠ w.next := by omega
  have hnx := hf.fresh w.next (Nat.le_refl _)
  obtain ⟨hx, hr, ho⟩ := hl
  simp only [assignImpl, Bool.false_eq_true, if_false]
  cases hr with
  | inPlace _ _ hk =>
    rw [wp_iav_inPlace C hx hk ho]
    simp only [backupAssigner]
    by_cases hm : (C.tr kl).nothrowMove = true
    · simp only [hm, if_true, wp_bind, wpx_moveCtor, ho, Bool.true_eq_false, false_and, if_false, wp_withLocal,
        wpx_destroyObj, hfl, implies_true, upd_ne _ _ n4, upd_same, wp_onExc, copyRhsInto, copyRhs, holderCopyCtor, hd,
        wp_pure, wpx_setSlot, wpx_setWhich, hx, upd_upd_same, upd_ne _ _ n1, indicateWhich]
      refine ⟨fun y => by simp only [upd], fun i => ?_, by simp, rfl⟩
      simp only [upd]
      split
      · rename_i h; rw [h, hnx, if_neg n1]
      · split <;> rfl
    · have hm' : (C.tr kl).nothrowMove = false := by simpa using hm
      simp only [hm', Bool.false_eq_true, if_false, wp_bind, wpx_heapCopy, ho, if_true]
      split
      · simp
      split
      · simp
      simp only [wpx_destroyObj, hfl, implies_true, upd_ne _ _ n4, upd_same, wp_onExc, copyRhsInto, copyRhs, holderCopyCtor, hd,
        wp_pure, wpx_setSlot, wpx_setWhich, hx, upd_upd_same, upd_ne _ _ n1, indicateWhich, wp_bind, ho, if_true]
      refine ⟨fun y => by simp only [upd], fun i => ?_, by simp, rfl⟩
      simp only [upd]
      split
      · rename_i h; rw [h, hnx, if_neg n1]
      · split <;> rfl
  | inBackup _ _ hk hb =>
    rw [wp_iav_backup C hx hk hb]
    simp only [backupAssigner, holderDtor, wp_bind, wp_pure, wpx_setSlot, hx, upd_upd_same, upd_same, wp_onExc,
      copyRhsInto, copyRhs, holderCopyCtor, hd, if_true, wpx_setWhich, indicateWhich, wpx_destroyObj, hfl,
      implies_true, ho]
    exact ⟨fun y => by simp only [upd], fun i => by simp only [upd], by simp, rfl⟩

theorem wp_copyAssign_hazard (hd : C.ndebug = true) (hl : Owns C w l sl idl kl vl) (hr : Owns C w r sr idr kr vr)
    (hne : sl.which_ ≠ sr.which_) (hb : sr.which_ < 0) (hf : Fresh w) :
    wp (copyAssign C l r) (fun _ w' => Gutted w w' l idl kr) (fun _ w' => w'.vars = w.vars ∧ w'.objs = w.objs ∧ w'.sub = w.sub) w := by
  simp only [wp]
  rw [copyAssign_hazard_eq hl hr hne hb]
  exact wp_assignImpl_holder hd hl hf _

theorem wp_moveAssign_hazard (hd : C.ndebug = true) (hl : Owns C w l sl idl kl vl) (hr : Owns C w r sr idr kr vr)
    (hne : sl.which_ ≠ sr.which_) (hb : sr.which_ < 0) (hf : Fresh w) :
    wp (moveAssign C l r) (fun _ w' => Gutted w w' l idl kr) (fun _ w' => w'.vars = w.vars ∧ w'.objs = w.objs ∧ w'.sub = w.sub) w := by
  have hnm : moveNoexceptConstructible C = false := by
    cases h : moveNoexceptConstructible C with
    | false => rfl
    | true =>
      have h1 := tr_of_all h hr.rep.lt
      have h2 := (hr.backup hb).2.2.1
      simp [h2] at h1
  rw [moveAssign, wp_noexceptIf, hnm]
  simp only [wp]
  rw [variantMoveAssign_hazard_eq hl hr hne hb]
  have h := wp_assignImpl_holder (kr := kr) hd hl hf (some idr)
  simp only [wp] at h
  split <;> rename_i h' <;> rw [h'] at h
  · exact h
  · exact ⟨rfl, h⟩
  · exact h

theorem swap_hazard_no_fault (hd : C.ndebug = true) (hbo : BlankOk C) {sx sy : VarSt} {ix iy : ObjId} {kx ky : TyIx} {vx vy : V}
    (hw : WF C w) (hx : Owns C w x sx ix kx vx) (hy : Owns C w y sy iy ky vy)
    (hxt : x ≠ .tmp 0) (hyt : y ≠ .tmp 0) (htn : w.vars (.tmp 0) = none) (hk : kx ≠ ky) (hb : sx.which_ < 0) :
    wp (swap C x y) (fun _ _ => True) (fun _ _ => True) w := by
  have hki : ¬ ((kx : Int) = (ky : Int)) := by omega
  have hxy : x ≠ y ∧ ix ≠ iy := by
    rcases hw.distinct hx hy with ⟨rfl, rfl⟩ | h
    · have h1 := hx.obj; rw [hy.obj] at h1; cases h1; exact absurd rfl hk
    · exact h
  simp only [swap, wp_bind, wpx_which, hx.var, hy.var, Rep.which C hx.rep, Rep.which C hy.rep, hki, if_false]
  refine wp_mono (wp_moveConstruct (x := .tmp 0) hy hw.toFresh) ?_ (fun _ _ _ => trivial)
  rintro _ w1 ⟨hc, -⟩
  have hst1 : SameTypes w.objs (upd w.objs iy (some (ky, C.ops.movedFrom ky vy))) := SameTypes.upd _ _ hy.obj
  have hwf1 := hc.wf hw htn hst1
  have hx1 : Owns C w1 x sx ix kx vx := hc.owns_other hw hx hxt (by rw [upd_ne _ _ hxy.2]; exact hx.obj)
  have hy1 : Owns C w1 y sy iy ky (C.ops.movedFrom ky vy) := hc.owns_other hw hy hyt (by simp)
  have ht1 := hc.owns
  have hne1 := hy.rep.which_ne hx.rep hk.symm
  have hit : w.next ≠ ix ∧ w.next ≠ iy := by
    have := hw.toFresh.lt hx.obj; have := hw.toFresh.lt hy.obj; omega
  have done : ∀ {w3 : World V} {v : V}, w3.vars (.tmp 0) = some ⟨(ky : Int), .obj w.next⟩ → w3.objs w.next = some (ky, v) →
      w3.sub = w1.sub → ∀ {Q E}, (∀ w', Q () w') → wp (destroyVar C (.tmp 0)) Q E w3 := by
    intro w3 v h1 h2 h3 Q E hq
    exact wp_destroyVar_intro ⟨h1, ht1.rep, h2⟩ (by rw [h3]; exact hwf1.flat) (hq _)
  rw [wp_withLocal, wp_bind]
  refine wp_mono (wp_moveAssign_hazard hd hy1 hx1 hne1 hb hwf1.toFresh) ?_ ?_
  · intro _ w2 h2
    have hx2 : Owns C w2 x sx ix kx vx :=
      ⟨by rw [h2.vars, if_neg hxy.1]; exact hx1.var, hx1.rep, by rw [h2.objs, if_neg hxy.2]; exact hx1.obj⟩
    have ht2 : Owns C w2 (.tmp 0) ⟨(ky : Int), .obj w.next⟩ w.next ky (C.ops.move ky vy) :=
      ⟨by rw [h2.vars, if_neg (Ne.symm hyt)]; exact ht1.var, ht1.rep, by rw [h2.objs, if_neg hit.2]; exact ht1.obj⟩
    have hf2 : Fresh w2 := by
      refine ⟨fun i hi => ?_, by rw [h2.sub]; exact hwf1.flat⟩
      have := h2.next
      rw [h2.objs]
      split
      · rfl
      · exact hwf1.fresh i (by omega)
    have hlt2 : w.next < w2.next := hf2.lt ht2.obj
    have fin : ∀ {w3 : World V} {q : V}, (∀ y, y ≠ x → w3.vars y = w2.vars y) →
        (w3.objs w.next = upd w2.objs w.next (some (ky, q)) w.next) → w3.sub = w2.sub →
        ∀ {Q E}, (∀ w', Q () w') → wp (destroyVar C (.tmp 0)) Q E w3 := by
      intro w3 q h1 h3 h4 Q E hq
      exact done (by rw [h1 _ (Ne.symm hxt)]; exact ht2.var) (by rw [h3, upd_same]) (by rw [h4, h2.sub]) hq
    refine wp_mono (wp_moveAssign_gen hbo hx2 ht2 (.inr ⟨hxt, hit.1.symm⟩) hf2 (.inr (by simp))) ?_ ?_
    · rintro _ w3 ⟨⟨h, -⟩ | ⟨-, -, -, h, -⟩ | ⟨-, -, i, -, h⟩, -⟩
      · exact absurd h hxt
      · exact fin (fun y hy => by rw [h.vars, if_neg hy]) (h.keep _ hlt2 hit.1) h.sub fun _ => trivial
      · exact fin (fun y hy => by rw [h.vars, if_neg hy]) (h.keep _ hlt2 hit.1) h.sub fun _ => trivial
    · rintro e w3 ⟨-, ⟨h, -⟩ | ⟨-, -, -, -, -, -, h, -⟩ | ⟨-, -, -, h⟩, -⟩
      · exact absurd h hxt
      · exact fin (fun y hy => by rw [h.vars, if_neg hy]) (h.keep _ hlt2 hit.1) h.sub fun _ => trivial
      · exact fin h.vars (h.keep _ hlt2 hit.1) h.sub fun _ => trivial
  · intro e w2 h2
    exact done (by rw [h2.1]; exact ht1.var) (by rw [h2.2.1]; exact ht1.obj) h2.2.2 fun _ => trivial

theorem hazard_operands (hg : Good C w) {x y : Nat} (h : (w.backedUp y && w.recordsDiffer x y) = true) :
    ∃ sx ix kx vx sy iy ky vy, Owns C w (.user x) sx ix kx vx ∧ Owns C w (.user y) sy iy ky vy ∧
      sx.which_ ≠ sy.which_ ∧ sy.which_ < 0 := by
  simp only [World.backedUp, World.recordsDiffer, Bool.and_eq_true] at h
  cases hx : w.vars (.user x) with
  | none => simp [hx] at h
  | some sx =>
    cases hy : w.vars (.user y) with
    | none => simp [hy] at h
    | some sy =>
      simp only [hx, hy, decide_eq_true_eq] at h
      obtain ⟨ix, kx, vx, hrx, hox⟩ := hg.wf.rep _ _ hx
      obtain ⟨iy, ky, vy, hry, hoy⟩ := hg.wf.rep _ _ hy
      exact ⟨sx, ix, kx, vx, sy, iy, ky, vy, ⟨hx, hrx, hox⟩, ⟨hy, hry, hoy⟩, h.2, h.1⟩

/-- What a statement of finding F1 leaves: a broken variant if it returns; if it throws, a good state or a broken variant. -/
theorem step_hazard_leaves (hg : Good C w) (c : Cmd V) (hz : c.readsBackup w = true) :
    (∀ u w', c.code C w = .ok u w' → ∃ x ∈ c.names, w'.broken C (.user x)) ∧
    (∀ e w', c.code C w = .exc e w' → (Good C w' ∧ OthersKept c w w') ∨ ∃ x ∈ c.names, w'.broken C (.user x)) := by
  have key := fun {x y : Nat} => hazard_operands (x := x) (y := y) hg
  have same : ∀ {w' : World V} {kl : TyIx} {e : Exc}, HazardExc C w w' kl e → Good C w' ∧ OthersKept c w w' := by
    intro w' kl e h
    have hr : Revalue w w' w.objs := ⟨h.vars, h.objs, h.next, h.sub⟩
    exact ⟨⟨hr.wf hg.wf (SameTypes.refl _), fun n => by rw [h.vars]; exact hg.noTmp n⟩,
      fun z _ => ⟨by rw [h.vars], fun _ _ _ _ => by rw [h.objs]⟩⟩
  cases c with
  | copyAssign x y =>
    obtain ⟨sx, ix, kx, vx, sy, iy, ky, vy, hx, hy, hne, hb⟩ := key hz
    exact ⟨fun u w' h => ⟨x, by simp [Cmd.names], broken_of_holder hy.rep.lt (copyAssign_hazard_ok hx hy hne hb h)⟩,
      fun e w' h => .inl (same (copyAssign_hazard_exc hx hy hne hb h))⟩
  | moveAssign x y =>
    obtain ⟨sx, ix, kx, vx, sy, iy, ky, vy, hx, hy, hne, hb⟩ := key hz
    exact ⟨fun u w' h => ⟨x, by simp [Cmd.names], broken_of_holder hy.rep.lt (moveAssign_hazard_ok hx hy hne hb h)⟩,
      fun e w' h => .inl (same (moveAssign_hazard_exc hx hy hne hb h))⟩
  | swap x y =>
    simp only [Cmd.readsBackup, World.backedUp, World.typesDiffer, Bool.and_eq_true] at hz
    cases hx : w.vars (.user x) with
    | none => simp [hx] at hz
    | some sx =>
      cases hy : w.vars (.user y) with
      | none => simp [World.content, hy] at hz
      | some sy =>
        obtain ⟨ix, kx, vx, hrx, hox⟩ := hg.wf.rep _ _ hx
        obtain ⟨iy, ky, vy, hry, hoy⟩ := hg.wf.rep _ _ hy
        have hxo : Owns C w (.user x) sx ix kx vx := ⟨hx, hrx, hox⟩
        have hyo : Owns C w (.user y) sy iy ky vy := ⟨hy, hry, hoy⟩
        simp only [hx, hxo.content, hyo.content, decide_eq_true_eq] at hz
        have h := swap_hazard_leaves hg.wf hxo hyo (by simp) (by simp) (hg.noTmp 0) hz.2 hz.1
        refine ⟨fun u w' he => ⟨y, by simp [Cmd.names], broken_of_holder hxo.rep.lt (h.1 u w' he)⟩, fun e w' he => ?_⟩
        rcases h.2 e w' he with h | ⟨h2, h3, -⟩
        · exact .inr ⟨y, by simp [Cmd.names], h⟩
        · refine .inl ⟨⟨h2, fun n => by rw [(h3 (.tmp n) (by simp) (by simp)).1]; exact hg.noTmp n⟩, fun z hz => ?_⟩
          simp only [Cmd.names, List.mem_cons, List.not_mem_nil, or_false, not_or] at hz
          exact h3 _ (by simp [hz.1]) (by simp [hz.2])
  | _ => cases hz

/-- With assertions off, no statement of finding F1 ends in a fault. -/
theorem step_hazard_no_fault (hd : C.ndebug = true) (hbo : BlankOk C) (hg : Good C w) (c : Cmd V) (hz : c.readsBackup w = true) :
    wp (c.code C) (fun _ _ => True) (fun _ _ => True) w := by
  cases c with
  | copyAssign x y =>
    obtain ⟨sx, ix, kx, vx, sy, iy, ky, vy, hx, hy, hne, hb⟩ := hazard_operands hg hz
    exact wp_mono (wp_copyAssign_hazard hd hx hy hne hb hg.wf.toFresh) (fun _ _ _ => trivial) (fun _ _ _ => trivial)
  | moveAssign x y =>
    obtain ⟨sx, ix, kx, vx, sy, iy, ky, vy, hx, hy, hne, hb⟩ := hazard_operands hg hz
    exact wp_mono (wp_moveAssign_hazard hd hx hy hne hb hg.wf.toFresh) (fun _ _ _ => trivial) (fun _ _ _ => trivial)
  | swap x y =>
    simp only [Cmd.readsBackup, World.backedUp, World.typesDiffer, Bool.and_eq_true] at hz
    cases hx : w.vars (.user x) with
    | none => simp [hx] at hz
    | some sx =>
      cases hy : w.vars (.user y) with
      | none => simp [World.content, hy] at hz
      | some sy =>
        obtain ⟨ix, kx, vx, hrx, hox⟩ := hg.wf.rep _ _ hx
        obtain ⟨iy, ky, vy, hry, hoy⟩ := hg.wf.rep _ _ hy
        have hxo : Owns C w (.user x) sx ix kx vx := ⟨hx, hrx, hox⟩
        have hyo : Owns C w (.user y) sy iy ky vy := ⟨hy, hry, hoy⟩
        simp only [hx, hxo.content, hyo.content, decide_eq_true_eq] at hz
        exact swap_hazard_no_fault hd hbo hg.wf hxo hyo (by simp) (by simp) (hg.noTmp 0) hz.2 hz.1
  | _ => cases hz

/-- How a statement of finding F1 ends, with assertions on or off: it stops at the failed assertion, or leaves a good state, or a
broken variant; and if it returns, it has left a broken variant. -/
theorem step_hazard_ends (hbo : BlankOk C) (hg : Good C w) (c : Cmd V) (hv : c.valid C w = true) (hz : c.readsBackup w = true) :
    c.code C w = .fault .assertFailed ∨
    (∃ u w', c.code C w = .ok u w' ∧ ∃ x ∈ c.names, w'.broken C (.user x)) ∨
    (∃ e w', c.code C w = .exc e w' ∧ ((Good C w' ∧ OthersKept c w w') ∨ ∃ x ∈ c.names, w'.broken C (.user x))) := by
  have hl := step_hazard_leaves hg c hz
  cases hd : C.ndebug with
  | false =>
    rcases step_hazard hd hg c hv hz with h | ⟨e, w', h, hg', hk, -⟩
    · exact .inl h
    · exact .inr (.inr ⟨e, w', h, .inl ⟨hg', hk⟩⟩)
  | true =>
    rcases wp_elim (step_hazard_no_fault hd hbo hg c hz) with ⟨u, w', h, -⟩ | ⟨e, w', h, -⟩
    · exact .inr (.inl ⟨u, w', h, hl.1 u w' h⟩)
    · exact .inr (.inr ⟨e, w', h, hl.2 e w' h⟩)

end

end BVariant
