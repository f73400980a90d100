/-
The statements of finding F1 with assertions on: each stops at the failed assertion or throws, and if it throws the
state is as good as before.
-/
import Verif.Lemmas.Hazard

set_option linter.unusedSimpArgs false

namespace BVariant

section
variable {V α β : Type} {C : Cfg V} {w w' : World V} {l r : VarId} {sl sr : VarSt} {idl idr : ObjId} {kl kr : TyIx}
  {vl vr : V}

/-- The code, run in `w`, stops at a failed assertion. -/
def Asserts (m : M V α) (w : World V) : Prop := m w = .fault .assertFailed

theorem Asserts.bind_left {m : M V β} {f : β → M V α} (h : Asserts m w) : Asserts (m >>= f) w := by
  unfold Asserts at h ⊢
  simp only [Bind.bind, M.bind, h]

theorem Asserts.bind_right {m : M V β} {f : β → M V α} {b : β} {w1 : World V} (h : m w = .ok b w1)
    (hf : Asserts (f b) w1) : Asserts (m >>= f) w := by
  unfold Asserts at hf ⊢
  simp only [Bind.bind, M.bind, h, hf]

theorem Asserts.onExc {m : M V α} {d : M V Unit} (h : Asserts m w) : Asserts (M.onExc m d) w := by
  unfold Asserts at h ⊢
  simp only [M.onExc, h]

theorem Asserts.withLocal {m : M V α} {d : M V Unit} (h : Asserts m w) : Asserts (M.withLocal m d) w := by
  unfold Asserts at h ⊢
  simp only [M.withLocal, h]

theorem Asserts.copyRhsInto (hd : C.ndebug = false) (l : VarId) (ty : TyIx) (p : Option ObjId) (w : World V) :
    Asserts (copyRhsInto C l (.holder ty p)) w := by
  refine Asserts.bind_left (Asserts.bind_left ?_)
  unfold Asserts holderCopyCtor
  rw [hd]
  rfl

theorem destroyObj_returns {ty : TyIx} {id : ObjId} {v : V} (h : w.objs id = some (ty, v)) :
    ∃ w1, destroyObj ty id w = .ok () w1 := by
  simp only [destroyObj, bind, M.bind, readAs, h, if_true, M.modify]
  exact ⟨_, rfl⟩

theorem setSlot_returns {x : VarId} {s : VarSt} (h : w.vars x = some s) (t : Slot) :
    setSlot x t w = .ok () { w with vars := upd w.vars x (some { s with slot := t }) } := by
  simp only [setSlot, bind, M.bind, getVar, h, M.modify]

/-- With a `backup_holder` on the right, the backup assigner stops at the assertion or throws. -/
theorem assignImpl_holder_stops (hd : C.ndebug = false) (hfr : ∀ id, w.next ≤ id → w.objs id = none)
    (hl : Owns C w l sl idl kl vl) (i : Int) (p : Option ObjId) :
    Asserts (assignImpl C l i (.holder kr p) false false false) w ∨
      ∃ e w', assignImpl C l i (.holder kr p) false false false w = .exc e w' := by
  simp only [Asserts, assignImpl, Bool.false_eq_true, if_false]
  obtain ⟨hx, hr, ho⟩ := hl
  have hne : idl ≠ w.next := fun he => by rw [hfr idl (by omega)] at ho; cases ho
  cases hr with
  | inPlace _ _ hk =>
    rw [iav_inPlace C _ hx hk ho]
    simp only [backupAssigner]
    by_cases hm : (C.tr kl).nothrowMove = true
    · rw [if_pos hm]
      left
      have hwp : wp (moveCtor C kl idl) (fun _ w1 => ∃ v, w1.objs idl = some (kl, v)) (fun _ _ => False) w := by
        simp only [wpx_moveCtor, ho, if_true, hm, Bool.true_eq_false, false_and, if_false]
        exact ⟨C.ops.movedFrom kl vl, by rw [upd_ne _ _ hne]; simp⟩
      rcases wp_elim hwp with ⟨b, w1, h1, v, h2⟩ | ⟨_, _, _, hf⟩
      · obtain ⟨w2, h3⟩ := destroyObj_returns h2
        exact Asserts.bind_right h1 (Asserts.withLocal (Asserts.bind_right h3 (Asserts.bind_left
          (Asserts.onExc (Asserts.copyRhsInto hd _ _ _ _)))))
      · exact hf.elim
    · rw [if_neg hm]
      have hwp : wp (heapCopy C kl idl) (fun _ w1 => w1.objs idl = some (kl, vl)) (fun _ _ => True) w := by
        simp only [wpx_heapCopy, ho, if_true]
        split
        · trivial
        · split
          · trivial
          · rw [upd_ne _ _ hne]; exact ho
      rcases wp_elim hwp with ⟨b, w1, h1, h2⟩ | ⟨e, w1, h1, -⟩
      · left
        obtain ⟨w2, h3⟩ := destroyObj_returns h2
        exact Asserts.bind_right h1 (Asserts.bind_right h3 (Asserts.bind_left
          (Asserts.onExc (Asserts.copyRhsInto hd _ _ _ _))))
      · right
        exact ⟨e, w1, by simp only [Bind.bind, M.bind, h1]⟩
  | inBackup _ _ hk hb =>
    rw [iav_backup C _ hx hk hb]
    left
    refine Asserts.bind_right (setSlot_returns hx _) (Asserts.bind_right (b := ()) (w1 := _) rfl ?_)
    refine Asserts.bind_right (setSlot_returns (s := ⟨-((kl : Int) + 1), .holder kl none⟩) (by simp) _) ?_
    exact Asserts.bind_left (Asserts.onExc (Asserts.copyRhsInto hd _ _ _ _))

theorem copyAssign_hazard_stops (hd : C.ndebug = false) (hw : WF C w) (hl : Owns C w l sl idl kl vl)
    (hr : Owns C w r sr idr kr vr) (hne : sl.which_ ≠ sr.which_) (hb : sr.which_ < 0) :
    Asserts (copyAssign C l r) w ∨ ∃ e w', copyAssign C l r w = .exc e w' := by
  simp only [Asserts, copyAssign_hazard_eq hl hr hne hb]
  exact assignImpl_holder_stops hd hw.fresh hl _ _

theorem moveAssign_hazard_stops (hd : C.ndebug = false) (hw : WF C w) (hl : Owns C w l sl idl kl vl)
    (hr : Owns C w r sr idr kr vr) (hne : sl.which_ ≠ sr.which_) (hb : sr.which_ < 0) :
    Asserts (moveAssign C l r) w ∨ ∃ e w', moveAssign C l r w = .exc e w' := by
  simp only [Asserts, moveAssign, M.noexceptIf, variantMoveAssign_hazard_eq hl hr hne hb]
  rcases assignImpl_holder_stops (kr := kr) hd hw.fresh hl (kr : Int) (some idr) with h | ⟨e, w', h⟩
  · left; unfold Asserts at h; rw [h]
  · right
    have hz := assignImpl_holder_exc hl (hr.backup hb).2.1 h
    have hall : moveNoexceptConstructible C = false := by
      cases hc : moveNoexceptConstructible C with
      | false => rfl
      | true =>
        have hk := hl.rep.lt
        rw [moveNoexceptConstructible, List.all_eq_true] at hc
        have : C.tr kl ∈ C.types := by
          simp only [Cfg.tr, Cfg.n] at hk ⊢
          simp [List.getD, List.getElem?_eq_getElem hk]
        exact absurd hz.noMove (by simp [hc _ this])
    rw [h, hall]
    exact ⟨e, w', rfl⟩

theorem swap_hazard_stops (hd : C.ndebug = false) {x y : VarId} {sx sy : VarSt} {ix iy : ObjId} {kx ky : TyIx}
    {vx vy : V} (hw : WF C w) (hx : Owns C w x sx ix kx vx) (hy : Owns C w y sy iy ky vy)
    (hxt : x ≠ .tmp 0) (hyt : y ≠ .tmp 0) (htn : w.vars (.tmp 0) = none) (hk : kx ≠ ky) (hb : sx.which_ < 0) :
    Asserts (swap C x y) w ∨ ∃ e w', swap C x y w = .exc e w' := by
  have hki : ¬ ((kx : Int) = (ky : Int)) := by omega
  have hxy : x ≠ y ∧ ix ≠ iy := by
    rcases hw.distinct hx hy with ⟨rfl, rfl⟩ | h
    · have h1 := hx.obj; rw [hy.obj] at h1; cases h1; exact absurd rfl hk
    · exact h
  have hsw : swap C x y w = (do
      moveConstruct C (.tmp 0) y
      M.withLocal (do
        moveAssign C y x
        moveAssign C x (.tmp 0)) (destroyVar C (.tmp 0)) : M V Unit) w := by
    simp only [swap, bind, M.bind, which, getVar, hx.var, hy.var, pure, M.pure, Rep.which C hx.rep,
      Rep.which C hy.rep, hki, if_false]
  rw [Asserts, hsw]
  simp only [bind, M.bind]
  rcases wp_elim (wp_moveConstruct (x := .tmp 0) hy hw.toFresh) with
    ⟨u, w1, h1, hc, -⟩ | ⟨e, w1, h1, -⟩
  · rw [h1]
    have hwf1 := hc.wf hw htn (SameTypes.upd _ _ hy.obj)
    have hx1 : Owns C w1 x sx ix kx vx := hc.owns_other hw hx hxt (by rw [upd_ne _ _ hxy.2]; exact hx.obj)
    have hy1 : Owns C w1 y sy iy ky (C.ops.movedFrom ky vy) := hc.owns_other hw hy hyt (by simp)
    have hne1 := hy.rep.which_ne hx.rep hk.symm
    simp only [M.withLocal, M.bind]
    rcases moveAssign_hazard_stops hd hwf1 hy1 hx1 hne1 hb with hm | ⟨e2, w2, hm⟩
    · rw [hm]; exact Or.inl rfl
    · right
      have hz := moveAssign_hazard_exc hy1 hx1 hne1 hb hm
      have hr2 : Revalue w1 w2 w1.objs := ⟨hz.vars, hz.objs, hz.next, hz.sub⟩
      have hwf2 := hr2.wf hwf1 (SameTypes.refl _)
      have ht2 : Owns C w2 (.tmp 0) _ _ _ _ :=
        (show Unchanged w1 w2 (.tmp 0) from ⟨by rw [hz.vars], fun _ _ _ _ => by rw [hz.objs]⟩).owns hc.owns
      rcases wp_elim (wp_destroyVar_intro (Q := fun _ _ => True) (E := fun _ _ => False) ht2 hwf2.flat trivial) with
        ⟨u3, w3, h3, -⟩ | ⟨_, _, _, hf⟩
      · rw [hm]
        simp only [h3]
        exact ⟨e2, w3, rfl⟩
      · exact hf.elim
  · rw [h1]; exact Or.inr ⟨e, w1, rfl⟩

/-- With assertions on, a statement of finding F1 stops at the failed assertion, or throws and leaves a good state
with all other variants as they were. -/
theorem step_hazard (hd : C.ndebug = false) (hg : Good C w) (c : Cmd V) (hv : c.valid C w = true)
    (hz : c.readsBackup w = true) :
    c.code C w = .fault .assertFailed ∨
      ∃ e w', c.code C w = .exc e w' ∧ Good C w' ∧ OthersKept c w w' ∧ Thrown C w w' e := by
  have key : ∀ {x y : Nat}, (w.backedUp y && w.recordsDiffer x y) = true →
      ∃ sx ix kx vx sy iy ky vy, Owns C w (.user x) sx ix kx vx ∧ Owns C w (.user y) sy iy ky vy ∧
        sx.which_ ≠ sy.which_ ∧ sy.which_ < 0 := by
    intro x y h
    simp only [World.backedUp, World.recordsDiffer, Bool.and_eq_true] at h
    cases hx : w.vars (.user x) with
    | none => simp [hx] at h
    | some sx =>
      cases hy : w.vars (.user y) with
      | none => simp [hy] at h
      | some sy =>
        simp only [hx, hy, decide_eq_true_eq] at h
        obtain ⟨ix, kx, vx, hrx, hox⟩ := hg.wf.rep _ _ hx
        obtain ⟨iy, ky, vy, hry, hoy⟩ := hg.wf.rep _ _ hy
        exact ⟨sx, ix, kx, vx, sy, iy, ky, vy, ⟨hx, hrx, hox⟩, ⟨hy, hry, hoy⟩, h.2, h.1⟩
  have same : ∀ {w' : World V} {kl : TyIx} {e : Exc}, HazardExc C w w' kl e →
      Good C w' ∧ OthersKept c w w' ∧ Thrown C w w' e := by
    intro w' kl e h
    have hr : Revalue w w' w.objs := ⟨h.vars, h.objs, h.next, h.sub⟩
    exact ⟨⟨hr.wf hg.wf (SameTypes.refl _), fun n => by rw [h.vars]; exact hg.noTmp n⟩,
      fun z _ => ⟨by rw [h.vars], fun _ _ _ _ => by rw [h.objs]⟩, h.thrown⟩
  cases c with
  | copyAssign x y =>
    obtain ⟨sx, ix, kx, vx, sy, iy, ky, vy, hx, hy, hne, hb⟩ := key hz
    rcases copyAssign_hazard_stops hd hg.wf hx hy hne hb with h | ⟨e, w', h⟩
    · exact Or.inl h
    · exact Or.inr ⟨e, w', h, same (copyAssign_hazard_exc hx hy hne hb h)⟩
  | moveAssign x y =>
    obtain ⟨sx, ix, kx, vx, sy, iy, ky, vy, hx, hy, hne, hb⟩ := key hz
    rcases moveAssign_hazard_stops hd hg.wf hx hy hne hb with h | ⟨e, w', h⟩
    · exact Or.inl h
    · exact Or.inr ⟨e, w', h, same (moveAssign_hazard_exc hx hy hne hb h)⟩
  | swap x y =>
    simp only [Cmd.readsBackup, World.backedUp, World.typesDiffer, Bool.and_eq_true] at hz
    cases hx : w.vars (.user x) with
    | none => simp [hx] at hz
    | some sx =>
      cases hy : w.vars (.user y) with
      | none => simp [World.content, hy] at hz
      | some sy =>
        obtain ⟨ix, kx, vx, hrx, hox⟩ := hg.wf.rep _ _ hx
        obtain ⟨iy, ky, vy, hry, hoy⟩ := hg.wf.rep _ _ hy
        have hxo : Owns C w (.user x) sx ix kx vx := ⟨hx, hrx, hox⟩
        have hyo : Owns C w (.user y) sy iy ky vy := ⟨hy, hry, hoy⟩
        simp only [hx, hxo.content, hyo.content, decide_eq_true_eq] at hz
        rcases swap_hazard_stops hd hg.wf hxo hyo (by simp) (by simp) (hg.noTmp 0) hz.2 hz.1 with h | ⟨e, w', h⟩
        · exact Or.inl h
        · obtain ⟨h1, h2, h3, -⟩ :=
            (swap_hazard hd hg.wf hxo hyo (by simp) (by simp) (hg.noTmp 0) hz.2 hz.1).2 e w' h
          refine Or.inr ⟨e, w', h, ⟨h2, fun n => by rw [(h3 (.tmp n) (by simp) (by simp)).1]; exact hg.noTmp n⟩,
            fun z hn => h3 _ (fun he => ?_) (fun he => ?_), h1⟩
          · cases he; simp [Cmd.names] at hn
          · cases he; simp [Cmd.names] at hn
  | _ => cases hz

/-- With assertions on, every program either ends in a good state or stops at a failed assertion in a statement of
finding F1. -/
theorem run_asserted (hs : Sane C) (hd : C.ndebug = false) (cs : List (Cmd V)) (w : World V) (hg : Good C w) :
    (∃ w', run C cs w = some w' ∧ Good C w') ∨ StopsAtBackupRead C cs w := by
  induction cs generalizing w with
  | nil => exact Or.inl ⟨w, rfl, hg⟩
  | cons c cs ih =>
    have next : ∀ w1, (∀ ds, run C (c :: ds) w = run C ds w1) → Good C w1 →
        (∃ w', run C (c :: cs) w = some w' ∧ Good C w') ∨ StopsAtBackupRead C (c :: cs) w := by
      intro w1 h1 hg1
      rcases ih w1 hg1 with ⟨w', h⟩ | ⟨pre, d, post, w', rfl, h2, h3⟩
      · exact Or.inl ⟨w', by rw [h1]; exact h⟩
      · exact Or.inr ⟨c :: pre, d, post, w', rfl, by rw [h1]; exact h2, h3⟩
    cases hv : c.valid C w with
    | false => exact next w (fun ds => by simp [run, hv]) hg
    | true =>
      cases hz : c.readsBackup w with
      | false =>
        rcases wp_elim (wp_step hs hg c hv hz) with ⟨a, w1, hm, hg', _⟩ | ⟨e, w1, hm, hg', _, _⟩
        · exact next w1 (fun ds => by simp [run, hv, hm]) hg'
        · exact next w1 (fun ds => by simp [run, hv, hm]) hg'
      | true =>
        rcases step_hazard hd hg c hv hz with h | ⟨e, w1, hm, hg', -⟩
        · exact Or.inr ⟨[], c, cs, w, rfl, rfl, hg, hv, hz, h⟩
        · exact next w1 (fun ds => by simp [run, hv, hm]) hg'

end

end BVariant
