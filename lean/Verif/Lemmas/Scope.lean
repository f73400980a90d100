/-
Three statements that lead outside the never-empty guarantee, wherever the bounded types allow it.
-/
import Verif.Lemmas.HazardStep

namespace BVariant

section
variable {V : Type} {C : Cfg V} {w : World V} {k kr : TyIx}

theorem run_append (cs ds : List (Cmd V)) (w : World V) : run C (cs ++ ds) w = (run C cs w).bind (run C ds) := by
  induction cs generalizing w with
  | nil => rfl
  | cons c cs ih =>
    simp only [List.cons_append, run]
    split
    · split
      · exact ih _
      · exact ih _
      · rfl
    · exact ih _

/-- Variable 0 holds an object of type `k`, variable 1 one of type `kr`. -/
structure Prepared (C : Cfg V) (w : World V) (k kr : TyIx) : Prop where
  v0 : w.vars (.user 0) = some ⟨(k : Int), .obj 1⟩
  v1 : w.vars (.user 1) = some ⟨(kr : Int), .obj 3⟩
  o0 : ∃ v, w.objs 1 = some (k, v)
  o1 : ∃ v, w.objs 3 = some (kr, v)
  next : w.next = 4
  tick : w.tick = 4
  allocs : w.allocs = 0
  flat : ∀ i, w.sub i = []
  rest : w.vars (.user 2) = none

theorem prepared (hk : k < C.n) (hkr : kr < C.n) (ht : ∀ t, t < 4 → C.throws t = false) (v : V) :
    ∃ w, run C [.constructC 0 k v, .constructC 1 kr v] (World.init V) = some w ∧ Prepared C w k kr ∧
      w.objs 1 = some (k, C.ops.move k v) ∧ w.objs 3 = some (kr, C.ops.move kr v) := by
  have h0 := ht 0 (by omega)
  have h1 := ht 1 (by omega)
  have h2 := ht 2 (by omega)
  have h3 := ht 3 (by omega)
  suffices h : (run C [.constructC 0 k v, .constructC 1 kr v] (World.init V)).elim False (fun w => Prepared C w k kr ∧
      w.objs 1 = some (k, C.ops.move k v) ∧ w.objs 3 = some (kr, C.ops.move kr v)) by
    cases hr : run C [.constructC 0 k v, .constructC 1 kr v] (World.init V) with
    | none => rw [hr] at h; exact h.elim
    | some w => rw [hr] at h; exact ⟨w, rfl, h⟩
  simp only [run, Cmd.valid, Cmd.code, World.init, hk, hkr, convertConstruct, initializeFrom, bind, M.bind, pure, M.pure, mayThrow, newObj,
    M.withLocal, moveCtor, readAs, M.modify, setVal, destroyObj, beginVar, indicateWhich, upd, h0, h1, Bool.and_false, decide_true,
    Bool.and_true, Option.isNone_none, if_true, Bool.false_eq_true, if_false, Nat.zero_add, Option.elim]
  simp [h2, h3, upd]
  constructor <;> simp [upd]

/-- Variable 0 has been put into a heap backup of type `k`, variable 1 holds an object of type `kr`. -/
structure BackedUp (C : Cfg V) (w : World V) (k kr : TyIx) : Prop where
  v0 : w.vars (.user 0) = some ⟨-((k : Int) + 1), .holder k (some 4)⟩
  v1 : w.vars (.user 1) = some ⟨(kr : Int), .obj 3⟩
  o0 : ∃ v, w.objs 4 = some (k, v)
  o1 : ∃ v, w.objs 3 = some (kr, v)
  next : w.next = 5
  tick : w.tick = 7
  allocs : w.allocs = 1
  flat : ∀ i, w.sub i = []
  rest : w.vars (.user 2) = none

theorem Prepared.backup (h : Prepared C w k kr) (hk : k < C.n) (hkr : kr < C.n) (hne : k ≠ kr) (hb : C.mayBackup kr)
    (hm : (C.tr k).nothrowMove = false) (h4 : C.throws 4 = false) (h5 : C.throws 5 = false) (h6 : C.throws 6 = true) :
    ∃ e w', Cmd.code C (.copyAssign 0 1) w = .exc e w' ∧ BackedUp C w' k kr := by
  obtain ⟨v0, v1, ⟨a, o0⟩, ⟨b, o1⟩, hn, ht, hal, hfl, hre⟩ := h
  obtain ⟨hb1, hb2, hb3⟩ := hb
  have hw : ¬ (k : Int) = kr := by omega
  suffices hh : wp (Cmd.code C (.copyAssign 0 1)) (fun _ _ => False) (fun _ w' => BackedUp C w' k kr) w by
    rcases wp_elim hh with ⟨_, _, _, hf⟩ | ⟨e, w', h1, h2⟩
    · exact hf.elim
    · exact ⟨e, w', h1, h2⟩
  simp only [Cmd.code, BVariant.copyAssign, wp_bind, wpx_getVar, v0, v1, hw, if_false, whichOf_natCast]
  rw [wp_iav_inPlace C v1 hkr o1]
  simp only [assigner, assignerVisit, RhsContent.nothrowCopy, RhsContent.nothrowMove, hb1, hb2, hb3, assignImpl, Bool.false_eq_true, if_false,
    Bool.or_self]
  rw [wp_iav_inPlace C v0 hk o0]
  simp only [backupAssigner, hm, Bool.false_eq_true, if_false, wp_bind, wpx_heapCopy, o0, if_true, ht, hn, h4, h5, Nat.reduceAdd, and_false,
    wpx_destroyObj, hfl, implies_true, upd_same, wp_onExc, copyRhsInto, copyRhs, wpx_copyCtor, o1, wp_pure, wpx_setSlot, wpx_setWhich, v0,
    hb3, h6, wpx_which, whichOf_natCast, indicateBackupWhich, upd_upd_same, upd_ne _ _ (show (3 : ObjId) ≠ 1 by decide),
    upd_ne _ _ (show (3 : ObjId) ≠ 4 by decide), upd_ne _ _ (show (1 : ObjId) ≠ 4 by decide), and_self]
  constructor <;> simp [upd, v1, o1, hal, hfl, hre]

/-- F2: what is in such a backup cannot be visited if its type is nothrow copy constructible. -/
theorem BackedUp.not_nonEmpty (h : BackedUp C w k kr) (hk : k < C.n) (hc : (C.tr k).nothrowCopy = true) :
    ¬ ∃ id, ∀ f : TyIx → ObjId → M V Unit, applyVisitor C (.user 0) f w = f k id w := by
  rintro ⟨id, hf⟩
  have h1 := hf fun _ _ => pure ()
  simp only [applyVisitor, internalApplyVisitor, bind, M.bind, getVar, h.v0, whichOf_backup] at h1
  rw [visitation_range _ _ _ hk] at h1
  rw [visitationInvoke, if_pos (by simp [neverUsesBackup, hc])] at h1
  simp only [bind, M.bind, castObj, getVar, h.v0, M.fail] at h1
  cases h1

/-- F10: the fallback object is not built. -/
theorem Prepared.fallback (h : Prepared C w k kr) (hk : k < C.n) (hkr : kr < C.n) (hne : k ≠ kr) {fb : TyIx} (hfb : C.fallback = some fb)
    (hnb : ¬ (C.fallbackCtor = .element ∨ (C.tr fb).trivialDefault = true)) (hm : (C.tr kr).nothrowMove = false)
    (hc : (C.tr kr).nothrowCopy = false) (h4 : C.throws 4 = true) :
    ∃ e w', Cmd.code C (.copyAssign 0 1) w = .exc e w' ∧ w'.vars (.user 0) = some ⟨(fb : Int), .raw⟩ := by
  obtain ⟨v0, v1, ⟨a, o0⟩, ⟨b, o1⟩, hn, ht, hal, hfl, hre⟩ := h
  have hw : ¬ (k : Int) = kr := by omega
  suffices hh : wp (Cmd.code C (.copyAssign 0 1)) (fun _ _ => False) (fun _ w' => w'.vars (.user 0) = some ⟨(fb : Int), .raw⟩) w by
    rcases wp_elim hh with ⟨_, _, _, hf⟩ | ⟨e, w', h1, h2⟩
    · exact hf.elim
    · exact ⟨e, w', h1, h2⟩
  simp only [Cmd.code, BVariant.copyAssign, wp_bind, wpx_getVar, v0, v1, hw, if_false, whichOf_natCast]
  rw [wp_iav_inPlace C v1 hkr o1]
  have hf : C.hasFallback = true := by simp [Cfg.hasFallback, hfb]
  simp only [assigner, assignerVisit, RhsContent.nothrowCopy, RhsContent.nothrowMove, hf, hm, hc, assignImpl, Bool.false_eq_true, if_false,
    Bool.or_self, if_true, wp_bind]
  rw [wp_destroyContent ⟨v0, .inPlace _ _ hk, o0⟩ hfl]
  simp only [wp_onExc, copyRhsInto, copyRhs, wp_bind, wpx_copyCtor, upd_ne _ _ (show (3 : ObjId) ≠ 1 by decide), o1, if_true, hc, ht, h4,
    and_self, constructFallback, wp_noexceptIf, hfb, hnb, if_false, wpx_setSlot, wpx_setWhich, upd_same, indicateWhich]

/-- The fallback object is built. -/
theorem Prepared.fallback_built (h : Prepared C w k kr) (hb : BlankOk C) (hk : k < C.n) (hkr : kr < C.n) (hne : k ≠ kr) {fb : TyIx}
    (hfb : C.fallback = some fb) (hbt : C.fallbackCtor = .element ∨ (C.tr fb).trivialDefault = true) (hm : (C.tr kr).nothrowMove = false)
    (hc : (C.tr kr).nothrowCopy = false) (h4 : C.throws 4 = true) :
    ∃ e w', Cmd.code C (.copyAssign 0 1) w = .exc e w' ∧ w'.vars (.user 0) = some ⟨(fb : Int), .obj 4⟩ ∧
      w'.objs 4 = some (fb, C.ops.defaultInit fb) := by
  obtain ⟨v0, v1, ⟨a, o0⟩, ⟨b, o1⟩, hn, ht, hal, hfl, hre⟩ := h
  have hw : ¬ (k : Int) = kr := by omega
  have hnt := (hb.fallback_spec hfb).2
  suffices hh : wp (Cmd.code C (.copyAssign 0 1)) (fun _ _ => False) (fun _ w' => w'.vars (.user 0) = some ⟨(fb : Int), .obj 4⟩ ∧
      w'.objs 4 = some (fb, C.ops.defaultInit fb)) w by
    rcases wp_elim hh with ⟨_, _, _, hf⟩ | ⟨e, w', h1, h2⟩
    · exact hf.elim
    · exact ⟨e, w', h1, h2⟩
  simp only [Cmd.code, BVariant.copyAssign, wp_bind, wpx_getVar, v0, v1, hw, if_false, whichOf_natCast]
  rw [wp_iav_inPlace C v1 hkr o1]
  have hf : C.hasFallback = true := by simp [Cfg.hasFallback, hfb]
  simp only [assigner, assignerVisit, RhsContent.nothrowCopy, RhsContent.nothrowMove, hf, hm, hc, assignImpl, Bool.false_eq_true, if_false,
    Bool.or_self, if_true, wp_bind]
  rw [wp_destroyContent ⟨v0, .inPlace _ _ hk, o0⟩ hfl]
  simp only [wp_onExc, copyRhsInto, copyRhs, wp_bind, wpx_copyCtor, upd_ne _ _ (show (3 : ObjId) ≠ 1 by decide), o1, if_true, hc, ht, h4,
    and_self, constructFallback, wp_noexceptIf, hfb, hbt, wp_defaultCtor, hnt, Bool.true_eq_false, false_and, if_false, wpx_setSlot, wpx_setWhich,
    upd_same, indicateWhich, hn]

/-- F6: the copy of the old content, or of the new one, throws. -/
theorem Prepared.copy_throws (h : Prepared C w k kr) (hk : k < C.n) (hkr : kr < C.n) (hne : k ≠ kr) (hb : C.mayBackup kr)
    (hm : (C.tr k).nothrowMove = false) (hc : (C.tr k).nothrowCopy = false) (h4 : C.throws 4 = false) (h5 : C.throws 5 = true) :
    ∃ e w', Cmd.code C (.copyAssign 0 1) w = .exc e w' ∧ e.kind = .copyCtor k := by
  obtain ⟨v0, v1, ⟨a, o0⟩, ⟨b, o1⟩, hn, ht, hal, hfl, hre⟩ := h
  obtain ⟨hb1, hb2, hb3⟩ := hb
  have hw : ¬ (k : Int) = kr := by omega
  suffices hh : wp (Cmd.code C (.copyAssign 0 1)) (fun _ _ => False) (fun e w' => e.kind = .copyCtor k) w by
    rcases wp_elim hh with ⟨_, _, _, hf⟩ | ⟨e, w', h1, h2⟩
    · exact hf.elim
    · exact ⟨e, w', h1, h2⟩
  simp only [Cmd.code, BVariant.copyAssign, wp_bind, wpx_getVar, v0, v1, hw, if_false, whichOf_natCast]
  rw [wp_iav_inPlace C v1 hkr o1]
  simp only [assigner, assignerVisit, RhsContent.nothrowCopy, RhsContent.nothrowMove, hb1, hb2, hb3, assignImpl, Bool.false_eq_true, if_false,
    Bool.or_self]
  rw [wp_iav_inPlace C v0 hk o0]
  simp only [backupAssigner, hm, hc, Bool.false_eq_true, if_false, wp_bind, wpx_heapCopy, o0, if_true, ht, h4, h5, Nat.reduceAdd, and_self]

theorem Prepared.move_throws (h : Prepared C w k kr) (hk : k < C.n) (hkr : kr < C.n) (hne : k ≠ kr) (hb : C.mayBackup kr)
    (hm : (C.tr k).nothrowMove = true) (h5 : C.throws 5 = true) :
    ∃ e w', Cmd.code C (.moveAssign 0 1) w = .exc e w' ∧ e.kind = .copyCtor kr := by
  obtain ⟨v0, v1, ⟨a, o0⟩, ⟨b, o1⟩, hn, ht, hal, hfl, hre⟩ := h
  obtain ⟨hb1, hb2, hb3⟩ := hb
  have hw : ¬ (k : Int) = kr := by omega
  have hnx : moveNoexceptConstructible C = false := by
    rw [moveNoexceptConstructible]
    apply Bool.eq_false_iff.mpr
    intro hall
    rw [List.all_eq_true] at hall
    have hlt : kr < C.types.length := hkr
    have := hall (C.types[kr]) (List.getElem_mem hlt)
    simp only [Cfg.tr, List.getD_eq_getElem?_getD, List.getElem?_eq_getElem hlt, Option.getD_some] at hb2
    rw [hb2] at this; cases this
  suffices hh : wp (Cmd.code C (.moveAssign 0 1)) (fun _ _ => False) (fun e w' => e.kind = .copyCtor kr) w by
    rcases wp_elim hh with ⟨_, _, _, hf⟩ | ⟨e, w', h1, h2⟩
    · exact hf.elim
    · exact ⟨e, w', h1, h2⟩
  simp only [Cmd.code, BVariant.moveAssign, variantMoveAssign, wp_noexceptIf, hnx, Bool.false_and, true_and, wp_bind, wpx_getVar, v0, v1, hw,
    if_false, whichOf_natCast]
  rw [wp_iav_inPlace C v1 hkr o1]
  simp only [moveAssigner, moveAssignerVisit, moveAssignImpl, RhsContent.nothrowCopy, RhsContent.nothrowMove, hb1, hb2, hb3, assignImpl,
    Bool.false_eq_true, if_false, Bool.or_self]
  rw [wp_iav_inPlace C v0 hk o0]
  simp only [backupAssigner, hm, if_true, wp_bind, wpx_moveCtor, o0, Bool.true_eq_false, false_and, if_false, wp_withLocal, wpx_destroyObj, hfl,
    upd_same, wp_onExc, copyRhsInto, copyRhs, wpx_copyCtor, ht, h5, hn, hb3, o1, and_self, wpx_setSlot, v0,
    implies_true, upd_ne _ _ (show (3 : ObjId) ≠ 1 by decide), upd_ne _ _ (show (3 : ObjId) ≠ 4 by decide),
    upd_ne _ _ (show (1 : ObjId) ≠ 4 by decide), upd_ne _ _ (show (4 : ObjId) ≠ 1 by decide),
    upd_ne _ _ (show (4 : ObjId) ≠ 5 by decide), Nat.reduceAdd]

/-- F1 with assertions off: the target of an assignment from such a backup. -/
theorem BackedUp.source (h : BackedUp C w k kr) (hk : k < C.n) (hkr : kr < C.n) (hbk : C.mayBackup k) (hb : C.mayBackup kr)
    (hd : C.ndebug = true) (h7 : C.throws 7 = false) (h8 : C.throws 8 = false) :
    ∃ w', Cmd.code C (.copyAssign 1 0) w = .ok () w' ∧ w'.vars (.user 1) = some ⟨(k : Int), .holder k none⟩ := by
  obtain ⟨v0, v1, ⟨a, o0⟩, ⟨b, o1⟩, hn, ht, hal, hfl, hre⟩ := h
  have hw : ¬ (kr : Int) = -((k : Int) + 1) := by omega
  suffices hh : wp (Cmd.code C (.copyAssign 1 0)) (fun _ w' => w'.vars (.user 1) = some ⟨(k : Int), .holder k none⟩) (fun _ _ => False) w by
    rcases wp_elim hh with ⟨_, w', h1, h2⟩ | ⟨e, w', h1, h2⟩
    · exact ⟨w', h1, h2⟩
    · exact h2.elim
  simp only [Cmd.code, BVariant.copyAssign, wp_bind, wpx_getVar, v0, v1, hw, if_false, whichOf_backup]
  rw [wp_iav_backup C v0 hk hbk]
  simp only [assigner, assignerVisit, RhsContent.nothrowCopy, RhsContent.nothrowMove, hb.1, assignImpl, Bool.false_eq_true, if_false,
    Bool.or_self]
  rw [wp_iav_inPlace C v1 hkr o1]
  simp only [backupAssigner, hb.2.1, Bool.false_eq_true, if_false, wp_bind, wpx_heapCopy, o1, if_true, ht, hn, h7, h8, Nat.reduceAdd, and_false,
    wpx_destroyObj, hfl, implies_true, upd_same, wp_onExc, copyRhsInto, copyRhs, holderCopyCtor, hd, wp_pure, wpx_setSlot, wpx_setWhich, v1,
    indicateWhich, upd_upd_same, upd_ne _ _ (show (3 : ObjId) ≠ 5 by decide), upd_ne _ _ (show (5 : ObjId) ≠ 3 by decide)]

/-- F1 with assertions on. -/
theorem BackedUp.source_asserted (h : BackedUp C w k kr) (hk : k < C.n) (hkr : kr < C.n) (hbk : C.mayBackup k) (hb : C.mayBackup kr)
    (hd : C.ndebug = false) (h7 : C.throws 7 = false) (h8 : C.throws 8 = false) :
    ∃ f, Cmd.code C (.copyAssign 1 0) w = .fault f := by
  obtain ⟨v0, v1, ⟨a, o0⟩, ⟨b, o1⟩, hn, ht, hal, hfl, hre⟩ := h
  have hw : ¬ (kr : Int) = -((k : Int) + 1) := by omega
  suffices hh : ¬ wp (Cmd.code C (.copyAssign 1 0)) (fun _ _ => True) (fun _ _ => True) w by
    unfold wp at hh
    cases hc : Cmd.code C (.copyAssign 1 0) w with
    | ok => rw [hc] at hh; exact absurd trivial hh
    | exc => rw [hc] at hh; exact absurd trivial hh
    | fault f => exact ⟨f, rfl⟩
  simp only [Cmd.code, BVariant.copyAssign, wp_bind, wpx_getVar, v0, v1, hw, if_false, whichOf_backup]
  rw [wp_iav_backup C v0 hk hbk]
  simp only [assigner, assignerVisit, RhsContent.nothrowCopy, RhsContent.nothrowMove, hb.1, assignImpl, Bool.false_eq_true, if_false,
    Bool.or_self]
  rw [wp_iav_inPlace C v1 hkr o1]
  simp only [backupAssigner, hb.2.1, Bool.false_eq_true, if_false, wp_bind, wpx_heapCopy, o1, if_true, ht, hn, h7, h8, Nat.reduceAdd, and_false,
    wpx_destroyObj, hfl, implies_true, wp_onExc, copyRhsInto, copyRhs, holderCopyCtor, hd, wp_fail, not_false_eq_true,
    upd_ne _ _ (show (3 : ObjId) ≠ 5 by decide)]

theorem avoids_append {pre ds : List (Cmd V)} {w₀ : World V} (hp : ∀ c ∈ pre, ∀ w : World V, c.readsBackup w = false)
    (hr : run C pre w₀ = some w) : avoidsBackupReads C (pre ++ ds) w₀ = avoidsBackupReads C ds w := by
  induction pre generalizing w₀ with
  | nil => cases hr; rfl
  | cons c cs ih =>
    have hp' := fun c hc => hp c (List.mem_cons_of_mem _ hc)
    simp only [List.cons_append, run, avoidsBackupReads, hp c List.mem_cons_self, Bool.not_false, Bool.true_and] at hr ⊢
    split
    · rename_i hv
      rw [if_pos hv] at hr
      cases hc : c.code C w₀ with
      | ok u w' => rw [hc] at hr; exact ih hp' hr
      | exc e w' => rw [hc] at hr; exact ih hp' hr
      | fault f => rw [hc] at hr; cases hr
    · rename_i hv
      rw [if_neg hv] at hr
      exact ih hp' hr

end

end BVariant
