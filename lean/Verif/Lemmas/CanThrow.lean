/-
Executions in which a given operation of a given element type throws.
-/
import Verif.Lemmas.Scope

namespace BVariant

section
variable {V : Type} {C : Cfg V} {w : World V} {k kr : TyIx} {l r : VarId} {i j n t : Nat}

/-- `l` and `r` hold objects `i` and `j` of types `k` and `kr` in place. -/
structure At (w : World V) (l r : VarId) (k kr : TyIx) (i j n t : Nat) : Prop where
  vl : w.vars l = some ⟨(k : Int), .obj i⟩
  vr : w.vars r = some ⟨(kr : Int), .obj j⟩
  ol : ∃ v, w.objs i = some (k, v)
  or : ∃ v, w.objs j = some (kr, v)
  lr : l ≠ r
  ij : i ≠ j
  iN : i < n
  jN : j < n
  next : w.next = n
  tick : w.tick = t
  flat : ∀ i, w.sub i = []

/-- Nothing but `l`, its object `i` and new objects has changed. -/
structure ApartFrom (w w' : World V) (l : VarId) (i j n : Nat) : Prop where
  vars : ∀ z, z ≠ l → w'.vars z = w.vars z
  objs : ∀ m, m < n → m ≠ i → m ≠ j → w'.objs m = w.objs m
  sub : w'.sub = w.sub

theorem At.backupMoved (h : At w l r k kr i j n t) (hk : k < C.n) (hc : (C.tr kr).nothrowCopy = false) (hm : (C.tr k).nothrowMove = true)
    (h1 : C.throws (t + 1) = true) :
    wp (assignImpl C l kr (.obj kr j) false false false) (fun _ _ => False)
      (fun e w' => e.kind = .copyCtor kr ∧ ApartFrom w w' l i i n) w := by
  obtain ⟨vl, vr, ⟨a, ol⟩, ⟨b, or⟩, lr, ij, iN, jN, hn, ht, hfl⟩ := h
  simp only [assignImpl, Bool.false_eq_true, if_false]
  rw [wp_iav_inPlace C vl hk ol]
  have e1 : n ≠ i := by omega
  have e2 : n ≠ j := by omega
  have e3 : n + 1 ≠ i := by omega
  have e4 : n ≠ n + 1 := by omega
  simp only [backupAssigner, hm, if_true, wp_bind, wpx_moveCtor, ol, Bool.true_eq_false, false_and, if_false, wp_withLocal, wpx_destroyObj, hfl,
    upd_same, wp_onExc, copyRhsInto, copyRhs, wpx_copyCtor, ht, h1, hn, hc, or, wpx_setSlot, vl, implies_true,
    upd_ne _ _ ij.symm, upd_ne _ _ e1, upd_ne _ _ e1.symm, upd_ne _ _ e2.symm, upd_ne _ _ e4, true_and]
  refine ⟨fun z hz => upd_ne _ _ hz, fun m hm h1 _ => ?_, rfl⟩
  have : m ≠ n := by omega
  have : m ≠ n + 1 := by omega
  simp [upd, *]

theorem At.backupHeap0 (h : At w l r k kr i j n t) (hk : k < C.n) (hm : (C.tr k).nothrowMove = false) (h0 : C.throws t = true) :
    wp (assignImpl C l kr (.obj kr j) false false false) (fun _ _ => False) (fun e w' => e.kind = .badAlloc ∧ ApartFrom w w' l i i n) w := by
  obtain ⟨vl, vr, ⟨a, ol⟩, ⟨b, or⟩, lr, ij, iN, jN, hn, ht, hfl⟩ := h
  simp only [assignImpl, Bool.false_eq_true, if_false]
  rw [wp_iav_inPlace C vl hk ol]
  simp only [backupAssigner, hm, Bool.false_eq_true, if_false, wp_bind, wpx_heapCopy, ht, h0, if_true, true_and]
  exact ⟨fun _ _ => rfl, fun _ _ _ _ => rfl, rfl⟩

theorem At.backupHeap1 (h : At w l r k kr i j n t) (hk : k < C.n) (hm : (C.tr k).nothrowMove = false) (hc : (C.tr k).nothrowCopy = false)
    (h0 : C.throws t = false) (h1 : C.throws (t + 1) = true) :
    wp (assignImpl C l kr (.obj kr j) false false false) (fun _ _ => False) (fun e w' => e.kind = .copyCtor k ∧ ApartFrom w w' l i i n) w := by
  obtain ⟨vl, vr, ⟨a, ol⟩, ⟨b, or⟩, lr, ij, iN, jN, hn, ht, hfl⟩ := h
  simp only [assignImpl, Bool.false_eq_true, if_false]
  rw [wp_iav_inPlace C vl hk ol]
  simp only [backupAssigner, hm, hc, Bool.false_eq_true, if_false, wp_bind, wpx_heapCopy, ol, if_true, ht, h0, h1, and_self, true_and]
  exact ⟨fun _ _ => rfl, fun _ _ _ _ => rfl, rfl⟩

theorem At.backupHeap2 (h : At w l r k kr i j n t) (hk : k < C.n) (hm : (C.tr k).nothrowMove = false) (hc : (C.tr kr).nothrowCopy = false)
    (h0 : C.throws t = false) (h1 : C.throws (t + 1) = false) (h2 : C.throws (t + 2) = true) :
    wp (assignImpl C l kr (.obj kr j) false false false) (fun _ _ => False) (fun e w' => e.kind = .copyCtor kr ∧ ApartFrom w w' l i i n) w := by
  obtain ⟨vl, vr, ⟨a, ol⟩, ⟨b, or⟩, lr, ij, iN, jN, hn, ht, hfl⟩ := h
  simp only [assignImpl, Bool.false_eq_true, if_false]
  rw [wp_iav_inPlace C vl hk ol]
  have e1 : i ≠ n := by omega
  have e2 : j ≠ n := by omega
  simp only [backupAssigner, hm, Bool.false_eq_true, if_false, wp_bind, wpx_heapCopy, ol, if_true, ht, hn, h0, h1, and_false,
    wpx_destroyObj, hfl, implies_true, upd_same, wp_onExc, copyRhsInto, copyRhs, wpx_copyCtor, or, wpx_setSlot, wpx_setWhich, vl,
    hc, h2, wpx_which, upd_upd_same, upd_ne _ _ ij.symm, upd_ne _ _ e1, upd_ne _ _ e2, true_and]
  refine ⟨fun z hz => upd_ne _ _ hz, fun m hm h1 _ => ?_, rfl⟩
  have : m ≠ n := by omega
  simp [upd, *]

theorem ApartFrom.weaken {w' : World V} (h : ApartFrom w w' l i i n) : ApartFrom w w' l i j n := ⟨h.vars, fun m hm h1 _ => h.objs m hm h1 h1, h.sub⟩

/-- A failed attempt followed by the construction of the fallback object. -/
theorem wp_fallback_apart {w w' : World V} {s : VarSt} {P : Exc → Prop} (hb : BlankOk C) (hf : C.hasFallback = true)
    (hv : w'.vars l = some s) (ha : ApartFrom w w' l i j n) (hn : n ≤ w'.next) :
    wp (constructFallback C l) (fun _ w'' => True ∧ ApartFrom w w'' l i j n) (fun e w'' => P e ∧ ApartFrom w w'' l i j n) w' := by
  obtain ⟨fb, hfb⟩ := Option.isSome_iff_exists.mp hf
  have hnt := (hb.fallback_spec hfb).2
  simp only [constructFallback, wp_noexceptIf, hfb]
  split
  · simp only [wp_bind, wp_defaultCtor, hnt, Bool.true_eq_false, false_and, if_false, wpx_setSlot, wpx_setWhich, hv, upd_same, upd_upd_same]
    refine ⟨trivial, fun z hz => (upd_ne _ _ hz).trans (ha.vars z hz), fun m hm h1 h2 => ?_, ha.sub⟩
    exact (upd_ne _ _ (by omega)).trans (ha.objs m hm h1 h2)
  · simp only [wp_bind, wpx_setSlot, wpx_setWhich, hv, upd_same, upd_upd_same]
    exact ⟨trivial, fun z hz => (upd_ne _ _ hz).trans (ha.vars z hz), ha.objs, ha.sub⟩

theorem moveNoexceptConstructible_false (hkr : kr < C.n) (hm : (C.tr kr).nothrowMove = false) : moveNoexceptConstructible C = false := by
  rw [moveNoexceptConstructible]
  apply Bool.eq_false_iff.mpr
  intro hall
  have := tr_of_all (p := (·.nothrowMove)) hall hkr
  simp [hm] at this

theorem moveNoexceptAssignable_false (hkr : kr < C.n) (hm : (C.tr kr).nothrowMoveAssign = false) : moveNoexceptAssignable C = false := by
  rw [moveNoexceptAssignable]
  apply Bool.eq_false_iff.mpr
  intro hall
  have := tr_of_all (p := (·.nothrowMoveAssign)) hall hkr
  simp [hm] at this

theorem At.fallbackMove (h : At w l r k kr i j n t) (hb : BlankOk C) (hk : k < C.n) (hkr : kr < C.n) (hne : k ≠ kr) (hf : C.hasFallback = true)
    (hm : (C.tr kr).nothrowMove = false) (hc : (C.tr kr).nothrowCopy = false) (h0 : C.throws t = true) :
    wp (moveAssign C l r) (fun _ _ => False) (fun e w' => e.kind = .moveCtor kr ∧ ApartFrom w w' l i j n) w := by
  obtain ⟨vl, vr, ⟨a, ol⟩, ⟨b, or⟩, lr, ij, iN, jN, hn, ht, hfl⟩ := h
  have hw : ¬ (k : Int) = kr := by omega
  simp only [moveAssign, variantMoveAssign, wp_noexceptIf, moveNoexceptConstructible_false hkr hm, Bool.false_and, true_and, wp_bind, wpx_getVar,
    vl, vr, hw, if_false, whichOf_natCast]
  rw [wp_iav_inPlace C vr hkr or]
  simp only [moveAssigner, moveAssignerVisit, moveAssignImpl, RhsContent.nothrowCopy, RhsContent.nothrowMove, hm, hc, hf, Bool.or_self,
    Bool.false_eq_true, if_false, if_true, wp_bind]
  rw [wp_destroyContent ⟨vl, .inPlace _ _ hk, ol⟩ hfl]
  simp only [wp_onExc, moveRhsInto, wp_bind, wpx_moveCtor, upd_ne _ _ ij.symm, or, if_true, hm, ht, h0, and_self]
  refine wp_fallback_apart (s := ⟨(k : Int), .raw⟩) hb hf (by exact upd_same _ _ _) ?_ (by exact Nat.le_of_eq hn.symm)
  refine ⟨fun z hz => upd_ne _ _ hz, fun m hm h1 h2 => ?_, rfl⟩
  simp [upd, *]

theorem At.fallbackCopy (h : At w l r k kr i j n t) (hb : BlankOk C) (hk : k < C.n) (hkr : kr < C.n) (hne : k ≠ kr) (hf : C.hasFallback = true)
    (hm : (C.tr kr).nothrowMove = false) (hc : (C.tr kr).nothrowCopy = false) (h0 : C.throws t = true) :
    wp (copyAssign C l r) (fun _ _ => False) (fun e w' => e.kind = .copyCtor kr ∧ ApartFrom w w' l i j n) w := by
  obtain ⟨vl, vr, ⟨a, ol⟩, ⟨b, or⟩, lr, ij, iN, jN, hn, ht, hfl⟩ := h
  have hw : ¬ (k : Int) = kr := by omega
  simp only [copyAssign, wp_bind, wpx_getVar, vl, vr, hw, if_false, whichOf_natCast]
  rw [wp_iav_inPlace C vr hkr or]
  simp only [assigner, assignerVisit, assignImpl, RhsContent.nothrowCopy, RhsContent.nothrowMove, hm, hc, hf, Bool.or_self,
    Bool.false_eq_true, if_false, if_true, wp_bind]
  rw [wp_destroyContent ⟨vl, .inPlace _ _ hk, ol⟩ hfl]
  simp only [wp_onExc, copyRhsInto, copyRhs, wp_bind, wpx_copyCtor, upd_ne _ _ ij.symm, or, if_true, hc, ht, h0, and_self]
  refine wp_fallback_apart (s := ⟨(k : Int), .raw⟩) hb hf (by exact upd_same _ _ _) ?_ (by exact Nat.le_of_eq hn.symm)
  refine ⟨fun z hz => upd_ne _ _ hz, fun m hm h1 h2 => ?_, rfl⟩
  simp [upd, *]

theorem At.tempCopy (h : At w l r k kr i j n t) (hkr : kr < C.n) (hne : k ≠ kr) (hm : (C.tr kr).nothrowMove = true)
    (hc : (C.tr kr).nothrowCopy = false) (h0 : C.throws t = true) :
    wp (copyAssign C l r) (fun _ _ => False) (fun e _ => e.kind = .copyCtor kr) w := by
  obtain ⟨vl, vr, ⟨a, ol⟩, ⟨b, or⟩, lr, ij, iN, jN, hn, ht, hfl⟩ := h
  have hw : ¬ (k : Int) = kr := by omega
  simp only [copyAssign, wp_bind, wpx_getVar, vl, vr, hw, if_false, whichOf_natCast]
  rw [wp_iav_inPlace C vr hkr or]
  simp only [assigner, assignerVisit, assignImpl, RhsContent.nothrowCopy, RhsContent.nothrowMove, hm, hc, Bool.or_true, Bool.false_or,
    Bool.false_eq_true, if_false, if_true, wp_bind, wpx_copyCtor, or, ht, h0, and_self]

/-- Without a fallback type and any nothrow constructor, both assignments copy with a backup. -/
theorem At.copyIsBackup (h : At w l r k kr i j n t) (hkr : kr < C.n) (hne : k ≠ kr) (hb : C.mayBackup kr) {Q : Unit → World V → Prop}
    {E : Exc → World V → Prop} : wp (copyAssign C l r) Q E w = wp (assignImpl C l kr (.obj kr j) false false false) Q E w := by
  obtain ⟨vl, vr, ⟨a, ol⟩, ⟨b, or⟩, lr, ij, iN, jN, hn, ht, hfl⟩ := h
  obtain ⟨hb1, hb2, hb3⟩ := hb
  have hw : ¬ (k : Int) = kr := by omega
  simp only [copyAssign, wp_bind, wpx_getVar, vl, vr, hw, if_false, whichOf_natCast]
  rw [wp_iav_inPlace C vr hkr or]
  simp only [assigner, assignerVisit, RhsContent.nothrowCopy, RhsContent.nothrowMove, hb1, hb2, hb3, Bool.or_self]

theorem At.moveIsBackup (h : At w l r k kr i j n t) (hkr : kr < C.n) (hne : k ≠ kr) (hb : C.mayBackup kr) {Q : Unit → World V → Prop}
    {E : Exc → World V → Prop} : wp (moveAssign C l r) Q E w = wp (assignImpl C l kr (.obj kr j) false false false) Q E w := by
  obtain ⟨vl, vr, ⟨a, ol⟩, ⟨b, or⟩, lr, ij, iN, jN, hn, ht, hfl⟩ := h
  obtain ⟨hb1, hb2, hb3⟩ := hb
  have hw : ¬ (k : Int) = kr := by omega
  simp only [moveAssign, variantMoveAssign, wp_noexceptIf, moveNoexceptConstructible_false hkr hb2, Bool.false_and, true_and, wp_bind, wpx_getVar,
    vl, vr, hw, if_false, whichOf_natCast]
  rw [wp_iav_inPlace C vr hkr or]
  simp only [moveAssigner, moveAssignerVisit, moveAssignImpl, RhsContent.nothrowCopy, RhsContent.nothrowMove, hb1, hb2, hb3, Bool.or_self,
    Bool.false_eq_true, if_false]

/-- A move assignment by a nothrow move constructor. -/
theorem At.moved (h : At w l r k kr i j n t) (hk : k < C.n) (hkr : kr < C.n) (hne : k ≠ kr) (hm : (C.tr kr).nothrowMove = true)
    {Q : Unit → World V → Prop} {E : Exc → World V → Prop} :
    (∀ w', w'.vars = upd w.vars l (some ⟨(kr : Int), .obj n⟩) →
      (∃ v a, w'.objs = upd (upd (upd w.objs i none) j (some (kr, v))) n (some (kr, a))) →
      w'.next = n + 1 → w'.tick = t + 1 → w'.sub = w.sub → Q () w') → wp (moveAssign C l r) Q E w := by
  intro hq
  obtain ⟨vl, vr, ⟨a, ol⟩, ⟨b, or⟩, lr, ij, iN, jN, hn, ht, hfl⟩ := h
  have hw : ¬ (k : Int) = kr := by omega
  simp only [moveAssign, variantMoveAssign, wp_noexceptIf, wp_bind, wpx_getVar, vl, vr, hw, if_false, whichOf_natCast]
  rw [wp_iav_inPlace C vr hkr or]
  simp only [moveAssigner, moveAssignerVisit, moveAssignImpl, RhsContent.nothrowCopy, RhsContent.nothrowMove, hm, Bool.true_or, if_true,
    wp_noexceptIf, wp_bind]
  rw [wp_destroyContent ⟨vl, .inPlace _ _ hk, ol⟩ hfl]
  simp only [moveRhsInto, wp_bind, wpx_moveCtor, upd_ne _ _ ij.symm, or, if_true, hm, Bool.true_eq_false, false_and, if_false, wpx_setSlot,
    wpx_setWhich, upd_same, upd_upd_same, indicateWhich]
  exact hq _ (by rw [hn]) ⟨_, _, by rw [hn]⟩ (by simp [hn]) (by simp [ht]) rfl

/-! ### Swap -/

/-- What `swap` of contents of different types does. -/
theorem At.swap (h : At w l r k kr i j n t) (hkr : kr < C.n) (hne : k ≠ kr) (hr : r ≠ .tmp 0) (hm : ¬ ((C.tr kr).nothrowMove = false ∧ C.throws t = true))
    (hl : l ≠ .tmp 0) {P : ExcKind → Prop}
    (hs : ∀ w', At w' r l kr k j i (n + 1) (t + 1) → At w' r (.tmp 0) kr kr j n (n + 1) (t + 1) →
      wp (do moveAssign C r l; moveAssign C l (.tmp 0)) (fun _ _ => False)
        (fun e w'' => P e.kind ∧ w''.vars (.tmp 0) = w'.vars (.tmp 0) ∧ (∃ v, w''.objs n = some (kr, v)) ∧ w''.sub = w'.sub) w') :
    wp (BVariant.swap C l r) (fun _ _ => False) (fun e _ => P e.kind) w := by
  obtain ⟨vl, vr, ⟨a, ol⟩, ⟨b, or⟩, lr, ij, iN, jN, hn, ht, hfl⟩ := h
  have hw : ¬ (k : Int) = kr := by omega
  have e1 : j ≠ n := by omega
  have e2 : i ≠ n := by omega
  simp only [BVariant.swap, wp_bind, wpx_which, vl, vr, whichOf_natCast, hw, if_false, moveConstruct, wp_noexceptIf]
  rw [wp_iav_moveInto (C := C) ⟨vr, .inPlace _ _ hkr, or⟩]
  simp only [wpx_moveCtor, or, if_true, ht, hm, if_false, vr, wp_beginVar, whichOf_natCast, indicateWhich, wp_withLocal, hn]
  generalize hw' : ({ w with objs := _, next := _, vars := _, tick := _ } : World V) = w'
  have hv : w'.vars = upd w.vars (.tmp 0) (some ⟨(kr : Int), .obj n⟩) := by rw [← hw']
  have ho : w'.objs = upd (upd w.objs j (some (kr, C.ops.movedFrom kr b))) n (some (kr, C.ops.move kr b)) := by rw [← hw']
  have hnx : w'.next = n + 1 := by rw [← hw']
  have htk : w'.tick = t + 1 := by rw [← hw']
  have hsb : w'.sub = w.sub := by rw [← hw']
  have vl' : w'.vars l = some ⟨(k : Int), .obj i⟩ := by rw [hv, upd_ne _ _ hl]; exact vl
  have vr' : w'.vars r = some ⟨(kr : Int), .obj j⟩ := by rw [hv, upd_ne _ _ hr]; exact vr
  have ol' : w'.objs i = some (k, a) := by rw [ho, upd_ne _ _ e2, upd_ne _ _ ij]; exact ol
  have or' : w'.objs j = some (kr, C.ops.movedFrom kr b) := by rw [ho, upd_ne _ _ e1, upd_same]
  have ot' : w'.objs n = some (kr, C.ops.move kr b) := by rw [ho, upd_same]
  have vt' : w'.vars (.tmp 0) = some ⟨(kr : Int), .obj n⟩ := by rw [hv, upd_same]
  have key := hs w' ⟨vr', vl', ⟨_, or'⟩, ⟨_, ol'⟩, lr.symm, ij.symm, by omega, by omega, hnx, htk, by rw [hsb]; exact hfl⟩
    ⟨vr', vt', ⟨_, or'⟩, ⟨_, ot'⟩, hr, e1, by omega, by omega, hnx, htk, by rw [hsb]; exact hfl⟩
  refine wp_mono key (fun _ _ h => h.elim) ?_
  rintro e w'' ⟨hp, hv'', ⟨v, ho''⟩, hs''⟩
  rw [wp_destroyVar (C := C) ⟨hv''.trans vt', .inPlace _ _ hkr, ho''⟩ (by rw [hs'', hsb]; exact hfl)]
  exact hp

/-- The first assignment of `swap` throws. -/
theorem wp_swap_second {w : World V} {P : ExcKind → Prop} (ht : r ≠ .tmp 0) {v : V} (ho : w.objs n = some (kr, v)) (hj : n ≠ j) (hi : n ≠ i)
    (h : wp (moveAssign C r l) (fun _ _ => False) (fun e w' => P e.kind ∧ ApartFrom w w' r j i (n + 1)) w) :
    wp (do moveAssign C r l; moveAssign C l (.tmp 0)) (fun _ _ => False)
      (fun e w'' => P e.kind ∧ w''.vars (.tmp 0) = w.vars (.tmp 0) ∧ (∃ v, w''.objs n = some (kr, v)) ∧ w''.sub = w.sub) w := by
  rw [wp_bind]
  refine wp_mono h (fun _ _ h => h.elim) ?_
  rintro e w' ⟨hp, ha⟩
  exact ⟨hp, ha.vars _ ht.symm, ⟨v, (ha.objs n (by omega) hj hi).trans ho⟩, ha.sub⟩

/-- The second assignment of `swap` throws. -/
theorem At.swap_third (h : At w l r k kr i j n t) (hrt : r ≠ .tmp 0) (hlt : l ≠ .tmp 0) (hk : k < C.n) (hkr : kr < C.n) (hne : k ≠ kr)
    (hb : C.mayBackup kr) (hm : (C.tr k).nothrowMove = true) (h0 : C.throws t = false) (h3 : C.throws (t + 3) = true) :
    wp (BVariant.swap C l r) (fun _ _ => False) (fun e _ => e.kind = .copyCtor kr) w := by
  refine h.swap hkr hne hrt (by simp [h0]) hlt (P := (· = .copyCtor kr)) fun w1 a1 a2 => ?_
  rw [wp_bind]
  have hil := h.iN
  have hjl := h.jN
  refine a1.moved hkr hk hne.symm hm fun w2 hv ho hn ht hs => ?_
  obtain ⟨v, b, ho⟩ := ho
  have a3 : At w2 l (.tmp 0) k kr i n (n + 1 + 1) (t + 1 + 1) := by
    refine ⟨by rw [hv, upd_ne _ _ h.lr]; exact a1.vr, by rw [hv, upd_ne _ _ hrt.symm]; exact a2.vr, ⟨v, ?_⟩, ?_, hlt, by omega, by omega, by omega,
      hn, ht, by rw [hs]; exact a1.flat⟩
    · rw [ho, upd_ne _ _ (by omega), upd_same]
    · obtain ⟨c, hc⟩ := a2.or
      exact ⟨c, by rw [ho, upd_ne _ _ (by omega), upd_ne _ _ (by omega), upd_ne _ _ (by omega)]; exact hc⟩
  rw [a3.moveIsBackup hkr hne hb]
  refine wp_mono (a3.backupMoved hk hb.2.2 hm h3) (fun _ _ h => h.elim) ?_
  rintro e w3 ⟨hek, hap⟩
  obtain ⟨c, hc⟩ := a2.or
  refine ⟨hek, ?_, ⟨c, ?_⟩, hap.sub.trans hs⟩
  · rw [hap.vars _ hlt.symm, hv, upd_ne _ _ hrt.symm]
  · rw [hap.objs n (by omega) (by omega) (by omega), ho, upd_ne _ _ (by omega), upd_ne _ _ (by omega), upd_ne _ _ (by omega)]; exact hc

/-- Moving the right content to the temporary of `swap` throws. -/
theorem At.swap_first (h : At w l r k kr i j n t) (hkr : kr < C.n) (hne : k ≠ kr) (hm : (C.tr kr).nothrowMove = false) (h0 : C.throws t = true) :
    wp (BVariant.swap C l r) (fun _ _ => False) (fun e _ => e.kind = .moveCtor kr) w := by
  obtain ⟨vl, vr, ⟨a, ol⟩, ⟨b, or⟩, lr, ij, iN, jN, hn, ht, hfl⟩ := h
  have hw : ¬ (k : Int) = kr := by omega
  simp only [BVariant.swap, wp_bind, wpx_which, vl, vr, whichOf_natCast, hw, if_false, moveConstruct, wp_noexceptIf]
  rw [wp_iav_moveInto (C := C) ⟨vr, .inPlace _ _ hkr, or⟩]
  simp only [wpx_moveCtor, or, if_true, ht, hm, h0, and_self, moveNoexceptConstructible_false hkr hm]

/-- The move assignment of the contents, of the same type, throws. -/
theorem At.moveSame (h : At w l r k k i j n t) (hk : k < C.n) (hm : (C.tr k).nothrowMoveAssign = false) (h0 : C.throws t = true) :
    wp (moveAssign C l r) (fun _ _ => False) (fun e _ => e.kind = .moveAssign k) w := by
  obtain ⟨vl, vr, ⟨a, ol⟩, ⟨b, or⟩, lr, ij, iN, jN, hn, ht, hfl⟩ := h
  simp only [moveAssign, variantMoveAssign, wp_noexceptIf, moveNoexceptAssignable_false hk hm, Bool.and_false, true_and, wp_bind, wpx_getVar,
    vl, vr, if_true, whichOf_natCast]
  rw [wp_iav_inPlace C vl hk ol]
  simp only [moveStorage, castObj, wp_bind, wpx_getVar, vr, wpx_readAs, or, if_true, wp_pure]
  rw [wpx_moveAssignObj C k ij ol or, if_pos ⟨hm, by rw [ht]; exact h0⟩]

end

end BVariant
