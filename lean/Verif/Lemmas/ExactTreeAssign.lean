/-
Assignments of recursive variants, in the model and in the specification for C73.
-/
import Verif.Lemmas.ExactTreeStore

namespace BVariant

section
variable {V : Type} {C : TreeCfg V} {s s' : TreeSt V}

open ATree AStore

variable {α : AStore V} {G : List (ATree V)} {n : Nat} {x t : TPlace} {vs : XStore V}

/-- The outcome of an assignment that changes one place, in the model and in the specification. -/
def AssignsX (G : List (ATree V)) (α : AStore V) (vs : XStore V) (x : TPlace) (r : Res (TreeSt V) Unit) (q : Res (XTSt V) Unit) : Prop :=
  (∃ s' U u, r = .ok () s' ∧ q = .ok () ⟨vs.put x u, s'.count⟩ ∧ U.Shows u ∧ Mem s' (α.put x U) G) ∨
  (∃ e s' U u, r = .exc e s' ∧ q = .exc e ⟨vs.put x u, s'.count⟩ ∧ U.Shows u ∧ Mem s' (α.put x U) G)

/-- An exception that changes nothing. -/
theorem AssignsX.unchanged {l : TLoc} {L : ATree V} {u0 : XTree V} {r : Res (TreeSt V) Unit} {q : Res (XTSt V) Unit} {e : Exc}
    (hx : XSide α vs x l L u0) (hr : r = .exc e s') (hq : q = .exc e ⟨vs, s'.count⟩) (hM : Mem s' α G) : AssignsX G α vs x r q :=
  .inr ⟨e, s', L, u0, hr, by rw [XStore.put_same hx.val]; exact hq, hx.shows, by rw [AStore.put_same hx.at_]; exact hM⟩

theorem tBackupAssign_x {l r : TLoc} {L R : ATree V} {u0 u : XTree V} (hM : Mem s α G) (hX : XSide α vs x l L u0)
    (hT : XSide α vs t r R u) (hRb : R.box = none) (hty : u0.erase.Typed C.wrapped) (hn0 : u0.erase.height ≤ n)
    (hn : u.erase.height ≤ n) (hrel : x.Apart t ∨ (L.box ≠ none ∧ ∃ is, is ≠ [] ∧ L.walk l is = some (r, R))) :
    AssignsX G α vs x (tBackupAssign C n l R.which (.inPlace r) L.var s) (xtGuarded C x u0 u ⟨vs, s.count⟩) := by
  have hRv : R.var.ref r = .inPlace r := by rw [var_none hRb]; rfl
  obtain ⟨hx, hxv, hL⟩ := hX
  obtain ⟨ht, htv, hR⟩ := hT
  have hbk := hL.box
  cases hb : L.box with
  | some q =>
    rw [hb] at hbk
    have hbk : u0.backed = true := hbk.symm
    have hv : L.var = .backup L.which q := by unfold var; rw [hb]
    obtain ⟨hw, hM1⟩ := (hM.dead L.which).replace hx
    obtain ⟨c1, a1, _⟩ := lset_counters l (ATree.dead (V := V) L.which none).var s
    have hc1 := count_eq c1 a1
    have hread : (TRef.inPlace r).read (l.set (ATree.dead (V := V) L.which none).var s) = .ok R.content (l.set (ATree.dead (V := V) L.which none).var s) ∧
        R.Holds (l.set (ATree.dead (V := V) L.which none).var s).heap := by
      rw [← hRv]
      rcases hrel with ha | ⟨_, is, hne, hwk⟩
      · obtain ⟨_, h2, h3⟩ := hM1.at_run (ht.put_apart ha.symm)
        exact ⟨ref_read h2 h3, h3⟩
      · obtain ⟨h2, h3⟩ := held_read hM1.ghosts.1 hwk hne
        exact ⟨ref_read h2 h3, h3⟩
    have hw' : l.write (.plain L.which .dead) s = .ok () (l.set (ATree.dead (V := V) L.which none).var s) := hw
    rcases hM1.copyRefX (C := C) hread.1 hread.2 hR (by omega : u.erase.height ≤ n + 1) with ⟨s2, U, u', h2, hq, hUb, hU, hk, hM2⟩ | ⟨e, s2, h2, hq, hM2⟩
    · obtain ⟨s3, h3, hM3, t3, a3⟩ := hM2.construct hx hUb
      obtain ⟨s4, h4, hM4, t4, a4, _⟩ := hM3.destroy (n := n) hL.is hn0
      rw [hc1] at hq
      refine .inl ⟨s4, U, u', ?_, ?_, hU, hM4⟩
      · rw [hv] at h4 ⊢
        simp only [tBackupAssign, bind, Eff.bind, hw', Eff.onExc, h2]
        rw [hk, h3]
        exact h4
      · rw [count_eq t4 a4, count_eq t3 a3]
        simp only [xtGuarded, hbk, if_true, bind, Eff.bind, xtRun_ok hq, xtPut_run]
    · obtain ⟨h3, hM3⟩ := hM2.replace hx.put
      rw [AStore.put_put hx, AStore.put_same hx] at hM3
      obtain ⟨c2, a2, _⟩ := lset_counters l L.var s2
      rw [hc1] at hq
      refine .unchanged ⟨hx, hxv, hL⟩ (e := e) (s' := l.set L.var s2) ?_ ?_ (hM3.drop rfl)
      · rw [hv] at h3 ⊢
        simp only [tBackupAssign, bind, Eff.bind, hw', Eff.onExc, h2, h3]
      · rw [count_eq c2 a2]
        simp only [xtGuarded, hbk, if_true, bind, Eff.bind, xtRun_exc hq]
  | none =>
    rw [hb] at hbk
    have hbk : u0.backed = false := hbk.symm
    have ha : x.Apart t := by
      rcases hrel with h | h
      · exact h
      · exact absurd hb h.1
    have hv : L.var = .plain L.which L.content := var_none hb
    rw [hv]
    by_cases hnm : C.nothrowMove L.which = true
    · have hw : C.wrapped L.which = false := by
        simp only [TreeCfg.nothrowMove, Bool.and_eq_true, Bool.not_eq_true'] at hnm; exact hnm.1
      obtain ⟨k0, v, b, rfl, rfl⟩ := typed_leafX (C := C) hL hty hw
      cases (show b = none from hb)
      obtain ⟨hw, hM1⟩ := (hM.ticked.dead k0).replace hx
      have hM1 := hM1.drop rfl
      obtain ⟨c1, a1, _⟩ := lset_counters l (ATree.dead (V := V) k0 none).var { s with tick := s.tick + 1 }
      have hc1 := count_eq c1 a1
      have hw' : l.write (.plain k0 .dead) { s with tick := s.tick + 1 } = .ok () (l.set (ATree.dead (V := V) k0 none).var { s with tick := s.tick + 1 }) := hw
      obtain ⟨_, h2, h3⟩ := hM1.at_run (ht.put_apart ha.symm)
      have hrd := ref_read h2 h3
      rw [hRv] at hrd
      have hnm : C.nothrowMove k0 = true := hnm
      show AssignsX G α vs x (tBackupAssign C n l R.which (.inPlace r) (.plain k0 (.leaf v)) s) _
      have hmay : xtMay C true (.moveCtor k0) s.count = .ok () (TreeSt.count { s with tick := s.tick + 1 }) := xtMay_true _
      rcases hM1.copyRefX (C := C) hrd h3 hR (by omega : u.erase.height ≤ n + 1) with ⟨s2, U, u', h2, hq, hUb, hU, hk, hM2⟩ | ⟨e, s2, h2, hq, hM2⟩
      · obtain ⟨s3, h3, hM3, t3, a3⟩ := hM2.construct hx hUb
        rw [hc1] at hq
        refine .inl ⟨s3, U, u', ?_, ?_, hU, hM3⟩
        · simp only [tBackupAssign, hnm, if_true, bind, Eff.bind, tMayThrow_true, hw', Eff.onExc, h2]
          rw [hk, h3]
        · rw [count_eq t3 a3]
          simp only [xtGuarded, hbk, XTree.which, hnm, if_true, Bool.false_eq_true, if_false, bind, Eff.bind, xtRun_ok hmay, Eff.onExc,
            xtRun_ok hq, xtPut_run]
      · obtain ⟨s3, h3, hM3, t3, a3⟩ := (hM2.ticked.leaf k0 (C.ops.move k0 (C.ops.move k0 v))).construct hx rfl
        rw [hc1] at hq
        have hmay2 : xtMay C true (.moveCtor k0) s2.count = .ok () (TreeSt.count { s2 with tick := s2.tick + 1 }) := xtMay_true _
        refine .inr ⟨e, s3, _, .leaf false k0 (C.ops.move k0 (C.ops.move k0 v)), ?_, ?_, ?_, hM3⟩
        · simp only [which, content] at h3
          simp only [tBackupAssign, hnm, if_true, bind, Eff.bind, tMayThrow_true, hw', Eff.onExc, h2, h3]
        · rw [count_eq t3 a3]
          have hfill : (XTree.leaf (none : Option ObjId).isSome k0 v).fill (C.ops.move k0 (C.ops.move k0 v)) [] = .leaf false k0 (C.ops.move k0 (C.ops.move k0 v)) := rfl
          simp only [xtGuarded, hbk, XTree.which, hnm, if_true, Bool.false_eq_true, if_false, bind, Eff.bind, xtRun_ok hmay, Eff.onExc,
            xtRun_exc hq, xtRun_ok hmay2, xtPut_run, XTree.root, XTree.members, hfill]
        · rw [Shows]; exact ⟨rfl, rfl, rfl⟩
    · have hcode : ∀ s, tBackupAssign C n l R.which (.inPlace r) (.plain L.which L.content) s = (do
          let q ← tNew C do
            let c' ← tCopyContent C (tCopyVar C n) (tDestroyVar n) L.which L.content
            pure (.box c')
          tDestroyAt n l
          let c ← Eff.onExc (tCopyRef C n R.which (.inPlace r)) (l.write (.backup L.which q))
          l.write (.plain R.which c)
          tDestroyVar n (.backup L.which q : TVar V) : Eff (TreeSt V) Unit) s := fun s => by
        simp only [tBackupAssign, hnm, if_false, Bool.false_eq_true]
      rw [hcode]
      have hnm' : ¬ C.nothrowMove u0.which = true := by rw [← hL.which]; exact hnm
      rcases hM.allocX (C := C) with ⟨q, s1, h1, hq1, hM1⟩ | ⟨e, s1, h1, hq1, hM1⟩
      · rcases hM1.copyContentX (C := C) (n := n) (hM1.at_run hx).2.2 hL (by omega) with ⟨s2, U0, u0', h2, hq2, hUb0, hU0, hk0, hM2⟩ | ⟨e, s2, h2, hq2, hM2⟩
        · have hblk := is_notBlk hU0.is
          obtain ⟨s3, h3, hM3, t3, a3, _⟩ := Mem.fill (p := q) (F := [U0]) (G := G) (U := U0.setBox (some q)) (c := .box U0.content)
            (hM2.perm (.swap _ _ _))
            (fun h' hq hus' => box_holds hus'.1 hq)
            (fun p => by
              rw [setBox_blocks _ hUb0 hblk, count_cons]; simp [blocksL])
          obtain ⟨s4, h4, hM4, t4, a4, _⟩ := hM3.destroyAt (n := n) hx hL.is hn0
          obtain ⟨_, h5, h6⟩ := hM4.at_run (ht.put_apart ha.symm)
          have hrd := ref_read h5 h6
          rw [hRv] at hrd
          have hq : tNew C (do
            let c' ← tCopyContent C (tCopyVar C n) (tDestroyVar n) L.which L.content
            pure (.box c')) s = .ok q s3 := by
            simp only [tNew, bind, Eff.bind, h1, Eff.onExc, h2, h3, pure, Eff.pure]
          simp only [bind] at hq
          have hbv : (U0.setBox (some q)).var = .backup L.which q := by rw [setBox_var hblk, hk0]
          have hc4 : s4.count = s2.count := by rw [count_eq t4 a4, count_eq t3 a3]
          rcases hM4.copyRefX (C := C) hrd h6 hR (by omega : u.erase.height ≤ n + 1) with ⟨s5, U, u', h7, hq5, hUb, hU, hk, hM5⟩ | ⟨e, s5, h7, hq5, hM5⟩
          · obtain ⟨s6, h8, hM6, t6, a6⟩ := hM5.construct hx hUb
            obtain ⟨s7, h9, hM7, t7, a7, _⟩ := hM6.destroy (n := n) (setBox_is (some q) hU0.is)
              (by rw [(xtCopy_ok hq2).1]; have := VTree.height_copied C.ops u0.erase; omega)
            rw [hc4] at hq5
            refine .inl ⟨s7, U, u', ?_, ?_, hU, hM7⟩
            · rw [hbv] at h9
              simp only [bind, Eff.bind, hq, h4, Eff.onExc, h7]
              rw [hk, h8]
              exact h9
            · rw [count_eq t7 a7, count_eq t6 a6]
              simp only [xtGuarded, hbk, hnm', Bool.false_eq_true, if_false, bind, Eff.bind, xtRun_ok hq1, xtRun_ok hq2, Eff.onExc,
                xtRun_ok hq5, xtPut_run]
          · obtain ⟨h8, hM6⟩ := hM5.replace hx.put
            rw [AStore.put_put hx] at hM6
            obtain ⟨c2, a2, _⟩ := lset_counters l (U0.setBox (some q)).var s5
            rw [hc4] at hq5
            refine .inr ⟨e, l.set (U0.setBox (some q)).var s5, U0.setBox (some q), u0'.mark true, ?_, ?_, hU0.setBox (some q), hM6.drop rfl⟩
            · rw [hbv] at h8 ⊢
              simp only [bind, Eff.bind, hq, h4, Eff.onExc, h7, h8]
            · rw [count_eq c2 a2]
              simp only [xtGuarded, hbk, hnm', Bool.false_eq_true, if_false, bind, Eff.bind, xtRun_ok hq1, xtRun_ok hq2, Eff.onExc,
                xtRun_exc hq5, xtPut_run]
        · obtain ⟨s3, h3, hM3, t3, a3, _⟩ := hM2.free
          refine .unchanged ⟨hx, hxv, hL⟩ (e := e) (s' := s3) ?_ ?_ hM3
          · simp only [tNew, bind, Eff.bind, h1, Eff.onExc, h2, h3]
          · rw [count_eq t3 a3]
            simp only [xtGuarded, hbk, hnm', Bool.false_eq_true, if_false, bind, Eff.bind, xtRun_ok hq1, xtRun_exc hq2]
      · refine .unchanged ⟨hx, hxv, hL⟩ (e := e) (s' := s1) ?_ ?_ hM1
        · simp only [tNew, bind, Eff.bind, h1]
        · simp only [xtGuarded, hbk, hnm', Bool.false_eq_true, if_false, bind, Eff.bind, xtRun_exc hq1]

/-- Destruction of the left content, then construction of a copy that cannot throw. -/
theorem tAssign_nothrowCopy_x {l r : TLoc} {L R : ATree V} {u0 u : XTree V} (hM : Mem s α G) (hX : XSide α vs x l L u0)
    (hT : XSide α vs t r R u) (hRb : R.box = none) (htu : u.erase.Typed C.wrapped)
    (hn0 : u0.erase.height ≤ n) (ha : x.Apart t) (hc : C.nothrowCopy R.which = true) :
    ∃ s' U u', Eff.noexcept (do
      tDestroyAt n l
      let c ← tCopyRef C n R.which (.inPlace r)
      l.write (.plain R.which c)) s = .ok () s' ∧ (do
      let u ← xtRun (xtCopy C u)
      xtPut x u) ⟨vs, s.count⟩ = .ok () ⟨vs.put x u', s'.count⟩ ∧ U.Shows u' ∧ Mem s' (α.put x U) G := by
  simp only [TreeCfg.nothrowCopy, Bool.and_eq_true, Bool.not_eq_true'] at hc
  obtain ⟨hx, hxv, hL⟩ := hX
  obtain ⟨ht, htv, hR⟩ := hT
  obtain ⟨k, v, b, rfl, rfl⟩ := typed_leafX (C := C) hR htu hc.1
  cases (show b = none from hRb)
  obtain ⟨s1, h1, hM1, t1, a1, _⟩ := hM.destroyAt (n := n) hx hL.is hn0
  obtain ⟨_, h2, h3⟩ := hM1.at_run (ht.put_apart ha.symm)
  have hrd : (TRef.inPlace r).read s1 = .ok (.leaf v) s1 := ref_read h2 h3
  have hk : (C.tr k).nothrowCopy = true := hc.2
  obtain ⟨s3, h5, hM3, t3, a3⟩ := (hM1.ticked.leaf k (C.ops.copy k v)).construct hx rfl
  refine ⟨s3, _, .leaf false k (C.ops.copy k v), ?_, ?_, ?_, hM3⟩
  · simp only [which, content] at h5
    simp only [Eff.noexcept, bind, Eff.bind, h1, which, tCopyRef, hrd, tCopyContent, tMayThrow_true, hk, pure, Eff.pure, h5]
  · have hmay : xtCopy C (.leaf (none : Option ObjId).isSome k v) s.count = .ok (.leaf false k (C.ops.copy k v)) s3.count := by
      rw [count_eq t3 a3]
      show _ = Res.ok _ { s1.count with tick := s1.count.tick + 1 }
      rw [count_eq t1 a1]
      simp only [xtCopy, hk, bind, Eff.bind, xtMay_true, pure, Eff.pure]
    simp only [bind, Eff.bind, xtRun_ok hmay, xtPut_run]
  · rw [Shows]; exact ⟨rfl, rfl, rfl⟩

theorem tAssigner_x {l r : TLoc} {L R : ATree V} {u0 u : XTree V} (hM : Mem s α G) (hX : XSide α vs x l L u0)
    (hT : XSide α vs t r R u) (hRb : R.box = none) (hty : u0.erase.Typed C.wrapped) (htu : u.erase.Typed C.wrapped)
    (hn0 : u0.erase.height ≤ n) (hn : u.erase.height ≤ n)
    (hrel : x.Apart t ∨ (tDestroysFirst C L.var R.which = false ∧ ∃ is, is ≠ [] ∧ L.walk l is = some (r, R))) :
    AssignsX G α vs x (tAssigner C n l L.var R.which (.inPlace r) s) (xtReplace C x u0 u ⟨vs, s.count⟩) := by
  have hRv : R.var.ref r = .inPlace r := by rw [var_none hRb]; rfl
  have hwh := hT.shows.which
  unfold tAssigner xtReplace
  rw [← hwh]
  by_cases hc : C.nothrowCopy R.which = true
  · rw [if_pos hc, if_pos hc]
    refine .inl (tAssign_nothrowCopy_x hM hX hT hRb htu hn0 ?_ hc)
    rcases hrel with h | ⟨h, _⟩
    · exact h
    · simp [tDestroysFirst, hc] at h
  · rw [if_neg hc, if_neg hc]
    obtain ⟨hx, hxv, hL⟩ := hX
    obtain ⟨ht, htv, hR⟩ := hT
    by_cases hm : C.nothrowMove R.which = true
    · rw [if_pos hm, if_pos hm]
      simp only [TreeCfg.nothrowMove, Bool.and_eq_true, Bool.not_eq_true'] at hm
      obtain ⟨k, v, b, rfl, rfl⟩ := typed_leafX (C := C) hR htu hm.1
      cases (show b = none from hRb)
      obtain ⟨_, h2, h3⟩ := hM.at_run ht
      have hrd := ref_read h2 h3
      rw [hRv] at hrd
      rcases hM.copyRefX (C := C) hrd h3 hR (by omega : _ ≤ n + 1) with ⟨s1, U, u', h4, hq, hUb, hU, hk, hM1⟩ | ⟨e, s1, h4, hq, hM1⟩
      · obtain ⟨w, rfl, rfl⟩ : ∃ w, u' = .leaf false k w ∧ U = .leaf k w none := by
          obtain ⟨h5, h6⟩ := xtCopy_ok hq
          cases u' with
          | node => simp [XTree.erase, VTree.copied] at h5
          | leaf m k' w =>
            simp only [XTree.erase, VTree.copied, VTree.leaf.injEq] at h5
            obtain ⟨rfl, _⟩ := h5
            simp only [XTree.backed] at h6
            subst h6
            cases U with
            | leaf k'' v'' b' =>
              rw [Shows] at hU
              obtain ⟨hb, rfl, rfl⟩ := hU
              cases (show b' = none from hUb)
              exact ⟨_, rfl, rfl⟩
            | node => simp [Shows] at hU
            | dead => simp [Shows] at hU
            | blk => simp [Shows] at hU
        obtain ⟨s2, h5, hM2, t2, a2, _⟩ := (hM1.drop rfl).destroyAt (n := n) hx hL.is hn0
        obtain ⟨s3, h6, hM3, t3, a3⟩ := (hM2.ticked.leaf k (C.ops.move k w)).construct hx rfl
        have hmay : xtMay C true (.moveCtor k) s1.count = .ok () s3.count := by
          rw [count_eq t3 a3]
          show _ = Res.ok _ { s2.count with tick := s2.count.tick + 1 }
          rw [count_eq t2 a2]
          exact xtMay_true _
        refine .inl ⟨s3, _, .leaf false k (C.ops.move k w), ?_, ?_, ?_, hM3⟩
        · simp only [which, content] at h6 h4
          simp only [bind, Eff.bind, which, h4, h5, tMayThrow_true, h6]
        · simp only [bind, Eff.bind, xtRun_ok hq, which, xtRun_ok hmay, xtPut_run, XTree.fill, XTree.root]
        · rw [Shows]; exact ⟨rfl, rfl, rfl⟩
      · refine .unchanged ⟨hx, hxv, hL⟩ (e := e) (s' := s1) ?_ ?_ hM1
        · simp only [bind, Eff.bind, h4]
        · simp only [bind, Eff.bind, xtRun_exc hq]
    · rw [if_neg hm, if_neg hm]
      cases hfb : C.fallback with
      | some fb =>
        have ha : x.Apart t := by
          rcases hrel with h | ⟨h, _⟩
          · exact h
          · unfold tDestroysFirst at h
            rw [if_neg hc, if_neg hm, hfb] at h
            simp at h
        obtain ⟨s1, h1, hM1, t1, a1, _⟩ := hM.destroyAt (n := n) hx hL.is hn0
        obtain ⟨_, h2, h3⟩ := hM1.at_run (ht.put_apart ha.symm)
        have hrd := ref_read h2 h3
        rw [hRv] at hrd
        simp only [bind, Eff.bind, h1]
        rcases hM1.copyRefX (C := C) hrd h3 hR (by omega : u.erase.height ≤ n + 1) with ⟨s2, U, u', h4, hq, hUb, hU, hk, hM2⟩ | ⟨e, s2, h4, hq, hM2⟩
        · obtain ⟨s3, h5, hM3, t3, a3⟩ := hM2.construct hx hUb
          rw [count_eq t1 a1] at hq
          refine .inl ⟨s3, U, u', ?_, ?_, hU, hM3⟩
          · simp only [Eff.onExc, h4]
            rw [hk, h5]
          · simp only [Eff.onExc, xtRun_ok hq, xtPut_run, count_eq t3 a3]
        · obtain ⟨s3, h5, hM3, t3, a3⟩ := (hM2.ticked.leaf fb (C.ops.defaultInit fb)).construct hx rfl
          rw [count_eq t1 a1] at hq
          have hmay : xtMay C true (.defaultCtor fb) s2.count = .ok () s3.count := by
            rw [count_eq t3 a3]
            exact xtMay_true _
          refine .inr ⟨e, s3, _, .leaf false fb (C.ops.defaultInit fb), ?_, ?_, ?_, hM3⟩
          · simp only [which, content] at h5
            simp only [Eff.onExc, h4, tFallback, bind, Eff.bind, tMayThrow_true, h5]
          · simp only [Eff.onExc, xtRun_exc hq, xtFallback, bind, Eff.bind, xtRun_ok hmay, xtPut_run]
          · rw [Shows]; exact ⟨rfl, rfl, rfl⟩
      | none =>
        refine tBackupAssign_x hM ⟨hx, hxv, hL⟩ ⟨ht, htv, hR⟩ hRb hty hn0 hn ?_
        rcases hrel with h | ⟨h, h'⟩
        · exact .inl h
        · refine .inr ⟨fun hb => ?_, h'⟩
          unfold tDestroysFirst at h
          rw [if_neg hc, if_neg hm, hfb, var_none hb] at h
          simp at h

end

end BVariant
