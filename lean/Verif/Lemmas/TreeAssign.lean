/-
Assignment of recursive variants.
-/
import Verif.Lemmas.TreeMove

namespace BVariant

section
variable {V : Type} {C : TreeCfg V} {s s' : TreeSt V} {h h' : ObjId → Option (TCell V)}

open ATree AStore

variable {α : AStore V} {G G' : List (ATree V)} {n : Nat} {x t : TPlace}

mutual
theorem VTree.copied_lawful {o : Ops V} (hl : o.Lawful) : ∀ t : VTree V, t.copied o = t
  | .leaf k v => by rw [VTree.copied, hl.copy_eq]
  | .node k a f => by rw [VTree.copied, hl.copy_eq, VForest.copied_lawful hl f]
theorem VForest.copied_lawful {o : Ops V} (hl : o.Lawful) : ∀ f : VForest V, f.copied o = f
  | .nil => rfl
  | .cons t f => by rw [VForest.copied, VTree.copied_lawful hl t, VForest.copied_lawful hl f]
end

/-- A nothrow operation counts, and does nothing else. -/
theorem tMayThrow_true (k : ExcKind) (s : TreeSt V) : tMayThrow C true k s = .ok () { s with tick := s.tick + 1 } := by
  simp [tMayThrow]

theorem Mem.ticked (hM : Mem s α G) : Mem { s with tick := s.tick + 1 } α G := ⟨hM.vars, hM.holds, hM.ghosts, hM.excl, hM.disj, hM.owned, hM.fresh⟩

/-! ### Copying -/

/-- Copying variants: the copies are ghosts. -/
theorem Mem.copyList (hl : C.ops.Lawful) {F : List (ATree V)} {f : VForest V} (hM : Mem s α G) (hF : HoldsL s.heap F) (hi : IsL F f)
    (hn : f.height ≤ n) :
    (∃ s' us, tCopyList (tCopyVar C n) (tDestroyVar n) (F.map ATree.var) s = .ok (us.map ATree.var) s' ∧ IsL us f ∧
      Mem s' α (us ++ G) ∧ s.tick ≤ s'.tick ∧ s'.allocs = s.allocs + f.nodes ∧ TGrown s s' (blocksL us)) ∨
    (∃ e s', tCopyList (tCopyVar C n) (tDestroyVar n) (F.map ATree.var) s = .exc e s' ∧ Mem s' α G ∧ Threw C s e s') := by
  rcases tCopyList_run (C := C) (ATree.repL hF hi) hn hM.fresh with ⟨vs, s', ns, h1, h2, hg, hal, _⟩ | ⟨e, s', h1, hu, _⟩
  · rw [VForest.copied_lawful hl] at h2
    obtain ⟨us, g1, g2, rfl, rfl⟩ := h2.annot
    exact .inl ⟨s', us, h1, g1, hM.grown hg g2, hg.tick, hal, hg⟩
  · exact .inr ⟨e, s', h1, hM.undone hu, .of_undone hu⟩

theorem Mem.copy (hl : C.ops.Lawful) {R : ATree V} {u : VTree V} (hM : Mem s α G) (hR : R.Holds s.heap) (hi : R.Is u)
    (hn : u.height ≤ n) :
    (∃ s' U, tCopyVar C n R.var s = .ok U.var s' ∧ U.Is u ∧ Mem s' α (U :: G) ∧ s.tick ≤ s'.tick ∧
      s'.allocs = s.allocs + u.nodes) ∨
    (∃ e s', tCopyVar C n R.var s = .exc e s' ∧ Mem s' α G ∧ Threw C s e s') := by
  rcases tCopyVar_run (C := C) (ATree.rep hR hi) hn hM.fresh with ⟨v, s', ns, h1, h2, hg, hal, _⟩ | ⟨e, s', h1, hu, _⟩
  · rw [VTree.copied_lawful hl] at h2
    obtain ⟨U, g1, g2, rfl, rfl⟩ := h2.annot
    have hb : blocksL [U] = U.blocks := by simp [blocksL]
    exact .inl ⟨s', U, h1, g1, hM.grown (F := [U]) (by rw [hb]; exact hg) ⟨g2, trivial⟩, hg.tick, hal⟩
  · exact .inr ⟨e, s', h1, hM.undone hu, .of_undone hu⟩

/-- Copying an object of a bounded type. -/
theorem Mem.copyContent (hl : C.ops.Lawful) {R : ATree V} {u : VTree V} (hM : Mem s α G) (hR : R.Holds s.heap) (hi : R.Is u)
    (hn : u.height ≤ n + 1) :
    (∃ s' U, tCopyContent C (tCopyVar C n) (tDestroyVar n) R.which R.content s = .ok U.content s' ∧ U.box = none ∧ U.Is u ∧
      Mem s' α (U :: G) ∧ s.tick ≤ s'.tick ∧ s'.allocs = s.allocs + u.nodes) ∨
    (∃ e s', tCopyContent C (tCopyVar C n) (tDestroyVar n) R.which R.content s = .exc e s' ∧ Mem s' α G ∧ Threw C s e s') := by
  have hr := Mem.copy hl hM (unBox_holds hR) (setBox_is none hi) hn
  have hv : (R.setBox none).var = .plain R.which R.content := by
    rw [var_none (setBox_box none (is_notBlk hi)), setBox_which, setBox_content]
  rw [hv] at hr
  simp only [tCopyVar, tContent, bind, Eff.bind, pure, Eff.pure, TVar.which] at hr
  cases he : tCopyContent C (tCopyVar C n) (tDestroyVar n) R.which R.content s with
  | ok c s' =>
    rw [he] at hr
    rcases hr with ⟨s1, U, h1, h2, h3, h4⟩ | ⟨e, s1, h1, _⟩
    · simp only [Res.ok.injEq] at h1
      obtain ⟨h1, rfl⟩ := h1
      have hb : U.box = none := by
        cases hb : U.box with
        | none => rfl
        | some q => unfold ATree.var at h1; rw [hb] at h1; cases h1
      rw [var_none hb] at h1
      simp only [TVar.plain.injEq] at h1
      rw [h1.2]
      exact .inl ⟨s', U, rfl, hb, h2, h3, h4⟩
    · cases h1
  | exc e s' =>
    rw [he] at hr
    rcases hr with ⟨s1, U, h1, h2, h3, h4⟩ | ⟨e, s1, h1, h2, h3⟩
    · cases h1
    · cases h1; exact .inr ⟨_, _, rfl, h2, h3⟩
  | fault f =>
    rw [he] at hr
    rcases hr with ⟨s1, U, h1, _⟩ | ⟨e, s1, h1, _⟩ <;> cases h1

/-- Copying through a reference. -/
theorem Mem.copyRef (hl : C.ops.Lawful) {R : ATree V} {u : VTree V} {r : TRef} (hM : Mem s α G) (hr : r.read s = .ok R.content s)
    (hR : R.Holds s.heap) (hi : R.Is u) (hn : u.height ≤ n + 1) :
    (∃ s' U, tCopyRef C n R.which r s = .ok U.content s' ∧ U.box = none ∧ U.Is u ∧ Mem s' α (U :: G) ∧ s.tick ≤ s'.tick ∧
      s'.allocs = s.allocs + u.nodes) ∨
    (∃ e s', tCopyRef C n R.which r s = .exc e s' ∧ Mem s' α G ∧ Threw C s e s') := by
  have : tCopyRef C n R.which r s = tCopyContent C (tCopyVar C n) (tDestroyVar n) R.which R.content s := by
    simp only [tCopyRef, bind, Eff.bind, hr]
  rw [this]
  exact hM.copyContent hl hR hi hn

/-- Copying a plain object with a nothrow copy constructor. -/
theorem Mem.copyRef_nothrow (hl : C.ops.Lawful) {k : TyIx} {v : V} {r : TRef} (hM : Mem s α G) (hr : r.read s = .ok (.leaf v) s)
    (hk : (C.tr k).nothrowCopy = true) :
    ∃ s', tCopyRef C n k r s = .ok (.leaf v) s' ∧ Mem s' α (.leaf k v none :: G) ∧ s.tick ≤ s'.tick ∧ s'.allocs = s.allocs :=
  ⟨{ s with tick := s.tick + 1 }, by simp [tCopyRef, bind, Eff.bind, hr, tCopyContent, tMayThrow, hk, pure, Eff.pure, hl.copy_eq],
    (hM.same (s' := { s with tick := s.tick + 1 }) rfl rfl (Nat.le_refl _)).leaf k v, Nat.le_succ _, rfl⟩

theorem typed_leaf {R : ATree V} {u : VTree V} (hi : R.Is u) (ht : u.Typed C.wrapped) (hw : C.wrapped R.which = false) :
    ∃ k v b, R = .leaf k v b ∧ u = .leaf k v := by
  cases R with
  | leaf k v b =>
    cases u with
    | leaf k' v' => rw [ATree.Is] at hi; obtain ⟨rfl, rfl⟩ := hi; exact ⟨k, v, b, rfl, rfl⟩
    | node => simp [ATree.Is] at hi
  | node k a p f b =>
    cases u with
    | leaf => simp [ATree.Is] at hi
    | node k' a' f' =>
      rw [ATree.Is] at hi; obtain ⟨rfl, rfl, _⟩ := hi
      rw [VTree.Typed] at ht
      rw [which] at hw
      rw [hw] at ht; exact absurd ht.1 (by decide)
  | dead => simp [ATree.Is] at hi
  | blk => simp [ATree.Is] at hi

/-! ### Destruction of the left content -/

theorem set_del {l : TLoc} {v : TVar V} {B : List ObjId} (hB : ∀ p i, l = .child p i → p ∉ B) :
    l.set v (s.del B) = (l.set v s).del B := by
  cases l with
  | var x => rfl
  | child p i =>
    have hp := hB p i rfl
    simp only [TLoc.set, TreeSt.del, TreeSt.mk.injEq, and_true]
    funext q
    by_cases hq : q = p
    · subst hq; simp only [upd, if_true, hp, if_false]
    · simp only [upd, hq, if_false]

/-- The place of a variant is not in its blocks. -/
theorem Mem.place_notin {l : TLoc} {R : ATree V} (hM : Mem s α G) (hx : At α x l R) : ∀ p i, l = .child p i → p ∉ R.blocks := by
  rintro p i rfl hp
  obtain ⟨T, h1, h2⟩ := hx
  have hp' := mem_blocks.mp hp
  have hex := hM.excl x.var p
  rw [h1] at hex
  simp only [blocksO] at hex
  by_cases hn : x.path = []
  · rw [hn, walk_nil] at h2; cases h2
  · obtain ⟨q, j, e, hq⟩ := walk_place hn h2
    cases e
    omega

theorem lread_del {l : TLoc} {v : TVar V} {B : List ObjId} (hB : ∀ p i, l = .child p i → p ∉ B) (hl : l.read s = .ok v s) :
    l.read (s.del B) = .ok v (s.del B) := by
  cases l with
  | var x =>
    simp only [TLoc.read, tVar] at hl
    simp only [TLoc.read, tVar]
    show (match s.vars x with | some v => _ | none => _) = _
    cases hv : s.vars x with
    | none => rw [hv] at hl; cases hl
    | some w => rw [hv] at hl; cases hl; rfl
  | child p i =>
    have hp := hB p i rfl
    have hh : (s.del B).heap p = s.heap p := by simp only [TreeSt.del, hp, if_false]
    simp only [TLoc.read, bind, Eff.bind, tReadNode] at hl
    simp only [TLoc.read, bind, Eff.bind, tReadNode, hh]
    cases hc : s.heap p with
    | none => rw [hc] at hl; cases hl
    | some c =>
      rw [hc] at hl
      cases c with
      | raw => cases hl
      | box => cases hl
      | node a cs =>
        simp only at hl ⊢
        cases hg : cs[i]? with
        | none => rw [hg] at hl; cases hl
        | some w => rw [hg] at hl; cases hl; rfl

theorem Mem.destroyAt {l : TLoc} {L : ATree V} {u : VTree V} (hM : Mem s α G) (hx : At α x l L) (hL : L.Is u) (hn : u.height ≤ n) :
    ∃ s', tDestroyAt n l s = .ok () s' ∧ Mem s' (α.put x (.dead L.which none)) G ∧ s'.tick = s.tick ∧ s'.allocs = s.allocs ∧
      s'.heap = ((l.set (.plain L.which .dead) s).del L.blocks).heap := by
  obtain ⟨_, hl, hh⟩ := hM.at_run hx
  have hpn := hM.place_notin hx
  obtain ⟨hw, hM1⟩ := (hM.dead L.which).replace hx
  obtain ⟨s2, h2, hM2, t1, t2, _, _, rfl⟩ := hM1.destroy (n := n) hL hn
  obtain ⟨c1, c2, _⟩ := lset_counters l (ATree.dead (V := V) L.which none).var s
  refine ⟨_, ?_, hM2, by rw [t1, c1], by rw [t2, c2], rfl⟩
  have hnd : L.blocks.Nodup := List.nodup_iff_count.mpr fun p => by
    have := hM1.excl 0 p; rw [count_cons] at this; omega
  have hd := tDestroyVar_run (n := n) (ATree.rep hh hL) hnd hn
  have hw2 := write_run (v := .plain L.which .dead) (lread_del hpn hl)
  simp only [tDestroyAt, bind, Eff.bind, hl, hd, var_which, hw2, set_del hpn]
  rfl

/-- A dead variant at a place gets an object. -/
theorem Mem.construct {l : TLoc} {k : TyIx} {U L : ATree V} (hM : Mem s (α.put x (.dead k none)) (U :: G)) (hx : At α x l L)
    (hU : U.box = none) :
    ∃ s', l.write (.plain U.which U.content) s = .ok () s' ∧ Mem s' (α.put x U) G ∧ s'.tick = s.tick ∧ s'.allocs = s.allocs := by
  obtain ⟨hw, hM1⟩ := hM.replace hx.put
  rw [var_none hU] at hw hM1
  rw [AStore.put_put hx] at hM1
  obtain ⟨c1, c2, _⟩ := lset_counters l (TVar.plain U.which U.content) s
  exact ⟨_, hw, hM1.drop rfl, c1, c2⟩

/-- A part of a tree is read, wherever the tree is. -/
theorem held_read {T R : ATree V} {l r : TLoc} {is : List Nat} (hT : T.Holds s.heap) (hw : T.walk l is = some (r, R)) (hn : is ≠ []) :
    r.read s = .ok R.var s ∧ R.Holds s.heap := by
  refine ⟨?_, walk_holds hw hT⟩
  obtain ⟨p, i, rfl, _⟩ := walk_place hn hw
  obtain ⟨a, cs, hc, hi⟩ := walk_cell hn hw rfl hT
  simp only [TLoc.read, bind, Eff.bind, tReadNode, hc, hi, pure, Eff.pure]

/-! ### Assignment between types -/

/-- The outcome of an assignment at `x`, with `m` allocations if it succeeds. -/
def Assigns (C : TreeCfg V) (s : TreeSt V) (α : AStore V) (G : List (ATree V)) (x : TPlace) (u0 u : VTree V) (m : Nat)
    (r : Res (TreeSt V) Unit) : Prop :=
  (∃ s' U, r = .ok () s' ∧ U.Is u ∧ Mem s' (α.put x U) G ∧ s'.allocs = s.allocs + m) ∨
  (∃ e s' W w, r = .exc e s' ∧ W.Is w ∧ (w = u0 ∨ ∃ fb, C.fallback = some fb ∧ w = .leaf fb (C.ops.defaultInit fb)) ∧
    Mem s' (α.put x W) G ∧ Threw C s e s')

/-- The allocations for the backup of the left content. -/
def TreeCfg.backupCost (C : TreeCfg V) (L : ATree V) (u0 : VTree V) : Nat :=
  if L.box ≠ none ∨ C.nothrowMove L.which = true then 0 else u0.nodes + 1

/-- The allocations of an assignment between types. -/
def TreeCfg.assignCost (C : TreeCfg V) (L : ATree V) (u0 u : VTree V) : Nat :=
  if C.nothrowCopy u.which = true ∨ C.nothrowMove u.which = true ∨ C.fallback ≠ none then u.nodes
  else C.backupCost L u0 + u.nodes

theorem tBackupAssign_run (hl : C.ops.Lawful) {l r : TLoc} {L R : ATree V} {u0 u : VTree V} (hM : Mem s α G) (hx : At α x l L)
    (ht : At α t r R) (hL : L.Is u0) (hR : R.Is u) (hRb : R.box = none) (hty : u0.Typed C.wrapped) (hn0 : u0.height ≤ n)
    (hn : u.height ≤ n) (hrel : x.Apart t ∨ (L.box ≠ none ∧ ∃ is, is ≠ [] ∧ L.walk l is = some (r, R))) :
    Assigns C s α G x u0 u (C.backupCost L u0 + u.nodes) (tBackupAssign C n l R.which (.inPlace r) L.var s) := by
  have hRv : R.var.ref r = .inPlace r := by rw [var_none hRb]; rfl
  cases hb : L.box with
  | some q =>
    have hv : L.var = .backup L.which q := by unfold var; rw [hb]
    obtain ⟨hw, hM1⟩ := (hM.dead L.which).replace hx
    obtain ⟨c1, a1, _⟩ := lset_counters l (ATree.dead (V := V) L.which none).var s
    have hread : (TRef.inPlace r).read (l.set (ATree.dead (V := V) L.which none).var s) = .ok R.content (l.set (ATree.dead (V := V) L.which none).var s) ∧
        R.Holds (l.set (ATree.dead (V := V) L.which none).var s).heap := by
      rw [← hRv]
      rcases hrel with ha | ⟨_, is, hne, hwk⟩
      · obtain ⟨_, h2, h3⟩ := hM1.at_run (ht.put_apart ha.symm)
        exact ⟨ref_read h2 h3, h3⟩
      · obtain ⟨h2, h3⟩ := held_read hM1.ghosts.1 hwk hne
        exact ⟨ref_read h2 h3, h3⟩
    have hw' : l.write (.plain L.which .dead) s = .ok () (l.set (ATree.dead (V := V) L.which none).var s) := hw
    rcases hM1.copyRef hl hread.1 hread.2 hR (by omega : u.height ≤ n + 1) with ⟨s2, U, h2, hUb, hU, hM2, ht2, a2⟩ | ⟨e, s2, h2, hM2, hth⟩
    · obtain ⟨s3, h3, hM3, _, a3⟩ := hM2.construct hx hUb
      obtain ⟨s4, h4, hM4, _, a4, _⟩ := hM3.destroy (n := n) hL hn0
      refine .inl ⟨s4, U, ?_, hU, hM4, by rw [TreeCfg.backupCost, if_pos (.inl (by rw [hb]; nofun))]; omega⟩
      have hk : R.which = U.which := by rw [hR.which, hU.which]
      rw [hv] at h4 ⊢
      simp only [tBackupAssign, bind, Eff.bind, hw', Eff.onExc, h2]
      rw [hk, h3]
      exact h4
    · obtain ⟨h3, hM3⟩ := hM2.replace hx.put
      rw [AStore.put_put hx] at hM3
      obtain ⟨c2, _, _⟩ := lset_counters l L.var s2
      refine .inr ⟨e, _, L, u0, ?_, hL, .inl rfl, hM3.drop rfl, hth.mono (by omega) (by omega)⟩
      rw [hv] at h3 ⊢
      simp only [tBackupAssign, bind, Eff.bind, hw', Eff.onExc, h2, h3]
  | none =>
    have ha : x.Apart t := by
      rcases hrel with h | h
      · exact h
      · exact absurd hb h.1
    have hv : L.var = .plain L.which L.content := var_none hb
    rw [hv]
    by_cases hnm : C.nothrowMove L.which = true
    · have hw : C.wrapped L.which = false := by
        simp only [TreeCfg.nothrowMove, Bool.and_eq_true, Bool.not_eq_true'] at hnm; exact hnm.1
      obtain ⟨k0, v, b, rfl, rfl⟩ := typed_leaf (C := C) hL hty hw
      obtain ⟨hw, hM1⟩ := (hM.ticked.dead k0).replace hx
      have hM1 := hM1.drop (by cases (show b = none from hb); rfl)
      obtain ⟨c1, a1, _⟩ := lset_counters l (ATree.dead (V := V) k0 none).var { s with tick := s.tick + 1 }
      have hw' : l.write (.plain k0 .dead) { s with tick := s.tick + 1 } = .ok () (l.set (ATree.dead (V := V) k0 none).var { s with tick := s.tick + 1 }) := hw
      simp only at c1 a1
      obtain ⟨_, h2, h3⟩ := hM1.at_run (ht.put_apart ha.symm)
      have hrd := ref_read h2 h3
      rw [hRv] at hrd
      have hnm : C.nothrowMove k0 = true := hnm
      show Assigns C s α G x (.leaf k0 v) u (C.backupCost (.leaf k0 v b) (.leaf k0 v) + u.nodes) (tBackupAssign C n l R.which (.inPlace r) (.plain k0 (.leaf v)) s)
      rcases hM1.copyRef hl hrd h3 hR (by omega : u.height ≤ n + 1) with ⟨s2, U, h2, hUb, hU, hM2, ht2, a2⟩ | ⟨e, s2, h2, hM2, hth⟩
      · obtain ⟨s3, h3, hM3, _, a3⟩ := hM2.construct hx hUb
        refine .inl ⟨s3, U, ?_, hU, hM3, by rw [TreeCfg.backupCost, if_pos (.inr hnm)]; omega⟩
        have hk : R.which = U.which := by rw [hR.which, hU.which]
        simp only [tBackupAssign, hnm, if_true, bind, Eff.bind, tMayThrow_true, hw', Eff.onExc, h2]
        rw [hk, h3]
      · obtain ⟨s3, h3, hM3, c2, _⟩ := (hM2.ticked.leaf k0 (C.ops.move k0 (C.ops.move k0 v))).construct hx rfl
        simp only at c2
        refine .inr ⟨e, s3, _, .leaf k0 v, ?_, ?_, .inl rfl, hM3, hth.mono (by omega) (by omega)⟩
        · simp only [which, content] at h3
          simp only [tBackupAssign, hnm, if_true, bind, Eff.bind, tMayThrow_true, hw', Eff.onExc, h2, h3]
        · rw [ATree.Is, hl.move_eq, hl.move_eq]; exact ⟨rfl, rfl⟩
    · have hcode : ∀ s, tBackupAssign C n l R.which (.inPlace r) (.plain L.which L.content) s = (do
          let q ← tNew C do
            let c' ← tCopyContent C (tCopyVar C n) (tDestroyVar n) L.which L.content
            pure (.box c')
          tDestroyAt n l
          let c ← Eff.onExc (tCopyRef C n R.which (.inPlace r)) (l.write (.backup L.which q))
          l.write (.plain R.which c)
          tDestroyVar n (.backup L.which q : TVar V) : Eff (TreeSt V) Unit) s := fun s => by
        simp only [tBackupAssign, hnm, if_false, Bool.false_eq_true]
      rw [hcode]
      rcases hM.alloc (C := C) with ⟨q, s1, h1, hM1, ht1, a1, _⟩ | ⟨e, s1, h1, hM1, t1, t2, t3, _⟩
      · rcases hM1.copyContent (C := C) (n := n) hl (hM1.at_run hx).2.2 hL (by omega) with ⟨s2, U0, h2, hUb0, hU0, hM2, ht2, a2⟩ | ⟨e, s2, h2, hM2, hth⟩
        · have hk0 : U0.which = L.which := by rw [hL.which, hU0.which]
          have hblk := is_notBlk hU0
          obtain ⟨s3, h3, hM3, ht3, a3, _⟩ := Mem.fill (p := q) (F := [U0]) (G := G) (U := U0.setBox (some q)) (c := .box U0.content)
            (hM2.perm (.swap _ _ _))
            (fun h' hq hus' => box_holds hus'.1 hq)
            (fun p => by
              rw [setBox_blocks _ hUb0 hblk, count_cons]; simp [blocksL])
          obtain ⟨s4, h4, hM4, ht4, a4, _⟩ := hM3.destroyAt (n := n) hx hL hn0
          obtain ⟨_, h5, h6⟩ := hM4.at_run (ht.put_apart ha.symm)
          have hrd := ref_read h5 h6
          rw [hRv] at hrd
          have hq : tNew C (do
            let c' ← tCopyContent C (tCopyVar C n) (tDestroyVar n) L.which L.content
            pure (.box c')) s = .ok q s3 := by
            simp only [tNew, bind, Eff.bind, h1, Eff.onExc, h2, h3, pure, Eff.pure]
          simp only [bind] at hq
          have hbv : (U0.setBox (some q)).var = .backup L.which q := by rw [setBox_var hblk, hk0]
          rcases hM4.copyRef hl hrd h6 hR (by omega : u.height ≤ n + 1) with ⟨s5, U, h7, hUb, hU, hM5, ht5, a5⟩ | ⟨e, s5, h7, hM5, hth⟩
          · obtain ⟨s6, h8, hM6, _, a6⟩ := hM5.construct hx hUb
            obtain ⟨s7, h9, hM7, _, a7, _⟩ := hM6.destroy (n := n) (setBox_is (some q) hU0) hn0
            refine .inl ⟨s7, U, ?_, hU, hM7, by rw [TreeCfg.backupCost, if_neg (by simp only [hb, ne_eq, not_true_eq_false, false_or]; exact hnm)]; omega⟩
            have hk : R.which = U.which := by rw [hR.which, hU.which]
            rw [hbv] at h9
            simp only [bind, Eff.bind, hq, h4, Eff.onExc, h7]
            rw [hk, h8]
            exact h9
          · obtain ⟨h8, hM6⟩ := hM5.replace hx.put
            rw [AStore.put_put hx] at hM6
            obtain ⟨c2, _, _⟩ := lset_counters l (U0.setBox (some q)).var s5
            refine .inr ⟨e, _, _, u0, ?_, setBox_is (some q) hU0, .inl rfl, hM6.drop rfl, hth.mono (by omega) (by omega)⟩
            rw [hbv] at h8 ⊢
            simp only [bind, Eff.bind, hq, h4, Eff.onExc, h7, h8]
        · obtain ⟨s3, h3, hM3, ht3, _⟩ := hM2.free
          refine .inr ⟨e, s3, L, u0, ?_, hL, .inl rfl, by rw [AStore.put_same hx]; exact hM3, hth.mono (by omega) (by omega)⟩
          simp only [tNew, bind, Eff.bind, h1, Eff.onExc, h2, h3]
      · refine .inr ⟨e, s1, L, u0, ?_, hL, .inl rfl, by rw [AStore.put_same hx]; exact hM1, ⟨t1, t2, t3⟩⟩
        simp only [tNew, bind, Eff.bind, h1]

/-- Destruction of the left content, then construction of a copy that cannot throw. -/
theorem tAssign_nothrowCopy (hl : C.ops.Lawful) {l r : TLoc} {L R : ATree V} {u0 u : VTree V} (hM : Mem s α G) (hx : At α x l L)
    (ht : At α t r R) (hL : L.Is u0) (hR : R.Is u) (hRb : R.box = none) (htu : u.Typed C.wrapped)
    (hn0 : u0.height ≤ n) (ha : x.Apart t) (hc : C.nothrowCopy R.which = true) :
    ∃ s' U, Eff.noexcept (do
      tDestroyAt n l
      let c ← tCopyRef C n R.which (.inPlace r)
      l.write (.plain R.which c)) s = .ok () s' ∧ U.Is u ∧ Mem s' (α.put x U) G ∧ s'.allocs = s.allocs + u.nodes := by
  simp only [TreeCfg.nothrowCopy, Bool.and_eq_true, Bool.not_eq_true'] at hc
  obtain ⟨k, v, b, rfl, rfl⟩ := typed_leaf (C := C) hR htu hc.1
  cases (show b = none from hRb)
  obtain ⟨s1, h1, hM1, _, a1, _⟩ := hM.destroyAt (n := n) hx hL hn0
  obtain ⟨_, h2, h3⟩ := hM1.at_run (ht.put_apart ha.symm)
  obtain ⟨s2, h4, hM2, _, a2⟩ := hM1.copyRef_nothrow (n := n) hl (ref_read h2 h3) hc.2
  obtain ⟨s3, h5, hM3, _, a3⟩ := hM2.construct hx rfl
  refine ⟨s3, _, ?_, ?_, hM3, by rw [VTree.nodes]; omega⟩
  · simp only [which, content] at h5
    have h4' : tCopyRef C n k (.inPlace r) s1 = .ok (.leaf v) s2 := h4
    simp only [Eff.noexcept, bind, Eff.bind, h1, which, h4', h5]
  · rw [ATree.Is]; exact ⟨rfl, rfl⟩

theorem tAssigner_run (hl : C.ops.Lawful) {l r : TLoc} {L R : ATree V} {u0 u : VTree V} (hM : Mem s α G) (hx : At α x l L)
    (ht : At α t r R) (hL : L.Is u0) (hR : R.Is u) (hRb : R.box = none) (hty : u0.Typed C.wrapped) (htu : u.Typed C.wrapped)
    (hn0 : u0.height ≤ n) (hn : u.height ≤ n)
    (hrel : x.Apart t ∨ (tDestroysFirst C L.var R.which = false ∧ ∃ is, is ≠ [] ∧ L.walk l is = some (r, R))) :
    Assigns C s α G x u0 u (C.assignCost L u0 u) (tAssigner C n l L.var R.which (.inPlace r) s) := by
  have hRv : R.var.ref r = .inPlace r := by rw [var_none hRb]; rfl
  have hwh := hR.which
  unfold tAssigner
  by_cases hc : C.nothrowCopy R.which = true
  · rw [if_pos hc]
    rw [TreeCfg.assignCost, if_pos (.inl (by rw [← hwh]; exact hc))]
    refine .inl (tAssign_nothrowCopy hl hM hx ht hL hR hRb htu hn0 ?_ hc)
    rcases hrel with h | ⟨h, _⟩
    · exact h
    · simp [tDestroysFirst, hc] at h
  · rw [if_neg hc]
    by_cases hm : C.nothrowMove R.which = true
    · rw [if_pos hm, TreeCfg.assignCost, if_pos (.inr (.inl (by rw [← hwh]; exact hm)))]
      simp only [TreeCfg.nothrowMove, Bool.and_eq_true, Bool.not_eq_true'] at hm
      obtain ⟨k, v, b, rfl, rfl⟩ := typed_leaf (C := C) hR htu hm.1
      cases (show b = none from hRb)
      obtain ⟨_, h2, h3⟩ := hM.at_run ht
      have hrd := ref_read h2 h3
      rw [hRv] at hrd
      rcases hM.copyRef hl hrd h3 hR (by omega : _ ≤ n + 1) with ⟨s1, U, h4, hUb, hU, hM1, ht1, a1⟩ | ⟨e, s1, h4, hM1, hth⟩
      · have hUe : U = .leaf k v none := by
          cases U with
          | leaf k' v' b' => rw [ATree.Is] at hU; obtain ⟨rfl, rfl⟩ := hU; cases (show b' = none from hUb); rfl
          | node => simp [ATree.Is] at hU
          | dead => simp [ATree.Is] at hU
          | blk => simp [ATree.Is] at hU
        subst hUe
        obtain ⟨s2, h5, hM2, _, a2, _⟩ := (hM1.drop rfl).destroyAt (n := n) hx hL hn0
        obtain ⟨s3, h6, hM3, _, a3⟩ := (hM2.ticked.leaf k (C.ops.move k v)).construct hx rfl
        simp only at a3
        refine .inl ⟨s3, _, ?_, ?_, hM3, by omega⟩
        · simp only [which, content] at h6 h4
          simp only [bind, Eff.bind, which, h4, h5, tMayThrow_true, h6]
        · rw [ATree.Is, hl.move_eq]; exact ⟨rfl, rfl⟩
      · refine .inr ⟨e, s1, L, u0, ?_, hL, .inl rfl, by rw [AStore.put_same hx]; exact hM1, hth⟩
        simp only [bind, Eff.bind, h4]
    · rw [if_neg hm]
      cases hfb : C.fallback with
      | some fb =>
        have ha : x.Apart t := by
          rcases hrel with h | ⟨h, _⟩
          · exact h
          · unfold tDestroysFirst at h
            rw [if_neg hc, if_neg hm, hfb] at h
            simp at h
        obtain ⟨s1, h1, hM1, ht1, a1, _⟩ := hM.destroyAt (n := n) hx hL hn0
        obtain ⟨_, h2, h3⟩ := hM1.at_run (ht.put_apart ha.symm)
        have hrd := ref_read h2 h3
        rw [hRv] at hrd
        rw [TreeCfg.assignCost, if_pos (.inr (.inr (by rw [hfb]; nofun)))]
        simp only [bind, Eff.bind, h1]
        rcases hM1.copyRef hl hrd h3 hR (by omega : u.height ≤ n + 1) with ⟨s2, U, h4, hUb, hU, hM2, ht2, a2⟩ | ⟨e, s2, h4, hM2, hth⟩
        · obtain ⟨s3, h5, hM3, _, a3⟩ := hM2.construct hx hUb
          refine .inl ⟨s3, U, ?_, hU, hM3, by omega⟩
          have hk : R.which = U.which := by rw [hR.which, hU.which]
          simp only [Eff.onExc, h4]
          rw [hk, h5]
        · obtain ⟨s3, h5, hM3, ht3, _⟩ := (hM2.ticked.leaf fb (C.ops.defaultInit fb)).construct hx rfl
          simp only at ht3
          refine .inr ⟨e, s3, _, .leaf fb (C.ops.defaultInit fb), ?_, ?_, .inr ⟨fb, hfb, rfl⟩, hM3, hth.mono (by omega) (by omega)⟩
          · simp only [which, content] at h5
            simp only [Eff.onExc, h4, tFallback, bind, Eff.bind, tMayThrow_true, h5]
          · rw [ATree.Is]; exact ⟨rfl, rfl⟩
      | none =>
        rw [TreeCfg.assignCost, if_neg (by rw [← hwh, hfb]; simp only [ne_eq, not_true_eq_false, or_false]; exact fun h => h.elim hc hm)]
        refine tBackupAssign_run hl hM hx ht hL hR hRb hty hn0 hn ?_
        rcases hrel with h | ⟨h, h'⟩
        · exact .inl h
        · refine .inr ⟨fun hb => ?_, h'⟩
          unfold tDestroysFirst at h
          rw [if_neg hc, if_neg hm, hfb, var_none hb] at h
          simp at h

end

end BVariant
