/-
Assignments of recursive variants do what they do on plain values.
-/
import Verif.Lemmas.TreeFrame

namespace BVariant

section
variable {V : Type} {C : TreeCfg V} {s s' : TreeSt V}

open ATree AStore

variable {α : AStore V} {σ : TStore V} {G : List (ATree V)} {n m : Nat} {x t : TPlace}

/-- The outcome of a statement: its effect is that on plain values, and the annotated trees are then as `P` or `Q` says. -/
def DoesP (P Q : AStore V → Prop) (C : TreeCfg V) (c : TCmd V) (σ : TStore V) (G : List (ATree V)) (r : Res (TreeSt V) Unit) : Prop :=
  (∃ s' α' σ', r = .ok () s' ∧ TOk C c σ σ' ∧ IsS α' σ' ∧ Mem s' α' G ∧ P α') ∨
  (∃ e s' α' σ', r = .exc e s' ∧ TExc C c σ σ' ∧ IsS α' σ' ∧ Mem s' α' G ∧ C.throws e.tick = true ∧ Q α')

/-- The outcome of a statement: its effect is that on plain values. -/
def Does (C : TreeCfg V) (c : TCmd V) (σ : TStore V) (G : List (ATree V)) (r : Res (TreeSt V) Unit) : Prop :=
  (∃ s' α' σ', r = .ok () s' ∧ TOk C c σ σ' ∧ IsS α' σ' ∧ Mem s' α' G) ∨
  (∃ e s' α' σ', r = .exc e s' ∧ TExc C c σ σ' ∧ IsS α' σ' ∧ Mem s' α' G ∧ C.throws e.tick = true)

/-- The outcome of a statement: its effect is that on plain values, and the variants and nodes are where they should be. -/
def DoesAt (C : TreeCfg V) (c : TCmd V) (α : AStore V) (σ : TStore V) (G : List (ATree V)) (r : Res (TreeSt V) Unit) : Prop :=
  DoesP (TAfter true c α) (TAfter false c α) C c σ G r

theorem DoesP.mono {P Q P' Q' : AStore V → Prop} {c : TCmd V} {r : Res (TreeSt V) Unit} (h : DoesP P Q C c σ G r)
    (hP : ∀ α, P α → P' α) (hQ : ∀ α, Q α → Q' α) : DoesP P' Q' C c σ G r := by
  rcases h with ⟨s', α', σ', h1, h2, h3, h4, h6⟩ | ⟨e, s', α', σ', h1, h2, h3, h4, h5, h6⟩
  · exact .inl ⟨s', α', σ', h1, h2, h3, h4, hP _ h6⟩
  · exact .inr ⟨e, s', α', σ', h1, h2, h3, h4, h5, hQ _ h6⟩

theorem DoesP.does {P Q : AStore V → Prop} {c : TCmd V} {r : Res (TreeSt V) Unit} (h : DoesP P Q C c σ G r) : Does C c σ G r := by
  rcases h with ⟨s', α', σ', h1, h2, h3, h4, _⟩ | ⟨e, s', α', σ', h1, h2, h3, h4, h5, _⟩
  · exact .inl ⟨s', α', σ', h1, h2, h3, h4⟩
  · exact .inr ⟨e, s', α', σ', h1, h2, h3, h4, h5⟩

/-- Nothing but the two places has changed, if neither is a part of the other. -/
def Kept (α : AStore V) (x t : TPlace) (α' : AStore V) : Prop :=
  (x.Apart t → ∃ U W, α' = (α.put x U).put t W) ∧ TFrame [x, t] α α'

theorem Kept.both {U W : ATree V} : Kept α x t ((α.put x U).put t W) := ⟨fun _ => ⟨_, _, rfl⟩, .put2⟩

theorem Kept.left {r : TLoc} {R U : ATree V} (ht : At α t r R) : Kept α x t (α.put x U) :=
  ⟨fun ha => ⟨U, R, (AStore.put_same (ht.put_apart ha.symm)).symm⟩, .put (by simp)⟩

/-- Both sides of an assignment, or the source of another statement. -/
structure Side (s : TreeSt V) (α : AStore V) (σ : TStore V) (x : TPlace) (l : TLoc) (L : ATree V) (u : VTree V) : Prop where
  at_ : At α x l L
  val : σ.at x = some u
  is : L.Is u

theorem Assigns.does {l l' : TLoc} {L R : ATree V} {u0 u : VTree V} {r : Res (TreeSt V) Unit} (hS : IsS α σ) (hx : Side s α σ x l L u0)
    {m : Nat} (ht : Side s α σ t l' R u) (hne : NotAlike L R) (h : Assigns C s α G x u0 u m r) : DoesAt C (.assign x t) α σ G r := by
  rcases h with ⟨s', U, rfl, hU, hM, _⟩ | ⟨e, s', W, w, rfl, hW, hw, hM, hth⟩
  · exact .inl ⟨s', _, _, rfl, .assign ht.val, hS.put hU, hM, .assign_other hx.at_ ht.at_ hne⟩
  · rcases hw with rfl | ⟨fb, hfb, rfl⟩
    · refine .inr ⟨e, s', _, σ, rfl, .same nofun nofun, ?_, hM, hth.throws, .assign_other hx.at_ ht.at_ hne⟩
      have := hS.put (x := x) hW
      rwa [TStore.put_same hx.val] at this
    · exact .inr ⟨e, s', _, _, rfl, .fallback hfb, hS.put hW, hM, hth.throws, .assign_other hx.at_ ht.at_ hne⟩

/-- Two objects of one type are both plain or both nodes. -/
theorem same_kind {L R : ATree V} {u0 u : VTree V} (hL : L.Is u0) (hR : R.Is u) (h0 : u0.Typed C.wrapped) (h1 : u.Typed C.wrapped)
    (hk : L.which = R.which) :
    (∃ k v w b b', L = .leaf k v b ∧ R = .leaf k w b' ∧ u0 = .leaf k v ∧ u = .leaf k w) ∨
    (∃ k a p f b a' p' f' b' g g', L = .node k a p f b ∧ R = .node k a' p' f' b' ∧ u0 = .node k a g ∧ u = .node k a' g' ∧
      IsL f g ∧ IsL f' g') := by
  cases hw : C.wrapped L.which with
  | false =>
    obtain ⟨k, v, b, rfl, rfl⟩ := typed_leaf hL h0 hw
    obtain ⟨k', v', b', rfl, rfl⟩ := typed_leaf hR h1 (hk ▸ hw)
    cases (show k = k' from hk)
    exact .inl ⟨k, v, v', b, b', rfl, rfl, rfl, rfl⟩
  | true =>
    have hnode : ∀ {T : ATree V} {z : VTree V}, T.Is z → z.Typed C.wrapped → C.wrapped T.which = true →
        ∃ k a p f b g, T = .node k a p f b ∧ z = .node k a g ∧ IsL f g := by
      intro T z hi ht hw
      cases T with
      | leaf k v b =>
        cases z with
        | leaf k' v' =>
          rw [ATree.Is] at hi; obtain ⟨rfl, rfl⟩ := hi
          rw [VTree.Typed] at ht
          simp only [which] at hw
          rw [hw] at ht; cases ht
        | node => simp [ATree.Is] at hi
      | node k a p f b =>
        cases z with
        | leaf => simp [ATree.Is] at hi
        | node k' a' f' => rw [ATree.Is] at hi; obtain ⟨rfl, rfl, h⟩ := hi; exact ⟨k, a, p, f, b, f', rfl, rfl, h⟩
      | dead => simp [ATree.Is] at hi
      | blk => simp [ATree.Is] at hi
    obtain ⟨k, a, p, f, b, g, rfl, rfl, h2⟩ := hnode hL h0 hw
    obtain ⟨k', a', p', f', b', g', rfl, rfl, h3⟩ := hnode hR h1 (hk ▸ hw)
    cases (show k = k' from hk)
    exact .inr ⟨k, a, p, f, b, a', p', f', b', g, g', rfl, rfl, rfl, rfl, h2, h3⟩

/-- Put a plain value where the plain object at a place is. -/
theorem Mem.setLeaf {l : TLoc} {k : TyIx} {v : V} {b : Option ObjId} (w : V) (hM : Mem s α G) (hx : At α x l (.leaf k v b)) :
    ∃ s', ((ATree.leaf k v b).var.ref l).write k (.leaf w) s = .ok () s' ∧ Mem s' (α.put x (.leaf k w b)) G ∧ s'.tick = s.tick ∧
      s'.allocs = s.allocs := by
  obtain ⟨h1, h2⟩ := (hM.leaf k w).replaceRef hx rfl rfl rfl
  obtain ⟨c1, c2, _⟩ := set_counters k ((ATree.leaf k v b).var.ref l) (.leaf w) s
  exact ⟨_, h1, h2.drop rfl, c1, c2⟩

/-- A ghost becomes a variable. -/
theorem Mem.newVar {U : ATree V} {x : Nat} (hM : Mem s α (U :: G)) (hx : α x = none) :
    ∃ s', tSetVar x (some U.var) s = .ok () s' ∧ Mem s' (upd α x (some U)) G ∧ s'.tick = s.tick :=
  ⟨_, rfl, hM.setVar hx, rfl⟩

/-- The life of a variable ends. -/
theorem Mem.destroyVar {T : ATree V} {u : VTree V} {x : Nat} (hM : Mem s α G) (hx : α x = some T) (hT : T.Is u) (hn : u.height ≤ n) :
    ∃ s1 s', tDestroyVar n T.var s = .ok () s1 ∧ tSetVar x none s1 = .ok () s' ∧ Mem s' (upd α x none) G ∧
      s'.heap = (s.del T.blocks).heap := by
  have hnd : T.blocks.Nodup := List.nodup_iff_count.mpr fun p => by
    have := hM.excl x p; rw [hx] at this; simp only [blocksO] at this; omega
  have h1 := tDestroyVar_run (n := n) (ATree.rep (hM.holds x T hx) hT) hnd hn
  obtain ⟨s2, _, hM2, _, _, _, _, rfl⟩ := (hM.takeVar hx).destroy hT hn
  exact ⟨_, _, h1, rfl, hM2, rfl⟩

/-! ### Copy assignment -/

/-- Assignment of nodes, and of plain objects. -/
theorem tAssignContent_run (hl : C.ops.Lawful) {l r : TLoc} {L R : ATree V} {u0 u : VTree V} (hM : Mem s α G) (hS : IsS α σ)
    (hx : Side s α σ x l L u0) (ht : Side s α σ t r R u) (h0 : u0.Typed C.wrapped) (h1 : u.Typed C.wrapped) (hk : L.which = R.which)
    (hn0 : u0.height ≤ n) (hn : u.height ≤ n) :
    DoesAt C (.assign x t) α σ G (tAssignContent C n L.which (L.var.ref l) (R.var.ref r) s) := by
  obtain ⟨_, hlr, hlh⟩ := hM.at_run hx.at_
  obtain ⟨_, hrr, hrh⟩ := hM.at_run ht.at_
  have hl1 := ref_read hlr hlh
  have hr1 := ref_read hrr hrh
  obtain ⟨hx, hxv, hL⟩ := hx
  obtain ⟨ht, htv, hR⟩ := ht
  rcases same_kind hL hR h0 h1 hk with ⟨k, v, w, b, b', rfl, rfl, rfl, rfl⟩ | ⟨k, a, p, f, b, a', p', f', b', g, g', rfl, rfl, rfl, rfl, h2, h3⟩
  · simp only [content] at hl1 hr1
    rcases tMayThrow_run (C := C) false (.copyAssign k) s with hthr | ⟨hthr, hto⟩
    · have hM1 : Mem { s with tick := s.tick + 1 } α G := hM.same rfl rfl (Nat.le_refl _)
      obtain ⟨s2, h4, hM2, _⟩ := hM1.setLeaf (C.ops.assign k v w) hx
      refine .inl ⟨s2, _, σ.put x (.leaf k w), ?_, .assign htv, hS.put ?_, hM2, .assign_other hx ht (.inl .leaf)⟩
      · simp only [tAssignContent, which, bind, Eff.bind, hl1, hr1, Eff.onExc, hthr, h4]
      · rw [ATree.Is, hl.assign_eq]; exact ⟨rfl, rfl⟩
    · have hM1 : Mem { s with tick := s.tick + 1 } α G := hM.same rfl rfl (Nat.le_refl _)
      obtain ⟨s2, h4, hM2, t2, _⟩ := hM1.setLeaf (C.ops.assignFail k v w) hx
      refine .inr ⟨⟨.copyAssign k, s.tick⟩, s2, _, _, ?_, .plain hxv htv, hS.put (u := .leaf k (C.ops.assignFail k v w)) ?_, hM2, hto,
        .assign_other hx ht (.inl .leaf)⟩
      · simp only [tAssignContent, which, bind, Eff.bind, hl1, hr1, Eff.onExc, hthr, h4]
      · rw [ATree.Is]; exact ⟨rfl, rfl⟩
  · simp only [content] at hl1 hr1
    rw [VTree.height] at hn hn0
    rw [ATree.Holds] at hrh hlh
    have hq : tReadNode p' s = .ok (a', f'.map ATree.var) s := by simp only [tReadNode, hrh.2.1]
    rcases tMayThrow_run (C := C) (C.tr k).nothrowCopy (.copyCtor k) s with hthr | ⟨hthr, hto⟩
    · have hM1 : Mem { s with tick := s.tick + 1 } α G := hM.same rfl rfl (Nat.le_refl _)
      rcases hM1.copyList (C := C) (n := n) hl hrh.2.2 h3 (by omega) with ⟨s2, us, h4, h5, hM2, t2, _⟩ | ⟨e, s2, h4, hM2, hth⟩
      · have hh2 := (hM2.at_run hx).2.2
        rw [ATree.Holds] at hh2
        have hp : tReadNode p s2 = .ok (a, f.map ATree.var) s2 := by simp only [tReadNode, hh2.2.1]
        have hg := hM2.ghosts
        rw [holdsL_append] at hg
        obtain ⟨s3, h6, hM3, _⟩ := hM2.setNode (a' := C.ops.copy k a') (f' := us) (G' := f ++ G) hx hg.1
          (by rw [holdsL_append]; exact ⟨hh2.2.2, hg.2⟩) (fun q => by simp only [count_append]; omega)
        obtain ⟨s4, h7, hM4, _⟩ := hM3.destroyList (n := n) h2 (by omega)
        refine .inl ⟨s4, _, _, ?_, .assign htv, hS.put ?_, hM4, .assign_node hx⟩
        · simp only [tAssignContent, which, bind, Eff.bind, hl1, hr1, tAssignNode, hq, hthr, h4, hp, h6, h7]
        · rw [ATree.Is, hl.copy_eq]; exact ⟨rfl, rfl, h5⟩
      · refine .inr ⟨e, s2, α, σ, ?_, .same nofun nofun, hS, hM2, hth.throws, .assign_same⟩
        simp only [tAssignContent, which, bind, Eff.bind, hl1, hr1, tAssignNode, hq, hthr, h4]
    · have hM1 : Mem { s with tick := s.tick + 1 } α G := hM.same rfl rfl (Nat.le_refl _)
      refine .inr ⟨⟨.copyCtor k, s.tick⟩, { s with tick := s.tick + 1 }, α, σ, ?_, .same nofun nofun, hS, hM1, hto, .assign_same⟩
      simp only [tAssignContent, which, bind, Eff.bind, hl1, hr1, tAssignNode, hq, hthr]

/-! ### Move assignment -/

/-- Move assignment of nodes, and of plain objects. -/
theorem tMoveAssignContent_run (hl : C.ops.Lawful) {l r : TLoc} {L R : ATree V} {u0 u : VTree V} (hM : Mem s α G) (hS : IsS α σ)
    (hx : Side s α σ x l L u0) (ht : Side s α σ t r R u) (h0 : u0.Typed C.wrapped) (h1 : u.Typed C.wrapped) (hk : L.which = R.which)
    (hrel : x = t ∨ x.Apart t) :
    DoesAt C (.moveAssign x t) α σ G (tMoveAssignContent C L.which (L.var.ref l) (R.var.ref r) s) := by
  obtain ⟨_, hlr, hlh⟩ := hM.at_run hx.at_
  obtain ⟨_, hrr, hrh⟩ := hM.at_run ht.at_
  have hl1 := ref_read hlr hlh
  have hr1 := ref_read hrr hrh
  obtain ⟨hx, hxv, hL⟩ := hx
  obtain ⟨ht, htv, hR⟩ := ht
  rcases same_kind hL hR h0 h1 hk with ⟨k, v, w, b, b', rfl, rfl, rfl, rfl⟩ | ⟨k, a, p, f, b, a', p', f', b', g, g', rfl, rfl, rfl, rfl, h2, h3⟩
  · simp only [content] at hl1 hr1
    have hM1 : Mem { s with tick := s.tick + 1 } α G := hM.same rfl rfl (Nat.le_refl _)
    rcases hrel with rfl | ha
    · obtain ⟨rfl, e⟩ := hx.unique ht
      cases e
      rcases tMayThrow_run (C := C) (C.tr k).nothrowMoveAssign (.moveAssign k) s with hthr | ⟨hthr, hto⟩
      · obtain ⟨s2, h4, hM2, _⟩ := hM1.setLeaf (C.ops.selfMove k v) hx
        refine .inl ⟨s2, _, _, ?_, .self hxv, hS.put (u := .leaf k (C.ops.selfMove k v)) ?_, hM2,
          .move_other hx hx (.inl .leaf) (.put (by simp))⟩
        · simp only [tMoveAssignContent, which, bind, Eff.bind, hl1, if_true, Eff.onExc, hthr, h4]
        · rw [ATree.Is]; exact ⟨rfl, rfl⟩
      · obtain ⟨s2, h4, hM2, t2, _⟩ := hM1.setLeaf (C.ops.selfMoveFail k v) hx
        refine .inr ⟨⟨.moveAssign k, s.tick⟩, s2, _, _, ?_, .moveSelf hxv, hS.put (u := .leaf k (C.ops.selfMoveFail k v)) ?_, hM2, hto,
          .move_other hx hx (.inl .leaf) (.put (by simp))⟩
        · simp only [tMoveAssignContent, which, bind, Eff.bind, hl1, if_true, Eff.onExc, hthr, h4]
        · rw [ATree.Is]; exact ⟨rfl, rfl⟩
    · have hne := ref_ne hM hx ht ha
      have hxt : x ≠ t := by
        rintro rfl
        obtain ⟨rfl, e⟩ := hx.unique ht
        cases e
        exact hne rfl
      rcases tMayThrow_run (C := C) (C.tr k).nothrowMoveAssign (.moveAssign k) s with hthr | ⟨hthr, hto⟩
      · obtain ⟨s2, h4, hM2, _⟩ := hM1.setLeaf (C.ops.moveAssign k v w) hx
        obtain ⟨s3, h5, hM3, _⟩ := hM2.setLeaf (C.ops.moveAssignSrc k v w) (ht.put_apart ha.symm)
        refine .inl ⟨s3, _, _, ?_, .plain hxt hxv htv, (hS.put (u := .leaf k w) ?_).put (u := .leaf k (C.ops.moveAssignSrc k v w)) ?_, hM3,
          .move_other hx ht (.inl .leaf) .put2⟩
        · simp only [tMoveAssignContent, which, bind, Eff.bind, hl1, hr1, if_neg hne, Eff.onExc, hthr, h4, h5]
        · rw [ATree.Is, hl.moveAssign_eq]; exact ⟨rfl, rfl⟩
        · rw [ATree.Is]; exact ⟨rfl, rfl⟩
      · obtain ⟨s2, h4, hM2, t2, _⟩ := hM1.setLeaf (C.ops.moveAssignFail k v w) hx
        obtain ⟨s3, h5, hM3, t3, _⟩ := hM2.setLeaf (C.ops.moveAssignFailSrc k v w) (ht.put_apart ha.symm)
        refine .inr ⟨⟨.moveAssign k, s.tick⟩, s3, _, _, ?_, .movePlain hxt hxv htv,
          (hS.put (u := .leaf k (C.ops.moveAssignFail k v w)) ?_).put (u := .leaf k (C.ops.moveAssignFailSrc k v w)) ?_, hM3, hto,
          .move_other hx ht (.inl .leaf) .put2⟩
        · simp only [tMoveAssignContent, which, bind, Eff.bind, hl1, hr1, if_neg hne, Eff.onExc, hthr, h4, h5]
        · rw [ATree.Is]; exact ⟨rfl, rfl⟩
        · rw [ATree.Is]; exact ⟨rfl, rfl⟩
  · simp only [content] at hl1 hr1
    rcases hrel with rfl | ha
    · obtain ⟨rfl, e⟩ := hx.unique ht
      cases e
      have h4 := ref_write (k := k) (c := .wrap p) hl1
      have h5 := set_self hlr hlh
      simp only [which, content] at h5
      rw [h5] at h4
      rw [hxv] at htv
      cases htv
      refine .inl ⟨s, α, σ, ?_, ?_, hS, hM, .move_self⟩
      · simp only [tMoveAssignContent, which, bind, Eff.bind, hl1, h4]
      · have := TOk.swapped (C := C) hxv hxv
        rwa [TStore.put_same hxv, TStore.put_same hxv] at this
    · obtain ⟨h4, h5, hM2⟩ := hM.swapRef hx ht hL hR rfl ha
      refine .inl ⟨_, _, _, ?_, .swapped hxv htv, (hS.put (setBox_is b hR)).put (setBox_is b' hL), hM2,
        .move_nodes ha hx ht⟩
      simp only [which, content] at h4 h5
      simp only [tMoveAssignContent, which, bind, Eff.bind, hl1, hr1, h4, h5, content]

theorem lwrite_noexc {l : TLoc} {v : TVar V} {e : Exc} : l.write v s ≠ .exc e s' := by
  intro h
  cases l with
  | var y =>
    simp only [TLoc.write, bind, Eff.bind, tVar, tSetVar, Eff.modify] at h
    cases hv : s.vars y with
    | none => rw [hv] at h; cases h
    | some v => rw [hv] at h; cases h
  | child p i =>
    simp only [TLoc.write, bind, Eff.bind, tReadNode] at h
    cases hp : s.heap p with
    | none => rw [hp] at h; cases h
    | some c =>
      rw [hp] at h
      cases c with
      | raw => cases h
      | box => cases h
      | node a cs =>
        simp only at h
        split at h <;> cases h

/-- A nothrow move does not throw. -/
theorem tMoveRef_noexc {l : TLoc} {k : TyIx} {v : V} {e : Exc} (hk : (C.tr k).nothrowMove = true)
    (hr : l.read s = .ok (.plain k (.leaf v)) s) : tMoveRef C (tMoveVar C n) (tDestroyVar n) k (.inPlace l) s ≠ .exc e s' := by
  intro h
  have hrd : (TRef.inPlace l).read s = .ok (.leaf v) s := by simp only [TRef.read, bind, Eff.bind, hr, pure, Eff.pure]
  simp only [tMoveRef, bind, Eff.bind, hrd, Eff.onExc, tMayThrow, hk, TRef.write, pure, Eff.pure, Bool.not_true,
    Bool.false_and, Bool.false_eq_true, if_false] at h
  cases hw : l.write (.plain k (.leaf (C.ops.movedFrom k v))) { s with tick := s.tick + 1 } with
  | ok _ _ => rw [hw] at h; cases h
  | exc _ _ => exact lwrite_noexc hw
  | fault _ => rw [hw] at h; cases h

theorem tMoveAssigner_run (hl : C.ops.Lawful) {l r : TLoc} {L R : ATree V} {u0 u : VTree V} (hM : Mem s α G) (hS : IsS α σ)
    (hx : Side s α σ x l L u0) (ht : Side s α σ t r R u) (hRb : R.box = none) (hty : u0.Typed C.wrapped) (htu : u.Typed C.wrapped)
    (hn0 : u0.height ≤ n) (hn : u.height ≤ n)
    (hrel : x.Apart t ∨ (tMoveDestroysFirst C L.var R.which = false ∧ ∃ is, is ≠ [] ∧ L.walk l is = some (r, R))) :
    DoesP (Kept α x t) (Kept α x t) C (.moveAssign x t) σ G (tMoveAssigner C n l L.var R.which (.inPlace r) s) := by
  obtain ⟨hx, hxv, hL⟩ := hx
  obtain ⟨ht, htv, hR⟩ := ht
  have hRv : R.var.ref r = .inPlace r := by rw [var_none hRb]; rfl
  -- the left content is destroyed, then the right one moved
  have hmove : x.Apart t → ∃ s1, tDestroyAt n l s = .ok () s1 ∧ Mem s1 (α.put x (.dead L.which none)) G ∧ s1.tick = s.tick ∧
      r.read s1 = .ok R.var s1 ∧
      ((∃ s2 U R', tMoveRef C (tMoveVar C n) (tDestroyVar n) R.which (.inPlace r) s1 = .ok U.content s2 ∧ U.Is u ∧
          R'.Is (u.movedFrom C) ∧ ∃ s3, l.write (.plain R.which U.content) s2 = .ok () s3 ∧ Mem s3 ((α.put x U).put t R') G) ∨
       (∃ e s2 R' u', tMoveRef C (tMoveVar C n) (tDestroyVar n) R.which (.inPlace r) s1 = .exc e s2 ∧ u.Partly C u' ∧ R'.Is u' ∧
          Mem s2 ((α.put t R').put x (.dead L.which none)) G ∧ Threw C s1 e s2 ∧ At (α.put t R') x l L)) := by
    intro ha
    obtain ⟨s1, h1, hM1, t1, _⟩ := hM.destroyAt (n := n) hx hL hn0
    have ht1 : At (α.put x (.dead L.which none)) t r R := ht.put_apart ha.symm
    refine ⟨s1, h1, hM1, t1, (hM1.at_run ht1).2.1, ?_⟩
    have hx1 : ∀ R', At (α.put t R') x l L := fun R' => hx.put_apart ha
    rw [← hRv]
    rcases tMoveRef_run (C := C) (n := n) hM1 ht1 hR (by omega) with ⟨s2, U, R', h2, hUb, hU, hR', hM2, _⟩ | ⟨e, s2, R', u', h2, hp, hR', hM2, hth⟩
    · rw [VTree.moved_lawful hl] at hU
      rw [AStore.put_comm ha.symm] at hM2
      obtain ⟨s3, h3, hM3, _⟩ := hM2.construct (hx1 R') hUb
      have hk : R.which = U.which := by rw [hR.which, hU.which]
      refine .inl ⟨s2, U, R', h2, hU, hR', s3, by rw [hk]; exact h3, ?_⟩
      rw [AStore.put_comm ha.symm]; exact hM3
    · rw [AStore.put_comm ha.symm] at hM2
      exact .inr ⟨e, s2, R', u', h2, hp, hR', hM2, hth, hx1 R'⟩
  unfold tMoveAssigner
  by_cases hm : C.nothrowMove R.which = true
  · rw [if_pos hm]
    have ha : x.Apart t := by
      rcases hrel with h | ⟨h, _⟩
      · exact h
      · simp [tMoveDestroysFirst, hm] at h
    obtain ⟨s1, h1, hM1, t1, hrd, ⟨s2, U, R', h2, hU, hR', s3, h3, hM3⟩ | ⟨e, s2, R', u', h2, _⟩⟩ := hmove ha
    · refine .inl ⟨s3, _, _, ?_, .moved (.inl (hR.which ▸ hm)) htv, (hS.put hU).put hR', hM3, .both⟩
      simp only [Eff.noexcept, bind, Eff.bind, h1, h2, h3]
    · exfalso
      simp only [TreeCfg.nothrowMove, Bool.and_eq_true, Bool.not_eq_true'] at hm
      obtain ⟨k, v, b, rfl, rfl⟩ := typed_leaf (C := C) hR htu hm.1
      cases (show b = none from hRb)
      exact tMoveRef_noexc hm.2 hrd h2
  · rw [if_neg hm]
    by_cases hc : C.nothrowCopy R.which = true
    · rw [if_pos hc]
      have ha : x.Apart t := by
        rcases hrel with h | ⟨h, _⟩
        · exact h
        · simp [tMoveDestroysFirst, hc] at h
      obtain ⟨s', U, h1, hU, hM1, _⟩ := tAssign_nothrowCopy hl hM hx ht hL hR hRb htu hn0 ha hc
      exact .inl ⟨s', _, _, h1, .copied (hR.which ▸ fun h => h.elim hm fun h => by rw [hc] at h; cases h.1) htv, hS.put hU, hM1, .left ht⟩
    · rw [if_neg hc]
      cases hfb : C.fallback with
      | some fb =>
        have ha : x.Apart t := by
          rcases hrel with h | ⟨h, _⟩
          · exact h
          · simp [tMoveDestroysFirst, hfb] at h
        obtain ⟨s1, h1, hM1, t1, hrd, ⟨s2, U, R', h2, hU, hR', s3, h3, hM3⟩ | ⟨e, s2, R', u', h2, hp, hR', hM2, hth, hx1⟩⟩ := hmove ha
        · refine .inl ⟨s3, _, _, ?_, .moved (.inr (hR.which ▸ ⟨Bool.eq_false_iff.mpr hc, by rw [hfb]; nofun⟩)) htv, (hS.put hU).put hR', hM3, .both⟩
          simp only [Eff.onExc, bind, Eff.bind, h1, h2, h3]
        · obtain ⟨s3, h3, hM3, t3, _⟩ := (hM2.ticked.leaf fb (C.ops.defaultInit fb)).construct hx1 rfl
          rw [AStore.put_comm ha] at hM3
          refine .inr ⟨e, s3, _, _, ?_, .moveFallback hfb htv hp, (hS.put (u := .leaf fb (C.ops.defaultInit fb)) ?_).put hR', hM3,
            hth.throws, .both⟩
          · simp only [which, content] at h3
            simp only [Eff.onExc, bind, Eff.bind, h1, h2, tFallback, tMayThrow_true, h3]
          · rw [ATree.Is]; exact ⟨rfl, rfl⟩
      | none =>
        have hrel' : x.Apart t ∨ (L.box ≠ none ∧ ∃ is, is ≠ [] ∧ L.walk l is = some (r, R)) := by
          rcases hrel with h | ⟨h, h'⟩
          · exact .inl h
          · refine .inr ⟨fun hb => ?_, h'⟩
            rw [var_none hb] at h
            simp [tMoveDestroysFirst, hfb] at h
        rcases tBackupAssign_run hl hM hx ht hL hR hRb hty hn0 hn hrel' with
          ⟨s', U, h1, hU, hM1, _⟩ | ⟨e, s', W, w, h1, hW, hw, hM1, hth⟩
        · exact .inl ⟨s', _, _, h1, .copied (hR.which ▸ fun h => h.elim hm fun h => h.2 hfb) htv, hS.put hU, hM1, .left ht⟩
        · rcases hw with rfl | ⟨fb, hfb', _⟩
          · refine .inr ⟨e, s', _, σ, h1, .same nofun nofun, ?_, hM1, hth.throws, .left ht⟩
            have := hS.put (x := x) hW
            rwa [TStore.put_same hxv] at this
          · rw [hfb] at hfb'; cases hfb'

/-! ### Statements -/

theorem notAlike {L R : ATree V} (hRb : R.box = none) (hne : L.which ≠ R.which ∨ L.box ≠ none) : NotAlike L R := by
  rcases hne with h | h
  · exact .inl (.inr h)
  · refine .inr ?_
    rw [hRb]
    cases hb : L.box with
    | none => exact absurd hb h
    | some q => simp

theorem tVariantAssign_run (hl : C.ops.Lawful) {l r : TLoc} {L R : ATree V} {u0 u : VTree V} (hM : Mem s α G) (hS : IsS α σ)
    (hx : Side s α σ x l L u0) (ht : Side s α σ t r R u) (hty : u0.Typed C.wrapped) (htu : u.Typed C.wrapped)
    (hn0 : u0.height ≤ n) (hn : u.height ≤ n) (hh : TCmd.hazard C s (.assign x t) = false) :
    DoesAt C (.assign x t) α σ G (tVariantAssign C n l r s) := by
  obtain ⟨_, hlr, _⟩ := hM.at_run hx.at_
  obtain ⟨_, hrr, _⟩ := hM.at_run ht.at_
  simp only [TCmd.hazard, hM.variant_eq hx.at_, hM.variant_eq ht.at_] at hh
  have hcontent := tAssignContent_run (n := n) hl hM hS hx ht hty htu
  have hcode : tVariantAssign C n l r s = (match L.var, R.var with
      | .plain k _, .plain k' _ =>
        if k = k' then tAssignContent C n k (.inPlace l) (.inPlace r) else tAssigner C n l L.var k' (.inPlace r)
      | .backup k q, .backup k' q' =>
        if k = k' then tAssignContent C n k (.inBox q) (.inBox q') else Eff.fail .assertFailed
      | .backup _ _, .plain k' _ => tAssigner C n l L.var k' (.inPlace r)
      | .plain _ _, .backup _ _ => Eff.fail .assertFailed) s := by
    simp only [tVariantAssign, bind, Eff.bind, hlr, hrr]
    cases L.var <;> cases R.var <;> rfl
  rw [hcode]
  -- assignment between types
  have hass : R.box = none → (t.inside x && tDestroysFirst C L.var R.which) = false → x.inside t = false → L.which ≠ R.which ∨ L.box ≠ none →
      DoesAt C (.assign x t) α σ G (tAssigner C n l L.var R.which (.inPlace r) s) := by
    intro hRb h1 h2 hne
    refine (tAssigner_run hl hM hx.at_ ht.at_ hx.is ht.is hRb hty htu hn0 hn ?_).does hS hx ht (notAlike hRb hne)
    rcases TPlace.cases x t with rfl | h | h | h
    · obtain ⟨rfl, rfl⟩ := hx.at_.unique ht.at_
      rcases hne with h | h
      · exact absurd rfl h
      · exact absurd hRb h
    · exact .inl h
    · rw [h, Bool.true_and] at h1
      obtain ⟨is, g1, _, _, g2⟩ := hx.at_.inside ht.at_ h
      exact .inr ⟨h1, is, g1, g2⟩
    · rw [h] at h2; cases h2
  cases hb : L.box with
  | none =>
    have hv := var_none hb
    cases hb' : R.box with
    | none =>
      have hv' := var_none hb'
      rw [hv, hv'] at hh ⊢
      simp only at hh ⊢
      by_cases hk : L.which = R.which
      · rw [if_pos hk]
        have := hcontent hk hn0 hn
        rw [hv, hv'] at this
        exact this
      · rw [if_neg hk]
        simp only [bne_iff_ne.mpr hk, Bool.true_and, Bool.or_eq_false_iff] at hh
        rw [← hv] at hh ⊢
        exact hass hb' hh.1 hh.2 (.inl hk)
    | some q' =>
      have hv' : R.var = .backup R.which q' := by unfold var; rw [hb']
      rw [hv, hv'] at hh
      simp at hh
  | some q =>
    have hv : L.var = .backup L.which q := by unfold var; rw [hb]
    cases hb' : R.box with
    | none =>
      have hv' := var_none hb'
      rw [hv, hv'] at hh
      simp only [Bool.or_eq_false_iff] at hh
      rw [hv, hv']
      simp only
      rw [← hv] at hh ⊢
      exact hass hb' hh.1 hh.2 (.inr (by rw [hb]; nofun))
    | some q' =>
      have hv' : R.var = .backup R.which q' := by unfold var; rw [hb']
      rw [hv, hv'] at hh ⊢
      simp only [bne_eq_false_iff_eq] at hh
      simp only [if_pos hh]
      have := hcontent hh hn0 hn
      rw [hv, hv'] at this
      exact this

theorem tVariantMoveAssign_run (hl : C.ops.Lawful) {l r : TLoc} {L R : ATree V} {u0 u : VTree V} (hM : Mem s α G) (hS : IsS α σ)
    (hx : Side s α σ x l L u0) (ht : Side s α σ t r R u) (hty : u0.Typed C.wrapped) (htu : u.Typed C.wrapped)
    (hn0 : u0.height ≤ n) (hn : u.height ≤ n) (hh : TCmd.hazard C s (.moveAssign x t) = false) :
    DoesAt C (.moveAssign x t) α σ G (tVariantMoveAssign C n l r s) := by
  obtain ⟨_, hlr, _⟩ := hM.at_run hx.at_
  obtain ⟨_, hrr, _⟩ := hM.at_run ht.at_
  simp only [TCmd.hazard, hM.variant_eq hx.at_, hM.variant_eq ht.at_] at hh
  have hcontent := fun (hk : L.which = R.which) (h1 : t.inside x = false) (h2 : x.inside t = false) =>
    tMoveAssignContent_run hl hM hS hx ht hty htu hk (by
    rcases TPlace.cases x t with h | h | h | h
    · exact .inl h
    · exact .inr h
    · rw [h] at h1; cases h1
    · rw [h] at h2; cases h2)
  have hcode : tVariantMoveAssign C n l r s = (match L.var, R.var with
      | .plain k _, .plain k' _ =>
        if k = k' then tMoveAssignContent C k (.inPlace l) (.inPlace r) else tMoveAssigner C n l L.var k' (.inPlace r)
      | .backup k q, .backup k' q' =>
        if k = k' then tMoveAssignContent C k (.inBox q) (.inBox q') else Eff.fail .assertFailed
      | .backup _ _, .plain k' _ => tMoveAssigner C n l L.var k' (.inPlace r)
      | .plain _ _, .backup _ _ => Eff.fail .assertFailed) s := by
    simp only [tVariantMoveAssign, bind, Eff.bind, hlr, hrr]
    cases L.var <;> cases R.var <;> rfl
  rw [hcode]
  have hass : R.box = none → (t.inside x && tMoveDestroysFirst C L.var R.which) = false → x.inside t = false → L.which ≠ R.which ∨ L.box ≠ none →
      DoesAt C (.moveAssign x t) α σ G (tMoveAssigner C n l L.var R.which (.inPlace r) s) := by
    intro hRb h1 h2 hne
    refine (tMoveAssigner_run hl hM hS hx ht hRb hty htu hn0 hn ?_).mono (fun _ h => .move_other hx.at_ ht.at_ (notAlike hRb hne) h.2)
      fun _ h => .move_other hx.at_ ht.at_ (notAlike hRb hne) h.2
    rcases TPlace.cases x t with rfl | h | h | h
    · obtain ⟨rfl, rfl⟩ := hx.at_.unique ht.at_
      rcases hne with h | h
      · exact absurd rfl h
      · exact absurd hRb h
    · exact .inl h
    · rw [h, Bool.true_and] at h1
      obtain ⟨is, g1, _, _, g2⟩ := hx.at_.inside ht.at_ h
      exact .inr ⟨h1, is, g1, g2⟩
    · rw [h] at h2; cases h2
  cases hb : L.box with
  | none =>
    have hv := var_none hb
    cases hb' : R.box with
    | none =>
      have hv' := var_none hb'
      rw [hv, hv'] at hh ⊢
      simp only at hh ⊢
      by_cases hk : L.which = R.which
      · rw [if_pos hk]
        rw [if_pos hk] at hh
        simp only [Bool.or_eq_false_iff] at hh
        have := hcontent hk hh.1 hh.2
        rw [hv, hv'] at this
        exact this
      · rw [if_neg hk]
        rw [if_neg hk] at hh
        simp only [Bool.or_eq_false_iff] at hh
        rw [← hv] at hh ⊢
        exact hass hb' hh.1 hh.2 (.inl hk)
    | some q' =>
      have hv' : R.var = .backup R.which q' := by unfold var; rw [hb']
      rw [hv, hv'] at hh
      simp at hh
  | some q =>
    have hv : L.var = .backup L.which q := by unfold var; rw [hb]
    cases hb' : R.box with
    | none =>
      have hv' := var_none hb'
      rw [hv, hv'] at hh
      simp only [Bool.or_eq_false_iff] at hh
      rw [hv, hv']
      simp only
      rw [← hv] at hh ⊢
      exact hass hb' hh.1 hh.2 (.inr (by rw [hb]; nofun))
    | some q' =>
      have hv' : R.var = .backup R.which q' := by unfold var; rw [hb']
      rw [hv, hv'] at hh ⊢
      simp only [Bool.or_eq_false_iff, bne_eq_false_iff_eq] at hh
      simp only [if_pos hh.1.1]
      have := hcontent hh.1.1 hh.1.2 hh.2
      rw [hv, hv'] at this
      exact this

end

end BVariant
