/-
Swap of recursive variants, in the model and in the specification for C73.
-/
import Verif.Lemmas.TreeExchange
import Verif.Lemmas.ExactTreeDoes

namespace BVariant

section
variable {V : Type} {C : TreeCfg V} {s s' : TreeSt V}

open ATree AStore

variable {α : AStore V} {G : List (ATree V)} {n z : Nat} {x t : TPlace} {vs : XStore V} {c : Count}

mutual
theorem VTree.typed_moved {w : TyIx → Bool} : ∀ {t : VTree V}, t.Typed w → (t.moved C).Typed w
  | .leaf _ _, h => h
  | .node k a f, h => by
    rw [VTree.Typed] at h
    rw [VTree.moved, VTree.Typed]
    refine ⟨h.1, ?_⟩
    cases C.steals k with
    | true => rw [if_pos rfl]; exact h.2
    | false => rw [if_neg nofun]; exact VForest.typed_moved h.2
theorem VForest.typed_moved {w : TyIx → Bool} : ∀ {f : VForest V}, f.Typed w → (f.moved C).Typed w
  | .nil, h => h
  | .cons _ _, h => by
    rw [VForest.Typed] at h
    rw [VForest.moved, VForest.Typed]; exact ⟨VTree.typed_moved h.1, VForest.typed_moved h.2⟩
end

theorem ShowsS.side {l : TLoc} {L : ATree V} {u : XTree V} (hS : ShowsS α vs) (hx : At α x l L) (hL : L.Shows u) : XSide α vs x l L u := by
  obtain ⟨u', h1, h2⟩ := hS.at hx
  rw [hL.unique h2]
  exact ⟨hx, h1, h2⟩

theorem tSetNode_count {p : ObjId} {a : V} {cs : List (TVar V)} (h : tSetNode p a cs s = .ok () s') : s'.count = s.count := by
  simp only [tSetNode, bind, Eff.bind, tReadNode, Eff.modify] at h
  split at h
  · cases h; rename_i h'; split at h' <;> cases h'; rfl
  · cases h
  · cases h

theorem Mem.endVarX {T : ATree V} {u : VTree V} (hM : Mem s α G) (hz : α z = some T) (hT : T.Is u) (hn : u.height ≤ n) :
    ∃ s', tEndVar n z s = .ok () s' ∧ Mem s' (upd α z none) G ∧ s'.count = s.count := by
  obtain ⟨s1, s2, g1, g2, hM2, _⟩ := hM.destroyVar (n := n) hz hT hn
  have hrd := hM.read_var hz
  simp only [TLoc.read] at hrd
  refine ⟨s2, by simp only [tEndVar, bind, Eff.bind, hrd, g1, g2], hM2, ?_⟩
  have hnd : T.blocks.Nodup := List.nodup_iff_count.mpr fun p => by
    have := hM.excl z p; rw [hz] at this; simp only [blocksO] at this; omega
  have h1 := tDestroyVar_run (n := n) (ATree.rep (hM.holds z T hz) hT) hnd hn
  rw [h1] at g1
  cases g1
  cases g2
  rfl

/-! ### Within a type -/

/-- Swap of nodes, and of plain objects. -/
theorem tSwapContent_x {l r : TLoc} {L R : ATree V} {u v : XTree V} (hM : Mem s α G) (hS : ShowsS α vs)
    (hX : XSide α vs x l L u) (hT : XSide α vs t r R v) (h0 : u.erase.Typed C.wrapped) (h1 : v.erase.Typed C.wrapped)
    (hk : L.which = R.which) (hrel : x = t ∨ x.Apart t) :
    Agree G (tSwapContent C L.which (L.var.ref l) (R.var.ref r) s) (xtSwap C x t z ⟨vs, s.count⟩) := by
  obtain ⟨_, hlr, hlh⟩ := hM.at_run hX.at_
  obtain ⟨_, hrr, hrh⟩ := hM.at_run hT.at_
  have hl1 := ref_read hlr hlh
  have hr1 := ref_read hrr hrh
  obtain ⟨hx, hxv, hL⟩ := hX
  obtain ⟨ht, htv, hR⟩ := hT
  have hk' : u.which = v.which := by rw [← hL.which, ← hR.which, hk]
  have hM1 : Mem { s with tick := s.tick + 1 } α G := hM.same rfl rfl (Nat.le_refl _)
  rcases same_kindX hL hR h0 h1 hk with ⟨k, a, b, o, o', rfl, rfl, rfl, rfl⟩ | ⟨k, a, p, f, o, b, q, g, o', f', g', rfl, rfl, rfl, rfl, h2, h3⟩
  · simp only [content] at hl1 hr1
    rcases hrel with rfl | ha
    · obtain ⟨rfl, e⟩ := hx.unique ht
      cases e
      rcases tMay_x (C := C) false (.swap k) s with ⟨hthr, hq⟩ | ⟨hthr, hq, _⟩
      · obtain ⟨s2, h4, hM2, t2, a2⟩ := hM1.setLeaf (C.ops.selfSwap k a) hx
        refine .inl ⟨s2, _, vs.put x (.leaf o.isSome k (C.ops.selfSwap k a)), ?_, ?_, hS.put ?_, hM2, trivial⟩
        · simp only [tSwapContent, which, bind, Eff.bind, hl1, if_true, Eff.onExc, hthr, h4]
        · rw [count_eq t2 a2]
          simp only [xtSwap, bind, Eff.bind, xtGet_run hxv, if_true]
          simp only [XTree.which, Eff.onExc, xtRun_ok hq, xtPut_run]; rfl
        · rw [Shows]; exact ⟨rfl, rfl, rfl⟩
      · obtain ⟨s2, h4, hM2, t2, a2⟩ := hM1.setLeaf (C.ops.selfSwapFail k a) hx
        refine .inr ⟨⟨.swap k, s.tick⟩, s2, _, vs.put x (.leaf o.isSome k (C.ops.selfSwapFail k a)), ?_, ?_, hS.put ?_, hM2, trivial⟩
        · simp only [tSwapContent, which, bind, Eff.bind, hl1, if_true, Eff.onExc, hthr, h4]
        · rw [count_eq t2 a2]
          simp only [xtSwap, bind, Eff.bind, xtGet_run hxv, if_true]
          simp only [XTree.which, Eff.onExc, xtRun_exc hq, xtPut_run]; rfl
        · rw [Shows]; exact ⟨rfl, rfl, rfl⟩
    · have hne := ref_ne hM hx ht ha
      have hxt : x ≠ t := by
        rintro rfl
        obtain ⟨rfl, e⟩ := hx.unique ht
        cases e
        exact hne rfl
      rcases tMay_x (C := C) false (.swap k) s with ⟨hthr, hq⟩ | ⟨hthr, hq, _⟩
      · obtain ⟨s2, h4, hM2, t2, a2⟩ := hM1.setLeaf (C.ops.swapL k a b) hx
        obtain ⟨s3, h5, hM3, t3, a3⟩ := hM2.setLeaf (C.ops.swapR k a b) (ht.put_apart ha.symm)
        refine .inl ⟨s3, _, (vs.put x (.leaf o.isSome k (C.ops.swapL k a b))).put t (.leaf o'.isSome k (C.ops.swapR k a b)), ?_, ?_,
          (hS.put ?_).put ?_, hM3, trivial⟩
        · simp only [tSwapContent, which, bind, Eff.bind, hl1, hr1, if_neg hne, Eff.onExc, hthr, h4, h5]
        · rw [count_eq t3 a3, count_eq t2 a2]
          simp only [xtSwap, bind, Eff.bind, xtGet_run hxv, xtGet_run htv, if_pos hk', if_neg hxt]
          simp only [XTree.which, Eff.onExc, xtRun_ok hq, xtPut_run]; rfl
        · rw [Shows]; exact ⟨rfl, rfl, rfl⟩
        · rw [Shows]; exact ⟨rfl, rfl, rfl⟩
      · obtain ⟨s2, h4, hM2, t2, a2⟩ := hM1.setLeaf (C.ops.swapFailL k a b) hx
        obtain ⟨s3, h5, hM3, t3, a3⟩ := hM2.setLeaf (C.ops.swapFailR k a b) (ht.put_apart ha.symm)
        refine .inr ⟨⟨.swap k, s.tick⟩, s3, _,
          (vs.put x (.leaf o.isSome k (C.ops.swapFailL k a b))).put t (.leaf o'.isSome k (C.ops.swapFailR k a b)), ?_, ?_,
          (hS.put ?_).put ?_, hM3, trivial⟩
        · simp only [tSwapContent, which, bind, Eff.bind, hl1, hr1, if_neg hne, Eff.onExc, hthr, h4, h5]
        · rw [count_eq t3 a3, count_eq t2 a2]
          simp only [xtSwap, bind, Eff.bind, xtGet_run hxv, xtGet_run htv, if_pos hk', if_neg hxt]
          simp only [XTree.which, Eff.onExc, xtRun_exc hq]; rfl
        · rw [Shows]; exact ⟨rfl, rfl, rfl⟩
        · rw [Shows]; exact ⟨rfl, rfl, rfl⟩
  · simp only [content] at hl1 hr1
    rw [ATree.Holds] at hlh hrh
    have hp : tReadNode p s = .ok (a, f.map ATree.var) s := by simp only [tReadNode, hlh.2.1]
    have hq' : tReadNode q s = .ok (b, g.map ATree.var) s := by simp only [tReadNode, hrh.2.1]
    rcases hrel with rfl | ha
    · obtain ⟨rfl, e⟩ := hx.unique ht
      cases e
      rw [hxv] at htv
      cases htv
      rcases tMay_x (C := C) false (.swap k) s with ⟨hthr, hq⟩ | ⟨hthr, hq, _⟩
      · obtain ⟨s2, h4, hM2, t2, a2, _⟩ := hM1.setNode (a' := C.ops.selfSwap k a) (f' := f) (G' := G) hx hlh.2.2 hM.ghosts fun _ => rfl
        refine .inl ⟨s2, _, vs.put x (.node o.isSome k (C.ops.selfSwap k a) f'), ?_, ?_, hS.put ?_, hM2, trivial⟩
        · simp only [tSwapContent, which, bind, Eff.bind, hl1, tSwapNode, hp, if_true, Eff.onExc, hthr, h4]
        · rw [count_eq t2 a2]
          simp only [xtSwap, bind, Eff.bind, xtGet_run hxv, if_true]
          simp only [XTree.which, Eff.onExc, xtRun_ok hq, xtPut_run]; rfl
        · rw [Shows]; exact ⟨rfl, rfl, rfl, h2⟩
      · obtain ⟨s2, h4, hM2, t2, a2, _⟩ := hM1.setNode (a' := C.ops.selfSwapFail k a) (f' := f) (G' := G) hx hlh.2.2 hM.ghosts fun _ => rfl
        refine .inr ⟨⟨.swap k, s.tick⟩, s2, _, vs.put x (.node o.isSome k (C.ops.selfSwapFail k a) f'), ?_, ?_, hS.put ?_, hM2, trivial⟩
        · simp only [tSwapContent, which, bind, Eff.bind, hl1, tSwapNode, hp, if_true, Eff.onExc, hthr, h4]
        · rw [count_eq t2 a2]
          simp only [xtSwap, bind, Eff.bind, xtGet_run hxv, if_true]
          simp only [XTree.which, Eff.onExc, xtRun_exc hq, xtPut_run]; rfl
        · rw [Shows]; exact ⟨rfl, rfl, rfl, h2⟩
    · have hpq : p ≠ q := by
        rintro rfl
        have := (hM.apart hx ht ha).2 p
        simp only [blocks, List.count_append, List.count_cons_self] at this
        omega
      have hxt : x ≠ t := by
        rintro rfl
        obtain ⟨rfl, e⟩ := hx.unique ht
        cases e
        exact hpq rfl
      rcases tMay_x (C := C) false (.swap k) s with ⟨hthr, hq⟩ | ⟨hthr, hq, _⟩
      · obtain ⟨s2, s3, h4, h5, hM3⟩ := hM1.swapNodes (a' := C.ops.swapL k a b) (b' := C.ops.swapR k a b) hx ht ha
        refine .inl ⟨s3, _, (vs.put x (.node o.isSome k (C.ops.swapL k a b) g')).put t (.node o'.isSome k (C.ops.swapR k a b) f'), ?_, ?_,
          (hS.put ?_).put ?_, hM3, trivial⟩
        · simp only [tSwapContent, which, bind, Eff.bind, hl1, hr1, tSwapNode, hp, hq', if_neg hpq, Eff.onExc, hthr, h4, h5]
        · rw [tSetNode_count h5, tSetNode_count h4]
          simp only [xtSwap, bind, Eff.bind, xtGet_run hxv, xtGet_run htv, if_pos hk', if_neg hxt]
          simp only [XTree.which, Eff.onExc, xtRun_ok hq, xtPut_run]; rfl
        · rw [Shows]; exact ⟨rfl, rfl, rfl, h3⟩
        · rw [Shows]; exact ⟨rfl, rfl, rfl, h2⟩
      · obtain ⟨s2, h4, hM2, t2, a2, _⟩ := hM1.setNode (a' := C.ops.swapFailL k a b) (f' := f) (G' := G) hx hlh.2.2 hM.ghosts fun _ => rfl
        have ht2 := ht.put_apart (U := .node k (C.ops.swapFailL k a b) p f o) ha.symm
        have hh2 := (hM2.at_run ht2).2.2
        rw [ATree.Holds] at hh2
        obtain ⟨s3, h5, hM3, t3, a3, _⟩ := hM2.setNode (a' := C.ops.swapFailR k a b) (f' := g) (G' := G) ht2 hh2.2.2 hM2.ghosts fun _ => rfl
        refine .inr ⟨⟨.swap k, s.tick⟩, s3, _,
          (vs.put x (.node o.isSome k (C.ops.swapFailL k a b) f')).put t (.node o'.isSome k (C.ops.swapFailR k a b) g'), ?_, ?_,
          (hS.put ?_).put ?_, hM3, trivial⟩
        · simp only [tSwapContent, which, bind, Eff.bind, hl1, hr1, tSwapNode, hp, hq', if_neg hpq, Eff.onExc, hthr, h4, h5]
        · rw [count_eq t3 a3, count_eq t2 a2]
          simp only [xtSwap, bind, Eff.bind, xtGet_run hxv, xtGet_run htv, if_pos hk', if_neg hxt]
          simp only [XTree.which, Eff.onExc, xtRun_exc hq]; rfl
        · rw [Shows]; exact ⟨rfl, rfl, rfl, h2⟩
        · rw [Shows]; exact ⟨rfl, rfl, rfl, h3⟩

/-! ### Between types -/

theorem inside_ne (h : x.var ≠ t.var) : x.inside t = false := by
  simp [TPlace.inside, h]

/-- Swap between types. -/
theorem tSwap_other_x {l r : TLoc} {L R : ATree V} {u v : XTree V} (hM : Mem s α G) (hS : ShowsS α vs)
    (hX : XSide α vs x l L u) (hT : XSide α vs t r R v) (hty : u.erase.Typed C.wrapped) (htu : v.erase.Typed C.wrapped)
    (hn0 : u.erase.height ≤ n) (hn : v.erase.height ≤ n) (hk : L.which ≠ R.which) (hb : u.backed = false) (ha : x.Apart t)
    (hi1 : t.inside x = false) (hi2 : x.inside t = false) (hz : α z = none) :
    Agree G (tSwap C n l r z s) (xtSwap C x t z ⟨vs, s.count⟩) := by
  obtain ⟨_, hlr, _⟩ := hM.at_run hX.at_
  obtain ⟨_, hrr, _⟩ := hM.at_run hT.at_
  have hk' : u.which ≠ v.which := by rw [← hX.shows.which, ← hT.shows.which]; exact hk
  have hzx : z ≠ x.var := by
    rintro rfl
    obtain ⟨T, h1, _⟩ := hX.at_
    rw [hz] at h1; cases h1
  have hzt : z ≠ t.var := by
    rintro rfl
    obtain ⟨T, h1, _⟩ := hT.at_
    rw [hz] at h1; cases h1
  have hcode : tSwap C n l r z s = (do
      let tmp ← tMoveVar C n r
      tSetVar z (some tmp)
      Eff.onExc (do
        tVariantMoveAssign C n r l
        tVariantMoveAssign C n l (.var z)) (tEndVar n z)
      tEndVar n z : Eff (TreeSt V) Unit) s := by
    simp only [tSwap, bind, Eff.bind, hlr, hrr, var_which, hk, if_false]
  have hspec : xtSwap C x t z ⟨vs, s.count⟩ = (do
      let u ← xtTake C t
      xtSet z (some u)
      Eff.onExc (do
        xtMoveAssign C t x
        xtMoveAssign C x ⟨z, []⟩) (xtSet z none)
      xtSet z none : Eff (XTSt V) Unit) ⟨vs, s.count⟩ := by
    simp only [xtSwap, bind, Eff.bind, xtGet_run hX.val, xtGet_run hT.val, hk', if_false]
  rw [hcode, hspec]
  -- `variant tmp(std::move(rhs));`
  rcases tMoveVar_x (C := C) hM hT.at_ hT.shows hn with ⟨s1, U, R', u', src, g1, q1, hU, hR', hM1⟩ | ⟨e, s1, R', src, g1, q1, hR', hM1⟩
  · obtain ⟨e1, e2, e3⟩ := xtMove_ok q1
    obtain ⟨s2, hs2⟩ : ∃ s2 : TreeSt V, s2 = { s1 with vars := upd s1.vars z (some U.var) } := ⟨_, rfl⟩
    have g2 : tSetVar z (some U.var) s1 = .ok () s2 := by rw [hs2]; rfl
    have c2 : s2.count = s1.count := by rw [hs2]; rfl
    have hM2 : Mem s2 (upd (α.put t R') z (some U)) G := by rw [hs2]; exact hM1.setVar (by rw [put_ne_var hzt]; exact hz)
    have hS2 : ShowsS (upd (α.put t R') z (some U)) (upd (vs.put t src) z (some u')) := (hS.put hR').upd hU
    have hx2 : At (upd (α.put t R') z (some U)) x l L := At.upd (hX.at_.put_apart ha) hzx
    have ht2 : At (upd (α.put t R') z (some U)) t r R' := At.upd hT.at_.put hzt
    have hz2 : upd (α.put t R') z (some U) z = some U := upd_same _ _ _
    have q2 : xtTake C t ⟨vs, s.count⟩ = .ok u' ⟨vs.put t src, s1.count⟩ := xtTake_ok hT.val q1
    have q2' : xtSet z (some u') (⟨vs.put t src, s1.count⟩ : XTSt V) = .ok () ⟨upd (vs.put t src) z (some u'), s2.count⟩ := by
      rw [c2]; rfl
    obtain ⟨α2, hα2⟩ : ∃ α2 : AStore V, α2 = upd (α.put t R') z (some U) := ⟨_, rfl⟩
    obtain ⟨vs2, hvs2⟩ : ∃ vs2 : XStore V, vs2 = upd (vs.put t src) z (some u') := ⟨_, rfl⟩
    rw [← hα2] at hM2 hS2 hx2 ht2 hz2
    rw [← hvs2] at hS2 q2'
    have hX2 : XSide α2 vs2 x l L u := hS2.side hx2 hX.shows
    have hT2 : XSide α2 vs2 t r R' src := hS2.side ht2 hR'
    have hsrc : src.which ≠ u.which := by
      rw [← hR'.which, hR'.is.which, e2, VTree.which_movedFrom, ← hT.shows.is.which, hT.shows.which]; exact hk'.symm
    have hsh : src.erase.height ≤ n := by rw [e2]; exact Nat.le_trans (VTree.height_movedFrom _) hn
    have hst : src.erase.Typed C.wrapped := by rw [e2]; exact VTree.typed_movedFrom htu
    have hz1 : TCmd.hazard C s2 (.moveAssign t x) = false := by
      rw [hazard_moveAssign (c := s2.count) hM2 hT2 hX2]
      have h1 : XTSt.at ⟨vs2, s2.count⟩ x = some u := hX2.val
      have h2 : XTSt.at ⟨vs2, s2.count⟩ t = some src := hT2.val
      simp [TCmd.risky, h1, h2, hb, hi1, hi2]
    -- `rhs = std::move(*this);`
    rcases tVariantMoveAssign_x (n := n) hM2 hS2 hT2 hX2 hst hty hsh hn0 hz1 with
      ⟨s3, α3, vs3, g4, q4, hS3, hM3, hkept⟩ | ⟨e, s3, α3, vs3, g4, q4, hS3, hM3, hkept⟩
    · obtain ⟨U1, W1, u1, w1, rfl, rfl, hU1, hW1, hw1, hw2⟩ := hkept ha.symm
      have hx3 : At ((α2.put t U1).put x W1) x l W1 := (hx2.put_apart ha).put
      have hz3 : ((α2.put t U1).put x W1) z = some U := by rw [put_ne_var hzx, put_ne_var hzt]; exact hz2
      have hz3' : At ((α2.put t U1).put x W1) ⟨z, []⟩ (.var z) U := ⟨U, hz3, walk_nil _ _⟩
      obtain ⟨α3, hα3⟩ : ∃ α3 : AStore V, α3 = (α2.put t U1).put x W1 := ⟨_, rfl⟩
      obtain ⟨vs3, hvs3⟩ : ∃ vs3 : XStore V, vs3 = (vs2.put t u1).put x w1 := ⟨_, rfl⟩
      rw [← hα3] at hM3 hS3 hx3 hz3 hz3'
      rw [← hvs3] at hS3 q4
      have hX3 := hS3.side hx3 hW1
      have hZ3 := hS3.side hz3' hU
      have hap : x.Apart ⟨z, []⟩ := .inl (Ne.symm hzx)
      have hz1 : TCmd.hazard C s3 (.moveAssign x ⟨z, []⟩) = false := by
        rw [hazard_moveAssign (c := s3.count) hM3 hX3 hZ3]
        have h1 : XTSt.at ⟨vs3, s3.count⟩ x = some w1 := hX3.val
        have h2 : XTSt.at ⟨vs3, s3.count⟩ ⟨z, []⟩ = some u' := hZ3.val
        have h3 : x.inside ⟨z, []⟩ = false := inside_ne (Ne.symm hzx)
        have h4 : TPlace.inside ⟨z, []⟩ x = false := inside_ne hzx
        simp [TCmd.risky, h1, h2, e3, h3, h4]
      have huh : u'.erase.height ≤ n := by rw [e1]; exact Nat.le_trans (VTree.height_moved _) hn
      have hut : u'.erase.Typed C.wrapped := by rw [e1]; exact VTree.typed_moved htu
      -- `*this = std::move(tmp);`
      have hend : ∀ {s5 : TreeSt V} {α5 : AStore V} {vs5 : XStore V}, KeptX C n α3 vs3 x ⟨z, []⟩ α5 vs5 → Mem s5 α5 G →
          ∃ s6, tEndVar n z s5 = .ok () s6 ∧ Mem s6 (upd α5 z none) G ∧ s6.count = s5.count := by
        intro s5 α5 vs5 hkept hM5
        obtain ⟨U2, W2, u2, w2, rfl, rfl, _, hW2, hw3, _⟩ := hkept hap
        have hz5 : ((α3.put x U2).put ⟨z, []⟩ W2) z = some W2 := by
          simp only [AStore.put, upd, if_true, hzx, if_false, hz3, Option.map_some]
          exact congrArg some (by cases U <;> rfl)
        exact hM5.endVarX hz5 hW2.is hw3
      rcases tVariantMoveAssign_x (n := n) hM3 hS3 hX3 hZ3 hw2 hut hw1 huh hz1 with
        ⟨s5, α5, vs5, g6, q6, hS5, hM5, hkept⟩ | ⟨e, s5, α5, vs5, g6, q6, hS5, hM5, hkept⟩
      · obtain ⟨s6, g7, hM6, c6⟩ := hend hkept hM5
        refine .inl ⟨s6, _, upd vs5 z none, ?_, ?_, hS5.del, hM6, trivial⟩
        · simp only [bind, Eff.bind, g1, g2, Eff.onExc, g4, g6, g7]
        · rw [c6]
          simp only [bind, Eff.bind, q2, q2', Eff.onExc, q4, q6, xtSet_run]
      · obtain ⟨s6, g7, hM6, c6⟩ := hend hkept hM5
        refine .inr ⟨e, s6, _, upd vs5 z none, ?_, ?_, hS5.del, hM6, trivial⟩
        · simp only [bind, Eff.bind, g1, g2, Eff.onExc, g4, g6, g7]
        · rw [c6]
          simp only [bind, Eff.bind, q2, q2', Eff.onExc, q4, q6, xtSet_run]
    · obtain ⟨U1, W1, u1, w1, rfl, rfl, hU1, hW1, hw1, hw2⟩ := hkept ha.symm
      have hz3 : ((α2.put t U1).put x W1) z = some U := by rw [put_ne_var hzx, put_ne_var hzt]; exact hz2
      obtain ⟨s6, g7, hM6, c6⟩ := hM3.endVarX (n := n) hz3 hU.is (by rw [e1]; exact Nat.le_trans (VTree.height_moved _) hn)
      refine .inr ⟨e, s6, _, upd ((vs2.put t u1).put x w1) z none, ?_, ?_, hS3.del, hM6, trivial⟩
      · simp only [bind, Eff.bind, g1, g2, Eff.onExc, g4, g7]
      · rw [c6]
        simp only [bind, Eff.bind, q2, q2', Eff.onExc, q4, xtSet_run]
  · refine .inr ⟨e, s1, _, vs.put t src, ?_, ?_, hS.put hR', hM1, trivial⟩
    · simp only [bind, Eff.bind, g1]
    · simp only [bind, Eff.bind, xtTake_exc hT.val q1]

/-- Swap of recursive variants. -/
theorem tSwap_x {l r : TLoc} {L R : ATree V} {u v : XTree V} (hM : Mem s α G) (hS : ShowsS α vs)
    (hX : XSide α vs x l L u) (hT : XSide α vs t r R v) (hty : u.erase.Typed C.wrapped) (htu : v.erase.Typed C.wrapped)
    (hn0 : u.erase.height ≤ n) (hn : v.erase.height ≤ n) (hz : α z = none) (hh : TCmd.hazard C s (.swap x t z) = false) :
    Agree G (tSwap C n l r z s) (xtSwap C x t z ⟨vs, s.count⟩) := by
  obtain ⟨_, hlr, _⟩ := hM.at_run hX.at_
  obtain ⟨_, hrr, _⟩ := hM.at_run hT.at_
  rw [hazard_swap (c := s.count) hM hX hT] at hh
  have e1 : XTSt.at ⟨vs, s.count⟩ x = some u := hX.val
  have e2 : XTSt.at ⟨vs, s.count⟩ t = some v := hT.val
  simp only [TCmd.risky, e1, e2, Bool.or_eq_false_iff, Bool.and_eq_false_iff, bne_eq_false_iff_eq] at hh
  obtain ⟨⟨h1, h2⟩, h3⟩ := hh
  have hrel : x = t ∨ x.Apart t := by
    rcases TPlace.cases x t with h | h | h | h
    · exact .inl h
    · exact .inr h
    · rw [h] at h1; cases h1
    · rw [h] at h2; cases h2
  by_cases hk : L.which = R.which
  · have hcode : tSwap C n l r z s = tSwapContent C L.which (L.var.ref l) (R.var.ref r) s := by
      simp only [tSwap, bind, Eff.bind, hlr, hrr, var_which, hk, if_true]
    rw [hcode]
    exact tSwapContent_x hM hS hX hT hty htu hk hrel
  · have hk' : u.which ≠ v.which := by rw [← hX.shows.which, ← hT.shows.which]; exact hk
    refine tSwap_other_x hM hS hX hT hty htu hn0 hn hk (h3.resolve_right hk') ?_ h1 h2 hz
    rcases hrel with rfl | h
    · obtain ⟨_, rfl⟩ := hX.at_.unique hT.at_
      exact absurd rfl hk
    · exact h

end

end BVariant
