/-
Swapping recursive variants exchanges the trees.
-/
import Verif.Lemmas.TreeDoes

namespace BVariant

section
variable {V : Type} {C : TreeCfg V} {s s' : TreeSt V}

open ATree AStore

variable {α : AStore V} {σ : TStore V} {G : List (ATree V)} {n m z : Nat} {x t : TPlace}

/-! ### Stores with several places changed -/

theorem VForest.get_set_same : ∀ {f : VForest V} {i : Nat} {t u : VTree V}, f.get i = some t → (f.set i u).get i = some u
  | .nil, i, t, u, h => by simp [VForest.get] at h
  | .cons _ f, 0, t, u, h => rfl
  | .cons _ f, i + 1, t, u, h => by rw [VForest.get] at h; rw [VForest.set, VForest.get]; exact VForest.get_set_same h

theorem VForest.get_set_ne : ∀ {f : VForest V} {i j : Nat} {u : VTree V}, i ≠ j → (f.set i u).get j = f.get j
  | .nil, i, j, u, h => rfl
  | .cons _ f, 0, 0, u, h => absurd rfl h
  | .cons _ f, 0, j + 1, u, h => rfl
  | .cons _ f, i + 1, 0, u, h => rfl
  | .cons _ f, i + 1, j + 1, u, h => by
    rw [VForest.set, VForest.get, VForest.get]; exact VForest.get_set_ne fun h' => h (by rw [h'])

theorem VForest.set_set : ∀ {f : VForest V} {i : Nat} {u w : VTree V}, (f.set i u).set i w = f.set i w
  | .nil, i, u, w => rfl
  | .cons _ f, 0, u, w => rfl
  | .cons _ f, i + 1, u, w => by simp only [VForest.set, VForest.set_set]

theorem VForest.set_comm : ∀ {f : VForest V} {i j : Nat} {u w : VTree V}, i ≠ j → (f.set i u).set j w = (f.set j w).set i u
  | .nil, i, j, u, w, h => rfl
  | .cons _ f, 0, 0, u, w, h => absurd rfl h
  | .cons _ f, 0, j + 1, u, w, h => rfl
  | .cons _ f, i + 1, 0, u, w, h => rfl
  | .cons _ f, i + 1, j + 1, u, w, h => by
    simp only [VForest.set]; rw [VForest.set_comm fun h' => h (by rw [h'])]

theorem VTree.put_put : ∀ {is : List Nat} {t u w : VTree V}, (t.put is u).put is w = t.put is w
  | [], t, u, w => by simp only [VTree.put_nil]
  | i :: is, .leaf k v, u, w => rfl
  | i :: is, .node k a f, u, w => by
    simp only [VTree.put]
    cases hg : f.get i with
    | none => simp only [VTree.put, hg]
    | some t => simp only [VTree.put, VForest.get_set_same hg, VForest.set_set, VTree.put_put]

theorem VTree.put_comm : ∀ {is js : List Nat} {t u w : VTree V}, PathsApart is js → (t.put js u).put is w = (t.put is w).put js u
  | [], js, _, _, _, h => absurd (List.nil_prefix) h.1
  | _ :: _, [], _, _, _, h => absurd (List.nil_prefix) h.2
  | i :: is, j :: js, .leaf k v, u, w, h => rfl
  | i :: is, j :: js, .node k a f, u, w, h => by
    simp only [VTree.put]
    rcases h.cons with hij | ⟨rfl, h'⟩
    · have hji : j ≠ i := Ne.symm hij
      cases hj : f.get j with
      | none => cases hi : f.get i with
        | none => simp only [VTree.put, hj, hi]
        | some v => simp only [VTree.put, hj, hi, VForest.get_set_ne hij]
      | some z => cases hi : f.get i with
        | none => simp only [VTree.put, hj, hi, VForest.get_set_ne hji]
        | some v =>
          simp only [VTree.put, hj, hi, VForest.get_set_ne hij, VForest.get_set_ne hji]
          rw [VForest.set_comm hji]
    · cases hi : f.get i with
      | none => simp only [VTree.put, hi]
      | some v => simp only [VTree.put, VForest.get_set_same hi, VForest.set_set, VTree.put_comm h']

theorem VTree.sub_put : ∀ {is : List Nat} {t u w : VTree V}, t.sub is = some w → (t.put is u).sub is = some u
  | [], t, u, w, h => by rw [VTree.put_nil, VTree.sub_nil]
  | i :: is, .leaf k v, u, w, h => by simp [VTree.sub] at h
  | i :: is, .node k a f, u, w, h => by
    rw [VTree.sub] at h
    rw [VTree.put]
    cases hg : f.get i with
    | none => rw [hg] at h; cases h
    | some t => rw [hg] at h; simp only [VTree.sub, VForest.get_set_same hg, VTree.sub_put h]

theorem VTree.sub_put_apart : ∀ {is js : List Nat} {t u : VTree V}, PathsApart is js → (t.put js u).sub is = t.sub is
  | [], js, _, _, h => absurd (List.nil_prefix) h.1
  | _ :: _, [], _, _, h => absurd (List.nil_prefix) h.2
  | i :: is, j :: js, .leaf k v, u, h => rfl
  | i :: is, j :: js, .node k a f, u, h => by
    rw [VTree.put]
    rcases h.cons with hij | ⟨rfl, h'⟩
    · cases hj : f.get j with
      | none => rfl
      | some z => simp only [VTree.sub, VForest.get_set_ne hij.symm]
    · cases hi : f.get i with
      | none => rfl
      | some v => simp only [VTree.sub, VForest.get_set_same hi, hi, VTree.sub_put_apart h']

theorem TStore.put_put {u w : VTree V} : (σ.put x u).put x w = σ.put x w := by
  simp only [TStore.put, upd_same, upd_upd, Option.map_map]
  congr 2
  funext t
  exact VTree.put_put

theorem TStore.put_comm {u w : VTree V} (ha : x.Apart t) : (σ.put t u).put x w = (σ.put x w).put t u := by
  by_cases hv : x.var = t.var
  · rcases ha with ha | ha
    · exact absurd hv ha
    · simp only [TStore.put, hv, upd_same, upd_upd, Option.map_map]
      congr 2
      funext T
      exact VTree.put_comm ha
  · funext y
    simp only [TStore.put, upd, hv, Ne.symm hv, if_false]
    by_cases h1 : y = x.var
    · subst h1; simp only [hv, if_true, if_false]
    · simp only [h1, if_false]

theorem TStore.at_put {u : VTree V} (h : σ.at x ≠ none) : (σ.put x u).at x = some u := by
  obtain ⟨w, h⟩ := at_of_ne h
  unfold TStore.at at h
  unfold TStore.at TStore.put
  rw [upd_same]
  cases hx : σ x.var with
  | none => rw [hx] at h; cases h
  | some T => rw [hx] at h; simp only [Option.map_some]; exact VTree.sub_put h

theorem TStore.at_put_apart {u : VTree V} (ha : x.Apart t) : (σ.put t u).at x = σ.at x := by
  unfold TStore.at TStore.put
  by_cases hv : x.var = t.var
  · rcases ha with ha | ha
    · exact absurd hv ha
    · rw [hv, upd_same]
      cases σ t.var with
      | none => rfl
      | some T => simp only [Option.map_some]; exact VTree.sub_put_apart ha
  · simp only [upd, hv, if_false]

theorem TStore.upd_put {u : VTree V} {o : Option (VTree V)} (h : z ≠ x.var) :
    TStore.put (BVariant.upd σ z o) x u = BVariant.upd (σ.put x u) z o := by
  funext y
  unfold TStore.put
  by_cases hy : y = x.var
  · subst hy; simp only [BVariant.upd, if_true, Ne.symm h, if_false]
  · by_cases hz : y = z
    · subst hz; simp only [BVariant.upd, if_true, hy, if_false]
    · simp only [BVariant.upd, hy, hz, if_false]

theorem TStore.upd_at {o : Option (VTree V)} (h : z ≠ x.var) : TStore.at (BVariant.upd σ z o) x = σ.at x := by
  unfold TStore.at; simp only [BVariant.upd, Ne.symm h, if_false]

/-- Other values at `x` and `t`, and a local variant at `z`. -/
def TStore.three (σ : TStore V) (x t : TPlace) (z : Nat) (a b c : VTree V) : TStore V := BVariant.upd ((σ.put x a).put t b) z (some c)

section three
variable {a a' b b' c c' : VTree V} (hx : σ.at x ≠ none) (ht : σ.at t ≠ none) (hz : σ z = none)

theorem ne_of_at {x : TPlace} (hx : σ.at x ≠ none) (hz : σ z = none) : z ≠ x.var := by
  rintro rfl
  unfold TStore.at at hx
  rw [hz] at hx; exact hx rfl

include hx hz in
theorem TStore.three_putX (ha : x.Apart t) : (σ.three x t z a b c).put x a' = σ.three x t z a' b c := by
  unfold TStore.three
  rw [TStore.upd_put (ne_of_at hx hz), TStore.put_comm ha, TStore.put_put]

include ht hz in
theorem TStore.three_putT : (σ.three x t z a b c).put t b' = σ.three x t z a b' c := by
  unfold TStore.three
  rw [TStore.upd_put (ne_of_at ht hz), TStore.put_put]

theorem TStore.three_putZ : (σ.three x t z a b c).put ⟨z, []⟩ c' = σ.three x t z a b c' := by
  unfold TStore.three
  simp only [TStore.put, upd_same, Option.map_some, VTree.put_nil, upd_upd]

include hz in
theorem TStore.three_del : BVariant.upd (σ.three x t z a b c) z none = (σ.put x a).put t b := by
  unfold TStore.three
  rw [upd_upd]
  refine upd_eq ?_
  simp only [TStore.put, BVariant.upd]
  by_cases h1 : z = t.var
  · rw [if_pos h1, ← h1]
    by_cases h2 : z = x.var
    · rw [if_pos h2, ← h2, hz]; rfl
    · rw [if_neg h2, hz]; rfl
  · rw [if_neg h1]
    by_cases h2 : z = x.var
    · rw [if_pos h2, ← h2, hz]; rfl
    · rw [if_neg h2, hz]

include hx hz in
theorem TStore.three_atX (ha : x.Apart t) : (σ.three x t z a b c).at x = some a := by
  unfold TStore.three
  rw [TStore.upd_at (ne_of_at hx hz), TStore.at_put_apart ha, TStore.at_put hx]

include ht hz in
theorem TStore.three_atT (ha : x.Apart t) : (σ.three x t z a b c).at t = some b := by
  unfold TStore.three
  rw [TStore.upd_at (ne_of_at ht hz), TStore.at_put]
  rw [TStore.at_put_apart ha.symm]; exact ht

theorem TStore.three_atZ : (σ.three x t z a b c).at ⟨z, []⟩ = some c := by
  unfold TStore.three TStore.at
  simp only [upd_same, VTree.sub_nil]

end three

/-! ### Within a type -/

/-- The members of two nodes that are apart are exchanged, and both get other values. -/
theorem Mem.swapNodes {l r : TLoc} {k k' : TyIx} {a a' b b' : V} {p q : ObjId} {f g : List (ATree V)} {o o' : Option ObjId}
    (hM : Mem s α G) (hx : At α x l (.node k a p f o)) (ht : At α t r (.node k' b q g o')) (ha : x.Apart t) :
    ∃ s1 s2, tSetNode p a' (g.map ATree.var) s = .ok () s1 ∧ tSetNode q b' (f.map ATree.var) s1 = .ok () s2 ∧
      Mem s2 ((α.put x (.node k a' p g o)).put t (.node k' b' q f o')) G := by
  have hpq : p ≠ q := by
    rintro rfl
    have := (hM.apart hx ht ha).2 p
    simp only [blocks, List.count_append, List.count_cons_self] at this
    omega
  have hh := (hM.at_run hx).2.2
  have hh' := (hM.at_run ht).2.2
  rw [ATree.Holds] at hh hh'
  -- the members of `p` are taken out, those of `q` replaced by them, and put into `p`
  obtain ⟨s1, h1, hM1, _⟩ := hM.setNode (a' := a') (f' := []) (G' := f ++ G) hx trivial
    (by rw [holdsL_append]; exact ⟨hh.2.2, hM.ghosts⟩) (fun q => by simp only [count_append]; simp [blocksL])
  have ht1 : At (α.put x (.node k a' p [] o)) t r (.node k' b q g o') := ht.put_apart ha.symm
  have hg1 := hM1.ghosts
  rw [holdsL_append] at hg1
  have hh1 := (hM1.at_run ht1).2.2
  rw [ATree.Holds] at hh1
  obtain ⟨s2, h2, hM2, _⟩ := hM1.setNode (a' := b') (f' := f) (G' := g ++ G) ht1 hg1.1
    (by rw [holdsL_append]; exact ⟨hh1.2.2, hg1.2⟩) (fun q => by simp only [count_append]; omega)
  have hx2 : At ((α.put x (.node k a' p [] o)).put t (.node k' b' q f o')) x l (.node k a' p [] o) := hx.put.put_apart ha
  have hg2 := hM2.ghosts
  rw [holdsL_append] at hg2
  obtain ⟨s3, h3, hM3, _⟩ := hM2.setNode (a' := a') (f' := g) (G' := G) hx2 hg2.1 hg2.2
    (fun q => by simp only [count_append]; simp [blocksL])
  rw [AStore.put_comm ha, AStore.put_put hx] at hM3
  refine ⟨{ s with heap := upd s.heap p (some (.node a' (g.map ATree.var))) }, s3, ?_, ?_, hM3⟩
  · simp only [tSetNode, bind, Eff.bind, tReadNode, hh.2.1, Eff.modify]
  · simp only [tSetNode, bind, Eff.bind, tReadNode, hh.2.1, Eff.modify, Res.ok.injEq, true_and] at h1
    subst h1
    have e1 : upd s.heap p (some (.node a' (List.map ATree.var []))) q = some (.node b (g.map ATree.var)) := by
      simp only [upd, Ne.symm hpq, if_false, hh'.2.1]
    simp only [tSetNode, bind, Eff.bind, tReadNode, e1, Eff.modify, Res.ok.injEq, true_and] at h2
    subst h2
    have e2 : upd (upd s.heap p (some (.node a' (List.map ATree.var [])))) q (some (.node b' (f.map ATree.var))) p =
        some (.node a' []) := by simp only [upd, hpq, if_false, if_true, List.map_nil]
    simp only [tSetNode, bind, Eff.bind, tReadNode, e2, Eff.modify, Res.ok.injEq, true_and] at h3
    subst h3
    have e3 : upd s.heap p (some (.node a' (g.map ATree.var))) q = some (.node b (g.map ATree.var)) := by
      simp only [upd, Ne.symm hpq, if_false, hh'.2.1]
    simp only [tSetNode, bind, Eff.bind, tReadNode, e3, Eff.modify, Res.ok.injEq, true_and, TreeSt.mk.injEq, and_true]
    funext y
    by_cases h4 : y = p
    · subst h4; simp only [upd, if_true, hpq, if_false]
    · simp only [upd, h4, if_false]

/-- Swap of nodes, and of plain objects. -/
theorem tSwapContent_run (hl : C.ops.Lawful) {l r : TLoc} {L R : ATree V} {u v : VTree V} (hM : Mem s α G) (hS : IsS α σ)
    (hx : Side s α σ x l L u) (ht : Side s α σ t r R v) (h0 : u.Typed C.wrapped) (h1 : v.Typed C.wrapped) (hk : L.which = R.which)
    (hrel : x = t ∨ x.Apart t) :
    DoesAt C (.swap x t z) α σ G (tSwapContent C L.which (L.var.ref l) (R.var.ref r) s) := by
  obtain ⟨_, hlr, hlh⟩ := hM.at_run hx.at_
  obtain ⟨_, hrr, hrh⟩ := hM.at_run ht.at_
  have hl1 := ref_read hlr hlh
  have hr1 := ref_read hrr hrh
  obtain ⟨hx, hxv, hL⟩ := hx
  obtain ⟨ht, htv, hR⟩ := ht
  have hM1 : Mem { s with tick := s.tick + 1 } α G := hM.same rfl rfl (Nat.le_refl _)
  rcases same_kind hL hR h0 h1 hk with ⟨k, a, b, o, o', rfl, rfl, rfl, rfl⟩ | ⟨k, a, p, f, o, b, q, g, o', f', g', rfl, rfl, rfl, rfl, h2, h3⟩
  · simp only [content] at hl1 hr1
    rcases hrel with rfl | ha
    · obtain ⟨rfl, e⟩ := hx.unique ht
      cases e
      rcases tMayThrow_run (C := C) false (.swap k) s with hthr | ⟨hthr, hto⟩
      · obtain ⟨s2, h4, hM2, _⟩ := hM1.setLeaf (C.ops.selfSwap k a) hx
        refine .inl ⟨s2, _, _, ?_, .swap hxv hxv, (hS.put (x := x) (u := .leaf k a) hL).put (x := x) (u := .leaf k a) hL, ?_,
          .swap_other hx hx .leaf .put2⟩
        · simp only [tSwapContent, which, bind, Eff.bind, hl1, if_true, Eff.onExc, hthr, h4]
        · rw [hl.selfSwap_eq] at hM2; rw [AStore.put_same hx, AStore.put_same hx]; rwa [AStore.put_same hx] at hM2
      · obtain ⟨s2, h4, hM2, _⟩ := hM1.setLeaf (C.ops.selfSwapFail k a) hx
        refine .inr ⟨⟨.swap k, s.tick⟩, s2, _, _, ?_, .swapSelf hxv, hS.put ?_, hM2, hto,
          .swap_other hx hx .leaf (.put (by simp))⟩
        · simp only [tSwapContent, which, bind, Eff.bind, hl1, if_true, Eff.onExc, hthr, h4]
        · rw [VTree.store, ATree.Is]; exact ⟨rfl, rfl⟩
    · have hne := ref_ne hM hx ht ha
      have hxt : x ≠ t := by
        rintro rfl
        obtain ⟨rfl, e⟩ := hx.unique ht
        cases e
        exact hne rfl
      rcases tMayThrow_run (C := C) false (.swap k) s with hthr | ⟨hthr, hto⟩
      · obtain ⟨s2, h4, hM2, _⟩ := hM1.setLeaf (C.ops.swapL k a b) hx
        obtain ⟨s3, h5, hM3, _⟩ := hM2.setLeaf (C.ops.swapR k a b) (ht.put_apart ha.symm)
        refine .inl ⟨s3, _, _, ?_, .swap hxv htv, (hS.put ?_).put ?_, hM3, .swap_other hx ht .leaf .put2⟩
        · simp only [tSwapContent, which, bind, Eff.bind, hl1, hr1, if_neg hne, Eff.onExc, hthr, h4, h5]
        · rw [ATree.Is, hl.swapL_eq]; exact ⟨rfl, rfl⟩
        · rw [ATree.Is, hl.swapR_eq]; exact ⟨rfl, rfl⟩
      · obtain ⟨s2, h4, hM2, _⟩ := hM1.setLeaf (C.ops.swapFailL k a b) hx
        obtain ⟨s3, h5, hM3, _⟩ := hM2.setLeaf (C.ops.swapFailR k a b) (ht.put_apart ha.symm)
        refine .inr ⟨⟨.swap k, s.tick⟩, s3, _, _, ?_, .swapValues hxt hxv htv rfl, (hS.put ?_).put ?_, hM3, hto,
          .swap_other hx ht .leaf .put2⟩
        · simp only [tSwapContent, which, bind, Eff.bind, hl1, hr1, if_neg hne, Eff.onExc, hthr, h4, h5]
        · rw [VTree.store, ATree.Is]; exact ⟨rfl, rfl⟩
        · rw [VTree.store, ATree.Is]; exact ⟨rfl, rfl⟩
  · simp only [content] at hl1 hr1
    rw [ATree.Holds] at hlh hrh
    have hp : tReadNode p s = .ok (a, f.map ATree.var) s := by simp only [tReadNode, hlh.2.1]
    have hq : tReadNode q s = .ok (b, g.map ATree.var) s := by simp only [tReadNode, hrh.2.1]
    rcases hrel with rfl | ha
    · obtain ⟨rfl, e⟩ := hx.unique ht
      cases e
      rw [hxv] at htv
      cases htv
      rcases tMayThrow_run (C := C) false (.swap k) s with hthr | ⟨hthr, hto⟩
      · obtain ⟨s2, h4, hM2, _⟩ := hM1.setNode (a' := C.ops.selfSwap k a) (f' := f) (G' := G) hx hlh.2.2 hM.ghosts fun _ => rfl
        refine .inl ⟨s2, _, _, ?_, .swap hxv hxv, (hS.put (x := x) hL).put (x := x) hL, ?_, ?_⟩
        · simp only [tSwapContent, which, bind, Eff.bind, hl1, tSwapNode, hp, if_true, Eff.onExc, hthr, h4]
        · rw [hl.selfSwap_eq] at hM2; rw [AStore.put_same hx, AStore.put_same hx]; rwa [AStore.put_same hx] at hM2
        · rw [AStore.put_same hx, AStore.put_same hx]; exact .swap_self
      · obtain ⟨s2, h4, hM2, _⟩ := hM1.setNode (a' := C.ops.selfSwapFail k a) (f' := f) (G' := G) hx hlh.2.2 hM.ghosts fun _ => rfl
        refine .inr ⟨⟨.swap k, s.tick⟩, s2, _, _, ?_, .swapSelf hxv, hS.put ?_, hM2, hto, .swap_selfFail hx⟩
        · simp only [tSwapContent, which, bind, Eff.bind, hl1, tSwapNode, hp, if_true, Eff.onExc, hthr, h4]
        · rw [VTree.store, ATree.Is]; exact ⟨rfl, rfl, h2⟩
    · have hpq : p ≠ q := by
        rintro rfl
        have := (hM.apart hx ht ha).2 p
        simp only [blocks, List.count_append, List.count_cons_self] at this
        omega
      have hxt : x ≠ t := by
        rintro rfl
        obtain ⟨rfl, e⟩ := hx.unique ht
        cases e
        exact hpq rfl
      rcases tMayThrow_run (C := C) false (.swap k) s with hthr | ⟨hthr, hto⟩
      · obtain ⟨s2, s3, h4, h5, hM3⟩ := hM1.swapNodes (a' := C.ops.swapL k a b) (b' := C.ops.swapR k a b) hx ht ha
        refine .inl ⟨s3, _, _, ?_, .swap hxv htv, (hS.put ?_).put ?_, hM3, ?_⟩
        · simp only [tSwapContent, which, bind, Eff.bind, hl1, hr1, tSwapNode, hp, hq, if_neg hpq, Eff.onExc, hthr, h4, h5]
        · rw [ATree.Is, hl.swapL_eq]; exact ⟨rfl, rfl, h3⟩
        · rw [ATree.Is, hl.swapR_eq]; exact ⟨rfl, rfl, h2⟩
        · rw [hl.swapL_eq, hl.swapR_eq]; exact .swap_nodes ha hx ht
      · obtain ⟨s2, h4, hM2, _⟩ := hM1.setNode (a' := C.ops.swapFailL k a b) (f' := f) (G' := G) hx hlh.2.2 hM.ghosts fun _ => rfl
        have ht2 := ht.put_apart (U := .node k (C.ops.swapFailL k a b) p f o) ha.symm
        have hh2 := (hM2.at_run ht2).2.2
        rw [ATree.Holds] at hh2
        obtain ⟨s3, h5, hM3, _⟩ := hM2.setNode (a' := C.ops.swapFailR k a b) (f' := g) (G' := G) ht2 hh2.2.2 hM2.ghosts fun _ => rfl
        refine .inr ⟨⟨.swap k, s.tick⟩, s3, _, _, ?_, .swapValues hxt hxv htv rfl, (hS.put ?_).put ?_, hM3, hto,
          .swap_fail ha hx ht⟩
        · simp only [tSwapContent, which, bind, Eff.bind, hl1, hr1, tSwapNode, hp, hq, if_neg hpq, Eff.onExc, hthr, h4, h5]
        · rw [VTree.store, ATree.Is]; exact ⟨rfl, rfl, h2⟩
        · rw [VTree.store, ATree.Is]; exact ⟨rfl, rfl, h3⟩

/-! ### Between types -/

/-- Move assignment of a content of another type, in place. -/
theorem tVariantMoveAssign_other {l r : TLoc} {L R : ATree V} (hM : Mem s α G) (hx : At α x l L) (ht : At α t r R)
    (hk : L.which ≠ R.which) (hb : R.box = none) :
    tVariantMoveAssign C n l r s = tMoveAssigner C n l L.var R.which (.inPlace r) s := by
  obtain ⟨_, hlr, _⟩ := hM.at_run hx
  obtain ⟨_, hrr, _⟩ := hM.at_run ht
  simp only [tVariantMoveAssign, bind, Eff.bind, hlr, hrr]
  rw [var_none hb]
  unfold var
  cases h1 : L.box <;> simp [hk]

/-- The end of the life of the local variant. -/
theorem Mem.endVar {T : ATree V} {u : VTree V} (hM : Mem s α G) (hz : α z = some T) (hT : T.Is u) (hn : u.height ≤ n) :
    ∃ s', tEndVar n z s = .ok () s' ∧ Mem s' (upd α z none) G := by
  obtain ⟨s1, s2, g1, g2, hM2, _⟩ := hM.destroyVar (n := n) hz hT hn
  have hrd := hM.read_var hz
  simp only [TLoc.read] at hrd
  exact ⟨s2, by simp only [tEndVar, bind, Eff.bind, hrd, g1, g2], hM2⟩

theorem IsS.side {l : TLoc} {L : ATree V} {u : VTree V} (hS : IsS α σ) (hx : At α x l L) (hu : σ.at x = some u) : Side s α σ x l L u := by
  obtain ⟨u', h1, h2⟩ := hS.at hx
  rw [hu] at h1; cases h1
  exact ⟨hx, hu, h2⟩

theorem At.upd {l : TLoc} {L : ATree V} {o : Option (ATree V)} (hx : At α x l L) (h : z ≠ x.var) : At (BVariant.upd α z o) x l L := by
  obtain ⟨T, h1, h2⟩ := hx
  exact ⟨T, by simp only [BVariant.upd, Ne.symm h, if_false]; exact h1, h2⟩

theorem put_ne_var {U : ATree V} (h : z ≠ x.var) : α.put x U z = α z := by simp only [AStore.put, upd, h, if_false]

theorem VTree.which_movedFrom (u : VTree V) : (u.movedFrom C).which = u.which := by cases u <;> rfl

/-- Move assignment of a value of another type that succeeds. -/
theorem TOk.moveAssign_other {σ' : TStore V} {u v : VTree V} (h : TOk C (.moveAssign x t) σ σ') (hx : σ.at x = some u) (ht : σ.at t = some v)
    (hk : u.which ≠ v.which) :
    (C.Moves v.which ∧ σ' = (σ.put x v).put t (v.movedFrom C)) ∨ (¬ C.Moves v.which ∧ σ' = σ.put x v) := by
  cases h with
  | moved h1 h2 => rw [ht] at h2; cases h2; exact .inl ⟨h1, rfl⟩
  | copied h1 h2 => rw [ht] at h2; cases h2; exact .inr ⟨h1, rfl⟩
  | swapped h1 h2 => rw [hx] at h1; cases h1; rw [ht] at h2; cases h2; exact absurd rfl hk
  | plain _ h1 h2 => rw [hx] at h1; cases h1; rw [ht] at h2; cases h2; exact absurd rfl hk
  | self h1 => rw [hx] at ht; cases ht; exact absurd rfl hk

/-- Move assignment of a value of another type that fails. -/
theorem TExc.moveAssign_other {σ' : TStore V} {u v : VTree V} (h : TExc C (.moveAssign x t) σ σ') (hx : σ.at x = some u) (ht : σ.at t = some v)
    (hk : u.which ≠ v.which) :
    σ' = σ ∨ ∃ fb v', C.fallback = some fb ∧ v.Partly C v' ∧ σ' = (σ.put x (.leaf fb (C.ops.defaultInit fb))).put t v' := by
  cases h with
  | same => exact .inl rfl
  | moveFallback h1 h2 h3 => rw [ht] at h2; cases h2; exact .inr ⟨_, _, h1, h3, rfl⟩
  | movePlain _ h1 h2 => rw [hx] at h1; cases h1; rw [ht] at h2; cases h2; exact absurd rfl hk
  | moveSelf h1 => rw [hx] at ht; cases ht; exact absurd rfl hk

/-- Swap between types. -/
theorem tSwap_other (hl : C.ops.Lawful) {l r : TLoc} {L R : ATree V} {u v : VTree V} (hM : Mem s α G) (hS : IsS α σ)
    (hx : Side s α σ x l L u) (ht : Side s α σ t r R v) (hty : u.Typed C.wrapped) (htu : v.Typed C.wrapped) (hn0 : u.height ≤ n)
    (hn : v.height ≤ n) (hk : L.which ≠ R.which) (hb : L.box = none) (ha : x.Apart t) (hz : σ z = none) :
    DoesAt C (.swap x t z) α σ G (tSwap C n l r z s) := by
  obtain ⟨_, hlr, _⟩ := hM.at_run hx.at_
  obtain ⟨_, hrr, _⟩ := hM.at_run ht.at_
  have hxa : σ.at x ≠ none := by rw [hx.val]; nofun
  have hta : σ.at t ≠ none := by rw [ht.val]; nofun
  have hzx := ne_of_at hxa hz
  have hzt := ne_of_at hta hz
  have hkuv : u.which ≠ v.which := by rw [← hx.is.which, ← ht.is.which]; exact hk
  have hk' : (v.movedFrom C).which ≠ u.which := by rw [VTree.which_movedFrom]; exact hkuv.symm
  have hzα := hS.none_iff.mp hz
  have hafter : ∀ {ok : Bool} {α' : AStore V}, TFrame [⟨z, []⟩, x, t] α α' → TAfter ok (.swap x t z) α α' := fun h =>
    .swap_other hx.at_ ht.at_ (.inr hk) (h.drop hzα)
  have hcode : tSwap C n l r z s = (do
      let tmp ← tMoveVar C n r
      tSetVar z (some tmp)
      Eff.onExc (do
        tVariantMoveAssign C n r l
        tVariantMoveAssign C n l (.var z)) (tEndVar n z)
      tEndVar n z : Eff (TreeSt V) Unit) s := by
    simp only [tSwap, bind, Eff.bind, hlr, hrr, var_which, hk, if_false]
  rw [hcode]
  have hth : (v.movedFrom C).height ≤ n := Nat.le_trans (VTree.height_movedFrom v) hn
  -- `variant tmp(std::move(rhs));`
  rcases tMoveVar_run (C := C) hM ht.at_ ht.is hn with ⟨s1, U, R', g1, hUb, hU, hR', hM1, _⟩ | ⟨e, s1, R', v', g1, hp, hR', hM1, hthr⟩
  · rw [VTree.moved_lawful hl] at hU
    obtain ⟨s2, g2, hM2, _⟩ := hM1.newVar (x := z) (by rw [put_ne_var hzt]; exact hzα)
    have hS2 : IsS (upd (α.put t R') z (some U)) (σ.three x t z u (v.movedFrom C) v) := by
      unfold TStore.three
      rw [TStore.put_same hx.val]
      exact (hS.put hR').upd hU
    have hx2 : At (upd (α.put t R') z (some U)) x l L := At.upd (hx.at_.put_apart ha) hzx
    have ht2 : At (upd (α.put t R') z (some U)) t r R' := At.upd ht.at_.put hzt
    have hz2 : upd (α.put t R') z (some U) z = some U := upd_same _ _ _
    have hk2 : R'.which ≠ L.which := by rw [hR'.which, VTree.which_movedFrom, hx.is.which]; exact hkuv.symm
    obtain ⟨α2, hα2⟩ : ∃ α2 : AStore V, α2 = upd (α.put t R') z (some U) := ⟨_, rfl⟩
    have hfr2 : TFrame [⟨z, []⟩, x, t] α α2 := hα2 ▸ .trans (.put (by simp)) (.del (by simp))
    rw [← hα2] at hM2 hS2 hx2 ht2 hz2
    -- `rhs = std::move(*this);`
    have g3 := tVariantMoveAssign_other (C := C) (n := n) hM2 ht2 hx2 hk2 hb
    have hd := tMoveAssigner_run (n := n) hl hM2 hS2 (hS2.side ht2 (TStore.three_atT hta hz ha))
      (hS2.side hx2 (TStore.three_atX hxa hz ha)) hb (VTree.typed_movedFrom htu) hty hth hn0 (.inl ha.symm)
    rw [← g3] at hd
    rcases hd with ⟨s3, α3, σ3, g4, ho, hS3, hM3, hkept⟩ | ⟨e, s3, α3, σ3, g4, ho, hS3, hM3, hthr, hkept⟩
    · obtain ⟨U1, W1, rfl⟩ := hkept.1 ha.symm
      have hx3 : At ((α2.put t U1).put x W1) x l W1 := (hx2.put_apart ha).put
      have hz3 : ((α2.put t U1).put x W1) z = some U := by rw [put_ne_var hzx, put_ne_var hzt]; exact hz2
      have hz3' : At ((α2.put t U1).put x W1) ⟨z, []⟩ (.var z) U := ⟨U, hz3, walk_nil _ _⟩
      -- the left side is moved from, or has been copied
      have hσ3 : ∃ w, σ3 = σ.three x t z w u v ∧ ((C.Moves u.which ∧ w = u.movedFrom C) ∨ (¬ C.Moves u.which ∧ w = u)) := by
        rcases ho.moveAssign_other (TStore.three_atT hta hz ha) (TStore.three_atX hxa hz ha) hk' with ⟨h1, rfl⟩ | ⟨h1, rfl⟩
        · exact ⟨_, by rw [TStore.three_putT hta hz, TStore.three_putX hxa hz ha], .inl ⟨h1, rfl⟩⟩
        · exact ⟨_, by rw [TStore.three_putT hta hz], .inr ⟨h1, rfl⟩⟩
      obtain ⟨w, rfl, hw⟩ := hσ3
      have hw' : w.which = u.which ∧ w.height ≤ u.height ∧ w.Typed C.wrapped := by
        rcases hw with ⟨_, rfl⟩ | ⟨_, rfl⟩
        · exact ⟨VTree.which_movedFrom u, VTree.height_movedFrom u, VTree.typed_movedFrom hty⟩
        · exact ⟨rfl, Nat.le_refl _, hty⟩
      have hside := hS3.side (s := s3) hx3 (TStore.three_atX hxa hz ha)
      obtain ⟨α3, hα3⟩ : ∃ α3 : AStore V, α3 = (α2.put t U1).put x W1 := ⟨_, rfl⟩
      have hfr3 : TFrame [⟨z, []⟩, x, t] α α3 := hα3 ▸ (hfr2.trans (.put (by simp))).trans (.put (by simp))
      rw [← hα3] at hM3 hS3 hx3 hz3 hz3' hside
      have hk3 : W1.which ≠ U.which := by rw [hside.is.which, hU.which, hw'.1]; exact hkuv
      -- `*this = std::move(tmp);`
      have g5 := tVariantMoveAssign_other (C := C) (n := n) hM3 hx3 hz3' hk3 hUb
      have hap : x.Apart ⟨z, []⟩ := .inl (Ne.symm hzx)
      have hd := tMoveAssigner_run (n := n) hl hM3 hS3 hside (hS3.side hz3' TStore.three_atZ) hUb hw'.2.2 htu
        (Nat.le_trans hw'.2.1 hn0) hn (.inl hap)
      rw [← g5] at hd
      have e1 : (σ.three x t z w u v).at x = some w := TStore.three_atX hxa hz ha
      have e2 : (σ.three x t z w u v).at ⟨z, []⟩ = some v := TStore.three_atZ
      rcases hd with ⟨s5, α5, σ5, g6, ho, hS5, hM5, hkept⟩ | ⟨e, s5, α5, σ5, g6, ho, hS5, hM5, hthr, hkept⟩
      · obtain ⟨U2, W2, rfl⟩ := hkept.1 hap
        have hz5 : ((α3.put x U2).put ⟨z, []⟩ W2) z = some W2 := by
          simp only [AStore.put, upd, if_true, hzx, if_false, hz3, Option.map_some]
          exact congrArg some (by cases U <;> rfl)
        have hσ5 : ∃ c, σ5 = σ.three x t z v u c ∧ c.height ≤ n := by
          rcases ho.moveAssign_other e1 e2 (hw'.1 ▸ hkuv) with ⟨_, rfl⟩ | ⟨_, rfl⟩
          · exact ⟨_, by rw [TStore.three_putX hxa hz ha, TStore.three_putZ], hth⟩
          · exact ⟨_, by rw [TStore.three_putX hxa hz ha], hn⟩
        obtain ⟨c, rfl, hc⟩ := hσ5
        have hW2 : W2.Is c := by
          obtain ⟨c', h1, h2⟩ := hS5.at (t := ⟨z, []⟩) ⟨W2, hz5, walk_nil _ _⟩
          rw [TStore.three_atZ] at h1; cases h1; exact h2
        obtain ⟨s6, g7, hM6⟩ := hM5.endVar (n := n) hz5 hW2 hc
        have hS6 := hS5.del (x := z)
        rw [TStore.three_del hz] at hS6
        refine .inl ⟨s6, _, _, ?_, .swap hx.val ht.val, hS6, hM6, hafter (((hfr3.trans (.put (by simp))).trans (.put (by simp))).trans (.del (by simp)))⟩
        simp only [bind, Eff.bind, g1, g2, Eff.onExc, g4, g6, g7]
      · obtain ⟨U2, W2, rfl⟩ := hkept.1 hap
        have hz5 : ((α3.put x U2).put ⟨z, []⟩ W2) z = some W2 := by
          simp only [AStore.put, upd, if_true, hzx, if_false, hz3, Option.map_some]
          exact congrArg some (by cases U <;> rfl)
        have hσ5 : ∃ w' c, σ5 = σ.three x t z w' u c ∧ c.height ≤ n ∧
            (w' = w ∨ ∃ fb, C.fallback = some fb ∧ w' = .leaf fb (C.ops.defaultInit fb)) := by
          rcases ho.moveAssign_other e1 e2 (hw'.1 ▸ hkuv) with rfl | ⟨fb, v', h1, h3, rfl⟩
          · exact ⟨_, _, rfl, hn, .inl rfl⟩
          · exact ⟨_, _, by rw [TStore.three_putX hxa hz ha, TStore.three_putZ], Nat.le_trans h3.height hn, .inr ⟨_, h1, rfl⟩⟩
        obtain ⟨w', c, rfl, hc, hw2⟩ := hσ5
        have hW2 : W2.Is c := by
          obtain ⟨c', h1, h2⟩ := hS5.at (t := ⟨z, []⟩) ⟨W2, hz5, walk_nil _ _⟩
          rw [TStore.three_atZ] at h1; cases h1; exact h2
        obtain ⟨s6, g7, hM6⟩ := hM5.endVar (n := n) hz5 hW2 hc
        have hS6 := hS5.del (x := z)
        rw [TStore.three_del hz] at hS6
        refine .inr ⟨e, s6, _, _, ?_, .swapThird hx.val ht.val hkuv ?_, hS6, hM6, hthr,
          hafter (((hfr3.trans (.put (by simp))).trans (.put (by simp))).trans (.del (by simp)))⟩
        · simp only [bind, Eff.bind, g1, g2, Eff.onExc, g4, g6, g7]
        · rcases hw2 with rfl | hw2
          · rcases hw with hw | hw
            · exact .inl hw
            · exact .inr (.inl hw)
          · exact .inr (.inr hw2)
    · obtain ⟨U1, W1, rfl⟩ := hkept.1 ha.symm
      have hz3 : ((α2.put t U1).put x W1) z = some U := by rw [put_ne_var hzx, put_ne_var hzt]; exact hz2
      obtain ⟨s6, g7, hM6⟩ := hM3.endVar (n := n) hz3 hU hn
      have hS6 := hS3.del (x := z)
      have hσ3 : ∃ u' w, σ3 = σ.three x t z u' w v ∧ u.Partly C u' ∧
          ((u' = u ∧ w = v.movedFrom C) ∨ ∃ fb, C.fallback = some fb ∧ w = .leaf fb (C.ops.defaultInit fb)) := by
        rcases ho.moveAssign_other (TStore.three_atT hta hz ha) (TStore.three_atX hxa hz ha) hk' with rfl | ⟨fb, u', h1, h3, rfl⟩
        · exact ⟨_, _, rfl, .same _, .inl ⟨rfl, rfl⟩⟩
        · exact ⟨_, _, by rw [TStore.three_putT hta hz, TStore.three_putX hxa hz ha], h3, .inr ⟨_, h1, rfl⟩⟩
      obtain ⟨u', w, rfl, h1, h2⟩ := hσ3
      rw [TStore.three_del hz] at hS6
      refine .inr ⟨e, s6, _, _, ?_, .swapSecond hx.val ht.val hkuv h1 h2, hS6, hM6, hthr,
        hafter (((hfr2.trans (.put (by simp))).trans (.put (by simp))).trans (.del (by simp)))⟩
      simp only [bind, Eff.bind, g1, g2, Eff.onExc, g4, g7]
  · refine .inr ⟨e, s1, _, _, ?_, .swapFirst hx.val ht.val hkuv hp, hS.put hR', hM1, hthr.throws,
      hafter (.put (by simp))⟩
    simp only [bind, Eff.bind, g1]

/-- Swap of recursive variants. -/
theorem tSwap_run (hl : C.ops.Lawful) {l r : TLoc} {L R : ATree V} {u v : VTree V} (hM : Mem s α G) (hS : IsS α σ)
    (hx : Side s α σ x l L u) (ht : Side s α σ t r R v) (hty : u.Typed C.wrapped) (htu : v.Typed C.wrapped) (hn0 : u.height ≤ n)
    (hn : v.height ≤ n) (hz : σ z = none) (hh : TCmd.hazard C s (.swap x t z) = false) :
    DoesAt C (.swap x t z) α σ G (tSwap C n l r z s) := by
  obtain ⟨_, hlr, _⟩ := hM.at_run hx.at_
  obtain ⟨_, hrr, _⟩ := hM.at_run ht.at_
  simp only [TCmd.hazard, hM.variant_eq hx.at_, hM.variant_eq ht.at_] at hh
  have hparts : t.inside x = false ∧ x.inside t = false ∧ (L.which = R.which ∨ L.box = none) := by
    cases hb : L.box with
    | none =>
      rw [var_none hb] at hh
      simp only [Bool.or_eq_false_iff] at hh
      exact ⟨hh.1, hh.2, .inr rfl⟩
    | some q =>
      have hv : L.var = .backup L.which q := by unfold var; rw [hb]
      rw [hv] at hh
      simp only [Bool.or_eq_false_iff, bne_eq_false_iff_eq, var_which] at hh
      exact ⟨hh.1.2, hh.2, .inl hh.1.1⟩
  obtain ⟨h1, h2, h3⟩ := hparts
  have hrel : x = t ∨ x.Apart t := by
    rcases TPlace.cases x t with h | h | h | h
    · exact .inl h
    · exact .inr h
    · rw [h] at h1; cases h1
    · rw [h] at h2; cases h2
  by_cases hk : L.which = R.which
  · have hcode : tSwap C n l r z s = tSwapContent C L.which (L.var.ref l) (R.var.ref r) s := by
      simp only [tSwap, bind, Eff.bind, hlr, hrr, var_which, hk, if_true]
    rw [hcode]
    exact tSwapContent_run hl hM hS hx ht hty htu hk hrel
  · refine tSwap_other hl hM hS hx ht hty htu hn0 hn hk (h3.resolve_left hk) ?_ hz
    rcases hrel with rfl | h
    · obtain ⟨_, rfl⟩ := hx.at_.unique ht.at_
      exact absurd rfl hk
    · exact h

end

end BVariant
