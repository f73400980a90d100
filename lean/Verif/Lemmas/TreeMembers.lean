/-
Assignment member by member: what it does to the annotated trees.
-/
import Verif.Lemmas.TreeDoes
import Verif.Spec.TreeMembers

namespace BVariant

section
variable {V : Type} {C : TreeCfg V} {s s' : TreeSt V} {mw : TyIx → Bool} {ar : TyIx → Nat}

open ATree AStore

variable {α : AStore V} {G : List (ATree V)} {n : Nat} {x t : TPlace}

/-- No variant of the tree is in a backup. -/
def ATree.InPlace (l : TLoc) (R : ATree V) : Prop := ∀ is l' T, R.walk l is = some (l', T) → T.box = none

theorem ATree.InPlace.box {l : TLoc} {R : ATree V} (h : InPlace l R) : R.box = none := h [] l R (walk_nil l R)

theorem ATree.InPlace.member {l : TLoc} {k : TyIx} {a : V} {p : ObjId} {f : List (ATree V)} {b : Option ObjId} {i : Nat} {T : ATree V}
    (h : InPlace l (.node k a p f b)) (hi : f[i]? = some T) : InPlace (.child p i) T := fun is l' T' hw =>
  h (i :: is) l' T' (by simp only [walk, hi, hw])

theorem TPlace.Apart.members (h : x.Apart t) (i j : Nat) :
    TPlace.Apart ⟨x.var, x.path ++ [i]⟩ ⟨t.var, t.path ++ [j]⟩ := by
  rcases h with h | h
  · exact .inl h
  · refine .inr ⟨fun h' => ?_, fun h' => ?_⟩
    · rcases List.prefix_or_prefix_of_prefix ((List.prefix_append x.path [i]).trans h') (List.prefix_append t.path [j]) with g | g
      · exact h.1 g
      · exact h.2 g
    · rcases List.prefix_or_prefix_of_prefix ((List.prefix_append t.path [j]).trans h') (List.prefix_append x.path [i]) with g | g
      · exact h.2 g
      · exact h.1 g

theorem isL_length : ∀ {f : List (ATree V)} {g : VForest V}, IsL f g → f.length = g.size
  | [], .nil, _ => rfl
  | [], .cons _ _, h => by simp [IsL] at h
  | _ :: _, .nil, h => by simp [IsL] at h
  | _ :: ts, .cons _ g, h => by rw [IsL] at h; simp only [List.length_cons, VForest.size, isL_length h.2]

theorem VTree.SameShape.which {u0 u : VTree V} (h : u0.SameShape u) : u0.which = u.which := by
  cases u0 <;> cases u <;> simp only [VTree.SameShape] at h
  · exact h
  · exact h.1

/-- The two sides of an assignment. -/
structure BySides (C : TreeCfg V) (mw : TyIx → Bool) (ar : TyIx → Nat) (n : Nat) (α : AStore V) (x t : TPlace) (l r : TLoc)
    (L R : ATree V) (u0 u : VTree V) : Prop where
  atx : At α x l L
  att : At α t r R
  isx : L.Is u0
  ist : R.Is u
  tyx : u0.Typed C.wrapped
  tyt : u.Typed C.wrapped
  memx : u0.Members mw ar
  memt : u.Members mw ar
  hx : u0.height ≤ n
  ht : u.height ≤ n
  rel : (x.Apart t ∧ InPlace r R) ∨ x = t
  fb : C.fallback ≠ none → InPlace l L

/-- Nothing is allocated or freed if all classes assign member by member and the two trees have the same types. -/
def KeepsBlocks (C : TreeCfg V) (mw : TyIx → Bool) (s s' : TreeSt V) (P : Prop) (as bs : List ObjId) : Prop :=
  (∀ k, C.wrapped k = true → mw k = true) → P → s'.allocs = s.allocs ∧ bs = as

/-- The outcome of an assignment. -/
def AssignsBy (C : TreeCfg V) (mw : TyIx → Bool) (s : TreeSt V) (α : AStore V) (G : List (ATree V)) (x : TPlace) (l : TLoc) (L : ATree V)
    (u0 u : VTree V) (r : Res (TreeSt V) Unit) : Prop :=
  (∃ s' U, r = .ok () s' ∧ U.Is u ∧ Mem s' (α.put x U) G ∧ KeepsBlocks C mw s s' (u0.SameShape u ∧ InPlace l L) L.blocks U.blocks) ∨
  (∃ e s' W w, r = .exc e s' ∧ W.Is w ∧ u0.Half C mw u w ∧ Mem s' (α.put x W) G ∧ C.throws e.tick = true ∧
    KeepsBlocks C mw s s' (u0.SameShape u ∧ InPlace l L) L.blocks W.blocks)

/-- The members from some index are assigned in order. -/
theorem tAssignMembers_run {f : TLoc → TLoc → Eff (TreeSt V) Unit}
    (hf : ∀ {s : TreeSt V} {α : AStore V} {x t : TPlace} {l r : TLoc} {L R : ATree V} {u0 u : VTree V}, Mem s α G →
      BySides C mw ar n α x t l r L R u0 u → AssignsBy C mw s α G x l L u0 u (f l r s))
    {l r : TLoc} {k k' : TyIx} {a a' : V} {p q : ObjId} {b b' : Option ObjId} :
    ∀ (F F' : List (ATree V)) (g g' : VForest V) {s : TreeSt V} {α : AStore V} {P P' : List (ATree V)}, Mem s α G →
      At α x l (.node k a p (P ++ F) b) → At α t r (.node k' a' q (P' ++ F') b') → P.length = P'.length → F.length = F'.length →
      IsL F g → IsL F' g' → g.Typed C.wrapped → g'.Typed C.wrapped → g.Members mw ar → g'.Members mw ar → g.height ≤ n → g'.height ≤ n →
      (x.Apart t ∧ (∀ i T, F'[i]? = some T → InPlace (.child q (P'.length + i)) T)) ∨ x = t →
      (C.fallback ≠ none → ∀ i T, F[i]? = some T → InPlace (.child p (P.length + i)) T) →
      (∃ s' U, tAssignMembers f p q F'.length P.length s = .ok () s' ∧ IsL U g' ∧ Mem s' (α.put x (.node k a p (P ++ U) b)) G ∧
        KeepsBlocks C mw s s' (g.SameShape g' ∧ ∀ i T, F[i]? = some T → InPlace (.child p (P.length + i)) T) (blocksL F) (blocksL U)) ∨
      (∃ e s' W w, tAssignMembers f p q F'.length P.length s = .exc e s' ∧ IsL W w ∧ g.Half C mw g' w ∧
        Mem s' (α.put x (.node k a p (P ++ W) b)) G ∧ C.throws e.tick = true ∧
        KeepsBlocks C mw s s' (g.SameShape g' ∧ ∀ i T, F[i]? = some T → InPlace (.child p (P.length + i)) T) (blocksL F) (blocksL W))
  | [], [], .nil, .nil, s, α, P, P', hM, hx, _, _, _, _, _, _, _, _, _, _, _, _, _ => by
    refine .inl ⟨s, [], rfl, by simp [IsL], by rw [AStore.put_same hx]; exact hM, fun _ _ => ⟨rfl, rfl⟩⟩
  | [], _ :: _, _, _, _, _, _, _, _, _, _, _, hlen, _, _, _, _, _, _, _, _, _, _ => by simp at hlen
  | _ :: _, [], _, _, _, _, _, _, _, _, _, _, hlen, _, _, _, _, _, _, _, _, _, _ => by simp at hlen
  | [], [], .cons _ _, _, _, _, _, _, _, _, _, _, _, h, _, _, _, _, _, _, _, _, _ => by simp [IsL] at h
  | [], [], .nil, .cons _ _, _, _, _, _, _, _, _, _, _, _, h, _, _, _, _, _, _, _, _ => by simp [IsL] at h
  | _ :: _, _ :: _, .nil, _, _, _, _, _, _, _, _, _, _, h, _, _, _, _, _, _, _, _, _ => by simp [IsL] at h
  | _ :: _, _ :: _, .cons _ _, .nil, _, _, _, _, _, _, _, _, _, _, h, _, _, _, _, _, _, _, _ => by simp [IsL] at h
  | L :: F, R :: F', .cons u0 g, .cons u g', s, α, P, P', hM, hx, ht, hP, hlen, hi, hi', hty, hty', hm, hm', hh, hh', hrel, hfb => by
    rw [IsL] at hi hi'
    rw [VForest.Typed] at hty hty'
    rw [VForest.Members] at hm hm'
    rw [VForest.height] at hh hh'
    have hgx : (P ++ L :: F)[P.length]? = some L := by simp
    have hgt : (P' ++ R :: F')[P'.length]? = some R := by simp
    have hset : ∀ U : ATree V, (P ++ L :: F).set P.length U = P ++ U :: F := fun U => by simp
    have hmx := hx.member hgx
    have hmt := ht.member hgt
    have hput : ∀ U : ATree V, α.put ⟨x.var, x.path ++ [P.length]⟩ U = α.put x (.node k a p (P ++ U :: F) b) := fun U => by
      rw [AStore.put_member hx hgx, hset]
    have hsides : BySides C mw ar n α ⟨x.var, x.path ++ [P.length]⟩ ⟨t.var, t.path ++ [P'.length]⟩ (.child p P.length) (.child q P'.length) L R u0 u :=
      ⟨hmx, hmt, hi.1, hi'.1, hty.1, hty'.1, hm.1, hm'.1, by omega, by omega, by
        rcases hrel with ⟨ha, hb⟩ | rfl
        · exact .inl ⟨ha.members _ _, hb 0 R rfl⟩
        · exact .inr (by rw [hP]), fun hne => hfb hne 0 L rfl⟩
    have hrun := hf hM hsides
    rw [← hP] at hrun
    rcases hrun with ⟨s1, U, h1, hU, hM1, hq1⟩ | ⟨e, s1, W, w, h1, hW, hw, hM1, hth, hq1⟩
    · rw [hput] at hM1
      have hx1 : At (α.put x (.node k a p (P ++ U :: F) b)) x l (.node k a p ((P ++ [U]) ++ F) b) := by
        have := hx.put (U := .node k a p (P ++ U :: F) b)
        rwa [List.append_cons] at this ⊢
      have hfb1 : C.fallback ≠ none → ∀ i T, F[i]? = some T → InPlace (.child p ((P ++ [U]).length + i)) T := fun hne i T hT => by
        have := hfb hne (i + 1) T hT
        simpa [Nat.add_assoc, Nat.add_comm 1 i] using this
      have hrun := (show ∃ P1' : List (ATree V), ∃ a1 q1 k1 b1, At (α.put x (.node k a p (P ++ U :: F) b)) t r (.node k1 a1 q1 (P1' ++ F') b1) ∧ q1 = q ∧
          (P ++ [U]).length = P1'.length ∧ ((x.Apart t ∧ (∀ i T, F'[i]? = some T → InPlace (.child q1 (P1'.length + i)) T)) ∨ x = t) by
        rcases hrel with ⟨ha, hb⟩ | rfl
        · refine ⟨P' ++ [R], a', q, k', b', ?_, rfl, by simp [hP], .inl ⟨ha, fun i T hT => ?_⟩⟩
          · rw [List.append_assoc]
            exact ht.put_apart (U := .node k a p (P ++ U :: F) b) ha.symm
          · have := hb (i + 1) T hT
            simpa [Nat.add_assoc, Nat.add_comm 1 i] using this
        · obtain ⟨rfl, e⟩ := hx.unique ht
          simp only [ATree.node.injEq] at e
          obtain ⟨_, _, e1, e2, _⟩ := e
          obtain ⟨_, e3⟩ := List.append_inj e2 hP
          cases e3
          exact ⟨P ++ [U], a, p, k, b, hx1, e1, rfl, .inr rfl⟩)
      obtain ⟨P1', a1, q1, k1, b1, ht1, rfl, hP1, hrel1⟩ := hrun
      have hih := tAssignMembers_run hf F F' g g' hM1 hx1 ht1 hP1 (by simpa using hlen) hi.2 hi'.2 hty.2 hty'.2 hm.2 hm'.2 (by omega) (by omega) hrel1 hfb1
      have hl1 : (P ++ [U]).length = P.length + 1 := by simp
      rw [hl1] at hih
      have hsh : ((VForest.cons u0 g).SameShape (.cons u g') ∧ ∀ i T, (L :: F)[i]? = some T → InPlace (.child p (P.length + i)) T) →
          (u0.SameShape u ∧ InPlace (.child p P.length) L) ∧
          (g.SameShape g' ∧ ∀ i T, F[i]? = some T → InPlace (.child p (P.length + 1 + i)) T) := fun ⟨h1, h2⟩ => by
        rw [VForest.SameShape] at h1
        refine ⟨⟨h1.1, h2 0 L rfl⟩, h1.2, fun i T hT => ?_⟩
        have := h2 (i + 1) T hT
        simpa [Nat.add_assoc, Nat.add_comm 1 i] using this
      rcases hih with ⟨s2, Us, h2, hUs, hM2, hq2⟩ | ⟨e, s2, Ws, w, h2, hWs, hw, hM2, hth, hq2⟩
      · refine .inl ⟨s2, U :: Us, ?_, by rw [IsL]; exact ⟨hU, hUs⟩, ?_, fun hall hs => ?_⟩
        · simp only [List.length_cons, tAssignMembers, bind, Eff.bind, h1, h2]
        · rw [AStore.put_put hx] at hM2
          simpa using hM2
        · obtain ⟨g1, g2⟩ := hq1 hall (hsh hs).1
          obtain ⟨g3, g4⟩ := hq2 hall (hsh hs).2
          exact ⟨by omega, by rw [blocksL, blocksL, g2, g4]⟩
      · refine .inr ⟨e, s2, U :: Ws, .cons u w, ?_, by rw [IsL]; exact ⟨hU, hWs⟩, .there _ _ hw, ?_, hth, fun hall hs => ?_⟩
        · simp only [List.length_cons, tAssignMembers, bind, Eff.bind, h1, h2]
        · rw [AStore.put_put hx] at hM2
          simpa using hM2
        · obtain ⟨g1, g2⟩ := hq1 hall (hsh hs).1
          obtain ⟨g3, g4⟩ := hq2 hall (hsh hs).2
          exact ⟨by omega, by rw [blocksL, blocksL, g2, g4]⟩
    · rw [hput] at hM1
      refine .inr ⟨e, s1, W :: F, .cons w g, ?_, by rw [IsL]; exact ⟨hW, hi.2⟩, .here _ _ hw, hM1, hth, fun hall hs => ?_⟩
      · simp only [List.length_cons, tAssignMembers, bind, Eff.bind, h1]
      · rw [VForest.SameShape] at hs
        obtain ⟨g1, g2⟩ := hq1 hall ⟨hs.1.1, hs.2 0 L rfl⟩
        exact ⟨g1, by rw [blocksL, blocksL, g2]⟩

/-- Assignment within a type. -/
theorem tAssignContentBy_run (hl : C.ops.Lawful) {f : TLoc → TLoc → Eff (TreeSt V) Unit}
    (hf : ∀ {s : TreeSt V} {α : AStore V} {x t : TPlace} {l r : TLoc} {L R : ATree V} {u0 u : VTree V}, Mem s α G →
      BySides C mw ar n α x t l r L R u0 u → AssignsBy C mw s α G x l L u0 u (f l r s))
    {l r : TLoc} {L R : ATree V} {u0 u : VTree V} (hM : Mem s α G) (hb : BySides C mw ar (n + 1) α x t l r L R u0 u)
    (hk : L.which = R.which) :
    AssignsBy C mw s α G x l L u0 u (tAssignContentBy C mw f (n + 1) L.which (L.var.ref l) (R.var.ref r) s) := by
  obtain ⟨hx, ht, hL, hR, h0, h1, hm0, hm1, hn0, hn, hrel, hfb⟩ := hb
  obtain ⟨_, hlr, hlh⟩ := hM.at_run hx
  obtain ⟨_, hrr, hrh⟩ := hM.at_run ht
  have hl1 := ref_read hlr hlh
  have hr1 := ref_read hrr hrh
  have hM1 : Mem { s with tick := s.tick + 1 } α G := hM.same rfl rfl (Nat.le_refl _)
  rcases same_kind hL hR h0 h1 hk with ⟨k, v, w, b, b', rfl, rfl, rfl, rfl⟩ | ⟨k, a, p, F, b, a', q, F', b', g, g', rfl, rfl, rfl, rfl, h2, h3⟩
  · simp only [content] at hl1 hr1
    rcases tMayThrow_run (C := C) false (.copyAssign k) s with hthr | ⟨hthr, hto⟩
    · obtain ⟨s2, h4, hM2, _, ha⟩ := hM1.setLeaf (C.ops.assign k v w) hx
      refine .inl ⟨s2, _, ?_, ?_, hM2, fun _ _ => ⟨ha, rfl⟩⟩
      · simp only [tAssignContentBy, which, bind, Eff.bind, hl1, hr1, Eff.onExc, hthr, h4]
      · rw [ATree.Is, hl.assign_eq]; exact ⟨rfl, rfl⟩
    · obtain ⟨s2, h4, hM2, _, ha⟩ := hM1.setLeaf (C.ops.assignFail k v w) hx
      refine .inr ⟨⟨.copyAssign k, s.tick⟩, s2, _, .leaf k (C.ops.assignFail k v w), ?_, ?_, .plain k v w, hM2, hto, fun _ _ => ⟨ha, rfl⟩⟩
      · simp only [tAssignContentBy, which, bind, Eff.bind, hl1, hr1, Eff.onExc, hthr, h4]
      · rw [ATree.Is]; exact ⟨rfl, rfl⟩
  · simp only [content] at hl1 hr1
    rw [VTree.height] at hn hn0
    have hlh' := hlh
    rw [ATree.Holds] at hrh hlh
    have hq : tReadNode q s = .ok (a', F'.map ATree.var) s := by simp only [tReadNode, hrh.2.1]
    have hp : tReadNode p s = .ok (a, F.map ATree.var) s := by simp only [tReadNode, hlh.2.1]
    rw [VTree.Typed] at h0 h1
    rw [VTree.Members] at hm0 hm1
    cases hmw : mw k with
    | true =>
      have hlen : F.length = F'.length := by rw [isL_length h2, isL_length h3, hm0.1 hmw, hm1.1 hmw]
      have hlen' : (F.map ATree.var).length = (F'.map ATree.var).length := by simpa using hlen
      have hnode : tAssignContentBy C mw f (n + 1) k ((ATree.node k a p F b).var.ref l) ((ATree.node k a' q F' b').var.ref r) s =
          tAssignNodeBy C f k p q s := by
        simp only [tAssignContentBy, bind, Eff.bind, hl1, hr1]
        rw [if_pos hmw]
      have hnodeBy : tAssignNodeBy C f k p q s = (do
          Eff.onExc (tMayThrow C false (.copyAssign k)) (tSetNode p (C.ops.assignFail k a a') (F.map ATree.var))
          tSetNode p (C.ops.assign k a a') (F.map ATree.var)
          tAssignMembers f p q (F'.map ATree.var).length 0 : Eff (TreeSt V) Unit) s := by
        simp only [tAssignNodeBy, bind, Eff.bind, hp, hq]
        rw [if_pos hlen']
        rfl
      simp only [which]
      rcases tMayThrow_run (C := C) false (.copyAssign k) s with hthr | ⟨hthr, hto⟩
      · obtain ⟨s2, h4, hM2, _, ha2, _⟩ := hM1.setNode (a' := C.ops.assign k a a') (f' := F) (G' := G) hx hlh.2.2 hM1.ghosts (fun _ => rfl)
        have hx2 := hx.put (U := .node k (C.ops.assign k a a') p F b)
        obtain ⟨a2, b2, ht2⟩ : ∃ a2 b2, At (α.put x (.node k (C.ops.assign k a a') p F b)) t r (.node k a2 q F' b2) := by
          rcases hrel with ⟨h, _⟩ | rfl
          · exact ⟨_, _, ht.put_apart h.symm⟩
          · obtain ⟨rfl, e⟩ := hx.unique ht
            cases e
            exact ⟨_, _, hx2⟩
        rcases tAssignMembers_run (P := []) (P' := []) hf F F' g g' hM2 hx2 ht2 rfl hlen h2 h3 h0.2 h1.2 hm0.2 hm1.2 (by omega) (by omega)
            (hrel.imp (fun h => ⟨h.1, fun i T hT => by simpa using h.2.member hT⟩) id)
            (fun hne i T hT => by simpa using (hfb hne).member hT) with ⟨s3, U, h5, hU, hM3, hq3⟩ | ⟨e, s3, W, w, h5, hW, hw, hM3, hth, hq3⟩
        · rw [AStore.put_put hx] at hM3
          refine .inl ⟨s3, _, ?_, ?_, hM3, fun hall hs => ?_⟩
          · rw [hnode, hnodeBy]
            simp only [bind, Eff.bind, Eff.onExc, hthr, h4]
            simpa using h5
          · rw [ATree.Is, hl.assign_eq]; exact ⟨rfl, rfl, hU⟩
          · rw [VTree.SameShape] at hs
            obtain ⟨g1, g2⟩ := hq3 hall ⟨hs.1.2, fun i T hT => by simpa using hs.2.member hT⟩
            exact ⟨by rw [g1, ha2], by rw [blocks, blocks, List.nil_append, g2]⟩
        · rw [AStore.put_put hx] at hM3
          refine .inr ⟨e, s3, _, .node k a' w, ?_, ?_, .members k a a' hmw hw, hM3, hth, fun hall hs => ?_⟩
          · rw [hnode, hnodeBy]
            simp only [bind, Eff.bind, Eff.onExc, hthr, h4]
            simpa using h5
          · rw [ATree.Is, hl.assign_eq]; exact ⟨rfl, rfl, hW⟩
          · rw [VTree.SameShape] at hs
            obtain ⟨g1, g2⟩ := hq3 hall ⟨hs.1.2, fun i T hT => by simpa using hs.2.member hT⟩
            exact ⟨by rw [g1, ha2], by rw [blocks, blocks, List.nil_append, g2]⟩
      · obtain ⟨s2, h4, hM2, _, ha2, _⟩ := hM1.setNode (a' := C.ops.assignFail k a a') (f' := F) (G' := G) hx hlh.2.2 hM1.ghosts (fun _ => rfl)
        refine .inr ⟨⟨.copyAssign k, s.tick⟩, s2, _, .node k (C.ops.assignFail k a a') g, ?_, ?_, .value k a a' g g' hmw, hM2, hto, fun _ _ => ⟨ha2, rfl⟩⟩
        · rw [hnode, hnodeBy]
          simp only [bind, Eff.bind, Eff.onExc, hthr, h4]
        · rw [ATree.Is]; exact ⟨rfl, rfl, h2⟩
    | false =>
      have hquiet : ∀ {s' : TreeSt V} {P : Prop} {as bs : List ObjId}, KeepsBlocks C mw s s' P as bs := fun hall _ => by
        rw [hall k h0.1] at hmw; cases hmw
      have hnode : tAssignContentBy C mw f (n + 1) k ((ATree.node k a p F b).var.ref l) ((ATree.node k a' q F' b').var.ref r) s =
          tAssignNode C (n + 1) k p q s := by
        simp only [tAssignContentBy, bind, Eff.bind, hl1, hr1]
        rw [if_neg (by rw [hmw]; nofun)]
      simp only [which]
      rcases tMayThrow_run (C := C) (C.tr k).nothrowCopy (.copyCtor k) s with hthr | ⟨hthr, hto⟩
      · rcases hM1.copyList (C := C) (n := n + 1) hl hrh.2.2 h3 (by omega) with ⟨s2, us, h4, h5, hM2, t2, _⟩ | ⟨e, s2, h4, hM2, hth⟩
        · have hh2 := (hM2.at_run hx).2.2
          rw [ATree.Holds] at hh2
          have hp : tReadNode p s2 = .ok (a, F.map ATree.var) s2 := by simp only [tReadNode, hh2.2.1]
          have hg := hM2.ghosts
          rw [holdsL_append] at hg
          obtain ⟨s3, h6, hM3, _⟩ := hM2.setNode (a' := C.ops.copy k a') (f' := us) (G' := F ++ G) hx hg.1
            (by rw [holdsL_append]; exact ⟨hh2.2.2, hg.2⟩) (fun q => by simp only [count_append]; omega)
          obtain ⟨s4, h7, hM4, _⟩ := hM3.destroyList (n := n + 1) h2 (by omega)
          refine .inl ⟨s4, _, ?_, ?_, hM4, hquiet⟩
          · rw [hnode]
            simp only [tAssignNode, bind, Eff.bind, hq, hthr, h4, hp, h6, h7]
          · rw [ATree.Is, hl.copy_eq]; exact ⟨rfl, rfl, h5⟩
        · refine .inr ⟨e, s2, .node k a p F b, .node k a g, ?_, hL, .same _ _, by rw [AStore.put_same hx]; exact hM2, hth.throws, hquiet⟩
          rw [hnode]
          simp only [tAssignNode, bind, Eff.bind, hq, hthr, h4]
      · refine .inr ⟨⟨.copyCtor k, s.tick⟩, { s with tick := s.tick + 1 }, .node k a p F b, .node k a g, ?_, hL, .same _ _,
          by rw [AStore.put_same hx]; exact hM1, hto, hquiet⟩
        rw [hnode]
        simp only [tAssignNode, bind, Eff.bind, hq, hthr]

/-- Assignment of variants. -/
theorem tVariantAssignBy_run (hl : C.ops.Lawful) : ∀ (n : Nat) {s : TreeSt V} {α : AStore V} {x t : TPlace} {l r : TLoc} {L R : ATree V}
    {u0 u : VTree V}, Mem s α G → BySides C mw ar n α x t l r L R u0 u → AssignsBy C mw s α G x l L u0 u (tVariantAssignBy C mw n l r s)
  | 0, _, _, _, _, _, _, _, _, u0, _, _, hb => by
    have := hb.hx
    cases u0 <;> simp [VTree.height] at this
  | n + 1, s, α, x, t, l, r, L, R, u0, u, hM, hb => by
    obtain ⟨_, hlr, _⟩ := hM.at_run hb.atx
    obtain ⟨_, hrr, _⟩ := hM.at_run hb.att
    have hcontent := tAssignContentBy_run hl (tVariantAssignBy_run hl n) hM hb
    have hcode : tVariantAssignBy C mw (n + 1) l r s = (match L.var, R.var with
        | .plain k _, .plain k' _ =>
          if k = k' then tAssignContentBy C mw (tVariantAssignBy C mw n) (n + 1) k (.inPlace l) (.inPlace r)
          else tAssigner C (n + 1) l L.var k' (.inPlace r)
        | .backup k q, .backup k' q' =>
          if k = k' then tAssignContentBy C mw (tVariantAssignBy C mw n) (n + 1) k (.inBox q) (.inBox q') else Eff.fail .assertFailed
        | .backup _ _, .plain k' _ => tAssigner C (n + 1) l L.var k' (.inPlace r)
        | .plain _ _, .backup _ _ => Eff.fail .assertFailed) s := by
      simp only [tVariantAssignBy, bind, Eff.bind, hlr, hrr]
      cases L.var <;> cases R.var <;> rfl
    rw [hcode]
    have hass : R.box = none → (L.which ≠ R.which ∨ L.box ≠ none) →
        AssignsBy C mw s α G x l L u0 u (tAssigner C (n + 1) l L.var R.which (.inPlace r) s) := by
      intro hRb hne
      have ha : x.Apart t := by
        rcases hb.rel with h | rfl
        · exact h.1
        · obtain ⟨rfl, rfl⟩ := hb.atx.unique hb.att
          rcases hne with h | h
          · exact absurd rfl h
          · exact absurd hRb h
      have hquiet : ∀ {s' : TreeSt V} {as bs : List ObjId}, KeepsBlocks C mw s s' (u0.SameShape u ∧ InPlace l L) as bs := fun _ hs => by
        rcases hne with h | h
        · exact absurd (by rw [hb.isx.which, hb.ist.which, hs.1.which]) h
        · exact absurd hs.2.box h
      rcases tAssigner_run hl hM hb.atx hb.att hb.isx hb.ist hRb hb.tyx hb.tyt hb.hx hb.ht (.inl ha) with
        ⟨s', U, h1, hU, hM', _⟩ | ⟨e, s', W, w, h1, hW, hw, hM', hth⟩
      · exact .inl ⟨s', U, h1, hU, hM', hquiet⟩
      · refine .inr ⟨e, s', W, w, h1, hW, ?_, hM', hth.throws, hquiet⟩
        rcases hw with rfl | ⟨fb, hfb, rfl⟩
        · exact .same _ _
        · refine .fallback (fun h => ?_) hfb
          rcases hne with h' | h'
          · exact h' (by rw [hb.isx.which, hb.ist.which, h])
          · exact h' (hb.fb (by rw [hfb]; nofun)).box
    cases hbL : L.box with
    | none =>
      have hv := var_none hbL
      cases hbR : R.box with
      | none =>
        have hv' := var_none hbR
        rw [hv'] at hcontent ⊢
        by_cases hk : L.which = R.which
        · have := hcontent hk
          rw [hv] at this ⊢
          simp only [if_pos hk]
          exact this
        · have := hass hbR (.inl hk)
          rw [hv] at this ⊢
          simp only [if_neg hk]
          exact this
      | some q' =>
        rcases hb.rel with h | rfl
        · rw [h.2.box] at hbR; cases hbR
        · obtain ⟨rfl, rfl⟩ := hb.atx.unique hb.att
          rw [hbL] at hbR; cases hbR
    | some q =>
      have hv : L.var = .backup L.which q := by unfold var; rw [hbL]
      cases hbR : R.box with
      | none =>
        have hv' := var_none hbR
        have := hass hbR (.inr (by rw [hbL]; nofun))
        rw [hv'] at ⊢
        rw [hv] at this ⊢
        exact this
      | some q' =>
        have hv' : R.var = .backup R.which q' := by unfold var; rw [hbR]
        have hk : L.which = R.which := by
          rcases hb.rel with h | rfl
          · rw [h.2.box] at hbR; cases hbR
          · obtain ⟨rfl, rfl⟩ := hb.atx.unique hb.att; rfl
        have := hcontent hk
        rw [hv, hv'] at this
        rw [hv, hv']
        simp only [if_pos hk]
        exact this

end

end BVariant
