/-
C79: assignment of recursive variants whose classes assign member by member.
-/
import Verif.Lemmas.TreeMembers
import Verif.Props.TreeParts

namespace BVariant

section
variable {V : Type} {C : TreeCfg V} {s s' : TreeSt V} {σ : TStore V} {own : Nat → List ObjId} {n : Nat} {x t : TPlace}
  {mw : TyIx → Bool} {ar : TyIx → Nat}

open ATree AStore

/-- No variant at the place or in its content is in a backup. -/
theorem Mem.inPlace {α : AStore V} {G : List (ATree V)} (hM : Mem s α G) {l : TLoc} {R : ATree V} (ht : At α t l R) (h : t.InPlace s) : InPlace l R := by
  intro is l' T hw
  cases hb : T.box with
  | none => rfl
  | some q =>
    refine absurd ?_ (h is T.which q)
    have hat : At α ⟨t.var, t.path ++ is⟩ l' T := by
      obtain ⟨T0, h1, h2⟩ := ht
      refine ⟨T0, h1, ?_⟩
      show T0.walk (.var t.var) (t.path ++ is) = _
      rw [walk_append, h2]
      exact hw
    rw [hM.variant_eq hat]
    unfold var
    rw [hb]

theorem blocksL_set : ∀ {f : List (ATree V)} {i : Nat} {T U : ATree V}, f[i]? = some T → U.blocks = T.blocks → blocksL (f.set i U) = blocksL f
  | [], _, _, _, h, _ => by simp at h
  | T0 :: f, 0, T, U, h, hb => by cases h; rw [List.set_cons_zero, blocksL, blocksL, hb]
  | T0 :: f, i + 1, T, U, h, hb => by rw [List.set_cons_succ, blocksL, blocksL, blocksL_set (by simpa using h) hb]

theorem put_blocks : ∀ {is : List Nat} {T L U : ATree V} {l l' : TLoc}, T.walk l is = some (l', L) → U.blocks = L.blocks → (T.put is U).blocks = T.blocks
  | [], T, L, U, l, l', hw, hb => by rw [walk_nil] at hw; cases hw; rw [put_nil, hb]
  | i :: is, T, L, U, l, l', hw, hb => by
    obtain ⟨k, a, p, f, b, u, rfl, hu, hw⟩ := walk_cons hw
    simp only [ATree.put, hu, blocks]
    rw [blocksL_set hu (put_blocks hw hb)]

theorem AStore.At.put_blocks {α : AStore V} {l : TLoc} {L U : ATree V} (hx : At α x l L) (hb : U.blocks = L.blocks) (z : Nat) :
    blocksO ((α.put x U) z) = blocksO (α z) := by
  obtain ⟨T, h1, h2⟩ := hx
  unfold AStore.put
  by_cases hz : z = x.var
  · subst hz
    rw [upd_same, h1]
    exact BVariant.put_blocks h2 hb
  · rw [upd_ne _ _ hz]

/-- The general form of what follows. -/
theorem C79_statement (hl : C.ops.Lawful) (hr : s.Represents σ own) (hf : s.Fresh) (hB : σ.Bound C.wrapped n) {u0 u : VTree V}
    (hx : σ.at x = some u0) (ht : σ.at t = some u) (hm0 : u0.Members mw ar) (hm : u.Members mw ar)
    (hrel : x = t ∨ (x.inside t = false ∧ t.inside x = false ∧ t.InPlace s)) (hfb : C.fallback ≠ none → x.InPlace s) :
    (∃ s' own', tAssignBy C mw n x t s = .ok () s' ∧ s'.Represents (σ.put x u) own' ∧ s'.Fresh ∧
      ((∀ k, C.wrapped k = true → mw k = true) → u0.SameShape u → x.InPlace s → s'.allocs = s.allocs ∧ own' = own)) ∨
    (∃ e s' w own', tAssignBy C mw n x t s = .exc e s' ∧ u0.Half C mw u w ∧ s'.Represents (σ.put x w) own' ∧ s'.Fresh ∧
      C.throws e.tick = true ∧
      ((∀ k, C.wrapped k = true → mw k = true) → u0.SameShape u → x.InPlace s → s'.allocs = s.allocs ∧ own' = own)) := by
  obtain ⟨α, hM, hS, hown⟩ := hr.mem hf
  obtain ⟨l, L, hatx⟩ := (hS.at_iff (t := x)).mp (by rw [hx]; nofun)
  obtain ⟨r, R, hatt⟩ := (hS.at_iff (t := t)).mp (by rw [ht]; nofun)
  obtain ⟨_, h1, hL⟩ := hS.at hatx
  rw [hx] at h1; cases h1
  obtain ⟨_, h1, hR⟩ := hS.at hatt
  rw [ht] at h1; cases h1
  obtain ⟨h3, h4⟩ := hB.at hx
  obtain ⟨h5, h6⟩ := hB.at ht
  have hsides : BySides C mw ar n α x t l r L R u0 u := ⟨hatx, hatt, hL, hR, h4, h6, hm0, hm, by omega, by omega, by
    rcases hrel with h | ⟨g1, g2, g3⟩
    · exact .inr h
    · rcases TPlace.cases x t with h | h | h | h
      · exact .inr h
      · exact .inl ⟨h, hM.inPlace hatt g3⟩
      · rw [h] at g2; cases g2
      · exact absurd (g1.symm.trans h) nofun, fun hne => hM.inPlace hatx (hfb hne)⟩
  have hcode : tAssignBy C mw n x t s = tVariantAssignBy C mw n l r s := by
    simp only [tAssignBy, bind, Eff.bind, (hM.at_run hatx).1, (hM.at_run hatt).1]
  rw [hcode]
  rcases tVariantAssignBy_run hl n hM hsides with ⟨s', U, g1, hU, hM', hq⟩ | ⟨e, s', W, w, g1, hW, hw, hM', hth, hq⟩
  · refine .inl ⟨s', _, g1, hM'.represents (hS.put hU), hM'.fresh, fun hall hs hp =>
      ⟨(hq hall ⟨hs, hM.inPlace hatx hp⟩).1, funext fun z => ?_⟩⟩
    show blocksO _ = _
    rw [hatx.put_blocks (hq hall ⟨hs, hM.inPlace hatx hp⟩).2, hown]
  · refine .inr ⟨e, s', w, _, g1, hw, hM'.represents (hS.put hW), hM'.fresh, hth, fun hall hs hp =>
      ⟨(hq hall ⟨hs, hM.inPlace hatx hp⟩).1, funext fun z => ?_⟩⟩
    show blocksO _ = _
    rw [hatx.put_blocks (hq hall ⟨hs, hM.inPlace hatx hp⟩).2, hown]

/-- **C79.** Assignment of one recursive variant to another, where objects of the types `mw` are assigned member by member and
objects of the other wrapped types are copied first. Neither side is a part of the other, or they are the same variant; the right
side is in place. The assignment does not fault. If it succeeds, the left side has the value of the right side. If it throws, the
exception is that of an operation of the user's types, and the left side is half assigned (`VTree.Half`). All other variants keep
their values; each variant owns its blocks, and there are no others. -/
theorem C79_member_assignment (hl : C.ops.Lawful) (hr : s.Represents σ own) (hf : s.Fresh) (hB : σ.Bound C.wrapped n) {u0 u : VTree V}
    (hx : σ.at x = some u0) (ht : σ.at t = some u) (hm0 : u0.Members mw ar) (hm : u.Members mw ar)
    (hrel : x = t ∨ (x.inside t = false ∧ t.inside x = false ∧ t.InPlace s)) (hfb : C.fallback ≠ none → x.InPlace s) :
    (∃ s' own', tAssignBy C mw n x t s = .ok () s' ∧ s'.Represents (σ.put x u) own' ∧ s'.Fresh) ∨
    (∃ e s' w own', tAssignBy C mw n x t s = .exc e s' ∧ C.throws e.tick = true ∧ u0.Half C mw u w ∧
      s'.Represents (σ.put x w) own' ∧ s'.Fresh) := by
  rcases C79_statement hl hr hf hB hx ht hm0 hm hrel hfb with ⟨s', own', h1, h2, h3, _⟩ | ⟨e, s', w, own', h1, h2, h3, h4, h5, _⟩
  · exact .inl ⟨s', own', h1, h2, h3⟩
  · exact .inr ⟨e, s', w, own', h1, h5, h2, h3, h4⟩

/-- **C79.** If all wrapped types are assigned member by member, both sides have the same types everywhere and no variant of the left
side is in a backup, then nothing is allocated and every variant keeps its blocks: whether the assignment succeeds or throws. -/
theorem C79_same_types_no_allocation (hl : C.ops.Lawful) (hr : s.Represents σ own) (hf : s.Fresh) (hB : σ.Bound C.wrapped n) {u0 u : VTree V}
    (hx : σ.at x = some u0) (ht : σ.at t = some u) (hm0 : u0.Members mw ar) (hm : u.Members mw ar)
    (hrel : x = t ∨ (x.inside t = false ∧ t.inside x = false ∧ t.InPlace s)) (hp : x.InPlace s)
    (hall : ∀ k, C.wrapped k = true → mw k = true) (hs : u0.SameShape u) :
    (∃ s', tAssignBy C mw n x t s = .ok () s' ∧ s'.Represents (σ.put x u) own ∧ s'.allocs = s.allocs) ∨
    (∃ e s' w, tAssignBy C mw n x t s = .exc e s' ∧ C.throws e.tick = true ∧ u0.Half C mw u w ∧ s'.Represents (σ.put x w) own ∧
      s'.allocs = s.allocs) := by
  rcases C79_statement hl hr hf hB hx ht hm0 hm hrel (fun _ => hp) with ⟨s', own', h1, h2, h3, h4⟩ | ⟨e, s', w, own', h1, h2, h3, h4, h5, h6⟩
  · obtain ⟨h7, rfl⟩ := h4 hall hs hp
    exact .inl ⟨s', h1, h2, h7⟩
  · obtain ⟨h7, rfl⟩ := h6 hall hs hp
    exact .inr ⟨e, s', w, h1, h5, h2, h3, h7⟩

/-- **C79.** An assignment during which nothing throws succeeds. -/
theorem C79_succeeds (hl : C.ops.Lawful) (hr : s.Represents σ own) (hf : s.Fresh) (hB : σ.Bound C.wrapped n) {u0 u : VTree V}
    (hx : σ.at x = some u0) (ht : σ.at t = some u) (hm0 : u0.Members mw ar) (hm : u.Members mw ar)
    (hrel : x = t ∨ (x.inside t = false ∧ t.inside x = false ∧ t.InPlace s)) (hfb : C.fallback ≠ none → x.InPlace s)
    (hth : ∀ i, C.throws i = false) : ∃ s' own', tAssignBy C mw n x t s = .ok () s' ∧ s'.Represents (σ.put x u) own' := by
  rcases C79_member_assignment hl hr hf hB hx ht hm0 hm hrel hfb with ⟨s', own', h1, h2, _⟩ | ⟨e, s', w, own', _, h, _⟩
  · exact ⟨s', own', h1, h2⟩
  · rw [hth] at h; cases h

/-- **C79.** Self-assignment changes no value. -/
theorem C79_self_assignment (hl : C.ops.Lawful) (hr : s.Represents σ own) (hf : s.Fresh) (hB : σ.Bound C.wrapped n) {u : VTree V}
    (hx : σ.at x = some u) (hm : u.Members mw ar) (hfb : C.fallback ≠ none → x.InPlace s) (h : tAssignBy C mw n x x s = .ok () s') :
    ∃ own', s'.Represents σ own' := by
  rcases C79_member_assignment hl hr hf hB hx hx hm hm (.inl rfl) hfb with ⟨_, own', h1, h2, _⟩ | ⟨e, _, w, own', h1, _⟩
  · rw [h] at h1; cases h1
    rw [TStore.put_same hx] at h2
    exact ⟨own', h2⟩
  · rw [h] at h1; cases h1

/-- The first member of an object assigned to the object, by members: the first member is assigned a variant of another type, and
then its second member is not there any more. -/
theorem tAssignNodeBy_firstMember (hl : C.ops.Lawful) {α : AStore V} (hM : Mem s α []) {l : TLoc} {k : TyIx} {a b : V} {p q : ObjId}
    {W Y Z : ATree V} {F F2 : List (ATree V)} {bx : Option ObjId} (hx : At α x l (.node k a p (.node k b q (W :: Y :: F2) none :: Z :: F) bx))
    {u0 w : VTree V} (hT : (ATree.node k b q (W :: Y :: F2) none).Is u0) (hW : W.Is w) (hty : u0.Typed C.wrapped) (htw : w.Typed C.wrapped)
    (hk : W.which ≠ k) (hWb : W.box = none) (hlen : F.length = F2.length) (hn0 : u0.height ≤ n + 1) (hn : w.height ≤ n + 1) :
    tAssignNodeBy C (tVariantAssignBy C mw (n + 1)) k p q s = .fault .ub ∨
    ∃ e s', tAssignNodeBy C (tVariantAssignBy C mw (n + 1)) k p q s = .exc e s' ∧ C.throws e.tick = true := by
  have hxh := (hM.at_run hx).2.2
  have hqh := (hM.at_run (hx.member (i := 0) rfl)).2.2
  rw [ATree.Holds] at hxh hqh
  have hp : tReadNode p s = .ok (a, (ATree.node k b q (W :: Y :: F2) none :: Z :: F).map ATree.var) s := by simp only [tReadNode, hxh.2.1]
  have hq : tReadNode q s = .ok (b, (W :: Y :: F2).map ATree.var) s := by simp only [tReadNode, hqh.2.1]
  have hM1 : Mem { s with tick := s.tick + 1 } α [] := hM.ticked
  have hcode : tAssignNodeBy C (tVariantAssignBy C mw (n + 1)) k p q s = (do
      Eff.onExc (tMayThrow C false (.copyAssign k)) (tSetNode p (C.ops.assignFail k a b) ((ATree.node k b q (W :: Y :: F2) none :: Z :: F).map ATree.var))
      tSetNode p (C.ops.assign k a b) ((ATree.node k b q (W :: Y :: F2) none :: Z :: F).map ATree.var)
      tVariantAssignBy C mw (n + 1) (.child p 0) (.child q 0)
      tVariantAssignBy C mw (n + 1) (.child p 1) (.child q 1)
      tAssignMembers (tVariantAssignBy C mw (n + 1)) p q F2.length 2 : Eff (TreeSt V) Unit) s := by
    simp only [tAssignNodeBy, bind, Eff.bind, hp, hq]
    rw [if_pos (by simp [hlen])]
    simp only [List.map_cons, List.length_cons, List.length_map, tAssignMembers]
    rfl
  rw [hcode]
  rcases tMayThrow_run (C := C) false (.copyAssign k) s with hthr | ⟨hthr, hto⟩
  · obtain ⟨s2, h4, hM2, _⟩ := hM1.setNode (a' := C.ops.assign k a b) (G' := []) hx hxh.2.2 hM1.ghosts (fun _ => rfl)
    have hx2 := hx.put (U := .node k (C.ops.assign k a b) p (.node k b q (W :: Y :: F2) none :: Z :: F) bx)
    generalize α.put x (.node k (C.ops.assign k a b) p (.node k b q (W :: Y :: F2) none :: Z :: F) bx) = α2 at hM2 hx2
    have hm2 := hx2.member (i := 0) rfl
    have hw2 := hm2.member (i := 0) rfl
    have hz2 := hx2.member (i := 1) rfl
    have hWv := var_none hWb
    have hassign : tVariantAssignBy C mw (n + 1) (.child p 0) (.child q 0) s2 =
        tAssigner C (n + 1) (.child p 0) (ATree.node k b q (W :: Y :: F2) none).var W.which (.inPlace (.child q 0)) s2 := by
      simp only [tVariantAssignBy, bind, Eff.bind, (hM2.at_run hm2).2.1, (hM2.at_run hw2).2.1, hWv]
      simp only [var, box]
      rw [if_neg (show ¬ (ATree.node k b q (W :: Y :: F2) none).which = W.which from Ne.symm hk)]
    have hwalk : (ATree.node k b q (W :: Y :: F2) none).walk (.child p 0) [0] = some (.child q 0, W) := by simp [walk]
    simp only [bind, Eff.bind, Eff.onExc, hthr, h4, hassign]
    cases hd : tDestroysFirst C (ATree.node k b q (W :: Y :: F2) none).var W.which with
    | true =>
      rcases tAssigner_unsafe (C := C) (n := n + 1) hl hM2 hm2 hT hty hn0 (by simp) hwalk W.which hd with h | ⟨e, s3, h, h', _⟩
      · left; rw [h]
      · right; exact ⟨e, s3, by rw [h], h'⟩
    | false =>
      rcases tAssigner_run hl hM2 hm2 hw2 hT hW hWb hty htw hn0 hn (.inr ⟨hd, [0], by simp, hwalk⟩) with ⟨s3, U, h, hU, hM3, _⟩ | ⟨e, s3, _, _, h, _, _, _, hth⟩
      · left
        rw [h]
        have hmove : C.nothrowMove W.which = true := by
          unfold tDestroysFirst at hd
          simp only [var, box] at hd
          by_cases hc : C.nothrowMove W.which = true
          · exact hc
          · simp only [hc, if_false, Bool.false_eq_true] at hd
            cases hfb : C.fallback <;> simp [hfb] at hd
        simp only [TreeCfg.nothrowMove, Bool.and_eq_true, Bool.not_eq_true'] at hmove
        obtain ⟨k1, v1, b1, rfl, rfl⟩ := typed_leaf (C := C) hW htw hmove.1
        have hz3 : At (α2.put ⟨x.var, x.path ++ [0]⟩ U) ⟨x.var, x.path ++ [1]⟩ (.child p 1) Z := by
          refine hz2.put_apart (.inr ⟨fun h' => ?_, fun h' => ?_⟩)
          · have := h'.eq_of_length (by simp); simp at this
          · have := h'.eq_of_length (by simp); simp at this
        have hgone : ∀ v cs, s3.heap q ≠ some (.node v cs) := fun v cs hqn => by
          have hUh := (hM3.at_run hm2.put).2.2
          obtain ⟨T, g1, g2⟩ := hm2
          have hTq : 1 ≤ (ATree.node k b q (.leaf k1 v1 b1 :: Y :: F2) none).blocks.count q := by simp [blocks]
          rcases hM3.owned q (by rw [hqn]; nofun) with h' | ⟨y, h'⟩
          · simp [blocksL] at h'
          · have hc1 := walk_count q g2
            by_cases hy : y = x.var
            · subst hy
              have hc2 := put_count U q g2
              have hc3 := hM2.excl x.var q
              rw [g1] at hc3
              simp only [AStore.put, upd_same, g1, Option.map_some, blocksO] at h' hc3 hc2
              have hUq : 0 < U.blocks.count q := by omega
              cases U with
              | leaf k2 v2 b2 =>
                rw [ATree.Holds] at hUh
                simp only [blocks] at hUq
                have := List.count_pos_iff.mp hUq
                rw [Option.mem_toList] at this
                rw [hUh q this] at hqn; cases hqn
              | node => simp [ATree.Is] at hU
              | dead => simp [ATree.Is] at hU
              | blk => simp [ATree.Is] at hU
            · have hd' := hM2.disj x.var y q (Ne.symm hy)
              rw [g1] at hd'
              simp only [AStore.put, upd_ne _ _ hy] at h'
              rw [show blocksO (some T) = T.blocks from rfl] at hd'
              omega
        have hread : (TLoc.child q 1).read s3 = .fault .ub := by
          simp only [TLoc.read, bind, Eff.bind, tReadNode]
        simp only [tVariantAssignBy, bind, Eff.bind, (hM3.at_run hz3).2.1, hread]
      · right; exact ⟨e, s3, by rw [h], hth.throws⟩
  · obtain ⟨s2, h4, _⟩ := hM1.setNode (a' := C.ops.assignFail k a b) (G' := []) hx hxh.2.2 hM1.ghosts (fun _ => rfl)
    right
    exact ⟨⟨.copyAssign k, s.tick⟩, s2, by simp only [bind, Eff.bind, Eff.onExc, hthr, h4], hto⟩

/-- **C79** is false for the assignment of a part of a variant to the variant (finding F31). `x` has an object with two members or
more, of a type assigned member by member. Its first member has an object of the same type; the first member of that has another
type. Then `x = x.first` is undefined behaviour, unless an operation of the user's types throws before: it never succeeds. -/
theorem C79_first_member_faults (hl : C.ops.Lawful) (hr : s.Represents σ own) (hf : s.Fresh) (hB : σ.Bound C.wrapped n) {k : TyIx} {a b : V}
    {w y z : VTree V} {f g : VForest V} (hx : σ.at x = some (.node k a (.cons (.node k b (.cons w (.cons y g))) (.cons z f))))
    (hk : w.which ≠ k) (hlen : f.size = g.size) (hmw : mw k = true) (hp : x.InPlace s) :
    tAssignBy C mw n x ⟨x.var, x.path ++ [0]⟩ s = .fault .ub ∨
    ∃ e s', tAssignBy C mw n x ⟨x.var, x.path ++ [0]⟩ s = .exc e s' ∧ C.throws e.tick = true := by
  obtain ⟨α, hM, hS, _⟩ := hr.mem hf
  obtain ⟨l, L, hatx⟩ := (hS.at_iff (t := x)).mp (by rw [hx]; nofun)
  obtain ⟨_, h1, hL⟩ := hS.at hatx
  rw [hx] at h1; cases h1
  obtain ⟨h3, h4⟩ := hB.at hx
  have hin := hM.inPlace hatx hp
  have hnode : ∀ {T : ATree V} {k : TyIx} {a : V} {f : VForest V}, T.Is (.node k a f) → ∃ p F b, T = .node k a p F b ∧ IsL F f := by
    intro T k a f h
    cases T with
    | node k' a' p F b => rw [ATree.Is] at h; obtain ⟨rfl, rfl, h⟩ := h; exact ⟨p, F, b, rfl, h⟩
    | leaf => simp [ATree.Is] at h
    | dead => simp [ATree.Is] at h
    | blk => simp [ATree.Is] at h
  have hcons : ∀ {F : List (ATree V)} {t : VTree V} {f : VForest V}, IsL F (.cons t f) → ∃ T F', F = T :: F' ∧ T.Is t ∧ IsL F' f := by
    intro F t f h
    cases F with
    | nil => simp [IsL] at h
    | cons T F' => rw [IsL] at h; exact ⟨T, F', rfl, h.1, h.2⟩
  obtain ⟨p, F0, bx, rfl, g1⟩ := hnode hL
  obtain ⟨T, F1, rfl, g2, g3⟩ := hcons g1
  obtain ⟨Z, F, rfl, g4, g5⟩ := hcons g3
  obtain ⟨q, F2, bt, rfl, g6⟩ := hnode g2
  obtain ⟨W, F3, rfl, g7, g8⟩ := hcons g6
  obtain ⟨Y, F4, rfl, g9, g10⟩ := hcons g8
  have hm := hatx.member (i := 0) rfl
  cases (show bx = none from hin.box)
  have hinT := hin.member (i := 0) rfl
  cases (show bt = none from hinT.box)
  have hWb := (hinT.member (i := 0) rfl).box
  simp only [VTree.Typed, VForest.Typed] at h4
  simp only [VTree.height, VForest.height] at h3
  cases n with
  | zero => omega
  | succ n =>
    cases n with
    | zero => omega
    | succ n =>
      have := tAssignNodeBy_firstMember (mw := mw) (n := n) hl hM hatx g2 g7 (by simp only [VTree.Typed, VForest.Typed]; exact h4.2.1) h4.2.1.2.1
        (by rw [g7.which]; exact hk) hWb (by rw [isL_length g5, isL_length g10, hlen])
        (by simp only [VTree.height, VForest.height]; omega) (by omega)
      have hcode : tAssignBy C mw (n + 2) x ⟨x.var, x.path ++ [0]⟩ s = tAssignNodeBy C (tVariantAssignBy C mw (n + 1)) k p q s := by
        obtain ⟨e1, e2, e3⟩ := hM.at_run hatx
        obtain ⟨e4, e5, e6⟩ := hM.at_run hm
        have r1 := ref_read e2 e3
        have r2 := ref_read e5 e6
        simp only [var, box, TVar.ref, content] at r1 r2
        rw [tAssignBy]
        simp only [bind, Eff.bind, e1, e4]
        rw [tVariantAssignBy]
        simp only [bind, Eff.bind, e2, e5, var, box]
        rw [if_pos (show (ATree.node k a p (.node k b q (W :: Y :: F4) none :: Z :: F) none).which = (ATree.node k b q (W :: Y :: F4) none).which from rfl)]
        simp only [tAssignContentBy, bind, Eff.bind, r1, r2]
        rw [if_pos (show mw (ATree.node k a p (.node k b q (W :: Y :: F4) none :: Z :: F) none).which = true from hmw)]
        rfl
      rw [hcode]
      exact this

end

/-! ### Examples -/

/-- Where there is no backup all is in place. -/
theorem TreeSt.Represents.inPlace {V : Type} {s : TreeSt V} {σ : TStore V} {own : Nat → List ObjId} (hr : s.Represents σ own) (hf : s.Fresh)
    (h : ∀ p < s.next, ∀ c, s.heap p ≠ some (.box c)) (t : TPlace) : t.InPlace s := by
  intro is k q hv
  obtain ⟨α, hM, hS, _⟩ := hr.mem hf
  obtain ⟨l, R, hat⟩ := hM.valid_iff.mp (variant_valid hv)
  rw [hM.variant_eq hat] at hv
  have hb : R.box = some q := by
    have := Option.some.inj hv
    unfold ATree.var at this
    cases hb : R.box with
    | none => rw [hb] at this; cases this
    | some q' => rw [hb] at this; cases this; rfl
  have hq := box_cell (hM.at_run hat).2.2 hb
  by_cases hlt : q < s.next
  · exact h q hlt _ hq
  · rw [hf q (by omega)] at hq; cases hq

/-- Two plain variants; `2` is a node with copies of them, `3` one with `2` and `0`, `4` one with `2` and `1`; `5` is a copy of `3`
with another value in it. -/
def exMembersProg : List (TCmd Nat) :=
  [.leaf 0 0 5, .leaf 1 2 6, .node 2 1 7 [⟨0, []⟩, ⟨1, []⟩], .node 3 1 8 [⟨2, []⟩, ⟨0, []⟩], .node 4 1 9 [⟨2, []⟩, ⟨1, []⟩], .copy 5 ⟨3, []⟩,
   .store ⟨5, [0, 1]⟩ 40]

/-- Does the assignment succeed (`some true`), throw (`some false`) or fault; the nodes of variables 4 and 5; the allocations. -/
def exMembersSee (fb : Option TyIx) (bad : List Nat) (x t : TPlace) : Option Bool × List (Option (TCell Nat)) × Nat :=
  match tAssignBy (exTree fb bad) (· == 1) 128 x t (tAfter fb [] exMembersProg) with
  | .ok _ s => (some true, [s.heap 5, s.heap 6, s.heap 7, s.heap 8], s.allocs)
  | .exc _ s => (some false, [s.heap 5, s.heap 6, s.heap 7, s.heap 8], s.allocs)
  | .fault _ => (none, [], 0)

/-- C79: `4` is assigned `3`; its second member gets another type. `5` is assigned `3`, which has the same types. The nodes are
assigned, none is allocated (there were 9 allocations before). -/
example : (tAfter none [] exMembersProg).heap 5 = some (.node 9 [.plain 1 (.wrap 6), .plain 2 (.leaf 6)]) ∧
    (tAfter none [] exMembersProg).heap 8 = some (.node 7 [.plain 0 (.leaf 5), .plain 2 (.leaf 40)]) ∧
    exMembersSee none [] ⟨4, []⟩ ⟨3, []⟩ = (some true,
      [some (.node 8 [.plain 1 (.wrap 6), .plain 0 (.leaf 5)]), some (.node 7 [.plain 0 (.leaf 5), .plain 2 (.leaf 6)]),
       some (.node 8 [.plain 1 (.wrap 8), .plain 0 (.leaf 5)]), some (.node 7 [.plain 0 (.leaf 5), .plain 2 (.leaf 40)])], 9) ∧
    exMembersSee none [] ⟨5, []⟩ ⟨3, []⟩ = (some true,
      [some (.node 9 [.plain 1 (.wrap 6), .plain 2 (.leaf 6)]), some (.node 7 [.plain 0 (.leaf 5), .plain 2 (.leaf 6)]),
       some (.node 8 [.plain 1 (.wrap 8), .plain 0 (.leaf 5)]), some (.node 7 [.plain 0 (.leaf 5), .plain 2 (.leaf 6)])], 9) ∧
    (tAfter none [] exMembersProg).allocs = 9 := by
  decide +kernel

/-- C79: with a fallback type, an assignment that fails when the second member of `4` is copied: the value and the first member are
those of `3`, the second member has the fallback content. -/
example : exMembersSee (some 2) [43] ⟨4, []⟩ ⟨3, []⟩ = (some false,
      [some (.node 8 [.plain 1 (.wrap 6), .plain 2 (.leaf 999)]), some (.node 7 [.plain 0 (.leaf 5), .plain 2 (.leaf 6)]),
       some (.node 8 [.plain 1 (.wrap 8), .plain 0 (.leaf 5)]), some (.node 7 [.plain 0 (.leaf 5), .plain 2 (.leaf 40)])], 9) ∧
    VTree.Half (exTree (some 2) [43]) (· == 1)
      (.node 1 9 (.cons (.node 1 7 (.cons (.leaf 0 5) (.cons (.leaf 2 6) .nil))) (.cons (.leaf 2 6) .nil)))
      (.node 1 8 (.cons (.node 1 7 (.cons (.leaf 0 5) (.cons (.leaf 2 6) .nil))) (.cons (.leaf 0 5) .nil)))
      (.node 1 8 (.cons (.node 1 7 (.cons (.leaf 0 5) (.cons (.leaf 2 6) .nil))) (.cons (.leaf 2 999) .nil))) :=
  ⟨by decide +kernel, .members 1 9 8 rfl (.there _ _ (.here _ _ (.fallback (by decide) rfl)))⟩

/-- C79 (F31): `3` is assigned its own first member; and the other way round. With a class that copies first the former succeeds. -/
example : (exMembersSee none [] ⟨3, []⟩ ⟨3, [0]⟩).1 = none ∧ (exMembersSee none [] ⟨3, [0]⟩ ⟨3, []⟩).1 = none ∧
    (tAfter none [] (exMembersProg ++ [.assign ⟨3, []⟩ ⟨3, [0]⟩])).heap 2 = some (.node 7 [.plain 0 (.leaf 5), .plain 2 (.leaf 6)]) := by
  decide +kernel

/-- The states after the program meet the hypotheses. -/
theorem exMembers_rep : ∃ σ own, (tAfter none [] exMembersProg).Represents σ own ∧ (tAfter none [] exMembersProg).Fresh ∧
    σ.Bound (exTree none []).wrapped 128 ∧ (∀ t : TPlace, t.InPlace (tAfter none [] exMembersProg)) ∧
    σ 3 = some (.node 1 8 (.cons (.node 1 7 (.cons (.leaf 0 5) (.cons (.leaf 2 6) .nil))) (.cons (.leaf 0 5) .nil))) ∧
    σ 5 = some (.node 1 8 (.cons (.node 1 7 (.cons (.leaf 0 5) (.cons (.leaf 2 40) .nil))) (.cons (.leaf 0 5) .nil))) := by
  obtain ⟨s, σ, own, h1, _, h3, h4, h5⟩ := C37_programs_on_trees (C := exTree none []) (n := 4096) natOps_lawful nofun
    exMembersProg (by decide) (by decide +kernel)
  have h0 : tAfter none [] exMembersProg = s := by rw [tAfter, h1]; rfl
  refine ⟨σ, own, h0 ▸ h3, h0 ▸ h4, h5, TreeSt.Represents.inPlace (h0 ▸ h3) (h0 ▸ h4) ?_, h3.value (ns := [2, 3]) ?_, h3.value (ns := [7, 8]) ?_⟩
  · have : (tAfter none [] exMembersProg).next = 9 := by decide +kernel
    rw [this]
    have h : ∀ p < 9, (match (tAfter none [] exMembersProg).heap p with | some (.box _) => false | _ => true) = true := by decide +kernel
    intro p hp c hc
    have := h p hp
    rw [hc] at this; cases this
  · rw [← h0]
    refine ⟨.plain 1 (.wrap 2), by decide +kernel, ?_⟩
    rw [VTree.Rep]
    refine ⟨2, [.plain 1 (.wrap 3), .plain 0 (.leaf 5)], [3], by decide +kernel, ?_, .inl ⟨rfl, rfl⟩⟩
    rw [VForest.Rep]
    refine ⟨_, _, [3], [], rfl, ?_, by simp [VForest.Rep, VTree.Rep], rfl⟩
    rw [VTree.Rep]
    exact ⟨3, [.plain 0 (.leaf 5), .plain 2 (.leaf 6)], [], by decide +kernel, by simp [VForest.Rep, VTree.Rep], .inl ⟨rfl, rfl⟩⟩
  · rw [← h0]
    refine ⟨.plain 1 (.wrap 7), by decide +kernel, ?_⟩
    rw [VTree.Rep]
    refine ⟨7, [.plain 1 (.wrap 8), .plain 0 (.leaf 5)], [8], by decide +kernel, ?_, .inl ⟨rfl, rfl⟩⟩
    rw [VForest.Rep]
    refine ⟨_, _, [8], [], rfl, ?_, by simp [VForest.Rep, VTree.Rep], rfl⟩
    rw [VTree.Rep]
    exact ⟨8, [.plain 0 (.leaf 5), .plain 2 (.leaf 40)], [], by decide +kernel, by simp [VForest.Rep, VTree.Rep], .inl ⟨rfl, rfl⟩⟩

/-- C79: `5` is assigned `3`, without any allocation; and `3` is assigned itself. -/
example : ∃ σ own s', (tAfter none [] exMembersProg).Represents σ own ∧
    tAssignBy (exTree none []) (· == 1) 128 ⟨5, []⟩ ⟨3, []⟩ (tAfter none [] exMembersProg) = .ok () s' ∧
    s'.Represents (σ.put ⟨5, []⟩ (.node 1 8 (.cons (.node 1 7 (.cons (.leaf 0 5) (.cons (.leaf 2 6) .nil))) (.cons (.leaf 0 5) .nil)))) own := by
  obtain ⟨σ, own, h1, h2, h3, h4, h5, h6⟩ := exMembers_rep
  have hx : σ.at ⟨5, []⟩ = some (.node 1 8 (.cons (.node 1 7 (.cons (.leaf 0 5) (.cons (.leaf 2 40) .nil))) (.cons (.leaf 0 5) .nil))) := by
    rw [TStore.at, h6]; rfl
  have ht : σ.at ⟨3, []⟩ = some (.node 1 8 (.cons (.node 1 7 (.cons (.leaf 0 5) (.cons (.leaf 2 6) .nil))) (.cons (.leaf 0 5) .nil))) := by
    rw [TStore.at, h5]; rfl
  rcases C79_same_types_no_allocation (mw := (· == 1)) (ar := fun _ => 2) (C := exTree none []) natOps_lawful h1 h2 h3 hx ht
    (by simp [VTree.Members, VForest.Members, VForest.size]) (by simp [VTree.Members, VForest.Members, VForest.size])
    (.inr ⟨by decide, by decide, h4 _⟩) (h4 _) (fun k h => h) (by simp [VTree.SameShape, VForest.SameShape]) with ⟨s', g1, g2, _⟩ | ⟨e, s', w, _, g, _⟩
  · exact ⟨σ, own, s', h1, g1, g2⟩
  · cases g
example : ∃ σ own s' own', (tAfter none [] exMembersProg).Represents σ own ∧
    tAssignBy (exTree none []) (· == 1) 128 ⟨3, []⟩ ⟨3, []⟩ (tAfter none [] exMembersProg) = .ok () s' ∧ s'.Represents σ own' := by
  obtain ⟨σ, own, h1, h2, h3, h4, h5, h6⟩ := exMembers_rep
  have hx : σ.at ⟨3, []⟩ = some (.node 1 8 (.cons (.node 1 7 (.cons (.leaf 0 5) (.cons (.leaf 2 6) .nil))) (.cons (.leaf 0 5) .nil))) := by
    rw [TStore.at, h5]; rfl
  have hm : VTree.Members (· == 1) (fun _ => 2) (.node 1 8 (.cons (.node 1 7 (.cons (.leaf 0 5) (.cons (.leaf 2 6) .nil))) (.cons (.leaf 0 5) .nil))) := by
    simp [VTree.Members, VForest.Members, VForest.size]
  obtain ⟨s', _, g1, _⟩ := C79_succeeds (mw := (· == 1)) (ar := fun _ => 2) (C := exTree none []) natOps_lawful h1 h2 h3 hx hx hm hm (.inl rfl) nofun (fun _ => rfl)
  obtain ⟨own', g2⟩ := C79_self_assignment (mw := (· == 1)) (ar := fun _ => 2) (C := exTree none []) natOps_lawful h1 h2 h3 hx hm nofun g1
  exact ⟨σ, own, s', own', h1, g1, g2⟩

/-- C79 (F31): the statement on the first member applies to that program. -/
example : tAssignBy (exTree none []) (· == 1) 128 ⟨3, []⟩ ⟨3, [0]⟩ (tAfter none [] exMembersProg) = .fault .ub := by
  obtain ⟨σ, own, h1, h2, h3, h4, h5, h6⟩ := exMembers_rep
  have hx : σ.at ⟨3, []⟩ = some (.node 1 8 (.cons (.node 1 7 (.cons (.leaf 0 5) (.cons (.leaf 2 6) .nil))) (.cons (.leaf 0 5) .nil))) := by
    rw [TStore.at, h5]; rfl
  rcases C79_first_member_faults (mw := (· == 1)) (C := exTree none []) natOps_lawful h1 h2 h3 hx (by decide) rfl rfl (h4 _) with h | ⟨e, s', _, h⟩
  · exact h
  · cases h

/-- C79: variable 4 is assigned variable 3, whose second member has another type. -/
example : ∃ σ own, (tAfter none [] exMembersProg).Represents σ own ∧ ∀ u0, σ.at ⟨4, []⟩ = some u0 → u0.Members (· == 1) (fun _ => 2) →
    ∃ s' own', tAssignBy (exTree none []) (· == 1) 128 ⟨4, []⟩ ⟨3, []⟩ (tAfter none [] exMembersProg) = .ok () s' ∧
      s'.Represents (σ.put ⟨4, []⟩ (.node 1 8 (.cons (.node 1 7 (.cons (.leaf 0 5) (.cons (.leaf 2 6) .nil))) (.cons (.leaf 0 5) .nil)))) own' := by
  obtain ⟨σ, own, h1, h2, h3, h4, h5, h6⟩ := exMembers_rep
  refine ⟨σ, own, h1, fun u0 hx hm => ?_⟩
  rcases C79_member_assignment (mw := (· == 1)) (ar := fun _ => 2) (C := exTree none []) natOps_lawful h1 h2 h3 hx (t := ⟨3, []⟩) (by rw [TStore.at, h5]; rfl) hm
    (by simp [VTree.Members, VForest.Members, VForest.size]) (.inr ⟨by decide, by decide, h4 _⟩) nofun with ⟨s', own', g1, g2, -⟩ | ⟨e, _, _, _, _, g, _⟩
  · exact ⟨s', own', g1, g2⟩
  · cases g

end BVariant
