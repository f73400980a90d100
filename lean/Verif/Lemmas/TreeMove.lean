/-
Moving recursive variants.
-/
import Verif.Lemmas.TreePlace

namespace BVariant

section
variable {V : Type} {C : TreeCfg V} {s s' : TreeSt V} {h h' : ObjId → Option (TCell V)}

open ATree AStore

variable {α : AStore V} {G G' : List (ATree V)} {n : Nat} {x y : TPlace}

/-! ### Values -/

mutual
theorem VTree.height_moved : ∀ t : VTree V, (t.moved C).height ≤ t.height
  | .leaf k v => Nat.le_refl _
  | .node k a f => by
    have := VForest.height_moved f
    rw [VTree.moved, VTree.height, VTree.height]
    split <;> omega
theorem VForest.height_moved : ∀ f : VForest V, (f.moved C).height ≤ f.height
  | .nil => Nat.le_refl _
  | .cons t f => by
    have := VTree.height_moved t
    have := VForest.height_moved f
    rw [VForest.moved, VForest.height, VForest.height]; omega
end

mutual
theorem VTree.height_movedFrom : ∀ t : VTree V, (t.movedFrom C).height ≤ t.height
  | .leaf k v => Nat.le_refl _
  | .node k a f => by
    have := VForest.height_movedFrom f
    rw [VTree.movedFrom, VTree.height, VTree.height]
    split
    · rw [VForest.height]; omega
    · omega
theorem VForest.height_movedFrom : ∀ f : VForest V, (f.movedFrom C).height ≤ f.height
  | .nil => Nat.le_refl _
  | .cons t f => by
    have := VTree.height_movedFrom t
    have := VForest.height_movedFrom f
    rw [VForest.movedFrom, VForest.height, VForest.height]; omega
end

mutual
theorem VTree.Partly.height : ∀ {t t' : VTree V}, t.Partly C t' → t'.height ≤ t.height
  | _, _, .same t => Nat.le_refl _
  | _, _, .leaf k v => Nat.le_refl _
  | _, _, .value k a f => Nat.le_refl _
  | _, _, .members k a hf => by
    have := VForest.Partly.height hf
    rw [VTree.height, VTree.height]; omega
theorem VForest.Partly.height : ∀ {f f' : VForest V}, f.Partly C f' → f'.height ≤ f.height
  | _, _, .here f ht => by
    have := VTree.Partly.height ht
    rw [VForest.height, VForest.height]; omega
  | _, _, .there t hf => by
    have := VTree.height_movedFrom (C := C) t
    have := VForest.Partly.height hf
    rw [VForest.height, VForest.height]; omega
end

mutual
theorem VTree.moved_lawful (hl : C.ops.Lawful) : ∀ t : VTree V, t.moved C = t
  | .leaf k v => by rw [VTree.moved, hl.move_eq]
  | .node k a f => by rw [VTree.moved, hl.move_eq, VForest.moved_lawful hl f]; split <;> rfl
theorem VForest.moved_lawful (hl : C.ops.Lawful) : ∀ f : VForest V, f.moved C = f
  | .nil => rfl
  | .cons t f => by rw [VForest.moved, VTree.moved_lawful hl t, VForest.moved_lawful hl f]
end

mutual
theorem VTree.typed_movedFrom {w : TyIx → Bool} : ∀ {t : VTree V}, t.Typed w → (t.movedFrom C).Typed w
  | .leaf k v, h => h
  | .node k a f, h => by
    rw [VTree.Typed] at h
    rw [VTree.movedFrom, VTree.Typed]
    refine ⟨h.1, ?_⟩
    split
    · trivial
    · exact VForest.typed_movedFrom h.2
theorem VForest.typed_movedFrom {w : TyIx → Bool} : ∀ {f : VForest V}, f.Typed w → (f.movedFrom C).Typed w
  | .nil, h => h
  | .cons t f, h => by
    rw [VForest.Typed] at h
    rw [VForest.movedFrom, VForest.Typed]
    exact ⟨VTree.typed_movedFrom h.1, VForest.typed_movedFrom h.2⟩
end

mutual
theorem VTree.Partly.typed {w : TyIx → Bool} : ∀ {t t' : VTree V}, t.Partly C t' → t.Typed w → t'.Typed w
  | _, _, .same t, h => h
  | _, _, .leaf k v, h => h
  | _, _, .value k a f, h => by rw [VTree.Typed] at h ⊢; exact h
  | _, _, .members k a hf, h => by rw [VTree.Typed] at h ⊢; exact ⟨h.1, VForest.Partly.typed hf h.2⟩
theorem VForest.Partly.typed {w : TyIx → Bool} : ∀ {f f' : VForest V}, f.Partly C f' → f.Typed w → f'.Typed w
  | _, _, .here f ht, h => by rw [VForest.Typed] at h ⊢; exact ⟨VTree.Partly.typed ht h.1, h.2⟩
  | _, _, .there t hf, h => by rw [VForest.Typed] at h ⊢; exact ⟨VTree.typed_movedFrom h.1, VForest.Partly.typed hf h.2⟩
end

theorem VTree.which_moved (t : VTree V) : (t.moved C).which = t.which := by cases t <;> rfl

theorem VTree.which_copied (o : Ops V) (t : VTree V) : (t.copied o).which = t.which := by cases t <;> rfl

/-! ### Memory -/

/-- An operation of the environment has thrown between `s` and `s'`. -/
structure Threw (C : TreeCfg V) (s : TreeSt V) (e : Exc) (s' : TreeSt V) : Prop where
  lo : s.tick ≤ e.tick
  hi : e.tick < s'.tick
  throws : C.throws e.tick = true

theorem Threw.of_undone {e : Exc} (h : TUndone C s e s') : Threw C s e s' := ⟨h.lo, h.hi, h.throws⟩

theorem Threw.mono {s0 s1 : TreeSt V} {e : Exc} (h : Threw C s e s') (h0 : s0.tick ≤ s.tick) (h1 : s'.tick ≤ s1.tick) :
    Threw C s0 e s1 := ⟨Nat.le_trans h0 h.lo, Nat.lt_of_lt_of_le h.hi h1, h.throws⟩

/-- The outcome of moving the variant `u` at `x`: what it is moved to is a ghost. -/
def Moves (C : TreeCfg V) (s : TreeSt V) (α : AStore V) (G : List (ATree V)) (x : TPlace) (u : VTree V) (β : ATree V → γ)
    (r : Res (TreeSt V) γ) : Prop :=
  (∃ s' U R', r = .ok (β U) s' ∧ U.box = none ∧ U.Is (u.moved C) ∧ R'.Is (u.movedFrom C) ∧ Mem s' (α.put x R') (U :: G) ∧
    s.tick ≤ s'.tick ∧ s'.allocs = s.allocs + u.moveNodes C) ∨
  (∃ e s' R' u', r = .exc e s' ∧ u.Partly C u' ∧ R'.Is u' ∧ Mem s' (α.put x R') G ∧ Threw C s e s')

/-- Moving members, given how each is moved. -/
theorem tMoveList_run (ih : ∀ {s : TreeSt V} {α : AStore V} {G : List (ATree V)} {x : TPlace} {l : TLoc} {R : ATree V} {u : VTree V},
      Mem s α G → At α x l R → R.Is u → u.height ≤ n → Moves C s α G x u ATree.var (tMoveVar C n l s))
    {l : TLoc} {k : TyIx} {a : V} {p : ObjId} {b : Option ObjId} : ∀ {todo done : List (ATree V)} {g : VForest V} {s : TreeSt V}
    {α : AStore V} {G : List (ATree V)}, Mem s α G → At α x l (.node k a p (done ++ todo) b) → IsL todo g → g.height ≤ n →
    (∃ s' us todo', tMoveList (tMoveVar C n) (tDestroyVar n) p todo.length done.length s = .ok (us.map ATree.var) s' ∧
      IsL us (g.moved C) ∧ IsL todo' (g.movedFrom C) ∧ Mem s' (α.put x (.node k a p (done ++ todo') b)) (us ++ G) ∧
      s.tick ≤ s'.tick ∧ s'.allocs = s.allocs + g.moveNodes C) ∨
    (∃ e s' todo' g', tMoveList (tMoveVar C n) (tDestroyVar n) p todo.length done.length s = .exc e s' ∧
      g.Partly C g' ∧ IsL todo' g' ∧ Mem s' (α.put x (.node k a p (done ++ todo') b)) G ∧ Threw C s e s')
  | [], done, .nil, s, α, G, hM, hx, _, _ => by
    refine .inl ⟨s, [], [], rfl, trivial, trivial, ?_, Nat.le_refl _, rfl⟩
    rw [AStore.put_same hx]; exact hM
  | [], _, .cons .., _, _, _, _, _, hi, _ => by simp [ATree.IsL] at hi
  | _ :: _, _, .nil, _, _, _, _, _, hi, _ => by simp [ATree.IsL] at hi
  | t :: ts, done, .cons u g, s, α, G, hM, hx, hi, hn => by
    rw [ATree.IsL] at hi
    rw [VForest.height] at hn
    have hget : (done ++ t :: ts)[done.length]? = some t := by simp
    have hset : ∀ R' : ATree V, (done ++ t :: ts).set done.length R' = (done ++ [R']) ++ ts := fun R' => by simp
    have hmem := hx.member hget
    simp only [List.length_cons, tMoveList]
    rcases ih hM hmem hi.1 (by omega) with ⟨s1, U, R', hr1, hUb, hU, hR', hM1, ht1, hal1⟩ | ⟨e, s1, R', u', hr1, hp, hR', hM1, hth⟩
    · rw [put_member hx hget, hset] at hM1
      have hx1 : At (α.put x (.node k a p ((done ++ [R']) ++ ts) b)) x l (.node k a p ((done ++ [R']) ++ ts) b) := hx.put
      have hlen : done.length + 1 = (done ++ [R']).length := by simp
      rw [hlen]
      rcases tMoveList_run ih hM1 hx1 hi.2 (by omega) with
        ⟨s2, us, ts', hr2, hus, hts, hM2, ht2, hal2⟩ | ⟨e, s2, ts', g', hr2, hp, hts, hM2, hth⟩
      · rw [AStore.put_put hx, List.append_assoc] at hM2
        refine .inl ⟨s2, U :: us, R' :: ts', ?_, ?_, ?_, ?_, by omega, ?_⟩
        · simp only [bind, Eff.bind, hr1, Eff.onExc, hr2, pure, Eff.pure, List.map_cons]
        · rw [VForest.moved, ATree.IsL]; exact ⟨hU, hus⟩
        · rw [VForest.movedFrom, ATree.IsL]; exact ⟨hR', hts⟩
        · exact hM2.perm (by simp [List.perm_middle])
        · rw [VForest.moveNodes]; omega
      · rw [AStore.put_put hx, List.append_assoc] at hM2
        obtain ⟨s3, hd, hM3, ht3, _⟩ := hM2.destroy (n := n) hU (Nat.le_trans (VTree.height_moved u) (by omega))
        refine .inr ⟨e, s3, R' :: ts', .cons (u.movedFrom C) g', ?_, .there u hp, ?_, hM3, hth.mono ht1 (by omega)⟩
        · simp only [bind, Eff.bind, hr1, Eff.onExc, hr2, hd]
        · rw [ATree.IsL]; exact ⟨hR', hts⟩
    · rw [put_member hx hget, hset, List.append_assoc] at hM1
      refine .inr ⟨e, s1, R' :: ts, .cons u' g, ?_, .here g hp, ?_, hM1, hth⟩
      · simp only [bind, Eff.bind, hr1]
      · rw [ATree.IsL]; exact ⟨hR', hi.2⟩

/-- Moving a node into a raw block. -/
theorem tMoveNode_run (ih : ∀ {s : TreeSt V} {α : AStore V} {G : List (ATree V)} {x : TPlace} {l : TLoc} {R : ATree V} {u : VTree V},
      Mem s α G → At α x l R → R.Is u → u.height ≤ n → Moves C s α G x u ATree.var (tMoveVar C n l s))
    {l : TLoc} {k : TyIx} {a : V} {p : ObjId} {f : List (ATree V)} {g : VForest V} {b : Option ObjId} (hM : Mem s α G)
    (hx : At α x l (.node k a p f b)) (hf : IsL f g) (hn : g.height ≤ n) :
    (∃ s' us f', tMoveNode C (tMoveVar C n) (tDestroyVar n) k p s = .ok (.node (C.ops.move k a) (us.map ATree.var)) s' ∧
      IsL us (if C.steals k then g else g.moved C) ∧ IsL f' (if C.steals k then .nil else g.movedFrom C) ∧
      Mem s' (α.put x (.node k (C.ops.movedFrom k a) p f' b)) (us ++ G) ∧
      s.tick ≤ s'.tick ∧ s'.allocs = s.allocs + (if C.steals k then 0 else g.moveNodes C) ∧ (C.steals k = true → us = f ∧ f' = [])) ∨
    (∃ e s' R' u', tMoveNode C (tMoveVar C n) (tDestroyVar n) k p s = .exc e s' ∧ (VTree.node k a g).Partly C u' ∧ R'.Is u' ∧
      Mem s' (α.put x R') G ∧ Threw C s e s' ∧ ∃ a' f', R' = .node k a' p f' b ∧ (C.steals k = true → f' = f)) := by
  have hh := (hM.at_run hx).2.2
  rw [ATree.Holds] at hh
  have hrd : tReadNode p s = .ok (a, f.map ATree.var) s := by simp only [tReadNode, hh.2.1]
  rcases tMayThrow_run (C := C) (C.tr k).nothrowMove (.moveCtor k) s with h | ⟨h, ht⟩
  · have hM0 : Mem { s with tick := s.tick + 1 } α G := hM.same rfl rfl (Nat.le_refl _)
    obtain ⟨s1, hs1, hM1, ht1, hal1, _⟩ := hM0.setNode (a' := C.ops.movedFrom k a) hx hh.2.2 hM0.ghosts (fun _ => rfl)
    simp only at ht1 hal1
    have hx1 : At (α.put x (.node k (C.ops.movedFrom k a) p f b)) x l (.node k (C.ops.movedFrom k a) p f b) := hx.put
    by_cases hst : C.steals k = true
    · obtain ⟨s2, hs2, hM2, ht2, hal2, _⟩ := hM1.setNode (a' := C.ops.movedFrom k a) (f' := []) (G' := f ++ G) hx1 trivial
        (holdsL_append.mpr ⟨by
          have := (hM1.at_run hx1).2.2; rw [ATree.Holds] at this; exact this.2.2, hM1.ghosts⟩)
        (fun q => by rw [count_append]; simp [blocksL])
      rw [AStore.put_put hx] at hM2
      refine .inl ⟨s2, f, [], ?_, ?_, ?_, hM2, by omega, ?_, fun _ => ⟨rfl, rfl⟩⟩
      · simp only [List.map_nil] at hs2
        simp only [tMoveNode, bind, Eff.bind, hrd, Eff.onExc, h, hs1, hst, if_true, hs2, pure, Eff.pure]
      · rw [if_pos hst]; exact hf
      · rw [if_pos hst]; trivial
      · rw [if_pos hst]; omega
    · have hx1' : At (α.put x (.node k (C.ops.movedFrom k a) p f b)) x l (.node k (C.ops.movedFrom k a) p ([] ++ f) b) := hx1
      rcases tMoveList_run ih hM1 hx1' hf hn with ⟨s2, us, f', hr2, hus, hf', hM2, ht2, hal2⟩ | ⟨e, s2, f', g', hr2, hp, hf', hM2, hth⟩
      · rw [AStore.put_put hx] at hM2
        refine .inl ⟨s2, us, f', ?_, ?_, ?_, hM2, by omega, ?_, fun h => absurd h hst⟩
        · simp only [List.length_nil] at hr2
          simp only [tMoveNode, bind, Eff.bind, hrd, Eff.onExc, h, hs1, hst, Bool.false_eq_true, if_false, List.length_map, hr2, pure, Eff.pure]
        · rw [if_neg hst]; exact hus
        · rw [if_neg hst]; exact hf'
        · rw [if_neg hst]; omega
      · rw [AStore.put_put hx] at hM2
        refine .inr ⟨e, s2, _, .node k (C.ops.movedFrom k a) g', ?_, .members k a hp, ?_, hM2, hth.mono (by omega) (Nat.le_refl _),
          _, _, rfl, fun h => absurd h hst⟩
        · simp only [List.length_nil] at hr2
          simp only [tMoveNode, bind, Eff.bind, hrd, Eff.onExc, h, hs1, hst, Bool.false_eq_true, if_false, List.length_map, hr2]
        · rw [ATree.Is]; exact ⟨rfl, rfl, hf'⟩
  · have hM0 : Mem { s with tick := s.tick + 1 } α G := hM.same rfl rfl (Nat.le_refl _)
    obtain ⟨s1, hs1, hM1, ht1, _⟩ := hM0.setNode (a' := C.ops.moveFailSrc k a) hx hh.2.2 hM0.ghosts (fun _ => rfl)
    simp only at ht1
    refine .inr ⟨⟨.moveCtor k, s.tick⟩, s1, _, .node k (C.ops.moveFailSrc k a) g, ?_, .value k a g, ?_, hM1, ⟨Nat.le_refl s.tick, by show s.tick < s1.tick; omega, ht⟩,
      _, _, rfl, fun _ => rfl⟩
    · simp only [tMoveNode, bind, Eff.bind, hrd, Eff.onExc, h, hs1]
    · rw [ATree.Is]; exact ⟨rfl, rfl, hf⟩

/-- Moving an object of a bounded type. -/
theorem tMoveRef_run' (ih : ∀ {s : TreeSt V} {α : AStore V} {G : List (ATree V)} {x : TPlace} {l : TLoc} {R : ATree V} {u : VTree V},
      Mem s α G → At α x l R → R.Is u → u.height ≤ n → Moves C s α G x u ATree.var (tMoveVar C n l s))
    {l : TLoc} {R : ATree V} {u : VTree V} (hM : Mem s α G) (hx : At α x l R) (hR : R.Is u) (hn : u.height ≤ n + 1) :
    Moves C s α G x u ATree.content (tMoveRef C (tMoveVar C n) (tDestroyVar n) R.which (R.var.ref l) s) := by
  obtain ⟨_, hl, hh⟩ := hM.at_run hx
  have hrd := ref_read hl hh
  cases R with
  | dead => simp [ATree.Is] at hR
  | blk => simp [ATree.Is] at hR
  | leaf k v b =>
    cases u with
    | node => simp [ATree.Is] at hR
    | leaf k' v' =>
      rw [ATree.Is] at hR
      obtain ⟨rfl, rfl⟩ := hR
      have hM0 : Mem { s with tick := s.tick + 1 } α G := hM.same rfl rfl (Nat.le_refl _)
      rcases tMayThrow_run (C := C) (C.tr k).nothrowMove (.moveCtor k) s with h | ⟨h, ht⟩
      · obtain ⟨hw, hM1⟩ := (hM0.leaf k (C.ops.movedFrom k v)).replaceRef hx rfl rfl rfl
        obtain ⟨c1, c2, _⟩ := set_counters k ((ATree.leaf k v b).var.ref l) (.leaf (C.ops.movedFrom k v)) { s with tick := s.tick + 1 }
        refine .inl ⟨_, .leaf k (C.ops.move k v) none, _, ?_, rfl, ?_, ?_, (hM1.drop rfl).leaf _ _, ?_, ?_⟩
        · simp only [which, content] at hw
          simp only [tMoveRef, bind, Eff.bind, hrd, content, which, Eff.onExc, h, hw, pure, Eff.pure]
        · rw [VTree.moved, ATree.Is]; exact ⟨rfl, rfl⟩
        · rw [VTree.movedFrom, setBox, ATree.Is]; exact ⟨rfl, rfl⟩
        · simp only [which, content, c1]; omega
        · simp only [which, content, c2, VTree.moveNodes]; omega
      · obtain ⟨hw, hM1⟩ := (hM0.leaf k (C.ops.moveFailSrc k v)).replaceRef hx rfl rfl rfl
        obtain ⟨c1, c2, _⟩ := set_counters k ((ATree.leaf k v b).var.ref l) (.leaf (C.ops.moveFailSrc k v)) { s with tick := s.tick + 1 }
        refine .inr ⟨⟨.moveCtor k, s.tick⟩, _, _, .leaf k (C.ops.moveFailSrc k v), ?_, .leaf k v, ?_, hM1.drop rfl, ⟨Nat.le_refl s.tick, ?_, ht⟩⟩
        · simp only [which, content] at hw
          simp only [tMoveRef, bind, Eff.bind, hrd, content, which, Eff.onExc, h, hw]
        · rw [setBox, ATree.Is]; exact ⟨rfl, rfl⟩
        · simp only [which, content, c1]; omega
  | node k a p f b =>
    cases u with
    | leaf => simp [ATree.Is] at hR
    | node k' a' g =>
      rw [ATree.Is] at hR
      obtain ⟨rfl, rfl, hf⟩ := hR
      rw [VTree.height] at hn
      rcases hM.alloc (C := C) with ⟨q, s1, h1, hM1, ht1, hal1, _⟩ | ⟨e, s1, h1, hM1, t1, t2, t3, _⟩
      · rcases tMoveNode_run ih hM1 hx hf (by omega) with ⟨s2, us, f', hr2, hus, hf', hM2, ht2, hal2, _⟩ | ⟨e, s2, R', u', hr2, hp, hR', hM2, hth, _⟩
        · obtain ⟨s3, h3, hM3, ht3, hal3, _⟩ := Mem.fill (p := q) (F := us) (G := G) (U := .node k (C.ops.move k a) q us none)
            (c := .node (C.ops.move k a) (us.map ATree.var)) (hM2.perm List.perm_middle)
            (fun h' hq hus' => by rw [ATree.Holds]; exact ⟨nofun, hq, hus'⟩)
            (fun r => by simp only [blocks, Option.toList, List.nil_append, List.count_cons, List.count_nil]; omega)
          refine .inl ⟨s3, .node k (C.ops.move k a) q us none, _, ?_, rfl, ?_, ?_, hM3, by omega, ?_⟩
          · simp only [tMoveRef, bind, Eff.bind, hrd, content, which, tNew, h1, Eff.onExc, hr2, h3, pure, Eff.pure]
          · rw [VTree.moved, ATree.Is]; exact ⟨rfl, rfl, hus⟩
          · rw [VTree.movedFrom, ATree.Is]; exact ⟨rfl, rfl, hf'⟩
          · rw [VTree.moveNodes]; omega
        · obtain ⟨s3, h3, hM3, ht3, _⟩ := hM2.free
          refine .inr ⟨e, s3, R', u', ?_, hp, hR', hM3, hth.mono (by omega) (by omega)⟩
          simp only [tMoveRef, bind, Eff.bind, hrd, content, which, tNew, h1, Eff.onExc, hr2, h3]
      · refine .inr ⟨e, s1, .node k a p f b, .node k a g, ?_, .same _, ?_, ?_, ⟨t1, t2, t3⟩⟩
        · simp only [tMoveRef, bind, Eff.bind, hrd, content, tNew, h1]
        · rw [ATree.Is]; exact ⟨rfl, rfl, hf⟩
        · rw [AStore.put_same hx]; exact hM1

/-- Moving a variant. -/
theorem tMoveVar_run : ∀ {n : Nat} {s : TreeSt V} {α : AStore V} {G : List (ATree V)} {x : TPlace} {l : TLoc} {R : ATree V} {u : VTree V},
    Mem s α G → At α x l R → R.Is u → u.height ≤ n → Moves C s α G x u ATree.var (tMoveVar C n l s)
  | 0, _, _, _, _, _, _, u, _, _, _, hn => by cases u <;> simp [VTree.height] at hn
  | n + 1, s, α, G, x, l, R, u, hM, hx, hR, hn => by
    obtain ⟨_, hl, _⟩ := hM.at_run hx
    rcases tMoveRef_run' (fun hM hx hR hn => tMoveVar_run (n := n) hM hx hR hn) hM hx hR hn with
      ⟨s', U, R', hr, hUb, hU, hR', hM', ht, hal⟩ | ⟨e, s', R', u', hr, hp, hR', hM', hth⟩
    · refine .inl ⟨s', U, R', ?_, hUb, hU, hR', hM', ht, hal⟩
      have hk : R.which = U.which := by rw [hR.which, hU.which, VTree.which_moved]
      simp only [tMoveVar, bind, Eff.bind, hl, var_which, hr, pure, Eff.pure]
      rw [var_none hUb, hk]
    · refine .inr ⟨e, s', R', u', ?_, hp, hR', hM', hth⟩
      simp only [tMoveVar, bind, Eff.bind, hl, var_which, hr]

theorem tMoveRef_run {l : TLoc} {R : ATree V} {u : VTree V} (hM : Mem s α G) (hx : At α x l R) (hR : R.Is u)
    (hn : u.height ≤ n + 1) :
    Moves C s α G x u ATree.content (tMoveRef C (tMoveVar C n) (tDestroyVar n) R.which (R.var.ref l) s) :=
  tMoveRef_run' (fun hM hx hR hn => tMoveVar_run hM hx hR hn) hM hx hR hn

/-- Moving a variant with a node: where the nodes are then. -/
theorem tMoveVar_node {l : TLoc} {k : TyIx} {a : V} {p : ObjId} {f : List (ATree V)} {b : Option ObjId} {u : VTree V} (hM : Mem s α G)
    (hx : At α x l (.node k a p f b)) (hR : (ATree.node k a p f b).Is u) (hn : u.height ≤ n) :
    (∃ s' q us f', tMoveVar C n l s = .ok (.plain k (.wrap q)) s' ∧ s.heap q = none ∧
      Mem s' (α.put x (.node k (C.ops.movedFrom k a) p f' b)) (.node k (C.ops.move k a) q us none :: G) ∧
      (C.steals k = true → us = f ∧ f' = [])) ∨
    (∃ e s' a' f', tMoveVar C n l s = .exc e s' ∧ Mem s' (α.put x (.node k a' p f' b)) G ∧ (C.steals k = true → f' = f)) := by
  obtain ⟨_, hl, hh⟩ := hM.at_run hx
  have hrd := ref_read hl hh
  cases n with
  | zero => cases u <;> simp [VTree.height] at hn
  | succ n =>
    cases u with
    | leaf => simp [ATree.Is] at hR
    | node k' a' g =>
      rw [ATree.Is] at hR
      obtain ⟨rfl, rfl, hf⟩ := hR
      rw [VTree.height] at hn
      have hcode : tMoveVar C (n + 1) l s = (match tMoveRef C (tMoveVar C n) (tDestroyVar n) k ((ATree.node k a p f b).var.ref l) s with
          | .ok c s' => .ok (.plain k c) s'
          | .exc e s' => .exc e s'
          | .fault f => .fault f) := by
        simp only [tMoveVar, bind, Eff.bind, hl, var_which, which, pure, Eff.pure]
        cases tMoveRef C (tMoveVar C n) (tDestroyVar n) k ((ATree.node k a p f b).var.ref l) s <;> rfl
      rw [hcode]
      rcases hM.alloc (C := C) with ⟨q, s1, h1, hM1, ht1, hal1, _⟩ | ⟨e, s1, h1, hM1, t1, t2, t3, _⟩
      · have hq : s.heap q = none := by
          cases hq : s.heap q with
          | none => rfl
          | some c =>
            exfalso
            rcases hM.owned q (by rw [hq]; nofun) with h | ⟨z, h⟩
            · have := hM1.excl 0 q; rw [count_cons] at this; simp only [blocks, List.count_singleton_self] at this; omega
            · have := hM1.excl z q; rw [count_cons] at this; simp only [blocks, List.count_singleton_self] at this; omega
        rcases tMoveNode_run (fun hM hx hR hn => tMoveVar_run (n := n) hM hx hR hn) hM1 hx hf (by omega) with
          ⟨s2, us, f', hr2, hus, hf', hM2, ht2, hal2, hst⟩ | ⟨e, s2, R', u', hr2, hp, hR', hM2, hth, a', f', rfl, hst⟩
        · obtain ⟨s3, h3, hM3, ht3, hal3, _⟩ := Mem.fill (p := q) (F := us) (G := G) (U := .node k (C.ops.move k a) q us none)
            (c := .node (C.ops.move k a) (us.map ATree.var)) (hM2.perm List.perm_middle)
            (fun h' hq hus' => by rw [ATree.Holds]; exact ⟨nofun, hq, hus'⟩)
            (fun r => by simp only [blocks, Option.toList, List.nil_append, List.count_cons, List.count_nil]; omega)
          refine .inl ⟨s3, q, us, f', ?_, hq, hM3, hst⟩
          simp only [tMoveRef, bind, Eff.bind, hrd, content, tNew, h1, Eff.onExc, hr2, h3, pure, Eff.pure]
        · obtain ⟨s3, h3, hM3, ht3, _⟩ := hM2.free
          refine .inr ⟨e, s3, a', f', ?_, hM3, hst⟩
          simp only [tMoveRef, bind, Eff.bind, hrd, content, tNew, h1, Eff.onExc, hr2, h3]
      · refine .inr ⟨e, s1, a, f, ?_, ?_, fun _ => rfl⟩
        · simp only [tMoveRef, bind, Eff.bind, hrd, content, tNew, h1]
        · rw [AStore.put_same hx]; exact hM1

end

end BVariant
