/-
Places in annotated trees: reading and writing.
-/
import Verif.Lemmas.TreeOwn

namespace BVariant

section
variable {V : Type} {C : TreeCfg V} {s s' : TreeSt V} {h h' : ObjId → Option (TCell V)}

open ATree

variable {α : AStore V} {G G' : List (ATree V)} {n : Nat} {x y : TPlace}

/-- The variant at the place is `R`, and lives at `l`. -/
def AStore.At (α : AStore V) (t : TPlace) (l : TLoc) (R : ATree V) : Prop :=
  ∃ T, α t.var = some T ∧ T.walk (.var t.var) t.path = some (l, R)

/-- The variables with another variant at the place. -/
def AStore.put (α : AStore V) (t : TPlace) (U : ATree V) : AStore V := upd α t.var ((α t.var).map (·.put t.path U))

/-- The places are in different variables, or neither leads through the other. -/
def TPlace.Apart (x y : TPlace) : Prop := x.var ≠ y.var ∨ PathsApart x.path y.path

theorem TPlace.Apart.symm (h : x.Apart y) : y.Apart x := h.elim (fun h => .inl h.symm) fun h => .inr h.symm

namespace AStore

theorem At.put {l : TLoc} {R U : ATree V} (h : At α x l R) : At (α.put x U) x l U := by
  obtain ⟨T, h1, h2⟩ := h
  exact ⟨T.put x.path U, by simp only [AStore.put, h1, upd_same, Option.map_some], walk_put h2⟩

theorem At.put_apart {l : TLoc} {R U : ATree V} (h : At α x l R) (ha : x.Apart y) : At (α.put y U) x l R := by
  obtain ⟨T, h1, h2⟩ := h
  by_cases hv : x.var = y.var
  · rcases ha with ha | ha
    · exact absurd hv ha
    · refine ⟨T.put y.path U, ?_, walk_put_apart ha h2⟩
      simp only [AStore.put, ← hv, h1, upd_same, Option.map_some]
  · exact ⟨T, by simp only [AStore.put, upd, hv, if_false]; exact h1, h2⟩

theorem put_put {l : TLoc} {R U W : ATree V} (h : At α x l R) : (α.put x U).put x W = α.put x W := by
  obtain ⟨T, h1, h2⟩ := h
  simp only [AStore.put, h1, upd_same, Option.map_some, upd_upd, BVariant.put_put h2]

theorem put_same {l : TLoc} {R : ATree V} (h : At α x l R) : α.put x R = α := by
  obtain ⟨T, h1, h2⟩ := h
  simp only [AStore.put, h1, Option.map_some, BVariant.put_same h2]
  exact upd_eq h1

theorem put_comm {U W : ATree V} (ha : x.Apart y) : (α.put y U).put x W = (α.put x W).put y U := by
  by_cases hv : x.var = y.var
  · rcases ha with ha | ha
    · exact absurd hv ha
    · simp only [AStore.put, hv, upd_same, upd_upd, Option.map_map]
      congr 2
      funext t
      exact put_put_apart ha
  · funext z
    simp only [AStore.put, upd, hv, Ne.symm hv, if_false]
    by_cases h1 : z = x.var
    · subst h1; simp only [hv, if_true, if_false]
    · simp only [h1, if_false]

theorem At.unique {l l' : TLoc} {R R' : ATree V} (h : At α x l R) (h' : At α x l' R') : l = l' ∧ R = R' := by
  obtain ⟨T, h1, h2⟩ := h
  obtain ⟨T', h3, h4⟩ := h'
  rw [h1] at h3; cases h3
  rw [h2] at h4; cases h4
  exact ⟨rfl, rfl⟩

/-- A member of a node at a place. -/
theorem At.member {l : TLoc} {k : TyIx} {a : V} {p : ObjId} {f : List (ATree V)} {b : Option ObjId} {i : Nat} {u : ATree V}
    (h : At α x l (.node k a p f b)) (hi : f[i]? = some u) : At α ⟨x.var, x.path ++ [i]⟩ (.child p i) u := by
  obtain ⟨T, h1, h2⟩ := h
  refine ⟨T, h1, ?_⟩
  show T.walk (.var x.var) (x.path ++ [i]) = _
  rw [walk_append, h2]
  simp only [Option.bind_some, walk, hi]

theorem put_member {l : TLoc} {k : TyIx} {a : V} {p : ObjId} {f : List (ATree V)} {b : Option ObjId} {i : Nat} {u U : ATree V}
    (h : At α x l (.node k a p f b)) (hi : f[i]? = some u) :
    α.put ⟨x.var, x.path ++ [i]⟩ U = α.put x (.node k a p (f.set i U) b) := by
  obtain ⟨T, h1, h2⟩ := h
  simp only [AStore.put, h1, Option.map_some, put_append h2, ATree.put, hi]

end AStore

open AStore

/-! ### Reading -/

theorem tContent_run {T : ATree V} (hT : T.Holds s.heap) : tContent T.var s = .ok T.content s := by
  cases T with
  | leaf k v b =>
    rw [ATree.Holds] at hT
    cases b with
    | none => rfl
    | some q => simp only [var, box, tContent, tReadBox, hT q rfl, content]
  | node k a p f b =>
    rw [ATree.Holds] at hT
    cases b with
    | none => rfl
    | some q => simp only [var, box, tContent, tReadBox, hT.1 q rfl, content]
  | dead k b =>
    rw [ATree.Holds] at hT
    cases b with
    | none => rfl
    | some q => simp only [var, box, tContent, tReadBox, hT q rfl, content]
  | blk p => rfl

theorem var_which (T : ATree V) : T.var.which = T.which := by
  unfold var; cases T.box <;> rfl

/-- A member of a node is read. -/
theorem child_read {k : TyIx} {a : V} {p : ObjId} {f : List (ATree V)} {b : Option ObjId} (hT : (ATree.node k a p f b).Holds s.heap)
    (i : Nat) : (TLoc.child p i).read s = match f[i]? with
      | some u => .ok u.var s
      | none => .fault .ub := by
  rw [ATree.Holds] at hT
  simp only [TLoc.read, bind, Eff.bind, tReadNode, hT.2.1, List.getElem?_map]
  cases f[i]? <;> rfl

/-- Following a path in memory. -/
theorem tWalk_run : ∀ (is : List Nat) {T : ATree V} {l : TLoc}, T.Holds s.heap → l.read s = .ok T.var s →
    tWalk l is s = (match T.walk l is with
      | some (l', _) => .ok l' s
      | none => .fault .ub) ∧ ∀ l' R, T.walk l is = some (l', R) → l'.read s = .ok R.var s ∧ R.Holds s.heap
  | [], T, l, hT, hl => by
    rw [walk_nil]
    exact ⟨rfl, fun _ _ h => by cases h; exact ⟨hl, hT⟩⟩
  | i :: is, T, l, hT, hl => by
    have hc := tContent_run hT
    have hbad : T.content = .dead ∨ (∃ v, T.content = .leaf v) → T.walk l (i :: is) = none → tWalk l (i :: is) s = (match T.walk l (i :: is) with
      | some (l', _) => .ok l' s
      | none => .fault .ub) ∧ ∀ l' R, T.walk l (i :: is) = some (l', R) → l'.read s = .ok R.var s ∧ R.Holds s.heap := by
      rintro h1 h2
      rw [h2]
      refine ⟨?_, nofun⟩
      rcases h1 with h1 | ⟨v, h1⟩ <;> simp only [tWalk, bind, Eff.bind, hl, hc, h1, Eff.fail]
    cases T with
    | leaf k v b => exact hbad (.inr ⟨v, rfl⟩) rfl
    | dead k b => exact hbad (.inl rfl) rfl
    | blk p => exact hbad (.inl rfl) rfl
    | node k a p f b =>
      have hr := child_read hT i
      simp only [tWalk, bind, Eff.bind, hl, hc, content, walk]
      cases hu : f[i]? with
      | none =>
        rw [hu] at hr
        simp only [hr]
        exact ⟨trivial, nofun⟩
      | some u =>
        rw [hu] at hr
        rw [ATree.Holds] at hT
        simp only [hr]
        exact tWalk_run is (holdsL_iff.mp hT.2.2 u (List.mem_of_getElem? hu)) hr

theorem Mem.read_var (hM : Mem s α G) {z : Nat} {T : ATree V} (hz : α z = some T) : (TLoc.var z).read s = .ok T.var s := by
  simp only [TLoc.read, tVar, hM.vars z, hz, Option.map_some]

/-- A place is evaluated and read. -/
theorem Mem.at_run (hM : Mem s α G) {l : TLoc} {R : ATree V} (hx : At α x l R) :
    x.eval s = .ok l s ∧ l.read s = .ok R.var s ∧ R.Holds s.heap := by
  obtain ⟨T, h1, h2⟩ := hx
  obtain ⟨h3, h4⟩ := tWalk_run x.path (hM.holds _ T h1) (hM.read_var h1)
  rw [h2] at h3
  exact ⟨h3, h4 _ _ h2⟩

/-- What is at a place that is not there. -/
theorem Mem.not_at (hM : Mem s α G) (hx : ∀ l R, ¬ At α x l R) : x.eval s = .fault .ub ∨ ∃ l, x.eval s = .ok l s ∧ l.read s = .fault .ub := by
  cases hz : α x.var with
  | none =>
    have hv : s.vars x.var = none := by rw [hM.vars, hz]; rfl
    obtain ⟨z, path⟩ := x
    cases path with
    | nil => exact .inr ⟨.var z, rfl, by simp only [TLoc.read, tVar]; simp only at hv; rw [hv]⟩
    | cons i is =>
      left
      simp only at hv
      simp only [TPlace.eval, tWalk, bind, Eff.bind, TLoc.read, tVar, hv]
  | some T =>
    left
    obtain ⟨h3, _⟩ := tWalk_run x.path (hM.holds _ T hz) (hM.read_var hz)
    cases hw : T.walk (.var x.var) x.path with
    | none => rw [hw] at h3; exact h3
    | some r => exact absurd ⟨T, hz, hw⟩ (hx r.1 r.2)

theorem Mem.valid_iff (hM : Mem s α G) : x.valid s = true ↔ ∃ l R, At α x l R := by
  constructor
  · intro h
    by_cases hx : ∃ l R, At α x l R
    · exact hx
    · rcases hM.not_at (x := x) (fun l R h => hx ⟨l, R, h⟩) with h1 | ⟨l, h1, h2⟩
      · simp [TPlace.valid, h1] at h
      · simp [TPlace.valid, h1, h2] at h
  · rintro ⟨l, R, hx⟩
    obtain ⟨h1, h2, _⟩ := hM.at_run hx
    simp only [TPlace.valid, h1, h2]

theorem Mem.variant_eq (hM : Mem s α G) {l : TLoc} {R : ATree V} (hx : At α x l R) : x.variant s = some R.var := by
  obtain ⟨h1, h2, _⟩ := hM.at_run hx
  simp only [TPlace.variant, h1, h2]

/-- The object at a place is read through a reference. -/
theorem ref_read {l : TLoc} {R : ATree V} (hl : l.read s = .ok R.var s) (hR : R.Holds s.heap) : (R.var.ref l).read s = .ok R.content s := by
  have hc := tContent_run hR
  unfold var at hl hc ⊢
  cases hb : R.box with
  | none =>
    rw [hb] at hl
    simp only [TVar.ref, TRef.read, bind, Eff.bind, hl, pure, Eff.pure]
  | some q =>
    rw [hb] at hc
    exact hc

/-! ### Writing -/

/-- The state with another variant at a location that is there. -/
def TLoc.set (l : TLoc) (v : TVar V) (s : TreeSt V) : TreeSt V :=
  match l with
  | .var x => { s with vars := upd s.vars x (some v) }
  | .child p i => { s with heap := upd s.heap p (match s.heap p with
      | some (.node a cs) => some (.node a (cs.set i v))
      | c => c) }

theorem write_run {l : TLoc} {v v' : TVar V} (h : l.read s = .ok v' s) : l.write v s = .ok () (l.set v s) := by
  cases l with
  | var x =>
    simp only [TLoc.read] at h
    simp only [TLoc.write, bind, Eff.bind, h, tSetVar, Eff.modify, TLoc.set]
  | child p i =>
    simp only [TLoc.read, bind, Eff.bind] at h
    cases hn : tReadNode p s with
    | ok nd s1 =>
      have hp : s1 = s ∧ s.heap p = some (.node nd.1 nd.2) := by
        unfold tReadNode at hn
        split at hn
        · cases hn; exact ⟨rfl, by assumption⟩
        · cases hn
      obtain ⟨rfl, hp⟩ := hp
      rw [hn] at h
      simp only at h
      have hi : i < nd.2.length := by
        cases hg : nd.2[i]? with
        | none => rw [hg] at h; cases h
        | some w => exact (List.getElem?_eq_some_iff.mp hg).1
      simp only [TLoc.write, bind, Eff.bind, hn, hi, if_true, Eff.modify, TLoc.set, hp]
    | exc _ _ => rw [hn] at h; cases h
    | fault _ => rw [hn] at h; cases h

/-- A ghost is put at a place; what was there becomes a ghost. -/
theorem Mem.replace {l : TLoc} {R U : ATree V} (hM : Mem s α (U :: G)) (hx : At α x l R) :
    l.write U.var s = .ok () (l.set U.var s) ∧ Mem (l.set U.var s) (α.put x U) (R :: G) := by
  refine ⟨write_run (hM.at_run hx).2.1, ?_⟩
  obtain ⟨T, h1, h2⟩ := hx
  have hT := hM.holds _ T h1
  have hex : ∀ p, T.blocks.count p + (U.blocks.count p + (blocksL G).count p) ≤ 1 := fun p => by
    have := hM.excl x.var p; rw [h1, count_cons] at this; exact this
  have hput := fun q => put_count U q h2
  simp only [AStore.put, h1, Option.map_some]
  by_cases hn : x.path = []
  · rw [hn, walk_nil] at h2; cases h2
    rw [hn, put_nil]
    refine hM.conserve (T' := some U) (by rfl) (fun t ht => by cases ht; exact hM.ghosts.1) ⟨hT, hM.ghosts.2⟩ (fun p => ?_)
      (fun _ _ => rfl) (Nat.le_refl _)
    rw [h1, count_cons, count_cons]
    simp only [blocksO]
    omega
  · obtain ⟨p, i, rfl, hp⟩ := walk_place hn h2
    obtain ⟨a, cs, hcell, hi⟩ := walk_cell hn h2 rfl hT
    have hpT : 0 < T.blocks.count p := by omega
    have hfr : ∀ q, q ≠ p → ((TLoc.child p i).set U.var s).heap q = s.heap q := fun q hq => by
      simp only [TLoc.set, upd, hq, if_false]
    have hUh : U.Holds ((TLoc.child p i).set U.var s).heap := hM.ghosts.1.frame fun q hq => hfr q (by
      rintro rfl; have := mem_blocks.mp hq; have := hex q; omega)
    refine hM.conserve (T' := some (T.put x.path U)) ?_ (fun t ht => ?_) ⟨?_, ?_⟩ (fun q => ?_) (fun q hq => ?_) (Nat.le_refl _)
    · have hv : (T.put x.path U).var = T.var := by
        cases hxp : x.path with
        | nil => exact absurd hxp hn
        | cons => exact put_var_cons
      rw [Option.map_some, hv]
      exact (upd_eq (show s.vars x.var = _ by rw [hM.vars, h1]; rfl)).symm
    · cases ht
      refine put_holds h2 hT (fun q => by have := hex q; omega) hUh (fun p' i' a' cs' _ e hc => ?_) (fun q _ _ hq => ?_)
      · cases e
        rw [hcell] at hc; cases hc
        simp only [TLoc.set, upd_same, hcell]
      · exact hfr q fun e => hq i hn (by rw [e])
    · exact (walk_holds h2 hT).frame fun q hq => hfr q (by
        rintro rfl; have := mem_blocks.mp hq; have := hex q; omega)
    · exact hM.ghosts.2.frame fun q hq => hfr q (by
        rintro rfl; have := mem_blocksL.mp hq; have := hex q; omega)
    · rw [h1, count_cons, count_cons]
      simp only [blocksO]
      have := hput q
      omega
    · rw [h1] at hq
      simp only [blocksO] at hq
      exact hfr q (by rintro rfl; omega)

/-- What is put at a place in the tree of the place itself: the block of a backup, or of a node, gets another object. -/
theorem Mem.inner {l : TLoc} {R R' : ATree V} {c : TCell V} {q : ObjId} (hM : Mem s α G) (hx : At α x l R)
    (hvar : R'.var = R.var) (hR : R'.Holds (upd s.heap q (some c))) (hG : HoldsL (upd s.heap q (some c)) G')
    (hq : 0 < R.blocks.count q) (hc : ∀ p, R'.blocks.count p + (blocksL G').count p = R.blocks.count p + (blocksL G).count p) :
    Mem { s with heap := upd s.heap q (some c) } (α.put x R') G' := by
  obtain ⟨T, h1, h2⟩ := hx
  have hT := hM.holds _ T h1
  have hex : ∀ p, T.blocks.count p + (blocksL G).count p ≤ 1 := fun p => by
    have := hM.excl x.var p; rw [h1] at this; exact this
  have hput := fun p => put_count R' p h2
  have hwc := fun p => walk_count p h2
  have hfr : ∀ p, p ≠ q → upd s.heap q (some c) p = s.heap p := fun p hp => by simp only [upd, hp, if_false]
  simp only [AStore.put, h1, Option.map_some]
  refine hM.conserve (T' := some (T.put x.path R')) ?_ (fun t ht => ?_) hG (fun p => ?_) (fun p hp => ?_) (Nat.le_refl _)
  · have hv : (T.put x.path R').var = T.var := by
      cases hxp : x.path with
      | nil => rw [hxp, walk_nil] at h2; cases h2; rw [put_nil]; exact hvar
      | cons => exact put_var_cons
    rw [Option.map_some, hv]
    exact (upd_eq (by rw [hM.vars, h1]; rfl)).symm
  · cases ht
    refine put_holds h2 hT (fun p => by have := hex p; omega) hR (fun p i a cs hn e hcell => ?_) (fun p h3 h4 _ => ?_)
    · obtain ⟨p', i', e', hp'⟩ := walk_place hn h2
      rw [e] at e'; cases e'
      obtain ⟨a', cs', hcell', hi⟩ := walk_cell hn h2 e hT
      rw [hcell] at hcell'; cases hcell'
      show upd s.heap q (some c) p = _
      rw [hfr p (by rintro rfl; have := hex p; omega), hcell, hvar]
      congr 2
      refine List.ext_getElem? fun j => ?_
      rw [List.getElem?_set]
      split
      · rename_i hj; subst hj
        rw [hi, if_pos (List.getElem?_eq_some_iff.mp hi).1]
      · rfl
    · exact hfr p (by rintro rfl; omega)
  · rw [h1]
    simp only [blocksO]
    have := hput p
    have := hc p
    have := hwc p
    omega
  · rw [h1] at hp
    simp only [blocksO] at hp
    have := hwc q
    exact hfr p (by rintro rfl; omega)

/-- The node at a place gets another value and other members. -/
theorem Mem.setNode {l : TLoc} {k : TyIx} {a a' : V} {p : ObjId} {f f' : List (ATree V)} {b : Option ObjId} (hM : Mem s α G)
    (hx : At α x l (.node k a p f b)) (hf : HoldsL s.heap f') (hG : HoldsL s.heap G')
    (hc : ∀ q, (blocksL f').count q + (blocksL G').count q = (blocksL f).count q + (blocksL G).count q) :
    ∃ s', tSetNode p a' (f'.map ATree.var) s = .ok () s' ∧ Mem s' (α.put x (.node k a' p f' b)) G' ∧ s'.tick = s.tick ∧
      s'.allocs = s.allocs ∧ s'.vars = s.vars := by
  have hR := (hM.at_run hx).2.2
  rw [ATree.Holds] at hR
  have hex : ∀ q, b.toList.count q + ([p].count q + (blocksL f).count q) + (blocksL G).count q ≤ 1 := fun q => by
    obtain ⟨T, h1, h2⟩ := hx
    have h3 := hM.excl x.var q
    have h4 := walk_count q h2
    rw [h1] at h3
    simp only [blocksO, blocks, List.count_append, List.count_cons, List.count_nil] at h3 h4 ⊢
    omega
  have hp1 : [p].count p = 1 := by simp
  refine ⟨{ s with heap := upd s.heap p (some (.node a' (f'.map ATree.var))) },
    by simp only [tSetNode, bind, Eff.bind, tReadNode, hR.2.1, Eff.modify], ?_, rfl, rfl, rfl⟩
  have hfr : ∀ (c : TCell V) q, q ≠ p → upd s.heap p (some c) q = s.heap q := fun c q hq => by simp only [upd, hq, if_false]
  have hex' := hex p
  have hc' := hc p
  refine hM.inner (R' := .node k a' p f' b) hx (by cases b <;> rfl) ?_ (hG.frame fun q hq => hfr _ q ?_) ?_ (fun q => ?_)
  · rw [ATree.Holds]
    refine ⟨fun q hq => ?_, by simp, hf.frame fun q hq => hfr _ q ?_⟩
    · rw [hfr _ q]
      · exact hR.1 q hq
      · rintro rfl
        have : b.toList.count q = 1 := by simp [hq]
        omega
    · rintro rfl
      have := mem_blocksL.mp hq
      omega
  · rintro rfl
    have := mem_blocksL.mp hq
    omega
  · simp only [blocks, List.count_append, List.count_cons_self]; omega
  · have := hc q
    simp only [blocks, List.count_append, List.count_cons]
    omega

/-- The state with another object where a reference refers to. -/
def TRef.set (k : TyIx) (r : TRef) (c : TContent V) (s : TreeSt V) : TreeSt V :=
  match r with
  | .inPlace l => l.set (.plain k c) s
  | .inBox q => { s with heap := upd s.heap q (match s.heap q with
      | some (.box _) => some (.box c)
      | d => d) }

theorem ref_write {k : TyIx} {r : TRef} {c c' : TContent V} (h : r.read s = .ok c' s) : r.write k c s = .ok () (r.set k c s) := by
  cases r with
  | inPlace l =>
    simp only [TRef.read, bind, Eff.bind] at h
    cases hl : l.read s with
    | ok v s1 =>
      rw [hl] at h
      simp only at h
      have : s1 = s := by cases v <;> cases h; rfl
      subst this
      exact write_run hl
    | exc _ _ => rw [hl] at h; cases h
    | fault _ => rw [hl] at h; cases h
  | inBox q =>
    simp only [TRef.read] at h
    have hq : s.heap q = some (.box c') := by
      unfold tReadBox at h
      split at h
      · cases h; assumption
      · cases h
    simp only [TRef.write, bind, Eff.bind, h, Eff.modify, TRef.set, hq]

theorem setBox_var {U : ATree V} {q : ObjId} (hb : U.isBlk = false) : (U.setBox (some q)).var = .backup U.which q := by
  cases U <;> first | rfl | cases hb

theorem setBox_none {U : ATree V} (hU : U.box = none) : U.setBox none = U := by
  cases U <;> simp_all [setBox, box]

theorem var_none {U : ATree V} (hU : U.box = none) : U.var = .plain U.which U.content := by unfold var; rw [hU]

theorem setBox_blocks {U : ATree V} (b : Option ObjId) (hU : U.box = none) (hb : U.isBlk = false) (q : ObjId) :
    (U.setBox b).blocks.count q = b.toList.count q + U.blocks.count q := by
  cases U with
  | leaf k v b' => cases (show b' = none from hU); simp [setBox, blocks]
  | node k a p f b' => cases (show b' = none from hU); simp [setBox, blocks]
  | dead k b' => cases (show b' = none from hU); simp [setBox, blocks]
  | blk p => cases hb

theorem unBox_blocks {U : ATree V} (q : ObjId) :
    U.blocks.count q = U.box.toList.count q + (U.setBox none).blocks.count q := by
  cases U <;> simp [setBox, blocks, box]

theorem unBox_holds {U : ATree V} (hU : U.Holds h) : (U.setBox none).Holds h := by
  cases U with
  | leaf => rw [setBox, ATree.Holds]; nofun
  | dead => rw [setBox, ATree.Holds]; nofun
  | node => rw [ATree.Holds] at hU; rw [setBox, ATree.Holds]; exact ⟨nofun, hU.2⟩
  | blk => exact hU

theorem box_holds {U : ATree V} {q : ObjId} (hU : U.Holds h) (hq : h q = some (.box U.content)) : (U.setBox (some q)).Holds h := by
  cases U with
  | leaf => rw [setBox, ATree.Holds]; rintro _ ⟨⟩; exact hq
  | dead => rw [setBox, ATree.Holds]; rintro _ ⟨⟩; exact hq
  | node => rw [ATree.Holds] at hU; rw [setBox, ATree.Holds]; exact ⟨by rintro _ ⟨⟩; exact hq, hU.2⟩
  | blk => exact hU

theorem box_cell {U : ATree V} {q : ObjId} (hU : U.Holds h) (hq : U.box = some q) : h q = some (.box U.content) := by
  cases U with
  | leaf => rw [ATree.Holds] at hU; exact hU q hq
  | dead => rw [ATree.Holds] at hU; exact hU q hq
  | node => rw [ATree.Holds] at hU; exact hU.1 q hq
  | blk => cases hq

theorem setBox_is {U : ATree V} {u : VTree V} (b : Option ObjId) (hU : U.Is u) : (U.setBox b).Is u := by
  cases U <;> cases u <;> simp_all [setBox, ATree.Is]

theorem setBox_box {U : ATree V} (b : Option ObjId) (hb : U.isBlk = false) : (U.setBox b).box = b := by
  cases U <;> first | rfl | cases hb

theorem setBox_setBox (U : ATree V) (b b' : Option ObjId) : (U.setBox b).setBox b' = U.setBox b' := by cases U <;> rfl

theorem setBox_self (U : ATree V) : U.setBox U.box = U := by cases U <;> rfl

theorem setBox_which (U : ATree V) (b : Option ObjId) : (U.setBox b).which = U.which := by cases U <;> rfl

theorem setBox_content (U : ATree V) (b : Option ObjId) : (U.setBox b).content = U.content := by cases U <;> rfl

theorem setBox_isBlk (U : ATree V) (b : Option ObjId) : (U.setBox b).isBlk = U.isBlk := by cases U <;> rfl

theorem is_notBlk {U : ATree V} {u : VTree V} (hU : U.Is u) : U.isBlk = false := by
  cases U <;> first | rfl | (simp [ATree.Is] at hU)

/-- A ghost's object is put where the object at a place is, in place or in a backup; the object that was there becomes a
ghost. -/
theorem Mem.replaceRef {l : TLoc} {R U : ATree V} (hM : Mem s α (U :: G)) (hx : At α x l R) (hU : U.box = none)
    (hUb : U.isBlk = false) (hk : U.which = R.which) :
    (R.var.ref l).write U.which U.content s = .ok () ((R.var.ref l).set U.which U.content s) ∧
    Mem ((R.var.ref l).set U.which U.content s) (α.put x (U.setBox R.box)) (R.setBox none :: G) := by
  obtain ⟨he, hl, hR⟩ := hM.at_run hx
  refine ⟨ref_write (ref_read hl hR), ?_⟩
  cases hb : R.box with
  | none =>
    have := hM.replace hx
    rw [var_none hU] at this
    rw [var_none hb, setBox_none hb, setBox_none hU]
    exact this.2
  | some q =>
    have hv : R.var = .backup R.which q := by unfold var; rw [hb]
    have hq := box_cell hR hb
    have hset : (R.var.ref l).set U.which U.content s = { s with heap := upd s.heap q (some (.box U.content)) } := by
      simp only [hv, TVar.ref, TRef.set, hq]
    rw [hset]
    have hex : ∀ p, R.blocks.count p + (U.blocks.count p + (blocksL G).count p) ≤ 1 := fun p => by
      obtain ⟨T, h1, h2⟩ := hx
      have h3 := hM.excl x.var p
      have h4 := walk_count p h2
      rw [h1, count_cons] at h3
      simp only [blocksO] at h3
      omega
    have hfr : ∀ p, p ≠ q → upd s.heap q (some (.box U.content)) p = s.heap p := fun p hp => by simp only [upd, hp, if_false]
    have hqb : (R.setBox none).blocks.count q + 1 = R.blocks.count q := by
      rw [unBox_blocks (U := R) q, hb]; simp; omega
    have hex' := hex q
    refine hM.inner hx (by rw [setBox_var hUb, hv, hk]) (box_holds (hM.ghosts.1.frame fun p hp => hfr p ?_) (by simp))
      ⟨(unBox_holds hR).frame fun p hp => hfr p ?_, hM.ghosts.2.frame fun p hp => hfr p ?_⟩ (by omega) (fun p => ?_)
    · rintro rfl; have := mem_blocks.mp hp; omega
    · rintro rfl; have := mem_blocks.mp hp; omega
    · rintro rfl; have := mem_blocksL.mp hp; omega
    · rw [setBox_blocks _ hU hUb, count_cons, count_cons, unBox_blocks (U := R) p, hb]; omega

theorem set_counters (k : TyIx) (r : TRef) (c : TContent V) (s : TreeSt V) :
    (r.set k c s).tick = s.tick ∧ (r.set k c s).allocs = s.allocs ∧ (r.set k c s).next = s.next := by
  cases r with
  | inPlace l => cases l <;> exact ⟨rfl, rfl, rfl⟩
  | inBox q => exact ⟨rfl, rfl, rfl⟩

theorem lset_counters (l : TLoc) (v : TVar V) (s : TreeSt V) :
    (l.set v s).tick = s.tick ∧ (l.set v s).allocs = s.allocs ∧ (l.set v s).next = s.next := by
  cases l <;> exact ⟨rfl, rfl, rfl⟩

end

end BVariant
