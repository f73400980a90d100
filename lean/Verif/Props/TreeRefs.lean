/-
C83: references to the variants and nodes of recursive variants.
-/
import Verif.Props.Tree

namespace BVariant

section
variable {V : Type} {C : TreeCfg V} {s s' : TreeSt V} {σ : TStore V} {own : Nat → List ObjId} {m n : Nat}

open ATree AStore

variable {α α' : AStore V} {G : List (ATree V)} {x t y : TPlace} {l r : TLoc} {T U : ATree V}

/-! ### Pointers and annotated trees -/

/-- What the variant has, as `TPlace.object` says. -/
def ATree.object (T : ATree V) : TyIx × TContent V × Option (V × Nat) := (T.head.1, T.head.2.2)

theorem Mem.variant_none (hM : Mem s α G) (hy : ∀ l T, ¬ At α y l T) : y.variant s = none := by
  rcases hM.not_at hy with h | ⟨l, h, h'⟩
  · simp only [TPlace.variant, h]
  · simp only [TPlace.variant, h, h']

theorem Mem.object_at (hM : Mem s α G) (hy : At α y l T) : y.object s = some T.object := by
  obtain ⟨_, _, h3⟩ := hM.at_run hy
  have hc := tContent_run h3
  unfold TPlace.object
  simp only [hM.variant_eq hy, hc, var_which]
  cases T with
  | node k a p f b =>
    rw [ATree.Holds] at h3
    simp only [content, h3.2.1, List.length_map]
    rfl
  | leaf => rfl
  | dead => rfl
  | blk => rfl

theorem Mem.loc_at (hM : Mem s α G) (hy : At α y l T) : y.loc s = some l := by
  simp only [TPlace.loc, (hM.at_run hy).1]

/-- The parts of a variant. -/
theorem Mem.below (hM : Mem s α G) (hx : At α x l T) (is : List Nat) :
    (x.below is).loc s = (T.walk l is).map (·.1) ∧ (x.below is).object s = (T.walk l is).map fun r => r.2.object := by
  have key : ∀ r, T.walk l is = some r → At α (x.below is) r.1 r.2 := fun r hr => by
    obtain ⟨T0, h1, h2⟩ := hx
    refine ⟨T0, h1, ?_⟩
    show T0.walk (.var x.var) (x.path ++ is) = _
    rw [walk_append, h2]
    exact hr
  cases hw : T.walk l is with
  | some r => exact ⟨hM.loc_at (key r hw), hM.object_at (key r hw)⟩
  | none =>
    obtain ⟨T0, h1, h2⟩ := hx
    have h3 : T0.walk (.var x.var) (x.path ++ is) = none := by rw [walk_append, h2]; exact hw
    obtain ⟨h4, _⟩ := tWalk_run (x.path ++ is) (hM.holds _ T0 h1) (hM.read_var h1)
    rw [h3] at h4
    have h5 : (x.below is).eval s = .fault .ub := h4
    constructor
    · simp only [TPlace.loc, h5, Option.map_none]
    · simp only [TPlace.object, TPlace.variant, h5, Option.map_none]

theorem TPlace.below_nil : x.below [] = x := by
  simp only [TPlace.below, List.append_nil]

/-- Where the parts of a variant are does not depend on where it is. -/
theorem walk_indep {is : List Nat} (h : is ≠ []) (l l' : TLoc) : T.walk l is = T.walk l' is := by
  cases is with
  | nil => exact absurd rfl h
  | cons i is => cases T <;> rfl

theorem walk_trees (is : List Nat) (l l' : TLoc) : (T.walk l is).map (fun r => r.2.object) = (T.walk l' is).map fun r => r.2.object := by
  cases is with
  | nil => rw [walk_nil, walk_nil]; rfl
  | cons i is => rw [walk_indep (by nofun) l l']

/-- The parts of nodes with the same members. -/
theorem walk_members {k k' : TyIx} {a a' : V} {p p' : ObjId} {f : List (ATree V)} {b b' : Option ObjId} {is : List Nat} (h : is ≠ []) :
    ((ATree.node k a p f b).walk l is).map (fun r => r.2.object) = ((ATree.node k' a' p' f b').walk r is).map (fun r => r.2.object) ∧
    (2 ≤ is.length → (ATree.node k a p f b).walk l is = (ATree.node k' a' p' f b').walk r is) := by
  cases is with
  | nil => exact absurd rfl h
  | cons i is =>
    simp only [ATree.walk]
    cases f[i]? with
    | none => exact ⟨rfl, fun _ => rfl⟩
    | some u =>
      refine ⟨walk_trees _ _ _, fun h => walk_indep ?_ _ _⟩
      rintro rfl
      simp at h

theorem walk_node {k k' : TyIx} {a a' : V} {p : ObjId} {f : List (ATree V)} {b b' : Option ObjId} {is : List Nat} (h : is ≠ []) :
    (ATree.node k a p f b).walk l is = (ATree.node k' a' p f b').walk r is := by
  cases is with
  | nil => exact absurd rfl h
  | cons i is => rfl

/-- A variant with a node. -/
theorem Mem.node_at (hM : Mem s α G) {k : TyIx} {p : ObjId} {o : Option (V × Nat)} (h : x.object s = some (k, .wrap p, o)) :
    ∃ l a f b, At α x l (.node k a p f b) ∧ b.isNone = !x.backedUp s := by
  by_cases hx : ∃ l T, At α x l T
  · obtain ⟨l, T, hx⟩ := hx
    rw [hM.object_at hx] at h
    cases T with
    | node k' a p' f b =>
      cases h
      refine ⟨l, a, f, b, hx, ?_⟩
      simp only [TPlace.backedUp, hM.variant_eq hx, var, box]
      cases b <;> rfl
    | leaf => cases h
    | dead => cases h
    | blk => cases h
  · exfalso
    have := hM.variant_none (y := x) fun l T h => hx ⟨l, T, h⟩
    simp only [TPlace.object, this] at h
    cases h

theorem Mem.node_of (hM : Mem s α G) {p : ObjId} (h : x.node s = some p) : ∃ l k a f b, At α x l (.node k a p f b) := by
  unfold TPlace.node at h
  split at h
  · rename_i h1
    cases h
    obtain ⟨l, a, f, b, h2, _⟩ := hM.node_at h1
    exact ⟨l, _, a, f, b, h2⟩
  · cases h

theorem Mem.node_eq (hM : Mem s α G) {k : TyIx} {a : V} {p : ObjId} {f : List (ATree V)} {b : Option ObjId}
    (h : At α x l (.node k a p f b)) : x.node s = some p := by
  simp only [TPlace.node, hM.object_at h]
  rfl

/-! ### One statement -/

/-- What a statement leaves. -/
theorem tEnds (hl : C.ops.Lawful) (hM : Mem s α []) (hS : IsS α σ) (hB : σ.Bound C.wrapped m) (hn : m ≤ n) {c : TCmd V}
    (hv : c.valid C s = true) (hh : c.hazard C s = false) (he : c.EndsIn C n s s') :
    ∃ ok α', Mem s' α' [] ∧ TAfter ok c α α' ∧ (ok = true ↔ c.code C n s = .ok () s') := by
  rcases tStep_at hl hM hS hB hn ((tValid_iff hM hS).mp hv) hh with
    ⟨s1, α1, σ1, hr, _, _, hM1, ha⟩ | ⟨e, s1, α1, σ1, hr, _, _, hM1, _, ha⟩
  · rcases he with he | ⟨e, he⟩
    · rw [hr] at he; cases he
      exact ⟨true, α1, hM1, ha, by simp [hr]⟩
    · rw [hr] at he; cases he
  · rcases he with he | ⟨e, he⟩
    · rw [hr] at he; cases he
    · rw [hr] at he; cases he
      exact ⟨false, α1, hM1, ha, by simp [hr]⟩

theorem TAfter.stays {ok : Bool} {c : TCmd V} (ha : TAfter ok c α α') (hM : Mem s α G) (hM' : Mem s' α' G) (hy : y.valid s = true)
    (hw : ∀ x ∈ c.writes, ¬ y.Under x) : y.loc s' = y.loc s ∧ y.object s' = y.object s ∧ y.valid s' = true := by
  obtain ⟨l, T, h1⟩ := hM.valid_iff.mp hy
  obtain ⟨T', h2, h3⟩ := ha.1 y l T h1 hw
  refine ⟨by rw [hM.loc_at h1, hM'.loc_at h2], ?_, hM'.valid_iff.mpr ⟨_, _, h2⟩⟩
  rw [hM.object_at h1, hM'.object_at h2, ATree.object, ATree.object, h3]

/-- **C83**: whatever a statement does, whether it ends by itself or by an exception: a variant that is not one of those it
assigns to, moves from, changes or destroys, nor a part of these, is where it was, and has the plain value or the node it had,
with its own value and as many members. So pointers to such variants and to their nodes stay good. (Parts of it may be assigned to.) -/
theorem C83_others_stay (hl : C.ops.Lawful) (hr : s.Represents σ own) (hf : s.Fresh) (hB : σ.Bound C.wrapped n) {c : TCmd V}
    (hv : c.valid C s = true) (hh : c.hazard C s = false) (he : c.EndsIn C n s s') (hy : y.valid s = true)
    (hw : ∀ x ∈ c.writes, ¬ y.Under x) : y.loc s' = y.loc s ∧ y.object s' = y.object s := by
  obtain ⟨α, hM, hS, _⟩ := hr.mem hf
  obtain ⟨ok, α', hM', ha, _⟩ := tEnds hl hM hS hB (Nat.le_refl _) hv hh he
  exact ⟨(ha.stays hM hM' hy hw).1, (ha.stays hM hM' hy hw).2.1⟩

/-- **C83**: changing the value of a node moves nothing: the node is the same, and all that is below it is where it was. -/
theorem C83_changed_node_stays (hl : C.ops.Lawful) (hr : s.Represents σ own) (hf : s.Fresh) (hB : σ.Bound C.wrapped n) {v : V}
    (hv : TCmd.valid C s (.store x v) = true) (he : TCmd.EndsIn C n (.store x v) s s') {k : TyIx} {p : ObjId} {a : V} {j : Nat}
    (hx : x.object s = some (k, .wrap p, some (a, j))) :
    x.loc s' = x.loc s ∧ x.object s' = some (k, .wrap p, some (v, j)) ∧
      ∀ is, is ≠ [] → (x.below is).loc s' = (x.below is).loc s ∧ (x.below is).object s' = (x.below is).object s := by
  obtain ⟨α, hM, hS, _⟩ := hr.mem hf
  obtain ⟨ok, α', hM', ha, _⟩ := tEnds hl hM hS hB (Nat.le_refl _) hv rfl he
  obtain ⟨l, a', f, b, h1, _⟩ := hM.node_at hx
  have h2 := ha.2 _ _ _ _ _ _ h1
  rw [hM.object_at h1] at hx
  cases hx
  refine ⟨by rw [hM.loc_at h1, hM'.loc_at h2], hM'.object_at h2, fun is h => ?_⟩
  rw [(hM.below h1 is).1, (hM.below h1 is).2, (hM'.below h2 is).1, (hM'.below h2 is).2, walk_node (k' := k) (a' := a) (b' := b) (r := l) h]
  exact ⟨rfl, rfl⟩

/-- **C83**: assignment to a variant with a node of a variant with a node of the same type, both in place or both in heap
backups: the left side keeps its node, whether the assignment ends by itself or by an exception. (The members the node had are
replaced, by copies of those of the other.) -/
theorem C83_assigned_node_stays (hl : C.ops.Lawful) (hr : s.Represents σ own) (hf : s.Fresh) (hB : σ.Bound C.wrapped n)
    (hv : TCmd.valid C s (.assign x t) = true) (hh : TCmd.hazard C s (.assign x t) = false)
    (he : TCmd.EndsIn C n (.assign x t) s s') {k : TyIx} {p q : ObjId} {o o' : Option (V × Nat)}
    (hx : x.object s = some (k, .wrap p, o)) (ht : t.object s = some (k, .wrap q, o')) (hb : x.backedUp s = t.backedUp s) :
    x.loc s' = x.loc s ∧ x.node s' = some p := by
  obtain ⟨α, hM, hS, _⟩ := hr.mem hf
  obtain ⟨ok, α', hM', ha, _⟩ := tEnds hl hM hS hB (Nat.le_refl _) hv hh he
  obtain ⟨l, a, f, b, h1, h2⟩ := hM.node_at hx
  obtain ⟨r, a', f', b', h3, h4⟩ := hM.node_at ht
  obtain ⟨a'', f'', h5⟩ := ha.2 _ _ _ _ _ _ _ _ _ _ _ h1 h3 (by rw [h2, h4, hb])
  exact ⟨by rw [hM.loc_at h1, hM'.loc_at h5], hM'.node_eq h5⟩

/-- **C83**: move assignment of a node of the same type: it always succeeds, and pointers follow. The variants are where they
were; each has the node the other had, the same node at the same address, with all that is below it where it was. -/
theorem C83_moved_nodes_change_places (hl : C.ops.Lawful) (hr : s.Represents σ own) (hf : s.Fresh) (hB : σ.Bound C.wrapped n)
    (hv : TCmd.valid C s (.moveAssign x t) = true) (hh : TCmd.hazard C s (.moveAssign x t) = false)
    {k : TyIx} {p q : ObjId} {o o' : Option (V × Nat)}
    (hx : x.object s = some (k, .wrap p, o)) (ht : t.object s = some (k, .wrap q, o')) (hb : x.backedUp s = t.backedUp s) :
    ∃ s', TCmd.code C n (.moveAssign x t) s = .ok () s' ∧ x.loc s' = x.loc s ∧ t.loc s' = t.loc s ∧
      (∀ is, (x.below is).object s' = (t.below is).object s ∧ (t.below is).object s' = (x.below is).object s) ∧
      ∀ is, is ≠ [] → (x.below is).loc s' = (t.below is).loc s ∧ (t.below is).loc s' = (x.below is).loc s := by
  obtain ⟨α, hM, hS, _⟩ := hr.mem hf
  have hst := tStep_at hl hM hS hB (Nat.le_refl _) ((tValid_iff hM hS).mp hv) hh
  obtain ⟨l, a, f, b, h1, h2⟩ := hM.node_at hx
  obtain ⟨r, a', f', b', h3, h4⟩ := hM.node_at ht
  rcases hst with ⟨s', α', σ', hr, _, _, hM', ha⟩ | ⟨e, s', α', σ', hr, _, _, hM', _, ha⟩
  · obtain ⟨_, h5, h6⟩ := ha.2 _ _ _ _ _ _ _ _ _ _ _ h1 h3 (by rw [h2, h4, hb])
    have key : ∀ is, is ≠ [] → (ATree.node k a' q f' b).walk l is = (ATree.node k a' q f' b').walk r is ∧
        (ATree.node k a p f b').walk r is = (ATree.node k a p f b).walk l is := fun is h => ⟨walk_node h, walk_node h⟩
    refine ⟨s', hr, by rw [hM.loc_at h1, hM'.loc_at h5], by rw [hM.loc_at h3, hM'.loc_at h6], fun is => ?_, fun is h => ?_⟩
    · by_cases h : is = []
      · subst h
        rw [TPlace.below_nil, TPlace.below_nil, hM.object_at h1, hM.object_at h3, hM'.object_at h5, hM'.object_at h6]
        exact ⟨rfl, rfl⟩
      · rw [(hM.below h1 is).2, (hM.below h3 is).2, (hM'.below h5 is).2, (hM'.below h6 is).2, (key is h).1, (key is h).2]
        exact ⟨rfl, rfl⟩
    · rw [(hM.below h1 is).1, (hM.below h3 is).1, (hM'.below h5 is).1, (hM'.below h6 is).1, (key is h).1, (key is h).2]
      exact ⟨rfl, rfl⟩
  · have := (ha.2 _ _ _ _ _ _ _ _ _ _ _ h1 h3 (by rw [h2, h4, hb])).1
    cases this

/-- **C83**: swap of variants with nodes of the same type: here pointers do not follow. Both keep their nodes, and the nodes
exchange their values and their members; what is below the members is where it was, and pointers to it follow. If the swap of
the nodes' values throws, the nodes are the same, and all that is below them is where it was. -/
theorem C83_swapped_nodes_stay (hl : C.ops.Lawful) (hr : s.Represents σ own) (hf : s.Fresh) (hB : σ.Bound C.wrapped n) {z : Nat}
    (hv : TCmd.valid C s (.swap x t z) = true) (hh : TCmd.hazard C s (.swap x t z) = false)
    (he : TCmd.EndsIn C n (.swap x t z) s s') {k : TyIx} {p q : ObjId} {a a' : V} {j j' : Nat}
    (hx : x.object s = some (k, .wrap p, some (a, j))) (ht : t.object s = some (k, .wrap q, some (a', j'))) :
    x.loc s' = x.loc s ∧ t.loc s' = t.loc s ∧ x.node s' = some p ∧ t.node s' = some q ∧
      (TCmd.code C n (.swap x t z) s = .ok () s' →
        x.object s' = some (k, .wrap p, some (a', j')) ∧ t.object s' = some (k, .wrap q, some (a, j)) ∧
        (∀ is, is ≠ [] → (x.below is).object s' = (t.below is).object s ∧ (t.below is).object s' = (x.below is).object s) ∧
        ∀ is, 2 ≤ is.length → (x.below is).loc s' = (t.below is).loc s ∧ (t.below is).loc s' = (x.below is).loc s) ∧
      (TCmd.code C n (.swap x t z) s ≠ .ok () s' → ∀ is, is ≠ [] →
        (x.below is).loc s' = (x.below is).loc s ∧ (x.below is).object s' = (x.below is).object s ∧
        (t.below is).loc s' = (t.below is).loc s ∧ (t.below is).object s' = (t.below is).object s) := by
  obtain ⟨α, hM, hS, _⟩ := hr.mem hf
  obtain ⟨ok, α', hM', ha, hok⟩ := tEnds hl hM hS hB (Nat.le_refl _) hv hh he
  obtain ⟨l, a1, f, b, h1, _⟩ := hM.node_at hx
  obtain ⟨r, a2, f', b', h3, _⟩ := hM.node_at ht
  rw [hM.object_at h1] at hx
  rw [hM.object_at h3] at ht
  cases hx
  cases ht
  have h5 := ha.2 _ _ _ _ _ _ _ _ _ _ _ h1 h3
  cases ok with
  | true =>
    obtain ⟨h5, h6⟩ := h5
    refine ⟨by rw [hM.loc_at h1, hM'.loc_at h5], by rw [hM.loc_at h3, hM'.loc_at h6], hM'.node_eq h5, hM'.node_eq h6, fun _ => ?_,
      fun h => absurd (hok.mp rfl) h⟩
    refine ⟨hM'.object_at h5, hM'.object_at h6, fun is h => ?_, fun is h => ?_⟩
    · rw [(hM.below h1 is).2, (hM.below h3 is).2, (hM'.below h5 is).2, (hM'.below h6 is).2]
      exact ⟨(walk_members h).1, (walk_members h).1⟩
    · have h' : is ≠ [] := by rintro rfl; simp at h
      rw [(hM.below h1 is).1, (hM.below h3 is).1, (hM'.below h5 is).1, (hM'.below h6 is).1]
      exact ⟨congrArg (Option.map _) ((walk_members h').2 h), congrArg (Option.map _) ((walk_members h').2 h)⟩
  | false =>
    obtain ⟨c, c', h5, h6⟩ := h5
    refine ⟨by rw [hM.loc_at h1, hM'.loc_at h5], by rw [hM.loc_at h3, hM'.loc_at h6], hM'.node_eq h5, hM'.node_eq h6,
      fun h => absurd (hok.mpr h) (by decide), fun _ is h => ?_⟩
    rw [(hM.below h1 is).1, (hM.below h1 is).2, (hM.below h3 is).1, (hM.below h3 is).2, (hM'.below h5 is).1, (hM'.below h5 is).2,
      (hM'.below h6 is).1, (hM'.below h6 is).2]
    exact ⟨congrArg (Option.map _) (walk_node h), congrArg (Option.map _) (walk_node h), congrArg (Option.map _) (walk_node h),
      congrArg (Option.map _) (walk_node h)⟩

/-- **C83**: move construction `variant x(std::move(t))` from a variant with a node: `t` keeps its node, moved from, and `x` gets a
new one; so a pointer to the node does not follow. If the class of the node takes over its list of members (as with a
`std::vector`), the new node has them all: pointers to what is below them follow, and the old node has none. If the move throws,
`t` keeps its node too, and in such a class all that is below it. -/
theorem C83_moved_from_node_stays (hr : s.Represents σ own) (hf : s.Fresh) (hB : σ.Bound C.wrapped n) {z : Nat} (hz : s.vars z = none)
    {k : TyIx} {p : ObjId} {a : V} {j : Nat} (ht : t.object s = some (k, .wrap p, some (a, j))) :
    (∃ s' q, TCmd.code C n (.move z t) s = .ok () s' ∧ t.loc s' = t.loc s ∧ t.node s' = some p ∧
      (TPlace.mk z []).node s' = some q ∧ s.heap q = none ∧
      (C.steals k = true → t.object s' = some (k, .wrap p, some (C.ops.movedFrom k a, 0)) ∧
        (TPlace.mk z []).object s' = some (k, .wrap q, some (C.ops.move k a, j)) ∧
        (∀ is, is ≠ [] → ((TPlace.mk z []).below is).object s' = (t.below is).object s) ∧
        ∀ is, 2 ≤ is.length → ((TPlace.mk z []).below is).loc s' = (t.below is).loc s)) ∨
    (∃ e s', TCmd.code C n (.move z t) s = .exc e s' ∧ t.loc s' = t.loc s ∧ t.node s' = some p ∧
      (C.steals k = true → ∀ is, is ≠ [] → (t.below is).loc s' = (t.below is).loc s ∧ (t.below is).object s' = (t.below is).object s)) := by
  obtain ⟨α, hM, hS, _⟩ := hr.mem hf
  obtain ⟨l, a', f, b, h1, _⟩ := hM.node_at ht
  rw [hM.object_at h1] at ht
  cases ht
  obtain ⟨u, hu, hR⟩ := hS.at h1
  have hz0 := hS.none_iff.mp (hr.vars_none.mp hz)
  have hzt : z ≠ t.var := by
    rintro rfl
    obtain ⟨T, g1, _⟩ := h1
    rw [hz0] at g1; cases g1
  obtain ⟨h3, _⟩ := hM.at_run h1
  rcases tMoveVar_node (C := C) (n := n) hM h1 hR (by have := (hB.at hu).1; omega) with
    ⟨s2, q, us, f', g1, hq, hM2, hst⟩ | ⟨e, s2, a', f', g1, hM2, hst⟩
  · have hx' : (α.put t (.node k (C.ops.movedFrom k a) p f' b)) z = none := by
      rw [put_ne_var hzt]; exact hz0
    have hM3 := hM2.setVar hx'
    have h5 : At (upd (α.put t (.node k (C.ops.movedFrom k a) p f' b)) z (some (.node k (C.ops.move k a) q us none))) t l
        (.node k (C.ops.movedFrom k a) p f' b) := At.upd h1.put hzt
    have h6 : At (upd (α.put t (.node k (C.ops.movedFrom k a) p f' b)) z (some (.node k (C.ops.move k a) q us none))) ⟨z, []⟩ (.var z)
        (.node k (C.ops.move k a) q us none) := ⟨_, upd_same _ _ _, walk_nil _ _⟩
    refine .inl ⟨{ s2 with vars := upd s2.vars z (some (.plain k (.wrap q))) }, q, ?_, ?_, hM3.node_eq h5, hM3.node_eq h6, hq, fun hk => ?_⟩
    · simp only [TCmd.code, bind, Eff.bind, h3, g1, tSetVar, Eff.modify]
    · rw [hM.loc_at h1]; exact hM3.loc_at h5
    · obtain ⟨rfl, rfl⟩ := hst hk
      refine ⟨hM3.object_at h5, hM3.object_at h6, fun is h => ?_, fun is h => ?_⟩
      · rw [(hM.below h1 is).2]
        exact (hM3.below h6 is).2.trans (walk_members h).1
      · have h' : is ≠ [] := by rintro rfl; simp at h
        rw [(hM.below h1 is).1]
        exact (hM3.below h6 is).1.trans (congrArg (Option.map _) ((walk_members h').2 h))
  · have h5 : At (α.put t (.node k a' p f' b)) t l (.node k a' p f' b) := h1.put
    refine .inr ⟨e, s2, ?_, ?_, hM2.node_eq h5, fun hk is h => ?_⟩
    · simp only [TCmd.code, bind, Eff.bind, h3, g1]
    · rw [hM.loc_at h1, hM2.loc_at h5]
    · cases hst hk
      rw [(hM.below h1 is).1, (hM.below h1 is).2, (hM2.below h5 is).1, (hM2.below h5 is).2]
      exact ⟨congrArg (Option.map _) (walk_node h), congrArg (Option.map _) (walk_node h)⟩

/-! ### The life of nodes -/

/-- **C83**: a node belongs to one variant: no two places have the same. -/
theorem C83_one_place (hr : s.Represents σ own) (hf : s.Fresh) {p : ObjId} (hx : x.node s = some p) (hy : y.node s = some p) : x = y := by
  obtain ⟨α, hM, hS, _⟩ := hr.mem hf
  obtain ⟨l, k, a, f, b, h1⟩ := hM.node_of hx
  obtain ⟨r, k', a', f', b', h2⟩ := hM.node_of hy
  have hroot : ∀ {k : TyIx} {a : V} {f : List (ATree V)} {b : Option ObjId}, 1 ≤ (ATree.node k a p f b).blocks.count p := by
    intro k a f b
    simp only [blocks, List.count_append, List.count_cons_self]; omega
  have hins : ∀ {x y : TPlace} {l r : TLoc} {k k' : TyIx} {a a' : V} {f f' : List (ATree V)} {b b' : Option ObjId},
      At α x l (.node k a p f b) → At α y r (.node k' a' p f' b') → y.inside x = true → False := by
    intro x y l r k k' a a' f f' b b' h1 h2 hi
    obtain ⟨is, hne, _, _, hw⟩ := h1.inside h2 hi
    cases is with
    | nil => exact hne rfl
    | cons i is =>
      obtain ⟨k1, a1, p1, f1, b1, u, e, hu, hw⟩ := walk_cons hw
      cases e
      have h3 := walk_count p hw
      have h4 := count_le p hu
      have h5 := hroot (k := k') (a := a') (f := f') (b := b')
      obtain ⟨T, g1, g2⟩ := h1
      have h6 := walk_count p g2
      have h7 := hM.excl x.var p
      rw [g1] at h7
      simp only [blocksO] at h7
      simp only [blocks, List.count_append, List.count_cons_self] at h6
      omega
  rcases TPlace.cases x y with h | h | h | h
  · exact h
  · have h3 := (hM.apart h1 h2 h).2 p
    have h4 := hroot (k := k) (a := a) (f := f) (b := b)
    have h5 := hroot (k := k') (a := a') (f := f') (b := b')
    omega
  · exact (hins h1 h2 h).elim
  · exact (hins h2 h1 h).elim

mutual
/-- What has a block of a tree. -/
theorem ATree.owner {p : ObjId} : ∀ {T : ATree V} {u : VTree V} (l : TLoc), T.Is u → p ∈ T.blocks →
    ∃ is r R, T.walk l is = some (r, R) ∧ (R.box = some p ∨ R.content = .wrap p)
  | .leaf k v b, _, l, _, h => ⟨[], l, _, walk_nil _ _, .inl (by simpa [blocks, box] using h)⟩
  | .dead k b, _, l, _, h => ⟨[], l, _, walk_nil _ _, .inl (by simpa [blocks, box] using h)⟩
  | .blk q, u, l, hi, h => by simp [ATree.Is] at hi
  | .node k a q f b, .leaf _ _, l, hi, h => by simp [ATree.Is] at hi
  | .node k a q f b, .node _ _ g, l, hi, h => by
    simp only [blocks, List.mem_append, Option.mem_toList, List.mem_cons] at h
    rcases h with h | rfl | h
    · exact ⟨[], l, _, walk_nil _ _, .inl h⟩
    · exact ⟨[], l, _, walk_nil _ _, .inr rfl⟩
    · rw [ATree.Is] at hi
      obtain ⟨i, u, is, r, R, h1, h2, h3⟩ := ATree.ownerL q 0 hi.2.2 h
      refine ⟨i :: is, r, R, ?_, h3⟩
      rw [Nat.zero_add] at h2
      simp only [ATree.walk, h1, h2]
theorem ATree.ownerL {p : ObjId} (q : ObjId) : ∀ {f : List (ATree V)} {g : VForest V} (j : Nat), IsL f g → p ∈ blocksL f →
    ∃ i u is r R, f[i]? = some u ∧ ATree.walk (.child q (j + i)) u is = some (r, R) ∧ (R.box = some p ∨ R.content = .wrap p)
  | [], _, _, _, h => by simp [blocksL] at h
  | u :: f, .nil, _, hi, _ => by simp [ATree.IsL] at hi
  | u :: f, .cons v g, j, hi, h => by
    simp only [blocksL, List.mem_append] at h
    rw [ATree.IsL] at hi
    rcases h with h | h
    · obtain ⟨is, r, R, h1, h2⟩ := ATree.owner (.child q j) hi.1 h
      exact ⟨0, u, is, r, R, rfl, h1, h2⟩
    · obtain ⟨i, u', is, r, R, h1, h2, h3⟩ := ATree.ownerL q (j + 1) hi.2 h
      refine ⟨i + 1, u', is, r, R, by simpa using h1, ?_, h3⟩
      rw [show j + (i + 1) = j + 1 + i by omega]; exact h2
end

/-- **C83**: a node lives exactly as long as a variant has it: a block of memory is there if and only if some variant has it as
its node, or as its heap backup. -/
theorem C83_alive_iff (hr : s.Represents σ own) (hf : s.Fresh) {p : ObjId} :
    s.heap p ≠ none ↔ ∃ y : TPlace, y.node s = some p ∨ ∃ k, y.variant s = some (.backup k p) := by
  obtain ⟨α, hM, hS, _⟩ := hr.mem hf
  constructor
  · intro h
    rcases hM.owned p h with h | ⟨z, h⟩
    · simp [blocksL] at h
    · cases hz : α z with
      | none => rw [hz] at h; simp [blocksO] at h
      | some T =>
        rw [hz] at h
        have hT := hS z
        rw [hz] at hT
        cases hu : σ z with
        | none => rw [hu] at hT; simp [IsO] at hT
        | some u =>
          rw [hu] at hT
          obtain ⟨is, r, R, h1, h2⟩ := ATree.owner (.var z) hT (List.count_pos_iff.mp h)
          have hat : At α ⟨z, is⟩ r R := ⟨T, hz, h1⟩
          refine ⟨⟨z, is⟩, ?_⟩
          rcases h2 with h2 | h2
          · exact .inr ⟨R.which, by rw [hM.variant_eq hat, var, h2]⟩
          · left
            simp only [TPlace.node, hM.object_at hat, ATree.object, head, h2]
  · have key : ∀ {y : TPlace} {l : TLoc} {T : ATree V}, At α y l T → p ∈ T.blocks → s.heap p ≠ none := fun hy hp =>
      (hM.at_run hy).2.2.alive p hp
    rintro ⟨y, h | ⟨k, h⟩⟩
    · obtain ⟨l, k, a, f, b, h1⟩ := hM.node_of h
      exact key h1 (by simp [blocks])
    · by_cases hy : ∃ l T, At α y l T
      · obtain ⟨l, T, hy⟩ := hy
        rw [hM.variant_eq hy, var] at h
        split at h
        · cases h
        · rename_i q hb
          cases h
          refine key hy ?_
          cases T <;> simp_all [blocks, box]
      · rw [hM.variant_none fun l T h => hy ⟨l, T, h⟩] at h; cases h

/-- **C83**: with a variable all the nodes below it are destroyed. -/
theorem C83_destroyed (hr : s.Represents σ own) (hf : s.Fresh) (hB : σ.Bound C.wrapped n) {z : Nat}
    (hz : s.vars z ≠ none) :
    ∃ s', TCmd.code C n (.destroy z) s = .ok () s' ∧ ∀ is p, (TPlace.mk z is).node s = some p → s.heap p ≠ none ∧ s'.heap p = none := by
  obtain ⟨α, hM, hS, _⟩ := hr.mem hf
  cases ha : α z with
  | none => rw [hM.vars, ha] at hz; exact absurd rfl hz
  | some T =>
    have hT := hS z
    rw [ha] at hT
    cases hsx : σ z with
    | none => rw [hsx] at hT; simp [IsO] at hT
    | some u =>
      rw [hsx] at hT
      obtain ⟨s1, s2, g1, g2, hM2, hheap⟩ := hM.destroyVar (n := n) ha hT (hB z u hsx).1
      have hrd := hM.read_var ha
      simp only [TLoc.read] at hrd
      refine ⟨s2, by simp only [TCmd.code, tEndVar, bind, Eff.bind, hrd, g1, g2], fun is p hp => ?_⟩
      obtain ⟨l, k, a, f, b, hat⟩ := hM.node_of hp
      have hmem : p ∈ T.blocks := by
        obtain ⟨T0, h1, h2⟩ := hat
        rw [ha] at h1; cases h1
        have h3 := walk_count p h2
        simp only [blocks, List.count_append, List.count_cons_self] at h3
        exact List.count_pos_iff.mp (by omega)
      refine ⟨(hM.holds z T ha).alive p hmem, ?_⟩
      rw [hheap]
      simp only [TreeSt.del, hmem, if_true]

/-! ### Programs -/

/-- **C83**, for whole programs, each exception being caught after its statement: as long as no statement assigns to, moves from,
changes or destroys a variant, or one that it is a part of, pointers to it and to its node stay good, and it has what it had. -/
theorem C83_programs (hl : C.ops.Lawful) (hfb : ∀ fb, C.fallback = some fb → C.wrapped fb = false) (cs : List (TCmd V))
    (hr : s.Represents σ own) (hf : s.Fresh) (hB : σ.Bound C.wrapped m) (hm : 1 ≤ m) (hn : m * 2 ^ cs.length ≤ n)
    (hc : tClean C n cs s = true) (hy : y.valid s = true) (hw : ∀ c ∈ cs, ∀ x ∈ c.writes, ¬ y.Under x) :
    ∃ s', tRun C n cs s = some s' ∧ y.loc s' = y.loc s ∧ y.object s' = y.object s := by
  obtain ⟨α, hM, hS, ho⟩ := hr.mem hf
  clear hr hf ho
  induction cs generalizing s σ α m with
  | nil => exact ⟨s, rfl, rfl, rfl⟩
  | cons c cs ih =>
    have hpow : m * 2 ^ (c :: cs).length = 2 * m * 2 ^ cs.length := by
      rw [List.length_cons, Nat.pow_succ, Nat.mul_comm 2 m, Nat.mul_assoc, Nat.mul_comm (2 ^ cs.length)]
    have h2 : 2 * m ≤ 2 * m * 2 ^ cs.length := Nat.le_mul_of_pos_right _ (two_pow_pos _)
    rw [hpow] at hn
    have hw' : ∀ c ∈ cs, ∀ x ∈ c.writes, ¬ y.Under x := fun c h => hw c (.tail _ h)
    by_cases hv : c.valid C s = true
    · rw [tClean, if_pos hv, Bool.and_eq_true, Bool.not_eq_true'] at hc
      obtain ⟨hz, hc⟩ := hc
      have hv' := (tValid_iff hM hS).mp hv
      rcases tStep_at (n := n) hl hM hS hB (by omega) hv' hz with
        ⟨s1, α1, σ1, hr, ho, hS1, hM1, ha⟩ | ⟨e, s1, α1, σ1, hr, ho, hS1, hM1, _, ha⟩
      · rw [hr] at hc
        obtain ⟨k1, k2, k3⟩ := ha.stays hM hM1 hy (hw c (.head _))
        obtain ⟨s2, g1, g2, g3⟩ := ih (ho.bound hm hB hv') (by omega) hn hc k3 hw' α1 hM1 hS1
        exact ⟨s2, by rw [tRun, if_pos hv, hr]; exact g1, g2.trans k1, g3.trans k2⟩
      · rw [hr] at hc
        obtain ⟨k1, k2, k3⟩ := ha.stays hM hM1 hy (hw c (.head _))
        obtain ⟨s2, g1, g2, g3⟩ := ih (ho.bound hm hfb hB hv') (by omega) hn hc k3 hw' α1 hM1 hS1
        exact ⟨s2, by rw [tRun, if_pos hv, hr]; exact g1, g2.trans k1, g3.trans k2⟩
    · rw [tClean, if_neg hv] at hc
      obtain ⟨s2, g1, g2, g3⟩ := ih (hB.mono (by omega : m ≤ 2 * m)) (by omega) (by omega) hc hy hw' α hM hS
      exact ⟨s2, by rw [tRun, if_neg hv]; exact g1, g2, g3⟩

/-! ### Examples -/

/-- A node `3` with the node `2` as its first member, and a copy `4` of it, with values of their own. -/
def exTreeRefs (bad : List Nat) : TreeSt Nat :=
  tAfter none bad (exTreeProg.take 5 ++ [.store ⟨4, []⟩ 9, .store ⟨4, [0]⟩ 10])

theorem exRefs_bound {bad : List Nat} (hc : tClean (exTree none bad) 4096 (exTreeProg.take 5 ++ [.store ⟨4, []⟩ 9, .store ⟨4, [0]⟩ 10])
    (TreeSt.init Nat) = true) : ∃ σ own, (exTreeRefs bad).Represents σ own ∧ (exTreeRefs bad).Fresh ∧ σ.Bound (exTree none bad).wrapped 4096 := by
  obtain ⟨σ, own, _, h1, h2, h3⟩ := tAfter_rep (fb := none) (bad := bad) (st := false)
    (cs := exTreeProg.take 5 ++ [.store ⟨4, []⟩ 9, .store ⟨4, [0]⟩ 10]) nofun (by decide) hc
  exact ⟨σ, own, h1, h2, h3⟩

/-- The state in which a statement ends. -/
def tEndState (C : TreeCfg Nat) (c : TCmd Nat) (s : TreeSt Nat) : TreeSt Nat :=
  match c.code C 4096 s with
  | .ok _ s' => s'
  | .exc _ s' => s'
  | .fault _ => s

/-- C83: the nodes of `3` and of its first member, and those of `4`. -/
example : (TPlace.mk 3 []).object (exTreeRefs []) = some (1, .wrap 2, some (8, 3)) ∧
    (TPlace.mk 3 [0]).object (exTreeRefs []) = some (1, .wrap 3, some (7, 2)) ∧
    (TPlace.mk 3 [0]).loc (exTreeRefs []) = some (.child 2 0) ∧
    (TPlace.mk 4 []).object (exTreeRefs []) = some (1, .wrap 4, some (9, 3)) ∧
    (TPlace.mk 4 [0]).object (exTreeRefs []) = some (1, .wrap 5, some (10, 2)) ∧
    (TPlace.mk 4 [0, 1]).object (exTreeRefs []) = some (2, .leaf 6, none) := by
  refine ⟨?_, ?_, ?_, ?_, ?_, ?_⟩ <;> decide +kernel

/-- C83: after an assignment to the first member of `3`, `3` is the same node. -/
example : ∃ s', TCmd.code (exTree none []) 4096 (.assign ⟨3, [0]⟩ ⟨0, []⟩) (exTreeRefs []) = .ok () s' ∧
    (TPlace.mk 3 []).node s' = some 2 ∧ (TPlace.mk 3 [0]).object s' = some (0, .leaf 5, none) := by
  obtain ⟨σ, own, h1, h2, h3⟩ := exRefs_bound (bad := []) (by decide +kernel)
  have h4 : (tOkState (exTree none []) (.assign ⟨3, [0]⟩ ⟨0, []⟩) (exTreeRefs [])).map (TPlace.mk 3 [0]).object =
      some (some (0, .leaf 5, none)) := by decide +kernel
  obtain ⟨s', h5, h6⟩ := Option.map_eq_some_iff.mp h4
  have h7 := tOkState_run h5
  refine ⟨s', h7, ?_, h6⟩
  have := (C83_others_stay (y := ⟨3, []⟩) natOps_lawful h1 h2 h3 (by decide +kernel) (by decide +kernel) (.inl h7) (by decide +kernel)
    (by simp [TCmd.writes, TPlace.Under])).2
  unfold TPlace.node
  rw [this]
  decide +kernel

/-- C83: the value of the node is changed. -/
example : ∃ s', TCmd.code (exTree none []) 4096 (.store ⟨3, []⟩ 11) (exTreeRefs []) = .ok () s' ∧
    (TPlace.mk 3 []).object s' = some (1, .wrap 2, some (11, 3)) ∧ (TPlace.mk 3 [0]).loc s' = some (.child 2 0) := by
  obtain ⟨σ, own, h1, h2, h3⟩ := exRefs_bound (bad := []) (by decide +kernel)
  have h4 : (tOkState (exTree none []) (.store ⟨3, []⟩ 11) (exTreeRefs [])).isSome = true := by decide +kernel
  obtain ⟨s', h5⟩ := Option.isSome_iff_exists.mp h4
  have h7 := tOkState_run h5
  obtain ⟨_, h8, h9⟩ := C83_changed_node_stays (x := ⟨3, []⟩) natOps_lawful h1 h2 h3 (by decide +kernel) (.inl h7)
    (k := 1) (p := 2) (a := 8) (j := 3) (by decide +kernel)
  refine ⟨s', h7, h8, ?_⟩
  have := (h9 [0] (by decide)).1
  rw [show (TPlace.mk 3 []).below [0] = ⟨3, [0]⟩ from rfl] at this
  rw [this]
  decide +kernel

/-- C83: `3 = 4`: `3` keeps its node, its first member gets another. -/
example : ∃ s', TCmd.code (exTree none []) 4096 (.assign ⟨3, []⟩ ⟨4, []⟩) (exTreeRefs []) = .ok () s' ∧
    (TPlace.mk 3 []).node s' = some 2 ∧ (TPlace.mk 3 [0]).node s' = some 6 := by
  obtain ⟨σ, own, h1, h2, h3⟩ := exRefs_bound (bad := []) (by decide +kernel)
  have h4 : (tOkState (exTree none []) (.assign ⟨3, []⟩ ⟨4, []⟩) (exTreeRefs [])).map (TPlace.mk 3 [0]).node =
      some (some 6) := by decide +kernel
  obtain ⟨s', h5, h6⟩ := Option.map_eq_some_iff.mp h4
  have h7 := tOkState_run h5
  exact ⟨s', h7, (C83_assigned_node_stays natOps_lawful h1 h2 h3 (by decide +kernel) (by decide +kernel) (.inl h7)
    (k := 1) (p := 2) (q := 4) (o := some (8, 3)) (o' := some (9, 3)) (by decide +kernel) (by decide +kernel) (by decide +kernel)).2, h6⟩

/-- C83: `3 = std::move(4)`: the nodes change places. -/
example : ∃ s', TCmd.code (exTree none []) 4096 (.moveAssign ⟨3, []⟩ ⟨4, []⟩) (exTreeRefs []) = .ok () s' ∧
    (TPlace.mk 3 []).object s' = some (1, .wrap 4, some (9, 3)) ∧ (TPlace.mk 4 [0]).object s' = some (1, .wrap 3, some (7, 2)) := by
  obtain ⟨σ, own, h1, h2, h3⟩ := exRefs_bound (bad := []) (by decide +kernel)
  obtain ⟨s', h4, _, _, h5, _⟩ := C83_moved_nodes_change_places (x := ⟨3, []⟩) (t := ⟨4, []⟩) natOps_lawful h1 h2 h3
    (by decide +kernel) (by decide +kernel) (k := 1) (p := 2) (q := 4) (o := some (8, 3)) (o' := some (9, 3)) (by decide +kernel)
    (by decide +kernel) (by decide +kernel)
  have h6 := (h5 []).1
  have h7 := (h5 [0]).2
  rw [show (TPlace.mk 3 []).below [] = ⟨3, []⟩ from rfl, show (TPlace.mk 4 []).below [] = ⟨4, []⟩ from rfl] at h6
  rw [show (TPlace.mk 3 []).below [0] = ⟨3, [0]⟩ from rfl, show (TPlace.mk 4 []).below [0] = ⟨4, [0]⟩ from rfl] at h7
  refine ⟨s', h4, ?_, ?_⟩
  · rw [h6]; decide +kernel
  · rw [h7]; decide +kernel

/-- C83: `swap(3, 4)`: both keep their nodes; the members are exchanged. -/
example : ∃ s', TCmd.code (exTree none []) 4096 (.swap ⟨3, []⟩ ⟨4, []⟩ 9) (exTreeRefs []) = .ok () s' ∧
    (TPlace.mk 3 []).object s' = some (1, .wrap 2, some (9, 3)) ∧ (TPlace.mk 3 [0]).object s' = some (1, .wrap 5, some (10, 2)) := by
  obtain ⟨σ, own, h1, h2, h3⟩ := exRefs_bound (bad := []) (by decide +kernel)
  have h4 : (tOkState (exTree none []) (.swap ⟨3, []⟩ ⟨4, []⟩ 9) (exTreeRefs [])).isSome = true := by decide +kernel
  obtain ⟨s', h5⟩ := Option.isSome_iff_exists.mp h4
  have h7 := tOkState_run h5
  obtain ⟨_, _, _, _, h8, _⟩ := C83_swapped_nodes_stay (x := ⟨3, []⟩) (t := ⟨4, []⟩) natOps_lawful h1 h2 h3
    (by decide +kernel) (by decide +kernel) (.inl h7) (k := 1) (p := 2) (q := 4) (a := 8) (j := 3) (a' := 9) (j' := 3) (by decide +kernel)
    (by decide +kernel)
  obtain ⟨h8, _, h9, _⟩ := h8 h7
  have h6 := (h9 [0] (by decide)).1
  rw [show (TPlace.mk 3 []).below [0] = ⟨3, [0]⟩ from rfl, show (TPlace.mk 4 []).below [0] = ⟨4, [0]⟩ from rfl] at h6
  refine ⟨s', h7, h8, ?_⟩
  rw [h6]; decide +kernel

/-- C83: `variant 5(std::move(3))`, with a class that takes over its list: block 2 stays with `3`, block 3 is now below `5`. -/
example : ∃ s' q, TCmd.code (exTree none [] true) 4096 (.move 5 ⟨3, []⟩) (tAfter none [] (exTreeProg.take 4) true) = .ok () s' ∧
    (TPlace.mk 3 []).node s' = some 2 ∧ (TPlace.mk 5 []).node s' = some q ∧ q ≠ 2 ∧ (TPlace.mk 5 [0]).node s' = some 3 := by
  obtain ⟨σ, own, _, h1, h2, h3⟩ := tAfter_rep (fb := none) (bad := []) (st := true) (cs := exTreeProg.take 4) nofun (by decide)
    (by decide +kernel)
  rcases C83_moved_from_node_stays (C := exTree none [] true) (n := 4096) (t := ⟨3, []⟩) (z := 5) h1 h2 h3 (by decide +kernel) (k := 1)
    (p := 2) (a := 8) (j := 3) (by decide +kernel) with ⟨s', q, g1, _, g2, g3, g4, g5⟩ | ⟨e, s', g1, _⟩
  · refine ⟨s', q, g1, g2, g3, ?_, ?_⟩
    · rintro rfl
      exact absurd g4 (by decide +kernel)
    · have := (g5 rfl).2.2.1 [0] (by decide)
      rw [show (TPlace.mk 5 []).below [0] = ⟨5, [0]⟩ from rfl, show (TPlace.mk 3 []).below [0] = ⟨3, [0]⟩ from rfl] at this
      unfold TPlace.node
      rw [this]
      decide +kernel
  · have h4 : (tOkState (exTree none [] true) (.move 5 ⟨3, []⟩) (tAfter none [] (exTreeProg.take 4) true)).isSome = true := by decide +kernel
    unfold tOkState at h4
    rw [g1] at h4
    cases h4

/-- C83: `3` is destroyed, and with it the nodes it had. -/
example : ∃ s', TCmd.code (exTree none []) 4096 (.destroy 3) (exTreeRefs []) = .ok () s' ∧ s'.heap 2 = none ∧ s'.heap 3 = none := by
  obtain ⟨σ, own, h1, h2, h3⟩ := exRefs_bound (bad := []) (by decide +kernel)
  obtain ⟨s', h4, h5⟩ := C83_destroyed (C := exTree none []) (z := 3) h1 h2 h3 (by decide +kernel)
  exact ⟨s', h4, (h5 [] 2 (by decide +kernel)).2, (h5 [0] 3 (by decide +kernel)).2⟩

/-- C83: block 5 is there, and has one place; block 6 is not there, so no variant has it. -/
example : (∀ y : TPlace, y.node (exTreeRefs []) = some 5 → y = ⟨4, [0]⟩) ∧ ∀ y : TPlace, y.node (exTreeRefs []) ≠ some 6 := by
  obtain ⟨σ, own, h1, h2, h3⟩ := exRefs_bound (bad := []) (by decide +kernel)
  refine ⟨fun y hy => C83_one_place h1 h2 hy (by decide +kernel), fun y hy => ?_⟩
  exact (C83_alive_iff h1 h2).mpr ⟨y, .inl hy⟩ (by decide +kernel)

/-- C83: a program that assigns to `0`, swaps parts of `4`, moves from `4` and destroys `2` leaves the first member of `3` where it is. -/
example : ∃ s', tRun (exTree none []) 65536 [.assign ⟨0, []⟩ ⟨1, []⟩, .swap ⟨4, [1]⟩ ⟨4, [2]⟩ 9, .move 5 ⟨4, []⟩, .destroy 2] (exTreeRefs []) = some s' ∧
    (TPlace.mk 3 [0]).object s' = some (1, .wrap 3, some (7, 2)) := by
  obtain ⟨σ, own, h1, h2, h3⟩ := exRefs_bound (bad := []) (by decide +kernel)
  obtain ⟨s', h4, _, h5⟩ := C83_programs (C := exTree none []) (n := 65536) (y := ⟨3, [0]⟩) natOps_lawful nofun
    [.assign ⟨0, []⟩ ⟨1, []⟩, .swap ⟨4, [1]⟩ ⟨4, [2]⟩ 9, .move 5 ⟨4, []⟩, .destroy 2] h1 h2 h3 (by decide) (by decide) (by decide +kernel)
    (by decide +kernel) (by simp [TCmd.writes, TPlace.Under])
  refine ⟨s', h4, ?_⟩
  rw [h5]; decide +kernel

end

end BVariant
