/-
The memory of recursive variants (Core/Tree.lean) as annotated trees: trees that also say which block each node and backup is in.
-/
import Verif.Lemmas.Tree

namespace BVariant

/-- A variant with all it owns. `b`: the block of the heap backup, if it is in one. `blk` is a bare block. -/
inductive ATree (V : Type)
  | leaf (k : TyIx) (v : V) (b : Option ObjId)
  | node (k : TyIx) (a : V) (p : ObjId) (f : List (ATree V)) (b : Option ObjId)
  | dead (k : TyIx) (b : Option ObjId)
  | blk (p : ObjId)

section
variable {V : Type} {C : TreeCfg V} {s s' : TreeSt V} {h h' : ObjId → Option (TCell V)}

namespace ATree

def which : ATree V → TyIx
  | leaf k _ _ => k
  | node k _ _ _ _ => k
  | dead k _ => k
  | blk _ => 0

def box : ATree V → Option ObjId
  | leaf _ _ b => b
  | node _ _ _ _ b => b
  | dead _ b => b
  | blk _ => none

def content : ATree V → TContent V
  | leaf _ v _ => .leaf v
  | node _ _ p _ _ => .wrap p
  | dead _ _ => .dead
  | blk _ => .dead

def setBox (b : Option ObjId) : ATree V → ATree V
  | leaf k v _ => leaf k v b
  | node k a p f _ => node k a p f b
  | dead k _ => dead k b
  | blk p => blk p

def isBlk : ATree V → Bool
  | blk _ => true
  | _ => false

/-- The variant itself. -/
def var (t : ATree V) : TVar V :=
  match t.box with
  | none => .plain t.which t.content
  | some q => .backup t.which q

end ATree

mutual
def ATree.blocks : ATree V → List ObjId
  | .leaf _ _ b => b.toList
  | .node _ _ p f b => b.toList ++ p :: ATree.blocksL f
  | .dead _ b => b.toList
  | .blk p => [p]
def ATree.blocksL : List (ATree V) → List ObjId
  | [] => []
  | t :: ts => t.blocks ++ ATree.blocksL ts
end

mutual
/-- The heap has the blocks of the tree. -/
def ATree.Holds (h : ObjId → Option (TCell V)) : ATree V → Prop
  | .leaf _ v b => ∀ q, b = some q → h q = some (.box (.leaf v))
  | .node _ a p f b => (∀ q, b = some q → h q = some (.box (.wrap p))) ∧ h p = some (.node a (f.map ATree.var)) ∧ ATree.HoldsL h f
  | .dead _ b => ∀ q, b = some q → h q = some (.box .dead)
  | .blk p => h p = some .raw
def ATree.HoldsL (h : ObjId → Option (TCell V)) : List (ATree V) → Prop
  | [] => True
  | t :: ts => t.Holds h ∧ ATree.HoldsL h ts
end

mutual
/-- The value of the variant. -/
def ATree.Is : ATree V → VTree V → Prop
  | .leaf k v _, .leaf k' v' => k = k' ∧ v = v'
  | .node k a _ f _, .node k' a' f' => k = k' ∧ a = a' ∧ ATree.IsL f f'
  | _, _ => False
def ATree.IsL : List (ATree V) → VForest V → Prop
  | [], .nil => True
  | t :: ts, .cons t' f' => t.Is t' ∧ ATree.IsL ts f'
  | _, _ => False
end

namespace ATree

/-- The variant at the end of a path, and where it is. -/
def walk : TLoc → ATree V → List Nat → Option (TLoc × ATree V)
  | l, t, [] => some (l, t)
  | _, .node _ _ p f _, i :: is =>
    match f[i]? with
    | some u => u.walk (.child p i) is
    | none => none
  | _, _, _ :: _ => none

/-- The tree with another variant at the end of a path. -/
def put : ATree V → List Nat → ATree V → ATree V
  | _, [], u => u
  | .node k a p f b, i :: is, u =>
    match f[i]? with
    | some t => .node k a p (f.set i (t.put is u)) b
    | none => .node k a p f b
  | t, _ :: _, _ => t

end ATree

/-! ### Lists of trees -/

theorem holdsL_iff : ∀ {f : List (ATree V)}, ATree.HoldsL h f ↔ ∀ t ∈ f, t.Holds h
  | [] => by simp [ATree.HoldsL]
  | t :: ts => by simp [ATree.HoldsL, holdsL_iff]

theorem blocksL_eq : ∀ {f : List (ATree V)}, ATree.blocksL f = f.flatMap ATree.blocks
  | [] => rfl
  | t :: ts => by rw [ATree.blocksL, blocksL_eq, List.flatMap_cons]

theorem count_cons (t : ATree V) (f : List (ATree V)) (p : ObjId) :
    (ATree.blocksL (t :: f)).count p = t.blocks.count p + (ATree.blocksL f).count p := by
  rw [ATree.blocksL, List.count_append]

theorem count_append (f g : List (ATree V)) (p : ObjId) :
    (ATree.blocksL (f ++ g)).count p = (ATree.blocksL f).count p + (ATree.blocksL g).count p := by
  simp only [blocksL_eq, List.flatMap_append, List.count_append]

theorem count_set : ∀ {f : List (ATree V)} {i : Nat} {t : ATree V} (u : ATree V) (p : ObjId), f[i]? = some t →
    (ATree.blocksL (f.set i u)).count p + t.blocks.count p = (ATree.blocksL f).count p + u.blocks.count p
  | [], i, t, u, p, hi => by simp at hi
  | t0 :: f, 0, t, u, p, hi => by
    simp only [List.getElem?_cons_zero, Option.some.injEq] at hi
    subst hi
    simp only [List.set_cons_zero, count_cons]; omega
  | t0 :: f, i + 1, t, u, p, hi => by
    simp only [List.getElem?_cons_succ] at hi
    have := count_set u p hi
    simp only [List.set_cons_succ, count_cons]; omega

theorem count_le : ∀ {f : List (ATree V)} {i : Nat} {t : ATree V} (p : ObjId), f[i]? = some t →
    t.blocks.count p ≤ (ATree.blocksL f).count p
  | [], i, t, p, hi => by simp at hi
  | t0 :: f, 0, t, p, hi => by
    simp only [List.getElem?_cons_zero, Option.some.injEq] at hi
    subst hi
    rw [count_cons]; omega
  | t0 :: f, i + 1, t, p, hi => by
    simp only [List.getElem?_cons_succ] at hi
    have := count_le p hi
    rw [count_cons]; omega

theorem count_two : ∀ {f : List (ATree V)} {i j : Nat} {t u : ATree V} (p : ObjId), i ≠ j → f[i]? = some t → f[j]? = some u →
    t.blocks.count p + u.blocks.count p ≤ (ATree.blocksL f).count p
  | [], i, j, t, u, p, _, hi, _ => by simp at hi
  | t0 :: f, 0, 0, t, u, p, h, _, _ => absurd rfl h
  | t0 :: f, 0, j + 1, t, u, p, _, hi, hj => by
    simp only [List.getElem?_cons_zero, Option.some.injEq] at hi
    simp only [List.getElem?_cons_succ] at hj
    subst hi
    have := count_le p hj
    rw [count_cons]; omega
  | t0 :: f, i + 1, 0, t, u, p, _, hi, hj => by
    simp only [List.getElem?_cons_zero, Option.some.injEq] at hj
    simp only [List.getElem?_cons_succ] at hi
    subst hj
    have := count_le p hi
    rw [count_cons]; omega
  | t0 :: f, i + 1, j + 1, t, u, p, h, hi, hj => by
    simp only [List.getElem?_cons_succ] at hi hj
    have := count_two p (fun e => h (by rw [e])) hi hj
    rw [count_cons]; omega

theorem mem_blocks {t : ATree V} {p : ObjId} : p ∈ t.blocks ↔ 0 < t.blocks.count p := List.count_pos_iff.symm

theorem mem_blocksL {f : List (ATree V)} {p : ObjId} : p ∈ ATree.blocksL f ↔ 0 < (ATree.blocksL f).count p := List.count_pos_iff.symm

mutual
theorem ATree.Holds.frame : ∀ {t : ATree V}, t.Holds h → (∀ p ∈ t.blocks, h' p = h p) → t.Holds h'
  | .leaf k v b, hh, hf => by
    rw [ATree.Holds] at hh ⊢
    rintro q rfl
    rw [hf q (by simp [ATree.blocks])]; exact hh q rfl
  | .dead k b, hh, hf => by
    rw [ATree.Holds] at hh ⊢
    rintro q rfl
    rw [hf q (by simp [ATree.blocks])]; exact hh q rfl
  | .blk p, hh, hf => by
    rw [ATree.Holds] at hh ⊢
    rw [hf p (by simp [ATree.blocks])]; exact hh
  | .node k a p f b, hh, hf => by
    rw [ATree.Holds] at hh ⊢
    refine ⟨?_, ?_, ATree.HoldsL.frame hh.2.2 fun q hq => hf q (by simp [ATree.blocks, hq])⟩
    · rintro q rfl
      rw [hf q (by simp [ATree.blocks])]; exact hh.1 q rfl
    · rw [hf p (by simp [ATree.blocks])]; exact hh.2.1
theorem ATree.HoldsL.frame : ∀ {f : List (ATree V)}, ATree.HoldsL h f → (∀ p ∈ ATree.blocksL f, h' p = h p) → ATree.HoldsL h' f
  | [], _, _ => trivial
  | t :: ts, hh, hf => by
    rw [ATree.HoldsL] at hh ⊢
    exact ⟨hh.1.frame fun p hp => hf p (by simp [ATree.blocksL, hp]), hh.2.frame fun p hp => hf p (by simp [ATree.blocksL, hp])⟩
end

mutual
theorem ATree.Holds.alive : ∀ {t : ATree V}, t.Holds h → ∀ p ∈ t.blocks, h p ≠ none
  | .leaf k v b, hh, p, hp => by
    rw [ATree.Holds] at hh
    simp only [ATree.blocks, Option.mem_toList] at hp
    rw [hh p hp]; nofun
  | .dead k b, hh, p, hp => by
    rw [ATree.Holds] at hh
    simp only [ATree.blocks, Option.mem_toList] at hp
    rw [hh p hp]; nofun
  | .blk q, hh, p, hp => by
    rw [ATree.Holds] at hh
    simp only [ATree.blocks, List.mem_singleton] at hp
    rw [hp, hh]; nofun
  | .node k a q f b, hh, p, hp => by
    rw [ATree.Holds] at hh
    simp only [ATree.blocks, List.mem_append, Option.mem_toList, List.mem_cons] at hp
    rcases hp with hp | rfl | hp
    · rw [hh.1 p hp]; nofun
    · rw [hh.2.1]; nofun
    · exact ATree.HoldsL.alive hh.2.2 p hp
theorem ATree.HoldsL.alive : ∀ {f : List (ATree V)}, ATree.HoldsL h f → ∀ p ∈ ATree.blocksL f, h p ≠ none
  | [], _, p, hp => by simp [ATree.blocksL] at hp
  | t :: ts, hh, p, hp => by
    rw [ATree.HoldsL] at hh
    simp only [ATree.blocksL, List.mem_append] at hp
    rcases hp with hp | hp
    · exact hh.1.alive p hp
    · exact hh.2.alive p hp
end

/-! ### Representations -/

mutual
/-- An annotated tree is a representation of its value. -/
theorem ATree.rep : ∀ {t : ATree V} {u : VTree V}, t.Holds h → t.Is u → u.Rep h t.var t.blocks
  | .leaf k v b, .leaf k' v', hh, hi => by
    rw [ATree.Is] at hi
    obtain ⟨rfl, rfl⟩ := hi
    rw [ATree.Holds] at hh
    rw [VTree.Rep]
    cases b with
    | none => exact .inl ⟨rfl, rfl⟩
    | some q => exact .inr ⟨q, rfl, hh q rfl, rfl⟩
  | .node k a p f b, .node k' a' f', hh, hi => by
    rw [ATree.Is] at hi
    obtain ⟨rfl, rfl, hi⟩ := hi
    rw [ATree.Holds] at hh
    rw [VTree.Rep]
    refine ⟨p, _, _, hh.2.1, ATree.repL hh.2.2 hi, ?_⟩
    cases b with
    | none => exact .inl ⟨rfl, rfl⟩
    | some q => exact .inr ⟨q, rfl, hh.1 q rfl, rfl⟩
  | .leaf .., .node .., _, hi => by simp [ATree.Is] at hi
  | .node .., .leaf .., _, hi => by simp [ATree.Is] at hi
  | .dead .., _, _, hi => by simp [ATree.Is] at hi
  | .blk .., _, _, hi => by simp [ATree.Is] at hi
theorem ATree.repL : ∀ {f : List (ATree V)} {g : VForest V}, ATree.HoldsL h f → ATree.IsL f g →
    g.Rep h (f.map ATree.var) (ATree.blocksL f)
  | [], .nil, _, _ => by rw [VForest.Rep]; exact ⟨rfl, rfl⟩
  | t :: ts, .cons u g, hh, hi => by
    rw [ATree.IsL] at hi
    rw [ATree.HoldsL] at hh
    rw [VForest.Rep]
    exact ⟨_, _, _, _, rfl, ATree.rep hh.1 hi.1, ATree.repL hh.2 hi.2, rfl⟩
  | [], .cons .., _, hi => by simp [ATree.IsL] at hi
  | _ :: _, .nil, _, hi => by simp [ATree.IsL] at hi
end

mutual
/-- Every representation is one of an annotated tree. -/
theorem VTree.Rep.annot : ∀ {u : VTree V} {v : TVar V} {ns : List ObjId}, u.Rep h v ns →
    ∃ t : ATree V, t.Is u ∧ t.Holds h ∧ t.var = v ∧ t.blocks = ns
  | .leaf k a, v, ns, hr => by
    rw [VTree.Rep] at hr
    rcases hr with ⟨rfl, rfl⟩ | ⟨q, rfl, hq, rfl⟩
    · exact ⟨.leaf k a none, by simp [ATree.Is], by rw [ATree.Holds]; nofun, rfl, rfl⟩
    · exact ⟨.leaf k a (some q), by simp [ATree.Is], by rw [ATree.Holds]; rintro _ ⟨⟩; exact hq, rfl, rfl⟩
  | .node k a f, v, ns, hr => by
    rw [VTree.Rep] at hr
    obtain ⟨p, cs, ms, hp, hf, hv⟩ := hr
    obtain ⟨g, h1, h2, rfl, rfl⟩ := VForest.Rep.annot hf
    rcases hv with ⟨rfl, rfl⟩ | ⟨q, rfl, hq, rfl⟩
    · exact ⟨.node k a p g none, by simp [ATree.Is, h1], by rw [ATree.Holds]; exact ⟨nofun, hp, h2⟩, rfl, rfl⟩
    · exact ⟨.node k a p g (some q), by simp [ATree.Is, h1],
        by rw [ATree.Holds]; exact ⟨by rintro _ ⟨⟩; exact hq, hp, h2⟩, rfl, rfl⟩
theorem VForest.Rep.annot : ∀ {f : VForest V} {vs : List (TVar V)} {ns : List ObjId}, f.Rep h vs ns →
    ∃ g : List (ATree V), ATree.IsL g f ∧ ATree.HoldsL h g ∧ g.map ATree.var = vs ∧ ATree.blocksL g = ns
  | .nil, vs, ns, hr => by
    rw [VForest.Rep] at hr
    obtain ⟨rfl, rfl⟩ := hr
    exact ⟨[], by simp [ATree.IsL], by simp [ATree.HoldsL], rfl, rfl⟩
  | .cons t f, vs, ns, hr => by
    rw [VForest.Rep] at hr
    obtain ⟨y, ys, ms, ms', rfl, ht, hf, rfl⟩ := hr
    obtain ⟨t', h1, h2, rfl, rfl⟩ := VTree.Rep.annot ht
    obtain ⟨g, h3, h4, rfl, rfl⟩ := VForest.Rep.annot hf
    exact ⟨t' :: g, by simp [ATree.IsL, h1, h3], by simp [ATree.HoldsL, h2, h4], rfl, rfl⟩
end

theorem ATree.Is.which {t : ATree V} {u : VTree V} (hi : t.Is u) : t.which = u.which := by
  cases t <;> cases u <;> simp_all [ATree.Is, ATree.which, VTree.which]

theorem isL_get : ∀ {f : List (ATree V)} {g : VForest V} {i : Nat}, ATree.IsL f g →
    (∃ t u, f[i]? = some t ∧ g.get i = some u ∧ t.Is u) ∨ (f[i]? = none ∧ g.get i = none)
  | [], .nil, i, _ => .inr ⟨rfl, rfl⟩
  | t :: ts, .cons u g, 0, hi => by rw [ATree.IsL] at hi; exact .inl ⟨t, u, rfl, rfl, hi.1⟩
  | t :: ts, .cons u g, i + 1, hi => by
    rw [ATree.IsL] at hi
    simpa only [List.getElem?_cons_succ, VForest.get] using isL_get (i := i) hi.2
  | [], .cons .., _, hi => by simp [ATree.IsL] at hi
  | _ :: _, .nil, _, hi => by simp [ATree.IsL] at hi

theorem isL_set : ∀ {f : List (ATree V)} {g : VForest V} {i : Nat} {t : ATree V} {u : VTree V}, ATree.IsL f g → t.Is u →
    ATree.IsL (f.set i t) (g.set i u)
  | [], .nil, i, _, _, _, _ => by simp [ATree.IsL, VForest.set]
  | t0 :: ts, .cons u0 g, 0, t, u, hi, ht => by rw [ATree.IsL] at hi; simp [ATree.IsL, VForest.set, ht, hi.2]
  | t0 :: ts, .cons u0 g, i + 1, t, u, hi, ht => by
    rw [ATree.IsL] at hi
    simp only [List.set_cons_succ, VForest.set, ATree.IsL]
    exact ⟨hi.1, isL_set hi.2 ht⟩
  | [], .cons .., _, _, _, hi, _ => by simp [ATree.IsL] at hi
  | _ :: _, .nil, _, _, _, hi, _ => by simp [ATree.IsL] at hi

/-- Paths in annotated trees are those in values. -/
theorem walk_is : ∀ (is : List Nat) {t : ATree V} {u : VTree V} (l : TLoc), t.Is u →
    (∃ l' t' u', t.walk l is = some (l', t') ∧ u.sub is = some u' ∧ t'.Is u') ∨ (t.walk l is = none ∧ u.sub is = none)
  | [], t, u, l, hi => .inl ⟨l, t, u, by simp [ATree.walk], by cases u <;> rfl, hi⟩
  | i :: is, t, u, l, hi => by
    cases t with
    | leaf k v b =>
      cases u with
      | leaf k' v' => exact .inr ⟨rfl, rfl⟩
      | node => simp [ATree.Is] at hi
    | node k a p f b =>
      cases u with
      | leaf k' v' => simp [ATree.Is] at hi
      | node k' a' g =>
        rw [ATree.Is] at hi
        rcases isL_get (i := i) hi.2.2 with ⟨t1, u1, h1, h2, h3⟩ | ⟨h1, h2⟩
        · simp only [ATree.walk, h1, VTree.sub, h2]
          exact walk_is is _ h3
        · exact .inr ⟨by simp only [ATree.walk, h1], by simp only [VTree.sub, h2]⟩
    | dead => simp [ATree.Is] at hi
    | blk => simp [ATree.Is] at hi

theorem put_is : ∀ (is : List Nat) {t w : ATree V} {u z : VTree V}, t.Is u → w.Is z → (t.put is w).Is (u.put is z)
  | [], t, w, u, z, hi, hw => by simpa [ATree.put, VTree.put] using hw
  | i :: is, t, w, u, z, hi, hw => by
    cases t with
    | leaf k v b =>
      cases u with
      | leaf k' v' => simpa [ATree.put, VTree.put] using hi
      | node => simp [ATree.Is] at hi
    | node k a p f b =>
      cases u with
      | leaf k' v' => simp [ATree.Is] at hi
      | node k' a' g =>
        have hi' := hi
        rw [ATree.Is] at hi'
        rcases isL_get (i := i) hi'.2.2 with ⟨t1, u1, h1, h2, h3⟩ | ⟨h1, h2⟩
        · simp only [ATree.put, h1, VTree.put, h2, ATree.Is]
          exact ⟨hi'.1, hi'.2.1, isL_set hi'.2.2 (put_is is h3 hw)⟩
        · simpa only [ATree.put, h1, VTree.put, h2] using hi
    | dead => simp [ATree.Is] at hi
    | blk => simp [ATree.Is] at hi

/-! ### Paths -/

theorem walk_nil (l : TLoc) (t : ATree V) : t.walk l [] = some (l, t) := by simp [ATree.walk]

theorem put_nil (t u : ATree V) : t.put [] u = u := by simp [ATree.put]

/-- One step of a walk. -/
theorem walk_cons {l l' : TLoc} {t t' : ATree V} {i : Nat} {is : List Nat} (hw : t.walk l (i :: is) = some (l', t')) :
    ∃ k a p f b u, t = .node k a p f b ∧ f[i]? = some u ∧ u.walk (.child p i) is = some (l', t') := by
  cases t with
  | node k a p f b =>
    simp only [ATree.walk] at hw
    cases hu : f[i]? with
    | none => rw [hu] at hw; cases hw
    | some u => rw [hu] at hw; exact ⟨k, a, p, f, b, u, rfl, hu, hw⟩
  | leaf => simp [ATree.walk] at hw
  | dead => simp [ATree.walk] at hw
  | blk => simp [ATree.walk] at hw

/-- The blocks of a part are among those of the tree. -/
theorem walk_count : ∀ {is : List Nat} {t t' : ATree V} {l l' : TLoc} (q : ObjId), t.walk l is = some (l', t') →
    t'.blocks.count q ≤ t.blocks.count q
  | [], t, t', l, l', q, hw => by rw [walk_nil] at hw; cases hw; exact Nat.le_refl _
  | i :: is, t, t', l, l', q, hw => by
    obtain ⟨k, a, p, f, b, u, rfl, hu, hw⟩ := walk_cons hw
    have h1 := walk_count q hw
    have h2 := count_le q hu
    simp only [ATree.blocks, List.count_append, List.count_cons]
    omega

/-- The place of a part is in the tree, but not in the part. -/
theorem walk_place : ∀ {is : List Nat} {t t' : ATree V} {l l' : TLoc}, is ≠ [] → t.walk l is = some (l', t') →
    ∃ p i, l' = .child p i ∧ t'.blocks.count p + 1 ≤ t.blocks.count p
  | [], _, _, _, _, h, _ => absurd rfl h
  | i :: is, t, t', l, l', _, hw => by
    obtain ⟨k, a, p, f, b, u, rfl, hu, hw⟩ := walk_cons hw
    by_cases hn : is = []
    · subst hn
      rw [walk_nil] at hw; cases hw
      have := count_le p hu
      exact ⟨p, i, rfl, by simp only [ATree.blocks, List.count_append, List.count_cons_self]; omega⟩
    · obtain ⟨q, j, h1, h2⟩ := walk_place hn hw
      refine ⟨q, j, h1, ?_⟩
      have := count_le q hu
      simp only [ATree.blocks, List.count_append, List.count_cons]
      omega

theorem walk_child {is : List Nat} {t t' : ATree V} {l l' : TLoc} (hn : is ≠ []) (hw : t.walk l is = some (l', t')) :
    ∃ p i, l' = .child p i ∧ p ∈ t.blocks := by
  obtain ⟨p, i, h1, h2⟩ := walk_place hn hw
  exact ⟨p, i, h1, mem_blocks.mpr (by omega)⟩

theorem put_count : ∀ {is : List Nat} {t t' : ATree V} {l l' : TLoc} (u : ATree V) (q : ObjId), t.walk l is = some (l', t') →
    (t.put is u).blocks.count q + t'.blocks.count q = t.blocks.count q + u.blocks.count q
  | [], t, t', l, l', u, q, hw => by rw [walk_nil] at hw; cases hw; rw [put_nil]; omega
  | i :: is, t, t', l, l', u, q, hw => by
    obtain ⟨k, a, p, f, b, v, rfl, hv, hw⟩ := walk_cons hw
    have h1 := put_count u q hw
    have h2 := count_set (v.put is u) q hv
    simp only [ATree.put, hv, ATree.blocks, List.count_append, List.count_cons]
    omega

theorem put_var_cons {t u : ATree V} {i : Nat} {is : List Nat} : (t.put (i :: is) u).var = t.var := by
  cases t with
  | node k a p f b =>
    simp only [ATree.put]
    split
    · cases b <;> rfl
    · rfl
  | leaf => rfl
  | dead => rfl
  | blk => rfl

/-- Holding a part is part of holding the tree. -/
theorem walk_holds : ∀ {is : List Nat} {t t' : ATree V} {l l' : TLoc}, t.walk l is = some (l', t') → t.Holds h → t'.Holds h
  | [], t, t', l, l', hw, hh => by rw [walk_nil] at hw; cases hw; exact hh
  | i :: is, t, t', l, l', hw, hh => by
    obtain ⟨k, a, p, f, b, v, rfl, hv, hw⟩ := walk_cons hw
    rw [ATree.Holds] at hh
    exact walk_holds hw (holdsL_iff.mp hh.2.2 v (List.mem_of_getElem? hv))

/-- What is in the heap at the place of a part. -/
theorem walk_cell : ∀ {is : List Nat} {t t' : ATree V} {l l' : TLoc} {p : ObjId} {i : Nat}, is ≠ [] →
    t.walk l is = some (l', t') → l' = .child p i → t.Holds h → ∃ a cs, h p = some (.node a cs) ∧ cs[i]? = some t'.var
  | [], _, _, _, _, _, _, h, _, _, _ => absurd rfl h
  | j :: is, t, t', l, l', p, i, _, hw, hl, hh => by
    obtain ⟨k, a, p', f, b, v, rfl, hv, hw⟩ := walk_cons hw
    rw [ATree.Holds] at hh
    by_cases hn : is = []
    · subst hn
      rw [walk_nil] at hw; cases hw; cases hl
      exact ⟨a, _, hh.2.1, by rw [List.getElem?_map, hv]; rfl⟩
    · exact walk_cell hn hw hl (holdsL_iff.mp hh.2.2 v (List.mem_of_getElem? hv))

/-- A part is replaced by `u`: the heap has `u`, the node around the part has it as a member, and the rest of the tree is as it was. -/
theorem put_holds : ∀ {is : List Nat} {t t' u : ATree V} {l l' : TLoc}, t.walk l is = some (l', t') → t.Holds h →
    (∀ q, t.blocks.count q ≤ 1) → u.Holds h' →
    (∀ p i a cs, is ≠ [] → l' = .child p i → h p = some (.node a cs) → h' p = some (.node a (cs.set i u.var))) →
    (∀ q, 0 < t.blocks.count q → t'.blocks.count q = 0 → (∀ i, is ≠ [] → l' ≠ .child q i) → h' q = h q) →
    (t.put is u).Holds h'
  | [], t, t', u, l, l', hw, hh, hc, hu, hcell, hsame => by rw [put_nil]; exact hu
  | i :: is, t, t', u, l, l', hw, hh, hc, hu, hcell, hsame => by
    obtain ⟨k, a, p, f, b, v, rfl, hv, hw'⟩ := walk_cons hw
    clear hw
    have hw := hw'
    clear hw'
    rw [ATree.Holds] at hh
    have hcnt : ∀ q, (ATree.node k a p f b).blocks.count q =
        b.toList.count q + (List.count q [p] + (ATree.blocksL f).count q) := fun q => by
      simp only [ATree.blocks, List.count_append, List.count_cons, List.count_nil]; omega
    have hvq : ∀ q, v.blocks.count q ≤ (ATree.blocksL f).count q := fun q => count_le q hv
    have hpp : List.count p [p] = 1 := by simp
    have htv : ∀ q, t'.blocks.count q ≤ v.blocks.count q := fun q => walk_count q hw
    simp only [ATree.put, hv]
    rw [ATree.Holds]
    -- the part is in `v`, and so is its place unless `v` is the part
    have hbox : ∀ q, b = some q → h' q = h q := by
      intro q hb
      have h1 := hc q
      have h2 := hvq q
      have h3 := htv q
      have h4 : b.toList.count q = 1 := by simp [hb]
      rw [hcnt] at h1
      refine hsame q (by rw [hcnt]; omega) (by omega) fun j _ hj => ?_
      by_cases hn : is = []
      · subst hn
        rw [walk_nil] at hw; cases hw; cases hj
        omega
      · obtain ⟨q', j', e, hq⟩ := walk_child hn hw
        rw [e] at hj; cases hj
        rw [mem_blocks] at hq; omega
    have hrest : ∀ w j, j ≠ i → f[j]? = some w → w.Holds h' := by
      intro w j hj hwj
      refine (holdsL_iff.mp hh.2.2 w (List.mem_of_getElem? hwj)).frame fun q hq => ?_
      rw [mem_blocks] at hq
      have h1 := hc q
      rw [hcnt] at h1
      have h2 := count_two q hj hwj hv
      have h3 := htv q
      refine hsame q (by rw [hcnt]; omega) (by omega) fun j' _ hj' => ?_
      by_cases hn : is = []
      · subst hn
        rw [walk_nil] at hw; cases hw; cases hj'
        omega
      · obtain ⟨q', j'', e, hq⟩ := walk_child hn hw
        rw [e] at hj'; cases hj'
        rw [mem_blocks] at hq; omega
    have hput : (v.put is u).Holds h' := by
      refine put_holds hw (holdsL_iff.mp hh.2.2 v (List.mem_of_getElem? hv)) (fun q => ?_) hu (fun p' i' a' cs' hn => ?_)
        (fun q h1 h2 h3 => ?_)
      · have := hc q; rw [hcnt] at this; have := hvq q; omega
      · exact hcell p' i' a' cs' (by simp)
      · have h4 := hvq q
        refine hsame q (by rw [hcnt]; omega) h2 fun j _ hj => ?_
        by_cases hn : is = []
        · subst hn
          rw [walk_nil] at hw; cases hw
          omega
        · exact h3 j hn hj
    refine ⟨fun q hq => by rw [hbox q hq]; exact hh.1 q hq, ?_, ?_⟩
    · by_cases hn : is = []
      · subst hn
        rw [walk_nil] at hw; cases hw
        rw [hcell p i a _ (by simp) rfl hh.2.1, put_nil, List.map_set]
      · have hvar : (v.put is u).var = v.var := by
          cases is with
          | nil => exact absurd rfl hn
          | cons => exact put_var_cons
        have hmap : (f.set i (v.put is u)).map ATree.var = f.map ATree.var := by
          rw [List.map_set, hvar]
          refine List.ext_getElem? fun j => ?_
          rw [List.getElem?_set]
          split
          · rename_i hj; subst hj
            rw [List.getElem?_map, hv]
            have : i < f.length := (List.getElem?_eq_some_iff.mp hv).1
            simp [this]
          · rfl
        rw [hmap]
        obtain ⟨q', j', e, hq⟩ := walk_child hn hw
        rw [mem_blocks] at hq
        have h1 := hc p
        rw [hcnt] at h1
        have h2 := hvq p
        have h3 := htv p
        rw [hsame p (by rw [hcnt]; omega) (by omega) fun j _ hj => by
          rw [e] at hj; cases hj
          omega]
        exact hh.2.1
    · rw [holdsL_iff]
      intro w hw'
      obtain ⟨j, hj⟩ := List.mem_iff_getElem?.mp hw'
      rw [List.getElem?_set] at hj
      split at hj
      · rename_i hij; subst hij
        split at hj
        · cases hj; exact hput
        · cases hj
      · rename_i hij
        exact hrest w j (fun e => hij e.symm) hj

/-- Following a path to a part of a part. -/
theorem walk_append : ∀ {is js : List Nat} {t : ATree V} {l : TLoc}, t.walk l (is ++ js) =
    (t.walk l is).bind fun x => x.2.walk x.1 js
  | [], js, t, l => by simp [walk_nil]
  | i :: is, js, t, l => by
    cases t with
    | node k a p f b =>
      simp only [List.cons_append, ATree.walk]
      cases f[i]? with
      | none => rfl
      | some u => exact walk_append
    | leaf => rfl
    | dead => rfl
    | blk => rfl

theorem put_append : ∀ {is js : List Nat} {t t' u : ATree V} {l l' : TLoc}, t.walk l is = some (l', t') →
    t.put (is ++ js) u = t.put is (t'.put js u)
  | [], js, t, t', u, l, l', hw => by rw [walk_nil] at hw; cases hw; rw [put_nil]; rfl
  | i :: is, js, t, t', u, l, l', hw => by
    obtain ⟨k, a, p, f, b, v, rfl, hv, hw⟩ := walk_cons hw
    simp only [List.cons_append, ATree.put, hv, put_append hw]

/-- What is at the place where something was put. -/
theorem walk_put : ∀ {is : List Nat} {t t' u : ATree V} {l l' : TLoc}, t.walk l is = some (l', t') →
    (t.put is u).walk l is = some (l', u)
  | [], t, t', u, l, l', hw => by rw [walk_nil] at hw; cases hw; rw [put_nil, walk_nil]
  | i :: is, t, t', u, l, l', hw => by
    obtain ⟨k, a, p, f, b, v, rfl, hv, hw⟩ := walk_cons hw
    have hi : i < f.length := (List.getElem?_eq_some_iff.mp hv).1
    simp only [ATree.put, hv, ATree.walk, List.getElem?_set_self hi]
    exact walk_put hw

theorem put_put : ∀ {is : List Nat} {t t' u w : ATree V} {l l' : TLoc}, t.walk l is = some (l', t') →
    (t.put is u).put is w = t.put is w
  | [], t, t', u, w, l, l', hw => by simp [put_nil]
  | i :: is, t, t', u, w, l, l', hw => by
    obtain ⟨k, a, p, f, b, v, rfl, hv, hw⟩ := walk_cons hw
    have hi : i < f.length := (List.getElem?_eq_some_iff.mp hv).1
    simp only [ATree.put, hv, List.getElem?_set_self hi, List.set_set, put_put hw]

theorem put_same : ∀ {is : List Nat} {t t' : ATree V} {l l' : TLoc}, t.walk l is = some (l', t') → t.put is t' = t
  | [], t, t', l, l', hw => by rw [walk_nil] at hw; cases hw; rw [put_nil]
  | i :: is, t, t', l, l', hw => by
    obtain ⟨k, a, p, f, b, v, rfl, hv, hw⟩ := walk_cons hw
    obtain ⟨hi, he⟩ := List.getElem?_eq_some_iff.mp hv
    simp only [ATree.put, hv, put_same hw]
    rw [← he, List.set_getElem_self]

/-- Neither of two paths leads through the end of the other. -/
def PathsApart (is js : List Nat) : Prop := ¬ is <+: js ∧ ¬ js <+: is

theorem PathsApart.cons {i j : Nat} {is js : List Nat} (h : PathsApart (i :: is) (j :: js)) : i ≠ j ∨ (i = j ∧ PathsApart is js) := by
  by_cases hij : i = j
  · subst hij
    exact .inr ⟨rfl, fun h' => h.1 (List.cons_prefix_cons.mpr ⟨rfl, h'⟩), fun h' => h.2 (List.cons_prefix_cons.mpr ⟨rfl, h'⟩)⟩
  · exact .inl hij

theorem PathsApart.symm {is js : List Nat} (h : PathsApart is js) : PathsApart js is := ⟨h.2, h.1⟩

theorem walk_put_apart : ∀ {is js : List Nat} {t t' u : ATree V} {l l' : TLoc}, PathsApart is js → t.walk l is = some (l', t') →
    (t.put js u).walk l is = some (l', t')
  | [], js, _, _, _, _, _, h, _ => absurd (List.nil_prefix) h.1
  | _ :: _, [], _, _, _, _, _, h, _ => absurd (List.nil_prefix) h.2
  | i :: is, j :: js, t, t', u, l, l', h, hw => by
    obtain ⟨k, a, p, f, b, v, rfl, hv, hw'⟩ := walk_cons hw
    simp only [ATree.put]
    rcases h.cons with hij | ⟨rfl, h'⟩
    · cases f[j]? with
      | none => exact hw
      | some w => simp only [ATree.walk, List.getElem?_set, Ne.symm hij, if_false, hv, hw']
    · simp only [hv, ATree.walk]
      have hi : i < f.length := (List.getElem?_eq_some_iff.mp hv).1
      rw [List.getElem?_set_self hi]
      exact walk_put_apart h' hw'

/-- A part outside another is replaced: what is seen of the other from a place around it. -/
theorem put_put_apart : ∀ {is js : List Nat} {t u w : ATree V}, PathsApart is js → (t.put js u).put is w = (t.put is w).put js u
  | [], js, _, _, _, h => absurd (List.nil_prefix) h.1
  | _ :: _, [], _, _, _, h => absurd (List.nil_prefix) h.2
  | i :: is, j :: js, t, u, w, h => by
    cases t with
    | node k a p f b =>
      simp only [ATree.put]
      rcases h.cons with hij | ⟨rfl, h'⟩
      · have hji : j ≠ i := Ne.symm hij
        cases hj : f[j]? with
        | none => cases hi : f[i]? with
          | none => simp only [ATree.put, hj, hi]
          | some v => simp only [ATree.put, hj, hi, List.getElem?_set, hij, if_false]
        | some z => cases hi : f[i]? with
          | none => simp only [ATree.put, hj, hi, List.getElem?_set, hji, if_false]
          | some v =>
            simp only [ATree.put, hj, hi, List.getElem?_set, hij, hji, if_false]
            rw [List.set_comm _ _ hji]
      · cases hi : f[i]? with
        | none => simp only [ATree.put, hi]
        | some v =>
          have hl : i < f.length := (List.getElem?_eq_some_iff.mp hi).1
          simp only [ATree.put, List.getElem?_set_self hl, List.set_set]
          rw [put_put_apart h']
    | leaf => rfl
    | dead => rfl
    | blk => rfl

end

end BVariant
