/-
What statements leave where it is.
-/
import Verif.Lemmas.TreeSwap
import Verif.Spec.TreeRefs

namespace BVariant

section
variable {V : Type} {C : TreeCfg V} {s s' : TreeSt V}

open ATree AStore

variable {α α' α'' : AStore V} {σ : TStore V} {G : List (ATree V)} {n m : Nat} {x t y : TPlace} {xs : List TPlace}

/-- What a variant has, without its parts. -/
def ATree.head (T : ATree V) : TyIx × Option ObjId × TContent V × Option (V × Nat) :=
  (T.which, T.box, T.content, match T with
    | .node _ a _ f _ => some (a, f.length)
    | _ => none)

/-- Variants that are not parts of the given ones are where they were, with what they had. -/
def TFrame (xs : List TPlace) (α α' : AStore V) : Prop :=
  ∀ y l T, At α y l T → (∀ x ∈ xs, ¬ y.Under x) → ∃ T', At α' y l T' ∧ T'.head = T.head

theorem TFrame.refl : TFrame xs α α := fun _ _ T h _ => ⟨T, h, rfl⟩

theorem TFrame.trans (h : TFrame xs α α') (h' : TFrame xs α' α'') : TFrame xs α α'' := fun y l T hy hn => by
  obtain ⟨T1, h1, h2⟩ := h y l T hy hn
  obtain ⟨T2, h3, h4⟩ := h' y l T1 h1 hn
  exact ⟨T2, h3, h4.trans h2⟩

theorem TFrame.mono {ys : List TPlace} (h : TFrame xs α α') (hs : ∀ x ∈ xs, x ∈ ys) : TFrame ys α α' := fun y l T hy hn =>
  h y l T hy fun x hx => hn x (hs x hx)

theorem ATree.put_head : ∀ {is : List Nat} {T U : ATree V}, is ≠ [] → (T.put is U).head = T.head
  | [], _, _, h => absurd rfl h
  | i :: is, T, U, _ => by
    cases T with
    | node k a p f b =>
      simp only [ATree.put]
      cases f[i]? with
      | none => rfl
      | some u => simp only [ATree.head, which, box, content, List.length_set]
    | leaf => rfl
    | dead => rfl
    | blk => rfl

theorem TFrame.put {U : ATree V} (hx : x ∈ xs) : TFrame xs α (α.put x U) := fun y l T hy hn => by
  have hu := hn x hx
  rcases TPlace.cases x y with h | h | h | h
  · subst h; exact absurd ⟨rfl, List.prefix_refl _⟩ hu
  · exact ⟨T, hy.put_apart h.symm, rfl⟩
  · simp only [TPlace.inside, Bool.and_eq_true, beq_iff_eq] at h
    exact absurd ⟨h.1.1.symm, List.isPrefixOf_iff_prefix.mp h.1.2⟩ hu
  · simp only [TPlace.inside, Bool.and_eq_true, beq_iff_eq, bne_iff_ne, ne_eq] at h
    obtain ⟨⟨hv, hp⟩, hne⟩ := h
    obtain ⟨is, his⟩ := List.isPrefixOf_iff_prefix.mp hp
    obtain ⟨T0, h1, h2⟩ := hy
    have hnn : is ≠ [] := by rintro rfl; rw [List.append_nil] at his; exact hne his.symm
    refine ⟨T.put is U, ⟨T0.put y.path (T.put is U), ?_, walk_put h2⟩, put_head hnn⟩
    simp only [AStore.put, hv, h1, upd_same, Option.map_some, ← his, put_append h2]

theorem TFrame.new {z : Nat} {o : Option (ATree V)} (hz : α z = none) : TFrame xs α (upd α z o) := fun y l T hy _ => by
  refine ⟨T, ?_, rfl⟩
  obtain ⟨T0, h1, h2⟩ := hy
  refine ⟨T0, ?_, h2⟩
  have : y.var ≠ z := by rintro rfl; rw [hz] at h1; cases h1
  simp only [upd, this, if_false]; exact h1

theorem TFrame.del {z : Nat} {o : Option (ATree V)} (hz : ⟨z, []⟩ ∈ xs) : TFrame xs α (upd α z o) := fun y l T hy hn => by
  refine ⟨T, ?_, rfl⟩
  obtain ⟨T0, h1, h2⟩ := hy
  refine ⟨T0, ?_, h2⟩
  have : y.var ≠ z := by rintro rfl; exact hn _ hz ⟨rfl, List.nil_prefix⟩
  simp only [upd, this, if_false]; exact h1

/-- A variable that is not there may be left out. -/
theorem TFrame.drop {z : Nat} (h : TFrame (⟨z, []⟩ :: xs) α α') (hz : α z = none) : TFrame xs α α' := fun y l T hy hn => by
  refine h y l T hy fun x hx => ?_
  rcases List.mem_cons.mp hx with rfl | hx
  · rintro ⟨h1, _⟩
    obtain ⟨T0, h2, _⟩ := hy
    simp only at h1
    rw [← h1, hz] at h2; cases h2
  · exact hn x hx

/-- What a statement does to the variants with nodes that it has to do with. -/
def TPointers (ok : Bool) (α α' : AStore V) : TCmd V → Prop
  | .assign x t => ∀ l r k a p f b a' p' f' b', At α x l (.node k a p f b) → At α t r (.node k a' p' f' b') → b.isNone = b'.isNone →
      ∃ a'' f'', At α' x l (.node k a'' p f'' b)
  | .moveAssign x t => ∀ l r k a p f b a' p' f' b', At α x l (.node k a p f b) → At α t r (.node k a' p' f' b') → b.isNone = b'.isNone →
      ok = true ∧ At α' x l (.node k a' p' f' b) ∧ At α' t r (.node k a p f b')
  | .swap x t _ => ∀ l r k a p f b a' p' f' b', At α x l (.node k a p f b) → At α t r (.node k a' p' f' b') →
      if ok then At α' x l (.node k a' p f' b) ∧ At α' t r (.node k a p' f b')
      else ∃ c c', At α' x l (.node k c p f b) ∧ At α' t r (.node k c' p' f' b')
  | .store x v => ∀ l k a p f b, At α x l (.node k a p f b) → At α' x l (.node k v p f b)
  | _ => True

/-- Where a statement leaves the variants and the nodes. -/
def TAfter (ok : Bool) (c : TCmd V) (α α' : AStore V) : Prop := TFrame c.writes α α' ∧ TPointers ok α α' c

/-- The variants do not both have nodes of one type. -/
def NotNodes (L R : ATree V) : Prop := (∀ k a p f b, L ≠ .node k a p f b) ∨ L.which ≠ R.which

/-- Nor both in place, or both in backups. -/
def NotAlike (L R : ATree V) : Prop := NotNodes L R ∨ L.box.isNone ≠ R.box.isNone

variable {ok : Bool} {l r : TLoc} {L R U W : ATree V} {z : Nat} {k : TyIx} {a a' : V} {p p' : ObjId} {f f' : List (ATree V)}
  {b b' : Option ObjId}

theorem NotNodes.leaf {v : V} : NotNodes (.leaf k v b) R := .inl nofun

theorem NotNodes.false (h : NotNodes (.node k a p f b) (.node k a' p' f' b')) : False := h.elim (fun h => h _ _ _ _ _ rfl) fun h => h rfl

theorem NotAlike.false (h : NotAlike (.node k a p f b) (.node k a' p' f' b')) (hb : b.isNone = b'.isNone) : False :=
  h.elim NotNodes.false fun h => h hb

theorem TAfter.assign_other (hx : At α x l L) (ht : At α t r R) (h : NotAlike L R) : TAfter ok (.assign x t) α (α.put x U) := by
  refine ⟨.put (by simp [TCmd.writes]), fun l r k a p f b a' p' f' b' h1 h2 h3 => ?_⟩
  cases (hx.unique h1).2
  cases (ht.unique h2).2
  exact (h.false h3).elim

theorem TAfter.assign_node {f'' : List (ATree V)} {a'' : V} (hx : At α x l (.node k a p f b)) :
    TAfter ok (.assign x t) α (α.put x (.node k a'' p f'' b)) := by
  refine ⟨.put (by simp [TCmd.writes]), fun l' r k' a1 p1 f1 b1 a' p' f' b' h1 h2 h3 => ?_⟩
  obtain ⟨rfl, e⟩ := hx.unique h1
  cases e
  exact ⟨_, _, hx.put⟩

theorem TAfter.assign_same : TAfter ok (.assign x t) α α :=
  ⟨.refl, fun _ _ _ _ _ _ _ _ _ _ _ h1 _ _ => ⟨_, _, h1⟩⟩

theorem TAfter.move_other (hx : At α x l L) (ht : At α t r R) (h : NotAlike L R) (hF : TFrame [x, t] α α') :
    TAfter ok (.moveAssign x t) α α' := by
  refine ⟨hF, fun l r k a p f b a' p' f' b' h1 h2 h3 => ?_⟩
  cases (hx.unique h1).2
  cases (ht.unique h2).2
  exact (h.false h3).elim

theorem TAfter.move_self : TAfter true (.moveAssign x x) α α := by
  refine ⟨.refl, fun l r k a p f b a' p' f' b' h1 h2 h3 => ?_⟩
  obtain ⟨rfl, e⟩ := h1.unique h2
  cases e
  exact ⟨rfl, h1, h1⟩

theorem TFrame.put2 : TFrame [x, t] α ((α.put x U).put t W) := .trans (.put (by simp)) (.put (by simp))

theorem TAfter.move_nodes (ha : x.Apart t) (hx : At α x l (.node k a p f b)) (ht : At α t r (.node k a' p' f' b')) :
    TAfter true (.moveAssign x t) α ((α.put x (.node k a' p' f' b)).put t (.node k a p f b')) := by
  refine ⟨.put2, fun l' r' k1 a1 p1 f1 b1 a2 p2 f2 b2 h1 h2 h3 => ?_⟩
  obtain ⟨rfl, e⟩ := hx.unique h1
  cases e
  obtain ⟨rfl, e⟩ := ht.unique h2
  cases e
  exact ⟨rfl, hx.put.put_apart ha, (ht.put_apart ha.symm).put⟩

theorem TAfter.swap_other (hx : At α x l L) (ht : At α t r R) (h : NotNodes L R) (hF : TFrame [x, t] α α') :
    TAfter ok (.swap x t z) α α' := by
  refine ⟨hF, fun l r k a p f b a' p' f' b' h1 h2 => ?_⟩
  cases (hx.unique h1).2
  cases (ht.unique h2).2
  exact h.false.elim

theorem TAfter.swap_self : TAfter true (.swap x x z) α α := by
  refine ⟨.refl, fun l' r' k1 a1 p1 f1 b1 a2 p2 f2 b2 h1 h2 => ?_⟩
  obtain ⟨rfl, e⟩ := h1.unique h2
  cases e
  exact ⟨h1, h1⟩

theorem TAfter.swap_selfFail {c : V} (hx : At α x l (.node k a p f b)) : TAfter false (.swap x x z) α (α.put x (.node k c p f b)) := by
  refine ⟨.put (by simp [TCmd.writes]), fun l' r' k1 a1 p1 f1 b1 a2 p2 f2 b2 h1 h2 => ?_⟩
  obtain ⟨rfl, e⟩ := hx.unique h1
  cases e
  obtain ⟨rfl, e⟩ := hx.unique h2
  cases e
  exact ⟨_, _, hx.put, hx.put⟩

theorem TAfter.swap_nodes (ha : x.Apart t) (hx : At α x l (.node k a p f b)) (ht : At α t r (.node k a' p' f' b')) :
    TAfter true (.swap x t z) α ((α.put x (.node k a' p f' b)).put t (.node k a p' f b')) := by
  refine ⟨.put2, fun l' r' k1 a1 p1 f1 b1 a2 p2 f2 b2 h1 h2 => ?_⟩
  obtain ⟨rfl, e⟩ := hx.unique h1
  cases e
  obtain ⟨rfl, e⟩ := ht.unique h2
  cases e
  exact ⟨hx.put.put_apart ha, (ht.put_apart ha.symm).put⟩

theorem TAfter.swap_fail {c c' : V} (ha : x.Apart t) (hx : At α x l (.node k a p f b)) (ht : At α t r (.node k a' p' f' b')) :
    TAfter false (.swap x t z) α ((α.put x (.node k c p f b)).put t (.node k c' p' f' b')) := by
  refine ⟨.put2, fun l' r' k1 a1 p1 f1 b1 a2 p2 f2 b2 h1 h2 => ?_⟩
  obtain ⟨rfl, e⟩ := hx.unique h1
  cases e
  obtain ⟨rfl, e⟩ := ht.unique h2
  cases e
  exact ⟨_, _, hx.put.put_apart ha, (ht.put_apart ha.symm).put⟩

end

end BVariant
