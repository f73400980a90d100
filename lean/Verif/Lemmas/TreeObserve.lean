/-
Comparing, hashing and streaming recursive variants: the runs, and the laws of the order of trees.
-/
import Verif.Spec.TreeOrder

namespace BVariant

section
variable {V : Type} {s : TreeSt V} {eq lt : TyIx → V → V → Bool}

/-! ### Reading -/

theorem VTree.Rep.which {h : ObjId → Option (TCell V)} {t : VTree V} {x : TVar V} {ns : List ObjId} (hr : t.Rep h x ns) :
    x.which = t.which := by
  cases t with
  | leaf k v => rw [VTree.Rep] at hr; rcases hr with ⟨rfl, _⟩ | ⟨q, rfl, _⟩ <;> rfl
  | node k a f => rw [VTree.Rep] at hr; obtain ⟨p, cs, ms, _, _, ⟨rfl, _⟩ | ⟨q, rfl, _⟩⟩ := hr <;> rfl

theorem VTree.Rep.leaf_read {k : TyIx} {v : V} {x : TVar V} {ns : List ObjId} (hr : (VTree.leaf k v).Rep s.heap x ns) :
    tContent x s = .ok (.leaf v) s := by
  rw [VTree.Rep] at hr
  rcases hr with ⟨rfl, _⟩ | ⟨q, rfl, hq, _⟩
  · rfl
  · simp only [tContent, tReadBox, hq]

theorem VTree.Rep.node_read {k : TyIx} {a : V} {f : VForest V} {x : TVar V} {ns : List ObjId}
    (hr : (VTree.node k a f).Rep s.heap x ns) :
    ∃ p cs ms, tContent x s = .ok (.wrap p) s ∧ tReadNode p s = .ok (a, cs) s ∧ f.Rep s.heap cs ms := by
  rw [VTree.Rep] at hr
  obtain ⟨p, cs, ms, hp, hf, hx⟩ := hr
  refine ⟨p, cs, ms, ?_, by simp only [tReadNode, hp], hf⟩
  rcases hx with ⟨rfl, _⟩ | ⟨q, rfl, hq, _⟩
  · rfl
  · simp only [tContent, tReadBox, hq]

def VForest.length : VForest V → Nat
  | .nil => 0
  | .cons _ f => f.length + 1

theorem VForest.Rep.length {h : ObjId → Option (TCell V)} : ∀ {f : VForest V} {xs : List (TVar V)} {ns : List ObjId}, f.Rep h xs ns →
    xs.length = f.length
  | .nil, xs, ns, hr => by rw [VForest.Rep] at hr; rw [hr.1]; rfl
  | .cons t f, xs, ns, hr => by
    rw [VForest.Rep] at hr
    obtain ⟨y, ys, ms, ms', rfl, _, hf, _⟩ := hr
    rw [List.length_cons, hf.length, VForest.length]

theorem VForest.Same.length : ∀ {f g : VForest V}, f.Same eq g → f.length = g.length
  | _, _, .nil => rfl
  | _, _, .cons _ h => by rw [VForest.length, VForest.length, h.length]

/-! ### Equality -/

theorem VTree.Same.which {t u : VTree V} (h : t.Same eq u) : t.which = u.which := by cases h <;> rfl

mutual
theorem tEqVar_run : ∀ {t u : VTree V} {x y : TVar V} {ns ms : List ObjId} {n : Nat} {w : TyIx → Bool}, t.Rep s.heap x ns →
    u.Rep s.heap y ms → t.Typed w → u.Typed w → min t.height u.height ≤ n →
    ∃ b, tEqVar eq n x y s = .ok b s ∧ (b = true ↔ t.Same eq u)
  | t, u, x, y, ns, ms, 0, w, _, _, _, _, hn => by
    have h1 : 1 ≤ t.height := by cases t <;> simp [VTree.height]
    have h2 : 1 ≤ u.height := by cases u <;> simp [VTree.height]
    omega
  | .leaf k v, u, x, y, ns, ms, n + 1, w, hx, hy, ht, hu, hn => by
    by_cases hk : x.which ≠ y.which
    · refine ⟨false, by rw [tEqVar, if_pos hk]; rfl, by simp, fun h => absurd ?_ hk⟩
      rw [hx.which, hy.which, h.which]
    · rw [tEqVar, if_neg hk]
      have hk' : x.which = y.which := Classical.not_not.mp hk
      rw [hx.which, hy.which] at hk'
      cases u with
      | leaf k' v' =>
        cases (show k = k' from hk')
        refine ⟨eq k v v', ?_, fun h => .leaf h, fun h => by cases h; assumption⟩
        simp only [bind, Eff.bind, hx.leaf_read, hy.leaf_read, hy.which]; rfl
      | node k' a f =>
        cases (show k = k' from hk')
        rw [VTree.Typed] at ht; rw [VTree.Typed] at hu; rw [ht] at hu; cases hu.1
  | .node k a f, u, x, y, ns, ms, n + 1, w, hx, hy, ht, hu, hn => by
    by_cases hk : x.which ≠ y.which
    · refine ⟨false, by rw [tEqVar, if_pos hk]; rfl, by simp, fun h => absurd ?_ hk⟩
      rw [hx.which, hy.which, h.which]
    · rw [tEqVar, if_neg hk]
      have hk' : x.which = y.which := Classical.not_not.mp hk
      rw [hx.which, hy.which] at hk'
      cases u with
      | leaf k' v' =>
        cases (show k = k' from hk')
        rw [VTree.Typed] at ht; rw [VTree.Typed] at hu; rw [hu] at ht; cases ht.1
      | node k' b g =>
        cases (show k = k' from hk')
        obtain ⟨p, cs, ms1, h1, h2, h3⟩ := hx.node_read
        obtain ⟨q, ds, ms2, h4, h5, h6⟩ := hy.node_read
        rw [VTree.Typed] at ht; rw [VTree.Typed] at hu
        rw [VTree.height, VTree.height] at hn
        simp only [bind, Eff.bind, h1, h2, h4, h5, hy.which, tEqNode, VTree.which]
        by_cases hab : eq k a b = true
        · by_cases hlen : cs.length = ds.length
          · obtain ⟨c, hc, hiff⟩ := tEqList_run (n := n) h3 h6 hlen ht.2 hu.2 (by omega)
            refine ⟨c, by simp only [hab, hlen, if_true]; exact hc, fun h => .node hab (hiff.mp h), fun h => ?_⟩
            cases h with | node _ h => exact hiff.mpr h
          · refine ⟨false, by simp only [hab, hlen, if_true, if_false]; rfl, by simp, fun h => ?_⟩
            cases h with | node _ h => exact absurd (by rw [h3.length, h6.length, h.length]) hlen
        · refine ⟨false, by simp only [hab]; rfl, by simp, fun h => ?_⟩
          cases h with | node h _ => exact absurd h hab
theorem tEqList_run : ∀ {f g : VForest V} {xs ys : List (TVar V)} {ns ms : List ObjId} {n : Nat} {w : TyIx → Bool},
    f.Rep s.heap xs ns → g.Rep s.heap ys ms → xs.length = ys.length → f.Typed w → g.Typed w → min f.height g.height ≤ n →
    ∃ b, tEqList (tEqVar eq n) xs ys s = .ok b s ∧ (b = true ↔ f.Same eq g)
  | .nil, .nil, xs, ys, ns, ms, n, w, hx, hy, _, _, _, _ => by
    rw [VForest.Rep] at hx; rw [VForest.Rep] at hy
    rw [hx.1, hy.1]
    exact ⟨true, rfl, fun _ => .nil, fun _ => rfl⟩
  | .nil, .cons u g, xs, ys, ns, ms, n, w, hx, hy, hl, _, _, _ => by
    rw [hx.length, hy.length] at hl; cases hl
  | .cons t f, .nil, xs, ys, ns, ms, n, w, hx, hy, hl, _, _, _ => by
    rw [hx.length, hy.length] at hl; cases hl
  | .cons t f, .cons u g, xs, ys, ns, ms, n, w, hx, hy, hl, hf, hg, hn => by
    rw [VForest.Rep] at hx; rw [VForest.Rep] at hy
    obtain ⟨x, xs, n1, n2, rfl, hx1, hx2, _⟩ := hx
    obtain ⟨y, ys, m1, m2, rfl, hy1, hy2, _⟩ := hy
    rw [VForest.Typed] at hf; rw [VForest.Typed] at hg
    rw [VForest.height, VForest.height] at hn
    obtain ⟨b, h1, h2⟩ := tEqVar_run (n := n) hx1 hy1 hf.1 hg.1 (by omega)
    rw [tEqList]
    simp only [bind, Eff.bind, h1]
    cases b with
    | false => exact ⟨false, rfl, by simp, fun h => by cases h with | cons h _ => exact absurd (h2.mpr h) (by simp)⟩
    | true =>
      obtain ⟨c, h3, h4⟩ := tEqList_run (n := n) hx2 hy2 (by simpa using hl) hf.2 hg.2 (by omega)
      exact ⟨c, h3, fun h => .cons (h2.mp rfl) (h4.mp h), fun h => by cases h with | cons _ h => exact h4.mpr h⟩
end

mutual
theorem VTree.Same.refl (he : ∀ k a, eq k a a = true) : ∀ t : VTree V, t.Same eq t
  | .leaf k v => .leaf (he k v)
  | .node k a f => .node (he k a) (VForest.Same.refl he f)
theorem VForest.Same.refl (he : ∀ k a, eq k a a = true) : ∀ f : VForest V, f.Same eq f
  | .nil => .nil
  | .cons t f => .cons (VTree.Same.refl he t) (VForest.Same.refl he f)
end

mutual
theorem VTree.Same.symm (he : ∀ k a b, eq k a b = true → eq k b a = true) : ∀ {t u : VTree V}, t.Same eq u → u.Same eq t
  | _, _, .leaf h => .leaf (he _ _ _ h)
  | _, _, .node h h' => .node (he _ _ _ h) (VForest.Same.symm he h')
theorem VForest.Same.symm (he : ∀ k a b, eq k a b = true → eq k b a = true) : ∀ {f g : VForest V}, f.Same eq g → g.Same eq f
  | _, _, .nil => .nil
  | _, _, .cons h h' => .cons (VTree.Same.symm he h) (VForest.Same.symm he h')
end

mutual
theorem VTree.Same.trans (he : ∀ k a b c, eq k a b = true → eq k b c = true → eq k a c = true) :
    ∀ {t u v : VTree V}, t.Same eq u → u.Same eq v → t.Same eq v
  | _, _, _, .leaf h, .leaf g => .leaf (he _ _ _ _ h g)
  | _, _, _, .node h h', .node g g' => .node (he _ _ _ _ h g) (VForest.Same.trans he h' g')
theorem VForest.Same.trans (he : ∀ k a b c, eq k a b = true → eq k b c = true → eq k a c = true) :
    ∀ {t u v : VForest V}, t.Same eq u → u.Same eq v → t.Same eq v
  | _, _, _, .nil, .nil => .nil
  | _, _, _, .cons h h', .cons g g' => .cons (VTree.Same.trans he h g) (VForest.Same.trans he h' g')
end

/-! ### Order -/

/-- The two ways to compare a pair agree: the second is "less" iff the first, not being "less", is "greater". -/
def Opposite (c d : Ordering) : Prop := (c = .gt ↔ c ≠ .lt ∧ d = .lt) ∧ (d = .gt ↔ d ≠ .lt ∧ c = .lt)

theorem Opposite.symm {c d : Ordering} (h : Opposite c d) : Opposite d c := ⟨h.2, h.1⟩

theorem Opposite.then {a b c d : Ordering} (h : Opposite a b) (h' : Opposite c d) : Opposite (a.then c) (b.then d) := by
  revert h h'; cases a <;> cases b <;> cases c <;> cases d <;> simp [Opposite, Ordering.then]

theorem compare_opposite (k k' : Nat) : Opposite (compare k k') (compare k' k) := by
  rcases Nat.lt_trichotomy k k' with h | h | h
  · rw [Nat.compare_eq_lt.mpr h, Nat.compare_eq_gt.mpr h]; simp [Opposite]
  · rw [Nat.compare_eq_eq.mpr h, Nat.compare_eq_eq.mpr h.symm]; simp [Opposite]
  · rw [Nat.compare_eq_gt.mpr h, Nat.compare_eq_lt.mpr h]; simp [Opposite]

theorem ordOf_opposite (r : V → V → Bool) (a b : V) : Opposite (ordOf r a b) (ordOf r b a) := by
  unfold ordOf
  cases r a b <;> cases r b a <;> simp [Opposite]

theorem then_opposite {k k' : Nat} {a b : Ordering} (h : k = k' → Opposite a b) :
    Opposite ((compare k k').then a) ((compare k' k).then b) := by
  rcases Nat.lt_trichotomy k k' with h' | h' | h'
  · rw [Nat.compare_eq_lt.mpr h', Nat.compare_eq_gt.mpr h']; simp [Opposite, Ordering.then]
  · exact (compare_opposite k k').then (h h')
  · rw [Nat.compare_eq_gt.mpr h', Nat.compare_eq_lt.mpr h']; simp [Opposite, Ordering.then]

mutual
theorem VTree.order_opposite : ∀ t u : VTree V, Opposite (t.order lt u) (u.order lt t)
  | .leaf k a, .leaf k' b => by
    rw [VTree.order, VTree.order]
    exact then_opposite (by rintro rfl; exact ordOf_opposite _ _ _)
  | .leaf k a, .node k' b g => by
    rw [VTree.order, VTree.order]
    exact then_opposite (fun _ => by simp [Opposite])
  | .node k a f, .leaf k' b => by
    rw [VTree.order, VTree.order]
    exact then_opposite (fun _ => by simp [Opposite])
  | .node k a f, .node k' b g => by
    rw [VTree.order, VTree.order]
    exact then_opposite (by rintro rfl; exact (ordOf_opposite _ _ _).then (VForest.order_opposite f g))
theorem VForest.order_opposite : ∀ f g : VForest V, Opposite (f.order lt g) (g.order lt f)
  | .nil, .nil => by simp [VForest.order, Opposite]
  | .nil, .cons _ _ => by simp [VForest.order, Opposite]
  | .cons _ _, .nil => by simp [VForest.order, Opposite]
  | .cons t f, .cons u g => by
    rw [VForest.order, VForest.order]
    exact (VTree.order_opposite t u).then (VForest.order_opposite f g)
end

theorem VTree.order_which {t u : VTree V} (h : t.which ≠ u.which) : t.order lt u = .lt ↔ t.which < u.which := by
  have h' : ∀ o : Ordering, ((compare t.which u.which).then o = .lt ↔ t.which < u.which) := fun o => by
    rcases Nat.lt_trichotomy t.which u.which with h' | h' | h'
    · rw [Nat.compare_eq_lt.mpr h']; simp [Ordering.then, h']
    · exact absurd h' h
    · rw [Nat.compare_eq_gt.mpr h']; simp [Ordering.then]; omega
  cases t <;> cases u <;> rw [VTree.order] <;> exact h' _

theorem Opposite.eq_of {c d : Ordering} (h : Opposite c d) (h1 : c ≠ .lt) (h2 : d ≠ .lt) : c = .eq := by
  revert h h1 h2; cases c <;> cases d <;> simp [Opposite]

mutual
theorem tLtVar_run : ∀ {t u : VTree V} {x y : TVar V} {ns ms : List ObjId} {n : Nat} {w : TyIx → Bool}, t.Rep s.heap x ns →
    u.Rep s.heap y ms → t.Typed w → u.Typed w → min t.height u.height ≤ n →
    (∃ b, tLtVar lt n x y s = .ok b s ∧ (b = true ↔ t.order lt u = .lt)) ∧
    (∃ b, tLtVar lt n y x s = .ok b s ∧ (b = true ↔ u.order lt t = .lt))
  | t, u, x, y, ns, ms, 0, w, _, _, _, _, hn => by
    have h1 : 1 ≤ t.height := by cases t <;> simp [VTree.height]
    have h2 : 1 ≤ u.height := by cases u <;> simp [VTree.height]
    omega
  | .leaf k v, u, x, y, ns, ms, n + 1, w, hx, hy, ht, hu, hn => by
    by_cases hk : x.which ≠ y.which
    · refine ⟨⟨_, by rw [tLtVar, if_pos hk]; rfl, ?_⟩, ⟨_, by rw [tLtVar, if_pos hk.symm]; rfl, ?_⟩⟩ <;>
        rw [hx.which, hy.which] at hk ⊢ <;> rw [VTree.order_which (by first | exact hk | exact hk.symm), decide_eq_true_iff]
    · have hk' : x.which = y.which := Classical.not_not.mp hk
      rw [tLtVar, tLtVar, if_neg hk, if_neg (by simp [hk'])]
      rw [hx.which, hy.which] at hk'
      cases u with
      | leaf k' v' =>
        cases (show k = k' from hk')
        simp only [bind, Eff.bind, hx.leaf_read, hy.leaf_read, hx.which, hy.which, VTree.order, VTree.which,
          Nat.compare_eq_eq.mpr rfl, Ordering.then]
        refine ⟨⟨lt k v v', rfl, ?_⟩, ⟨lt k v' v, rfl, ?_⟩⟩ <;> unfold ordOf <;> cases lt k v v' <;> cases lt k v' v <;> simp
      | node k' a f =>
        cases (show k = k' from hk')
        rw [VTree.Typed] at ht; rw [VTree.Typed] at hu; rw [ht] at hu; cases hu.1
  | .node k a f, u, x, y, ns, ms, n + 1, w, hx, hy, ht, hu, hn => by
    by_cases hk : x.which ≠ y.which
    · refine ⟨⟨_, by rw [tLtVar, if_pos hk]; rfl, ?_⟩, ⟨_, by rw [tLtVar, if_pos hk.symm]; rfl, ?_⟩⟩ <;>
        rw [hx.which, hy.which] at hk ⊢ <;> rw [VTree.order_which (by first | exact hk | exact hk.symm), decide_eq_true_iff]
    · have hk' : x.which = y.which := Classical.not_not.mp hk
      rw [tLtVar, tLtVar, if_neg hk, if_neg (by simp [hk'])]
      rw [hx.which, hy.which] at hk'
      cases u with
      | leaf k' v' =>
        cases (show k = k' from hk')
        rw [VTree.Typed] at ht; rw [VTree.Typed] at hu; rw [hu] at ht; cases ht.1
      | node k' b g =>
        cases (show k = k' from hk')
        obtain ⟨p, cs, ms1, h1, h2, h3⟩ := hx.node_read
        obtain ⟨q, ds, ms2, h4, h5, h6⟩ := hy.node_read
        rw [VTree.Typed] at ht; rw [VTree.Typed] at hu
        rw [VTree.height, VTree.height] at hn
        obtain ⟨⟨c, hc, hc'⟩, ⟨d, hd, hd'⟩⟩ := tLtList_run (n := n) h3 h6 ht.2 hu.2 (by omega)
        simp only [bind, Eff.bind, h1, h2, h4, h5, hx.which, hy.which, tLtNode, VTree.which, VTree.order,
          Nat.compare_eq_eq.mpr rfl, Ordering.then]
        unfold ordOf
        cases lt k a b <;> cases lt k b a
        · exact ⟨⟨c, by simpa using hc, by simpa using hc'⟩, ⟨d, by simpa using hd, by simpa using hd'⟩⟩
        · exact ⟨⟨false, by simp; rfl, by simp⟩, ⟨true, by simp; rfl, by simp⟩⟩
        · exact ⟨⟨true, by simp; rfl, by simp⟩, ⟨false, by simp; rfl, by simp⟩⟩
        · exact ⟨⟨true, by simp; rfl, by simp⟩, ⟨true, by simp; rfl, by simp⟩⟩
theorem tLtList_run : ∀ {f g : VForest V} {xs ys : List (TVar V)} {ns ms : List ObjId} {n : Nat} {w : TyIx → Bool},
    f.Rep s.heap xs ns → g.Rep s.heap ys ms → f.Typed w → g.Typed w → min f.height g.height ≤ n →
    (∃ b, tLtList (tLtVar lt n) xs ys s = .ok b s ∧ (b = true ↔ f.order lt g = .lt)) ∧
    (∃ b, tLtList (tLtVar lt n) ys xs s = .ok b s ∧ (b = true ↔ g.order lt f = .lt))
  | .nil, .nil, xs, ys, ns, ms, n, w, hx, hy, _, _, _ => by
    rw [VForest.Rep] at hx; rw [VForest.Rep] at hy
    rw [hx.1, hy.1]
    exact ⟨⟨false, rfl, by simp [VForest.order]⟩, ⟨false, rfl, by simp [VForest.order]⟩⟩
  | .nil, .cons u g, xs, ys, ns, ms, n, w, hx, hy, _, _, _ => by
    rw [VForest.Rep] at hx; rw [VForest.Rep] at hy
    obtain ⟨y, ys, m1, m2, rfl, _⟩ := hy
    rw [hx.1]
    exact ⟨⟨true, rfl, by simp [VForest.order]⟩, ⟨false, rfl, by simp [VForest.order]⟩⟩
  | .cons t f, .nil, xs, ys, ns, ms, n, w, hx, hy, _, _, _ => by
    rw [VForest.Rep] at hx; rw [VForest.Rep] at hy
    obtain ⟨y, ys, m1, m2, rfl, _⟩ := hx
    rw [hy.1]
    exact ⟨⟨false, rfl, by simp [VForest.order]⟩, ⟨true, rfl, by simp [VForest.order]⟩⟩
  | .cons t f, .cons u g, xs, ys, ns, ms, n, w, hx, hy, hf, hg, hn => by
    rw [VForest.Rep] at hx; rw [VForest.Rep] at hy
    obtain ⟨x, xs, n1, n2, rfl, hx1, hx2, _⟩ := hx
    obtain ⟨y, ys, m1, m2, rfl, hy1, hy2, _⟩ := hy
    rw [VForest.Typed] at hf; rw [VForest.Typed] at hg
    rw [VForest.height, VForest.height] at hn
    obtain ⟨⟨b, h1, h2⟩, ⟨b', h1', h2'⟩⟩ := tLtVar_run (n := n) hx1 hy1 hf.1 hg.1 (by omega)
    obtain ⟨⟨c, h3, h4⟩, ⟨c', h3', h4'⟩⟩ := tLtList_run (n := n) hx2 hy2 hf.2 hg.2 (by omega)
    have hop := VTree.order_opposite (lt := lt) t u
    rw [tLtList, tLtList, VForest.order, VForest.order]
    simp only [bind, Eff.bind, h1, h1']
    generalize t.order lt u = o1 at h2 hop ⊢
    generalize u.order lt t = o2 at h2' hop ⊢
    cases b <;> cases b'
    · have e1 := hop.eq_of (fun h => absurd (h2.mpr h) (by simp)) (fun h => absurd (h2'.mpr h) (by simp))
      have e2 := hop.symm.eq_of (fun h => absurd (h2'.mpr h) (by simp)) (fun h => absurd (h2.mpr h) (by simp))
      subst e1 e2
      exact ⟨⟨c, by simpa [Eff.bind, h1'] using h3, by simpa [Ordering.then] using h4⟩, ⟨c', by simpa [Eff.bind, h1] using h3', by simpa [Ordering.then] using h4'⟩⟩
    · have e2 := h2'.mp rfl
      have e1 : o1 = .gt := hop.1.mpr ⟨fun h => absurd (h2.mpr h) (by simp), e2⟩
      subst e1 e2
      exact ⟨⟨false, by simp [Eff.bind, h1']; rfl, by simp [Ordering.then]⟩, ⟨true, by simp; rfl, by simp [Ordering.then]⟩⟩
    · have e1 := h2.mp rfl
      have e2 : o2 = .gt := hop.2.mpr ⟨fun h => absurd (h2'.mpr h) (by simp), e1⟩
      subst e1 e2
      exact ⟨⟨true, by simp; rfl, by simp [Ordering.then]⟩, ⟨false, by simp [Eff.bind, h1]; rfl, by simp [Ordering.then]⟩⟩
    · have e1 := h2.mp rfl
      have e2 := h2'.mp rfl
      subst e1 e2
      exact ⟨⟨true, by simp; rfl, by simp [Ordering.then]⟩, ⟨true, by simp; rfl, by simp [Ordering.then]⟩⟩
end

/-- The laws of a comparison. -/
structure LawfulOrd {α : Type} (c : α → α → Ordering) : Prop where
  swap : ∀ a b, c b a = (c a b).swap
  eqL : ∀ a b d, c a b = .eq → c a d = c b d
  trans : ∀ a b d, c a b = .lt → c b d = .lt → c a d = .lt

theorem LawfulOrd.eqR {α : Type} {c : α → α → Ordering} (h : LawfulOrd c) {a b d : α} (h' : c b d = .eq) : c a d = c a b := by
  have h1 : c d b = .eq := by rw [h.swap b d, h']; rfl
  rw [h.swap d a, h.swap b a, h.eqL d b a h1]

theorem LawfulOrd.refl {α : Type} {c : α → α → Ordering} (h : LawfulOrd c) (a : α) : c a a = .eq := by
  have := h.swap a a
  revert this; cases c a a <;> simp [Ordering.swap]

theorem ordOf_lawful {r : V → V → Bool} (h : StrictWeakOn (fun _ => True) (BRel r)) : LawfulOrd (ordOf r) := by
  have asymm : ∀ a b, r a b = true → r b a = true → False := fun a b h1 h2 => h.irrefl a trivial (h.trans a b a trivial trivial trivial h1 h2)
  have lt_iff : ∀ a b, ordOf r a b = .lt ↔ r a b = true := fun a b => by
    unfold ordOf; cases r a b <;> cases r b a <;> simp
  have eq_iff : ∀ a b, ordOf r a b = .eq ↔ r a b = false ∧ r b a = false := fun a b => by
    unfold ordOf; cases r a b <;> cases r b a <;> simp
  have inc : ∀ a b d, r a b = false → r b a = false → r b d = false → r d b = false → r a d = false ∧ r d a = false :=
    fun a b d h1 h2 h3 h4 => by
    have := h.incomp a b d trivial trivial trivial (by simp [BRel, h1]) (by simp [BRel, h2]) (by simp [BRel, h3]) (by simp [BRel, h4])
    simpa [BRel] using this
  refine ⟨fun a b => ?_, fun a b d hab => ?_, fun a b d h1 h2 => ?_⟩
  · have := asymm a b
    unfold ordOf; revert this
    cases r a b <;> cases r b a <;> simp [Ordering.swap]
  · obtain ⟨h1, h2⟩ := (eq_iff a b).mp hab
    have t1 := h.trans
    unfold ordOf
    cases had : r a d with
    | true =>
      have : r b d = true := by
        cases hbd : r b d with
        | true => rfl
        | false =>
          cases hdb : r d b with
          | true => exact absurd (h.trans a d b trivial trivial trivial had hdb) (by simp [BRel, h1])
          | false => exact absurd (inc a b d h1 h2 hbd hdb).1 (by simp [had])
      simp [this]
    | false =>
      cases hda : r d a with
      | true =>
        have e1 : r b d = false := by
          cases hbd : r b d with
          | false => rfl
          | true => exact absurd (h.trans b d a trivial trivial trivial hbd hda) (by simp [BRel, h2])
        have e2 : r d b = true := by
          cases hdb : r d b with
          | true => rfl
          | false => exact absurd (inc a b d h1 h2 e1 hdb).2 (by simp [hda])
        simp [e1, e2]
      | false =>
        obtain ⟨e1, e2⟩ := inc b a d h2 h1 had hda
        simp [e1, e2]
  · rw [lt_iff] at h1 h2 ⊢
    exact h.trans a b d trivial trivial trivial h1 h2

theorem compare_lawful : LawfulOrd (fun k k' : Nat => compare k k') := by
  refine ⟨fun a b => (Nat.compare_swap a b).symm, fun a b d h => ?_, fun a b d h1 h2 => ?_⟩
  · rw [Nat.compare_eq_eq.mp h]
  · rw [Nat.compare_eq_lt] at h1 h2 ⊢; omega

theorem then_eq_eq {a b : Ordering} : a.then b = .eq ↔ a = .eq ∧ b = .eq := by cases a <;> cases b <;> simp [Ordering.then]

theorem then_swap {a b : Ordering} : (a.then b).swap = a.swap.then b.swap := by cases a <;> cases b <;> rfl

theorem then_trans {a ab abc b bc bcd : Ordering} (h1 : a = .lt → ab = .lt → abc = .lt) (h2 : a = .eq → abc = ab) (h3 : ab = .eq → abc = a)
    (h4 : a = .eq → ab = .eq → b = .lt → bc = .lt → bcd = .lt) (h5 : a.then b = .lt) (h6 : ab.then bc = .lt) : abc.then bcd = .lt := by
  revert h1 h2 h3 h4 h5 h6
  cases a <;> cases ab <;> simp [Ordering.then] <;> intro h1 <;> simp [h1]

mutual
theorem VTree.order_swap (hs : ∀ k, StrictWeakOn (fun _ => True) (BRel (lt k))) : ∀ t u : VTree V, u.order lt t = (t.order lt u).swap
  | .leaf k a, .leaf k' b => by
    rw [VTree.order, VTree.order, then_swap, ← compare_lawful.swap k k']
    rcases Nat.lt_trichotomy k k' with h | h | h
    · rw [Nat.compare_eq_gt.mpr h]; rfl
    · subst h; rw [(ordOf_lawful (hs k)).swap]
    · rw [Nat.compare_eq_lt.mpr h]; rfl
  | .leaf k a, .node k' b g => by rw [VTree.order, VTree.order, then_swap, ← compare_lawful.swap k k']; rfl
  | .node k a f, .leaf k' b => by rw [VTree.order, VTree.order, then_swap, ← compare_lawful.swap k k']; rfl
  | .node k a f, .node k' b g => by
    rw [VTree.order, VTree.order, then_swap, then_swap, ← compare_lawful.swap k k', ← VForest.order_swap hs f g]
    rcases Nat.lt_trichotomy k k' with h | h | h
    · rw [Nat.compare_eq_gt.mpr h]; rfl
    · subst h; rw [(ordOf_lawful (hs k)).swap]
    · rw [Nat.compare_eq_lt.mpr h]; rfl
theorem VForest.order_swap (hs : ∀ k, StrictWeakOn (fun _ => True) (BRel (lt k))) : ∀ f g : VForest V, g.order lt f = (f.order lt g).swap
  | .nil, .nil => rfl
  | .nil, .cons _ _ => rfl
  | .cons _ _, .nil => rfl
  | .cons t f, .cons u g => by rw [VForest.order, VForest.order, then_swap, ← VTree.order_swap hs t u, ← VForest.order_swap hs f g]
end

mutual
theorem VTree.order_eqL (hs : ∀ k, StrictWeakOn (fun _ => True) (BRel (lt k))) : ∀ t u w : VTree V, t.order lt u = .eq → t.order lt w = u.order lt w
  | .leaf k a, .leaf k' b, w, h => by
    rw [VTree.order, then_eq_eq] at h
    cases Nat.compare_eq_eq.mp h.1
    cases w with
    | leaf k' c => rw [VTree.order, VTree.order, (ordOf_lawful (hs k)).eqL _ _ c h.2]
    | node k' c g => rfl
  | .leaf k a, .node k' b g, w, h => by rw [VTree.order, then_eq_eq] at h; cases h.2
  | .node k a f, .leaf k' b, w, h => by rw [VTree.order, then_eq_eq] at h; cases h.2
  | .node k a f, .node k' b g, w, h => by
    rw [VTree.order, then_eq_eq, then_eq_eq] at h
    cases Nat.compare_eq_eq.mp h.1
    cases w with
    | leaf k' c => rfl
    | node k' c e => rw [VTree.order, VTree.order, (ordOf_lawful (hs k)).eqL _ _ c h.2.1, VForest.order_eqL hs f g e h.2.2]
theorem VForest.order_eqL (hs : ∀ k, StrictWeakOn (fun _ => True) (BRel (lt k))) : ∀ f g e : VForest V, f.order lt g = .eq → f.order lt e = g.order lt e
  | .nil, .nil, _, _ => rfl
  | .nil, .cons _ _, _, h => by cases h
  | .cons _ _, .nil, _, h => by cases h
  | .cons t f, .cons u g, e, h => by
    rw [VForest.order, then_eq_eq] at h
    cases e with
    | nil => rfl
    | cons w e => rw [VForest.order, VForest.order, VTree.order_eqL hs t u w h.1, VForest.order_eqL hs f g e h.2]
end

theorem VTree.order_eqR (hs : ∀ k, StrictWeakOn (fun _ => True) (BRel (lt k))) {t u w : VTree V} (h : u.order lt w = .eq) : t.order lt w = t.order lt u := by
  have h1 : w.order lt u = .eq := by rw [VTree.order_swap hs u w, h]; rfl
  rw [VTree.order_swap hs w t, VTree.order_swap hs u t, VTree.order_eqL hs w u t h1]

mutual
theorem VTree.order_trans (hs : ∀ k, StrictWeakOn (fun _ => True) (BRel (lt k))) : ∀ t u w : VTree V, t.order lt u = .lt → u.order lt w = .lt → t.order lt w = .lt
  | .leaf k a, .leaf k' b, .leaf k'' c, h1, h2 => by
    rw [VTree.order] at *
    refine then_trans (compare_lawful.trans k k' k'') (fun h => compare_lawful.eqL k k' k'' h) (fun h => compare_lawful.eqR h) ?_ h1 h2
    intro e _ g1 g2
    cases Nat.compare_eq_eq.mp e
    exact (ordOf_lawful (hs k)).trans _ _ _ g1 g2
  | .leaf k a, .leaf k' b, .node k'' c g, h1, h2 => by
    rw [VTree.order] at *
    exact then_trans (compare_lawful.trans k k' k'') (fun h => compare_lawful.eqL k k' k'' h) (fun h => compare_lawful.eqR h)
      (fun _ _ _ _ => rfl) h1 h2
  | .leaf k a, .node k' b f, .leaf k'' c, h1, h2 => by
    rw [VTree.order] at *
    exact then_trans (compare_lawful.trans k k' k'') (fun h => compare_lawful.eqL k k' k'' h) (fun h => compare_lawful.eqR h)
      (fun _ _ _ h => by cases h) h1 h2
  | .leaf k a, .node k' b f, .node k'' c g, h1, h2 => by
    rw [VTree.order] at *
    exact then_trans (compare_lawful.trans k k' k'') (fun h => compare_lawful.eqL k k' k'' h) (fun h => compare_lawful.eqR h)
      (fun _ _ _ _ => rfl) h1 h2
  | .node k a f, .leaf k' b, .leaf k'' c, h1, h2 => by
    rw [VTree.order] at *
    exact then_trans (compare_lawful.trans k k' k'') (fun h => compare_lawful.eqL k k' k'' h) (fun h => compare_lawful.eqR h)
      (fun _ _ h _ => by cases h) h1 h2
  | .node k a f, .leaf k' b, .node k'' c g, h1, h2 => by
    rw [VTree.order] at *
    exact then_trans (compare_lawful.trans k k' k'') (fun h => compare_lawful.eqL k k' k'' h) (fun h => compare_lawful.eqR h)
      (fun _ _ h _ => by cases h) h1 h2
  | .node k a f, .node k' b g, .leaf k'' c, h1, h2 => by
    rw [VTree.order] at *
    exact then_trans (compare_lawful.trans k k' k'') (fun h => compare_lawful.eqL k k' k'' h) (fun h => compare_lawful.eqR h)
      (fun _ _ _ h => by cases h) h1 h2
  | .node k a f, .node k' b g, .node k'' c e, h1, h2 => by
    rw [VTree.order] at *
    refine then_trans (compare_lawful.trans k k' k'') (fun h => compare_lawful.eqL k k' k'' h) (fun h => compare_lawful.eqR h) ?_ h1 h2
    intro e1 e2 g1 g2
    cases Nat.compare_eq_eq.mp e1
    cases Nat.compare_eq_eq.mp e2
    have hL := ordOf_lawful (hs k)
    exact then_trans (hL.trans a b c) (fun h => hL.eqL a b c h) (fun h => hL.eqR h) (fun _ _ => VForest.order_trans hs f g e) g1 g2
theorem VForest.order_trans (hs : ∀ k, StrictWeakOn (fun _ => True) (BRel (lt k))) : ∀ f g e : VForest V, f.order lt g = .lt → g.order lt e = .lt → f.order lt e = .lt
  | .nil, .nil, _, h, _ => by cases h
  | .nil, .cons _ _, .nil, _, h => by cases h
  | .nil, .cons _ _, .cons _ _, _, _ => rfl
  | .cons _ _, .nil, _, h, _ => by cases h
  | .cons _ _, .cons _ _, .nil, _, h => by cases h
  | .cons t f, .cons u g, .cons w e, h1, h2 => by
    rw [VForest.order] at *
    exact then_trans (VTree.order_trans hs t u w) (fun h => VTree.order_eqL hs t u w h) (fun h => VTree.order_eqR hs h)
      (fun _ _ => VForest.order_trans hs f g e) h1 h2
end

theorem VTree.order_lawful (hs : ∀ k, StrictWeakOn (fun _ => True) (BRel (lt k))) : LawfulOrd (fun t u : VTree V => t.order lt u) :=
  ⟨VTree.order_swap hs, VTree.order_eqL hs, VTree.order_trans hs⟩

mutual
/-- Trees that are neither less nor greater are equal, if values are. -/
theorem VTree.order_eq (h : ∀ k a b, ordOf (lt k) a b = .eq ↔ eq k a b = true) : ∀ t u : VTree V, t.order lt u = .eq ↔ t.Same eq u
  | .leaf k a, .leaf k' b => by
    rw [VTree.order, then_eq_eq, Nat.compare_eq_eq]
    refine ⟨fun ⟨h1, h2⟩ => ?_, fun h' => ?_⟩
    · subst h1; exact .leaf ((h _ _ _).mp h2)
    · cases h' with | leaf h' => exact ⟨rfl, (h _ _ _).mpr h'⟩
  | .leaf k a, .node k' b g => by
    rw [VTree.order, then_eq_eq]
    exact ⟨fun h => (by cases h.2), fun h => (by cases h)⟩
  | .node k a f, .leaf k' b => by
    rw [VTree.order, then_eq_eq]
    exact ⟨fun h => (by cases h.2), fun h => (by cases h)⟩
  | .node k a f, .node k' b g => by
    rw [VTree.order, then_eq_eq, then_eq_eq, Nat.compare_eq_eq]
    refine ⟨fun ⟨h1, h2, h3⟩ => ?_, fun h' => ?_⟩
    · subst h1; exact .node ((h _ _ _).mp h2) ((VForest.order_eq h f g).mp h3)
    · cases h' with | node h1 h2 => exact ⟨rfl, (h _ _ _).mpr h1, (VForest.order_eq h f g).mpr h2⟩
theorem VForest.order_eq (h : ∀ k a b, ordOf (lt k) a b = .eq ↔ eq k a b = true) : ∀ f g : VForest V, f.order lt g = .eq ↔ f.Same eq g
  | .nil, .nil => ⟨fun _ => .nil, fun _ => rfl⟩
  | .nil, .cons _ _ => ⟨fun h => (by cases h), fun h => (by cases h)⟩
  | .cons _ _, .nil => ⟨fun h => (by cases h), fun h => (by cases h)⟩
  | .cons t f, .cons u g => by
    rw [VForest.order, then_eq_eq]
    refine ⟨fun ⟨h1, h2⟩ => .cons ((VTree.order_eq h t u).mp h1) ((VForest.order_eq h f g).mp h2), fun h' => ?_⟩
    cases h' with | cons h1 h2 => exact ⟨(VTree.order_eq h t u).mpr h1, (VForest.order_eq h f g).mpr h2⟩
end

/-! ### Hashing and streaming -/

section
variable {H S : Type} {h : TyIx → V → H} {hn : TyIx → V → List H → H} {combine : H → TyIx → H} {P : Printer V S}

mutual
theorem tHashVar_run : ∀ {t : VTree V} {x : TVar V} {ns : List ObjId} {n : Nat}, t.Rep s.heap x ns → t.height ≤ n →
    tHashVar h hn combine n x s = .ok (t.hash h hn combine) s
  | t, x, ns, 0, _, hh => by have h1 : 1 ≤ t.height := by { cases t <;> simp [VTree.height] }; omega
  | .leaf k v, x, ns, n + 1, hr, _ => by
    rw [tHashVar]
    simp only [bind, Eff.bind, hr.leaf_read, hr.which]; rfl
  | .node k a f, x, ns, n + 1, hr, hh => by
    obtain ⟨p, cs, ms, h1, h2, h3⟩ := hr.node_read
    rw [VTree.height] at hh
    rw [tHashVar]
    simp only [bind, Eff.bind, h1, h2, tHashList_run h3 (by omega : f.height ≤ n), hr.which]; rfl
theorem tHashList_run : ∀ {f : VForest V} {xs : List (TVar V)} {ns : List ObjId} {n : Nat}, f.Rep s.heap xs ns → f.height ≤ n →
    tHashList (tHashVar h hn combine n) xs s = .ok (f.hashes h hn combine) s
  | .nil, xs, ns, n, hr, _ => by rw [VForest.Rep] at hr; rw [hr.1]; rfl
  | .cons t f, xs, ns, n, hr, hh => by
    rw [VForest.Rep] at hr
    obtain ⟨y, ys, m1, m2, rfl, h1, h2, _⟩ := hr
    rw [VForest.height] at hh
    rw [tHashList]
    simp only [bind, Eff.bind, tHashVar_run h1 (by omega : t.height ≤ n), tHashList_run h2 (by omega : f.height ≤ n)]; rfl
end

mutual
theorem VTree.Same.hash (h1 : ∀ k a b, eq k a b = true → h k a = h k b) (h2 : ∀ k a b hs, eq k a b = true → hn k a hs = hn k b hs) :
    ∀ {t u : VTree V}, t.Same eq u → t.hash h hn combine = u.hash h hn combine
  | _, _, .leaf e => by rw [VTree.hash, VTree.hash, h1 _ _ _ e]
  | _, _, .node e e' => by rw [VTree.hash, VTree.hash, h2 _ _ _ _ e, VForest.Same.hashes h1 h2 e']
theorem VForest.Same.hashes (h1 : ∀ k a b, eq k a b = true → h k a = h k b)
    (h2 : ∀ k a b hs, eq k a b = true → hn k a hs = hn k b hs) :
    ∀ {f g : VForest V}, f.Same eq g → f.hashes h hn combine = g.hashes h hn combine
  | _, _, .nil => rfl
  | _, _, .cons e e' => by rw [VForest.hashes, VForest.hashes, VTree.Same.hash h1 h2 e, VForest.Same.hashes h1 h2 e']
end

mutual
theorem tPrintVar_run : ∀ {t : VTree V} {x : TVar V} {ns : List ObjId} {n : Nat} {out : S}, t.Rep s.heap x ns → t.height ≤ n →
    tPrintVar P n x out s = .ok (t.print P out) s
  | t, x, ns, 0, out, _, hh => by have h1 : 1 ≤ t.height := by { cases t <;> simp [VTree.height] }; omega
  | .leaf k v, x, ns, n + 1, out, hr, _ => by
    rw [tPrintVar]
    simp only [bind, Eff.bind, hr.leaf_read, hr.which]; rfl
  | .node k a f, x, ns, n + 1, out, hr, hh => by
    obtain ⟨p, cs, ms, h1, h2, h3⟩ := hr.node_read
    rw [VTree.height] at hh
    rw [tPrintVar]
    simp only [bind, Eff.bind, h1, h2, tPrintList_run h3 (by omega : f.height ≤ n), hr.which]; rfl
theorem tPrintList_run : ∀ {f : VForest V} {xs : List (TVar V)} {ns : List ObjId} {n : Nat} {out : S}, f.Rep s.heap xs ns → f.height ≤ n →
    tPrintList (tPrintVar P n) xs out s = .ok (f.print P out) s
  | .nil, xs, ns, n, out, hr, _ => by rw [VForest.Rep] at hr; rw [hr.1]; rfl
  | .cons t f, xs, ns, n, out, hr, hh => by
    rw [VForest.Rep] at hr
    obtain ⟨y, ys, m1, m2, rfl, h1, h2, _⟩ := hr
    rw [VForest.height] at hh
    rw [tPrintList]
    simp only [bind, Eff.bind, tPrintVar_run h1 (by omega : t.height ≤ n), tPrintList_run h2 (by omega : f.height ≤ n)]; rfl
end

end

end

end BVariant
