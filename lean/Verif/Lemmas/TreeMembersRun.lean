/-
The numbers of members, heights and types of trees along programs with assignment member by member (C79).
-/
import Verif.Lemmas.TreeMembers

namespace BVariant

section
variable {V : Type} {C : TreeCfg V} {σ σ' : TStore V} {w : TyIx → Bool} {m : Nat} {x t : TPlace} {mw : TyIx → Bool} {ar : TyIx → Nat}

theorem VForest.size_set : ∀ (f : VForest V) (i : Nat) (t : VTree V), (f.set i t).size = f.size
  | .nil, _, _ => rfl
  | .cons _ _, 0, _ => rfl
  | .cons _ f, i + 1, t => by rw [VForest.set, VForest.size, VForest.size, VForest.size_set f i t]

theorem VForest.size_movedFrom : ∀ f : VForest V, (f.movedFrom C).size = f.size
  | .nil => rfl
  | .cons t f => by rw [VForest.movedFrom, VForest.size, VForest.size, VForest.size_movedFrom f]

theorem VForest.get_members : ∀ {f : VForest V} {i : Nat} {t : VTree V}, f.get i = some t → f.Members mw ar → t.Members mw ar
  | .nil, _, _, h, _ => by cases h
  | .cons _ _, 0, _, h, hm => by cases h; rw [VForest.Members] at hm; exact hm.1
  | .cons _ f, i + 1, _, h, hm => by rw [VForest.Members] at hm; exact VForest.get_members (f := f) (i := i) h hm.2

theorem VForest.set_members : ∀ {f : VForest V} {i : Nat} {t : VTree V}, f.Members mw ar → t.Members mw ar → (f.set i t).Members mw ar
  | .nil, _, _, h, _ => h
  | .cons _ _, 0, _, h, ht => by rw [VForest.Members] at h; rw [VForest.set, VForest.Members]; exact ⟨ht, h.2⟩
  | .cons _ f, i + 1, _, h, ht => by
    rw [VForest.Members] at h; rw [VForest.set, VForest.Members]; exact ⟨h.1, VForest.set_members h.2 ht⟩

theorem VTree.sub_members : ∀ {is : List Nat} {t u : VTree V}, t.sub is = some u → t.Members mw ar → u.Members mw ar
  | [], t, u, h, hm => by rw [VTree.sub_nil] at h; cases h; exact hm
  | i :: is, .leaf _ _, u, h, hm => by cases h
  | i :: is, .node k a f, u, h, hm => by
    rw [VTree.Members] at hm
    rw [VTree.sub] at h
    cases hf : f.get i with
    | none => rw [hf] at h; cases h
    | some t => rw [hf] at h; exact VTree.sub_members h (VForest.get_members hf hm.2)

theorem VTree.put_members : ∀ {is : List Nat} {t u : VTree V}, t.Members mw ar → u.Members mw ar → (t.put is u).Members mw ar
  | [], t, u, _, hu => by rw [VTree.put_nil]; exact hu
  | i :: is, .leaf _ _, u, ht, _ => ht
  | i :: is, .node k a f, u, ht, hu => by
    rw [VTree.put]
    cases hf : f.get i with
    | none => exact ht
    | some t =>
      rw [VTree.Members] at ht
      have h1 : (f.set i (t.put is u)).Members mw ar := VForest.set_members ht.2 (VTree.put_members (VForest.get_members hf ht.2) hu)
      simp only [VTree.Members]
      exact ⟨fun h => by rw [VForest.size_set]; exact ht.1 h, h1⟩

theorem VTree.store_members {v : V} {t : VTree V} (h : t.Members mw ar) : (t.store v).Members mw ar := by
  cases t with
  | leaf => exact h
  | node => rw [VTree.Members] at h; rw [VTree.store, VTree.Members]; exact h

mutual
theorem VTree.movedFrom_members (hst : ∀ k, mw k = true → C.steals k = false) : ∀ {t : VTree V}, t.Members mw ar → (t.movedFrom C).Members mw ar
  | .leaf _ _, h => by rw [VTree.movedFrom, VTree.Members]; trivial
  | .node k a f, h => by
    rw [VTree.Members] at h
    rw [VTree.movedFrom, VTree.Members]
    by_cases hk : C.steals k = true
    · rw [if_pos hk]
      exact ⟨fun h1 => (by rw [hst k h1] at hk; cases hk), by rw [VForest.Members]; trivial⟩
    · rw [if_neg hk]
      exact ⟨fun h1 => by rw [VForest.size_movedFrom]; exact h.1 h1, VForest.movedFrom_members hst h.2⟩
theorem VForest.movedFrom_members (hst : ∀ k, mw k = true → C.steals k = false) : ∀ {f : VForest V}, f.Members mw ar → (f.movedFrom C).Members mw ar
  | .nil, h => h
  | .cons t f, h => by
    rw [VForest.Members] at h
    rw [VForest.movedFrom, VForest.Members]
    exact ⟨VTree.movedFrom_members hst h.1, VForest.movedFrom_members hst h.2⟩
end

mutual
theorem VTree.Partly.members_ (hst : ∀ k, mw k = true → C.steals k = false) : ∀ {t t' : VTree V}, t.Partly C t' → t.Members mw ar → t'.Members mw ar
  | _, _, .same _, h => h
  | _, _, .leaf _ _, _ => by rw [VTree.Members]; trivial
  | _, _, .value _ _ _, h => by rw [VTree.Members] at h ⊢; exact h
  | _, _, .members _ _ hp, h => by
    rw [VTree.Members] at h ⊢
    obtain ⟨h1, h2⟩ := VForest.Partly.members_ hst hp h.2
    exact ⟨fun hk => by rw [h1]; exact h.1 hk, h2⟩
theorem VForest.Partly.members_ (hst : ∀ k, mw k = true → C.steals k = false) : ∀ {f f' : VForest V}, f.Partly C f' → f.Members mw ar →
    f'.size = f.size ∧ f'.Members mw ar
  | _, _, .here _ hp, h => by
    rw [VForest.Members] at h
    rw [VForest.size, VForest.size, VForest.Members]
    exact ⟨rfl, VTree.Partly.members_ hst hp h.1, h.2⟩
  | _, _, .there _ hp, h => by
    rw [VForest.Members] at h
    rw [VForest.size, VForest.size, VForest.Members]
    obtain ⟨h1, h2⟩ := VForest.Partly.members_ hst hp h.2
    exact ⟨by rw [h1], VTree.movedFrom_members hst h.1, h2⟩
end

mutual
theorem VTree.Half.members_ : ∀ {t u r : VTree V}, t.Half C mw u r → t.Members mw ar → u.Members mw ar → r.Members mw ar
  | _, _, _, .same _ _, h, _ => h
  | _, _, _, .fallback _ _, _, _ => by rw [VTree.Members]; trivial
  | _, _, _, .plain _ _ _, h, _ => by rw [VTree.Members]; trivial
  | _, _, _, .value _ _ _ _ _ _, h, _ => by rw [VTree.Members] at h ⊢; exact h
  | _, _, _, .members _ _ _ _ hp, h, hu => by
    rw [VTree.Members] at h hu ⊢
    obtain ⟨h1, h2⟩ := VForest.Half.members_ hp h.2 hu.2
    exact ⟨fun hk => by rw [h1]; exact h.1 hk, h2⟩
theorem VForest.Half.members_ : ∀ {f g r : VForest V}, f.Half C mw g r → f.Members mw ar → g.Members mw ar → r.size = f.size ∧ r.Members mw ar
  | _, _, _, .here _ _ hp, h, hu => by
    rw [VForest.Members] at h hu ⊢
    rw [VForest.size, VForest.size]
    exact ⟨rfl, VTree.Half.members_ hp h.1 hu.1, h.2⟩
  | _, _, _, .there _ _ hp, h, hu => by
    rw [VForest.Members] at h hu ⊢
    rw [VForest.size, VForest.size]
    obtain ⟨h1, h2⟩ := VForest.Half.members_ hp h.2 hu.2
    exact ⟨by rw [h1], hu.1, h2⟩
end

mutual
theorem VTree.Half.height : ∀ {t u r : VTree V}, t.Half C mw u r → r.height ≤ max t.height u.height
  | _, _, _, .same _ _ => by omega
  | t, _, _, .fallback _ _ => by have := VTree.height_pos t; rw [VTree.height]; omega
  | _, _, _, .plain _ _ _ => by simp only [VTree.height]; omega
  | _, _, _, .value _ _ _ _ _ _ => by simp only [VTree.height]; omega
  | _, _, _, .members _ _ _ _ hp => by have := VForest.Half.height hp; simp only [VTree.height]; omega
theorem VForest.Half.height : ∀ {f g r : VForest V}, f.Half C mw g r → r.height ≤ max f.height g.height
  | _, _, _, .here _ _ hp => by have := VTree.Half.height hp; simp only [VForest.height]; omega
  | _, _, _, .there _ _ hp => by have := VForest.Half.height hp; simp only [VForest.height]; omega
end

mutual
theorem VTree.Half.typed (hfb : ∀ fb, C.fallback = some fb → C.wrapped fb = false) : ∀ {t u r : VTree V}, t.Half C mw u r →
    t.Typed C.wrapped → u.Typed C.wrapped → r.Typed C.wrapped
  | _, _, _, .same _ _, h, _ => h
  | _, _, _, .fallback _ hf, _, _ => by rw [VTree.Typed]; exact hfb _ hf
  | _, _, _, .plain _ _ _, h, _ => by rw [VTree.Typed] at h ⊢; exact h
  | _, _, _, .value _ _ _ _ _ _, h, _ => by rw [VTree.Typed] at h ⊢; exact h
  | _, _, _, .members _ _ _ _ hp, h, hu => by
    rw [VTree.Typed] at h hu ⊢
    exact ⟨h.1, VForest.Half.typed hfb hp h.2 hu.2⟩
theorem VForest.Half.typed (hfb : ∀ fb, C.fallback = some fb → C.wrapped fb = false) : ∀ {f g r : VForest V}, f.Half C mw g r →
    f.Typed C.wrapped → g.Typed C.wrapped → r.Typed C.wrapped
  | _, _, _, .here _ _ hp, h, hu => by
    rw [VForest.Typed] at h hu ⊢
    exact ⟨VTree.Half.typed hfb hp h.1 hu.1, h.2⟩
  | _, _, _, .there _ _ hp, h, hu => by
    rw [VForest.Typed] at h hu ⊢
    exact ⟨hu.1, VForest.Half.typed hfb hp h.2 hu.2⟩
end

/-! ### Stores -/

theorem TStore.Members.at {u : VTree V} (h : σ.Members mw ar) (ht : σ.at t = some u) : u.Members mw ar := by
  unfold TStore.at at ht
  cases hv : σ t.var with
  | none => rw [hv] at ht; cases ht
  | some T => rw [hv] at ht; exact VTree.sub_members ht (h _ _ hv)

theorem TStore.Members.put {u : VTree V} (h : σ.Members mw ar) (hu : u.Members mw ar) : (σ.put x u).Members mw ar := by
  intro y T hy
  unfold TStore.put at hy
  by_cases hyx : y = x.var
  · subst hyx
    rw [upd_same] at hy
    cases hv : σ x.var with
    | none => rw [hv] at hy; cases hy
    | some T0 => rw [hv] at hy; cases hy; exact VTree.put_members (h _ _ hv) hu
  · rw [upd_ne _ _ hyx] at hy; exact h _ _ hy

theorem TStore.Members.upd {u : VTree V} {x : Nat} (h : σ.Members mw ar) (hu : u.Members mw ar) :
    TStore.Members mw ar (BVariant.upd σ x (some u)) := by
  intro y T hy
  by_cases hyx : y = x
  · subst hyx; rw [upd_same] at hy; cases hy; exact hu
  · rw [upd_ne _ _ hyx] at hy; exact h _ _ hy

theorem TStore.Members.del {x : Nat} (h : σ.Members mw ar) : TStore.Members mw ar (BVariant.upd σ x none) := by
  intro y T hy
  by_cases hyx : y = x
  · subst hyx; rw [upd_same] at hy; cases hy
  · rw [upd_ne _ _ hyx] at hy; exact h _ _ hy

theorem TStore.Members.all (h : σ.Members mw ar) : ∀ {ts : List TPlace} {f : VForest V}, σ.all ts = some f → f.Members mw ar ∧ f.size = ts.length
  | [], f, hf => by cases hf; exact ⟨by rw [VForest.Members]; trivial, rfl⟩
  | t :: ts, f, hf => by
    unfold TStore.all at hf
    cases h1 : σ.at t with
    | none => simp [h1] at hf
    | some u =>
      cases h2 : σ.all ts with
      | none => simp [h1, h2] at hf
      | some g =>
        simp only [h1, h2] at hf
        cases hf
        obtain ⟨h3, h4⟩ := TStore.Members.all h h2
        exact ⟨by rw [VForest.Members]; exact ⟨h.at h1, h3⟩, by rw [VForest.size, h4]; rfl⟩

theorem VTree.leaf_members {k : TyIx} {v : V} : (VTree.leaf k v).Members mw ar := by rw [VTree.Members]; trivial

theorem TOk.members {c : TCmd V} (hst : ∀ k, mw k = true → C.steals k = false) (h : σ.Members mw ar) (hb : c.Builds mw ar) (ho : TOk C c σ σ') :
    σ'.Members mw ar := by
  cases ho with
  | leaf => exact h.upd VTree.leaf_members
  | node hf =>
    obtain ⟨h3, h4⟩ := h.all hf
    exact h.upd (by rw [VTree.Members]; exact ⟨fun hk => by rw [h4]; exact hb hk, h3⟩)
  | copy hu => exact h.upd (h.at hu)
  | move hu => exact (h.put (VTree.movedFrom_members hst (h.at hu))).upd (h.at hu)
  | assign hu => exact h.put (h.at hu)
  | moved _ hu => exact (h.put (h.at hu)).put (VTree.movedFrom_members hst (h.at hu))
  | copied _ hu => exact h.put (h.at hu)
  | swapped hx hu => exact (h.put (h.at hu)).put (h.at hx)
  | plain => exact (h.put VTree.leaf_members).put VTree.leaf_members
  | self => exact h.put VTree.leaf_members
  | swap hx hu => exact (h.put (h.at hu)).put (h.at hx)
  | store hx => exact h.put (VTree.store_members (h.at hx))
  | destroy => exact h.del

theorem TExc.members {c : TCmd V} (hst : ∀ k, mw k = true → C.steals k = false) (h : σ.Members mw ar) (ho : TExc C c σ σ') : σ'.Members mw ar := by
  cases ho with
  | same => exact h
  | fallback => exact h.put VTree.leaf_members
  | plain => exact h.put VTree.leaf_members
  | move hu hp => exact h.put (hp.members_ hst (h.at hu))
  | moveFallback _ hu hp => exact (h.put VTree.leaf_members).put (hp.members_ hst (h.at hu))
  | movePlain => exact TStore.Members.put (h.put VTree.leaf_members) VTree.leaf_members
  | moveSelf => exact h.put VTree.leaf_members
  | swapSelf hx => exact h.put (VTree.store_members (h.at hx))
  | swapValues _ hx hu => exact TStore.Members.put (h.put (VTree.store_members (h.at hx))) (VTree.store_members (h.at hu))
  | swapFirst _ hu _ hp => exact h.put (hp.members_ hst (h.at hu))
  | swapSecond hx hu _ hp hw =>
    refine (h.put (hp.members_ hst (h.at hx))).put ?_
    rcases hw with ⟨_, rfl⟩ | ⟨_, _, rfl⟩
    · exact VTree.movedFrom_members hst (h.at hu)
    · exact VTree.leaf_members
  | swapThird hx hu _ hw =>
    refine (h.put ?_).put (h.at hx)
    rcases hw with ⟨_, rfl⟩ | ⟨_, rfl⟩ | ⟨_, _, rfl⟩
    · exact VTree.movedFrom_members hst (h.at hx)
    · exact h.at hx
    · exact VTree.leaf_members

theorem TExcBy.members {c : TCmd V} (hst : ∀ k, mw k = true → C.steals k = false) (h : σ.Members mw ar) (ho : TExcBy C mw c σ σ') :
    σ'.Members mw ar := by
  cases ho with
  | assign hx ht hw => exact h.put (hw.members_ (h.at hx) (h.at ht))
  | other _ ho => exact ho.members hst h

theorem TExcBy.bound {c : TCmd V} (hm : 1 ≤ m) (hfb : ∀ fb, C.fallback = some fb → C.wrapped fb = false)
    (h : σ.Bound C.wrapped m) (hv : σ.Valid C c) (ho : TExcBy C mw c σ σ') : σ'.Bound C.wrapped (2 * m) := by
  cases ho with
  | assign hx ht hw =>
    obtain ⟨h1, h2⟩ := h.at hx
    obtain ⟨h3, h4⟩ := h.at ht
    have := hw.height
    exact (h.mono (by omega : m ≤ 2 * m)).put (by omega) (hw.typed hfb h2 h4)
  | other _ ho => exact ho.bound hm hfb h hv

end

end BVariant
