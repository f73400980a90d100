/-
Stores of recursive variants as plain values: heights and types; and that annotated trees have them as their values.
-/
import Verif.Lemmas.TreeAssign

namespace BVariant

section
variable {V : Type} {C : TreeCfg V} {σ σ' : TStore V} {w : TyIx → Bool} {m : Nat} {x t : TPlace}

/-! ### Trees -/

theorem VTree.height_pos (t : VTree V) : 1 ≤ t.height := by cases t <;> simp [VTree.height]

theorem VForest.get_height : ∀ {f : VForest V} {i : Nat} {t : VTree V}, f.get i = some t → t.height ≤ f.height
  | .nil, i, t, hg => by simp [VForest.get] at hg
  | .cons u f, 0, t, hg => by simp only [VForest.get, Option.some.injEq] at hg; subst hg; rw [VForest.height]; omega
  | .cons u f, i + 1, t, hg => by
    rw [VForest.get] at hg
    have := VForest.get_height hg
    rw [VForest.height]; omega

theorem VForest.get_typed : ∀ {f : VForest V} {i : Nat} {t : VTree V}, f.get i = some t → f.Typed w → t.Typed w
  | .nil, i, t, hg, _ => by simp [VForest.get] at hg
  | .cons u f, 0, t, hg, hf => by
    simp only [VForest.get, Option.some.injEq] at hg; subst hg; rw [VForest.Typed] at hf; exact hf.1
  | .cons u f, i + 1, t, hg, hf => by
    rw [VForest.get] at hg
    rw [VForest.Typed] at hf
    exact VForest.get_typed hg hf.2

theorem VForest.set_height : ∀ (f : VForest V) (i : Nat) (t : VTree V), (f.set i t).height ≤ max f.height t.height
  | .nil, i, t => Nat.zero_le _
  | .cons u f, 0, t => by simp only [VForest.set, VForest.height]; omega
  | .cons u f, i + 1, t => by
    have := VForest.set_height f i t
    simp only [VForest.set, VForest.height]; omega

theorem VForest.set_typed : ∀ {f : VForest V} {i : Nat} {t : VTree V}, f.Typed w → t.Typed w → (f.set i t).Typed w
  | .nil, i, t, _, _ => trivial
  | .cons u f, 0, t, hf, ht => by rw [VForest.Typed] at hf; rw [VForest.set, VForest.Typed]; exact ⟨ht, hf.2⟩
  | .cons u f, i + 1, t, hf, ht => by
    rw [VForest.Typed] at hf; rw [VForest.set, VForest.Typed]; exact ⟨hf.1, VForest.set_typed hf.2 ht⟩

theorem VForest.set_same : ∀ {f : VForest V} {i : Nat} {t : VTree V}, f.get i = some t → f.set i t = f
  | .nil, i, t, hg => rfl
  | .cons u f, 0, t, hg => by simp only [VForest.get, Option.some.injEq] at hg; subst hg; rfl
  | .cons u f, i + 1, t, hg => by rw [VForest.get] at hg; rw [VForest.set, VForest.set_same hg]

theorem VTree.sub_nil (t : VTree V) : t.sub [] = some t := by cases t <;> rfl

theorem VTree.put_nil (t u : VTree V) : t.put [] u = u := by cases t <;> rfl

theorem VTree.sub_height : ∀ {is : List Nat} {t u : VTree V}, t.sub is = some u → is.length + u.height ≤ t.height
  | [], t, u, h => by rw [VTree.sub_nil] at h; cases h; simp
  | i :: is, .leaf k v, u, h => by simp [VTree.sub] at h
  | i :: is, .node k a f, u, h => by
    rw [VTree.sub] at h
    cases hg : f.get i with
    | none => rw [hg] at h; cases h
    | some t =>
      rw [hg] at h
      have h1 := VTree.sub_height h
      have h2 := VForest.get_height hg
      rw [VTree.height, List.length_cons]; omega

theorem VTree.sub_typed : ∀ {is : List Nat} {t u : VTree V}, t.sub is = some u → t.Typed w → u.Typed w
  | [], t, u, h, ht => by rw [VTree.sub_nil] at h; cases h; exact ht
  | i :: is, .leaf k v, u, h, _ => by simp [VTree.sub] at h
  | i :: is, .node k a f, u, h, ht => by
    rw [VTree.sub] at h
    rw [VTree.Typed] at ht
    cases hg : f.get i with
    | none => rw [hg] at h; cases h
    | some t => rw [hg] at h; exact VTree.sub_typed h (VForest.get_typed hg ht.2)

theorem VTree.put_height : ∀ (is : List Nat) (t u : VTree V), (t.put is u).height ≤ max t.height (is.length + u.height)
  | [], t, u => by rw [VTree.put_nil]; simp; omega
  | i :: is, .leaf k v, u => by rw [VTree.put]; omega
  | i :: is, .node k a f, u => by
    rw [VTree.put]
    cases hg : f.get i with
    | none => simp only; omega
    | some t =>
      simp only
      have h1 := VTree.put_height is t u
      have h2 := VForest.get_height hg
      have h3 := VForest.set_height f i (t.put is u)
      rw [VTree.height, VTree.height, List.length_cons]; omega

theorem VTree.put_typed : ∀ {is : List Nat} {t u : VTree V}, t.Typed w → u.Typed w → (t.put is u).Typed w
  | [], t, u, ht, hu => by rw [VTree.put_nil]; exact hu
  | i :: is, .leaf k v, u, ht, hu => by rw [VTree.put]; exact ht
  | i :: is, .node k a f, u, ht, hu => by
    rw [VTree.put]
    cases hg : f.get i with
    | none => exact ht
    | some t =>
      simp only
      rw [VTree.Typed] at ht ⊢
      exact ⟨ht.1, VForest.set_typed ht.2 (VTree.put_typed (VForest.get_typed hg ht.2) hu)⟩

theorem VTree.put_same : ∀ {is : List Nat} {t u : VTree V}, t.sub is = some u → t.put is u = t
  | [], t, u, h => by rw [VTree.sub_nil] at h; cases h; rw [VTree.put_nil]
  | i :: is, .leaf k v, u, h => rfl
  | i :: is, .node k a f, u, h => by
    rw [VTree.sub] at h
    rw [VTree.put]
    cases hg : f.get i with
    | none => rfl
    | some t => rw [hg] at h; simp only [VTree.put_same h, VForest.set_same hg]

theorem VTree.store_height (v : V) (t : VTree V) : (t.store v).height = t.height := by cases t <;> rfl

theorem VTree.store_typed {v : V} {t : VTree V} (h : t.Typed w) : (t.store v).Typed w := by cases t <;> exact h

/-! ### Stores -/

theorem TStore.put_same {u : VTree V} (h : σ.at x = some u) : σ.put x u = σ := by
  unfold TStore.at at h
  unfold TStore.put
  cases hx : σ x.var with
  | none => rw [hx] at h; cases h
  | some T => rw [hx] at h; rw [Option.map_some, VTree.put_same h]; exact upd_eq hx

theorem TStore.Bound.mono {m' : Nat} (h : σ.Bound w m) (hm : m ≤ m') : σ.Bound w m' :=
  fun x u hx => ⟨Nat.le_trans (h x u hx).1 hm, (h x u hx).2⟩

theorem TStore.Bound.at {u : VTree V} (h : σ.Bound w m) (ht : σ.at t = some u) : t.path.length + u.height ≤ m ∧ u.Typed w := by
  unfold TStore.at at ht
  cases hx : σ t.var with
  | none => rw [hx] at ht; cases ht
  | some T =>
    rw [hx] at ht
    exact ⟨Nat.le_trans (VTree.sub_height ht) (h _ _ hx).1, VTree.sub_typed ht (h _ _ hx).2⟩

theorem TStore.Bound.put {u : VTree V} (h : σ.Bound w m) (hm : x.path.length + u.height ≤ m) (hu : u.Typed w) : (σ.put x u).Bound w m := by
  intro z T hz
  unfold TStore.put at hz
  by_cases hzx : z = x.var
  · subst hzx
    rw [upd_same] at hz
    cases hx : σ x.var with
    | none => rw [hx] at hz; cases hz
    | some T0 =>
      rw [hx] at hz; cases hz
      have := VTree.put_height x.path T0 u
      exact ⟨by have := (h _ _ hx).1; show (T0.put x.path u).height ≤ m; omega, VTree.put_typed (h _ _ hx).2 hu⟩
  · simp only [upd, hzx, if_false] at hz; exact h z T hz

theorem TStore.Bound.upd {u : VTree V} {x : Nat} (h : σ.Bound w m) (hm : u.height ≤ m) (hu : u.Typed w) :
    TStore.Bound w m (BVariant.upd σ x (some u)) := by
  intro z T hz
  by_cases hzx : z = x
  · subst hzx; rw [upd_same] at hz; cases hz; exact ⟨hm, hu⟩
  · simp only [BVariant.upd, hzx, if_false] at hz; exact h z T hz

theorem TStore.Bound.del {x : Nat} (h : σ.Bound w m) : TStore.Bound w m (BVariant.upd σ x none) := by
  intro z T hz
  by_cases hzx : z = x
  · subst hzx; rw [upd_same] at hz; cases hz
  · simp only [BVariant.upd, hzx, if_false] at hz; exact h z T hz

theorem TStore.Bound.all (h : σ.Bound w m) : ∀ {ts : List TPlace} {f : VForest V}, σ.all ts = some f → f.height ≤ m ∧ f.Typed w
  | [], f, hf => by cases hf; exact ⟨Nat.zero_le _, trivial⟩
  | t :: ts, f, hf => by
    rw [TStore.all] at hf
    cases h1 : σ.at t with
    | none => rw [h1] at hf; cases hf
    | some u =>
      cases h2 : σ.all ts with
      | none => rw [h1, h2] at hf; cases hf
      | some g =>
        rw [h1, h2] at hf; cases hf
        have h3 := h.at h1
        have h4 := h.all h2
        exact ⟨by rw [VForest.height]; omega, by rw [VForest.Typed]; exact ⟨h3.2, h4.2⟩⟩

theorem at_of_ne (h : σ.at t ≠ none) : ∃ u, σ.at t = some u := by
  cases hu : σ.at t with
  | none => exact absurd hu h
  | some u => exact ⟨u, rfl⟩

/-- The bound after a statement that succeeds. -/
theorem TOk.bound {c : TCmd V} (hm : 1 ≤ m) (h : σ.Bound C.wrapped m) (hv : σ.Valid C c) (ho : TOk C c σ σ') :
    σ'.Bound C.wrapped (2 * m) := by
  have h2 : σ.Bound C.wrapped (2 * m) := h.mono (by omega)
  cases ho with
  | leaf => exact h2.upd (by rw [VTree.height]; omega) hv.2
  | node hf =>
    obtain ⟨h3, h4⟩ := h.all hf
    exact h2.upd (by rw [VTree.height]; omega) (by rw [VTree.Typed]; exact ⟨hv.2.1, h4⟩)
  | copy hu => obtain ⟨h3, h4⟩ := h.at hu; exact h2.upd (by omega) h4
  | @move x t u _ hu =>
    obtain ⟨h3, h4⟩ := h.at hu
    have := VTree.height_movedFrom (C := C) u
    exact (h2.put (by omega) (VTree.typed_movedFrom h4)).upd (by omega) h4
  | assign hu =>
    obtain ⟨h3, h4⟩ := h.at hu
    obtain ⟨u0, hx⟩ := at_of_ne hv.1
    obtain ⟨h5, h6⟩ := h.at hx
    exact h2.put (by omega) h4
  | @moved x t u _ _ hu =>
    obtain ⟨h3, h4⟩ := h.at hu
    obtain ⟨u0, hx⟩ := at_of_ne hv.1
    obtain ⟨h5, h6⟩ := h.at hx
    have := VTree.height_movedFrom (C := C) u
    exact (h2.put (by omega) h4).put (by omega) (VTree.typed_movedFrom h4)
  | copied _ hu =>
    obtain ⟨h3, h4⟩ := h.at hu
    obtain ⟨u0, hx⟩ := at_of_ne hv.1
    obtain ⟨h5, h6⟩ := h.at hx
    exact h2.put (by omega) h4
  | swapped hx hu =>
    obtain ⟨h3, h4⟩ := h.at hu
    obtain ⟨h5, h6⟩ := h.at hx
    exact (h2.put (by omega) h4).put (by omega) h6
  | plain _ hx hu =>
    obtain ⟨h3, h4⟩ := h.at hu
    obtain ⟨h5, h6⟩ := h.at hx
    rw [VTree.height] at h3 h5
    exact (h2.put (by rw [VTree.height]; omega) h4).put (by rw [VTree.height]; omega) h6
  | self hx =>
    obtain ⟨h5, h6⟩ := h.at hx
    rw [VTree.height] at h5
    exact h2.put (by rw [VTree.height]; omega) h6
  | swap hx hu =>
    obtain ⟨h3, h4⟩ := h.at hu
    obtain ⟨h5, h6⟩ := h.at hx
    exact (h2.put (by omega) h4).put (by omega) h6
  | @store x v u _ hx =>
    obtain ⟨h5, h6⟩ := h.at hx
    cases u with
    | leaf => exact h2.put (by rw [VTree.store, VTree.height]; rw [VTree.height] at h5; omega) h6
    | node => exact h2.put (by rw [VTree.store, VTree.height]; rw [VTree.height] at h5; omega) h6
  | destroy => exact h2.del

/-- The bound after a statement that fails. -/
theorem TExc.bound {c : TCmd V} (hm : 1 ≤ m) (hfb : ∀ fb, C.fallback = some fb → C.wrapped fb = false)
    (h : σ.Bound C.wrapped m) (hv : σ.Valid C c) (ho : TExc C c σ σ') : σ'.Bound C.wrapped (2 * m) := by
  have h2 : σ.Bound C.wrapped (2 * m) := h.mono (by omega)
  cases ho with
  | same => exact h2
  | fallback hf =>
    obtain ⟨u0, hx⟩ := at_of_ne hv.1
    obtain ⟨h5, h6⟩ := h.at hx
    exact h2.put (by rw [VTree.height]; omega) (by rw [VTree.Typed]; exact hfb _ hf)
  | plain hx ht =>
    obtain ⟨h5, h6⟩ := h.at hx
    rw [VTree.height] at h5
    exact h2.put (by rw [VTree.height]; omega) h6
  | move hu hp =>
    obtain ⟨h3, h4⟩ := h.at hu
    have := hp.height
    exact h2.put (by omega) (hp.typed h4)
  | moveFallback hf hu hp =>
    obtain ⟨h3, h4⟩ := h.at hu
    obtain ⟨u0, hx⟩ := at_of_ne hv.1
    obtain ⟨h5, h6⟩ := h.at hx
    have := hp.height
    exact (h2.put (by rw [VTree.height]; omega) (by rw [VTree.Typed]; exact hfb _ hf)).put (by omega) (hp.typed h4)
  | @movePlain x t k u v _ _ hx hu =>
    obtain ⟨h3, h4⟩ := h.at hu
    obtain ⟨h5, h6⟩ := h.at hx
    rw [VTree.height] at h3 h5
    have h7 : (σ.put x (.leaf k (C.ops.moveAssignFail k u v))).Bound C.wrapped (2 * m) := h2.put (by rw [VTree.height]; omega) h6
    exact h7.put (by rw [VTree.height]; omega) h4
  | moveSelf hx =>
    obtain ⟨h5, h6⟩ := h.at hx
    rw [VTree.height] at h5
    exact h2.put (by rw [VTree.height]; omega) h6
  | @swapSelf x z u _ hx =>
    obtain ⟨h5, h6⟩ := h.at hx
    exact h2.put (by rw [VTree.store_height]; omega) (VTree.store_typed h6)
  | @swapValues x t z u v _ _ hx hu =>
    obtain ⟨h3, h4⟩ := h.at hu
    obtain ⟨h5, h6⟩ := h.at hx
    refine TStore.Bound.put (h2.put ?_ (VTree.store_typed h6)) ?_ (VTree.store_typed h4)
    · rw [VTree.store_height]; omega
    · rw [VTree.store_height]; omega
  | swapFirst hx hu _ hp =>
    obtain ⟨h3, h4⟩ := h.at hu
    have := hp.height
    exact h2.put (by omega) (hp.typed h4)
  | @swapSecond x t z u u' v w _ hx hu _ hp hw =>
    obtain ⟨h3, h4⟩ := h.at hu
    obtain ⟨h5, h6⟩ := h.at hx
    have h7 := hp.height
    have h8 : w.height ≤ v.height ∧ w.Typed C.wrapped := by
      rcases hw with ⟨_, rfl⟩ | ⟨fb, hf, rfl⟩
      · exact ⟨VTree.height_movedFrom (C := C) v, VTree.typed_movedFrom h4⟩
      · exact ⟨by rw [VTree.height]; exact v.height_pos, by rw [VTree.Typed]; exact hfb _ hf⟩
    exact (h2.put (by omega) (hp.typed h6)).put (by omega) h8.2
  | @swapThird x t z u v w _ hx hu _ hw =>
    obtain ⟨h3, h4⟩ := h.at hu
    obtain ⟨h5, h6⟩ := h.at hx
    have h8 : w.height ≤ u.height ∧ w.Typed C.wrapped := by
      rcases hw with ⟨_, rfl⟩ | ⟨_, rfl⟩ | ⟨fb, hf, rfl⟩
      · exact ⟨VTree.height_movedFrom (C := C) u, VTree.typed_movedFrom h6⟩
      · exact ⟨Nat.le_refl _, h6⟩
      · exact ⟨by rw [VTree.height]; exact u.height_pos, by rw [VTree.Typed]; exact hfb _ hf⟩
    exact (h2.put (by omega) h8.2).put (by omega) h6

/-! ### Annotated trees -/

open ATree AStore

variable {α : AStore V}

/-- The annotated trees have these values. -/
def IsO : Option (ATree V) → Option (VTree V) → Prop
  | none, none => True
  | some T, some u => T.Is u
  | _, _ => False

def IsS (α : AStore V) (σ : TStore V) : Prop := ∀ x, IsO (α x) (σ x)

theorem IsS.put {U : ATree V} {u : VTree V} (h : IsS α σ) (hU : U.Is u) : IsS (α.put x U) (σ.put x u) := by
  intro z
  have hz := h z
  unfold AStore.put TStore.put
  by_cases hzx : z = x.var
  · subst hzx
    rw [upd_same, upd_same]
    revert hz
    cases α x.var <;> cases σ x.var <;> intro hz
    · trivial
    · exact hz.elim
    · exact hz.elim
    · exact put_is x.path hz hU
  · simp only [upd, hzx, if_false]; exact hz

theorem IsS.upd {U : ATree V} {u : VTree V} {x : Nat} (h : IsS α σ) (hU : U.Is u) :
    IsS (BVariant.upd α x (some U)) (BVariant.upd σ x (some u)) := by
  intro z
  by_cases hzx : z = x
  · subst hzx; rw [upd_same, upd_same]; exact hU
  · simp only [BVariant.upd, hzx, if_false]; exact h z

theorem IsS.del {x : Nat} (h : IsS α σ) : IsS (BVariant.upd α x none) (BVariant.upd σ x none) := by
  intro z
  by_cases hzx : z = x
  · subst hzx; rw [upd_same, upd_same]; trivial
  · simp only [BVariant.upd, hzx, if_false]; exact h z

theorem IsS.at {l : TLoc} {R : ATree V} (h : IsS α σ) (ht : At α t l R) : ∃ u, σ.at t = some u ∧ R.Is u := by
  obtain ⟨T, h1, h2⟩ := ht
  have hz := h t.var
  rw [h1] at hz
  unfold TStore.at
  cases hs : σ t.var with
  | none => rw [hs] at hz; exact hz.elim
  | some u =>
    rw [hs] at hz
    rcases walk_is t.path (.var t.var) hz with ⟨l', t', u', g1, g2, g3⟩ | ⟨g1, _⟩
    · rw [h2] at g1; cases g1; exact ⟨u', g2, g3⟩
    · rw [h2] at g1; cases g1

theorem IsS.at_iff (h : IsS α σ) : σ.at t ≠ none ↔ ∃ l R, At α t l R := by
  constructor
  · intro hu
    obtain ⟨u, hu⟩ := at_of_ne hu
    have hz := h t.var
    unfold TStore.at at hu
    cases hs : σ t.var with
    | none => rw [hs] at hu; cases hu
    | some T =>
      rw [hs] at hu hz
      cases ha : α t.var with
      | none => rw [ha] at hz; exact hz.elim
      | some A =>
        rw [ha] at hz
        rcases walk_is t.path (.var t.var) hz with ⟨l', t', u', g1, _, _⟩ | ⟨_, g2⟩
        · exact ⟨l', t', A, ha, g1⟩
        · simp only [g2] at hu; cases hu
  · rintro ⟨l, R, ht⟩ hn
    obtain ⟨u, hu, _⟩ := h.at ht
    rw [hn] at hu; cases hu

theorem IsS.none_iff (h : IsS α σ) {x : Nat} : σ x = none ↔ α x = none := by
  have hz := h x
  cases ha : α x <;> cases hs : σ x <;> rw [ha, hs] at hz <;> first | exact hz.elim | simp

end

end BVariant
