/-
How high the trees of the specification for C73 can get in one statement.
-/
import Verif.Lemmas.ExactTreeStep

namespace BVariant

section
variable {V : Type} {C : TreeCfg V} {w : TyIx → Bool}

mutual
theorem VTree.typed_copied {o : Ops V} : ∀ {t : VTree V}, t.Typed w → (t.copied o).Typed w
  | .leaf _ _, h => h
  | .node _ _ f, h => by
    rw [VTree.Typed] at h
    rw [VTree.copied, VTree.Typed]; exact ⟨h.1, VForest.typed_copied h.2⟩
theorem VForest.typed_copied {o : Ops V} : ∀ {f : VForest V}, f.Typed w → (f.copied o).Typed w
  | .nil, h => h
  | .cons _ _, h => by
    rw [VForest.Typed] at h
    rw [VForest.copied, VForest.Typed]; exact ⟨VTree.typed_copied h.1, VForest.typed_copied h.2⟩
end

/-- What may be put somewhere. -/
def XTree.Fit (w : TyIx → Bool) (h : Nat) (u : XTree V) : Prop := u.erase.height ≤ h ∧ u.erase.Typed w

variable {h m : Nat} {x t : TPlace} {σ σ' : TStore V}

theorem XTree.Fit.copy {u u' : XTree V} {c c' : Count} (hu : u.Fit w h) (hr : xtCopy C u c = .ok u' c') : u'.Fit w h := by
  unfold XTree.Fit
  rw [(xtCopy_ok hr).1, VTree.height_copied]
  exact ⟨hu.1, VTree.typed_copied hu.2⟩

theorem XTree.Fit.fill {u : XTree V} {v : V} (hu : u.Fit w h) : (u.fill v u.members).Fit w h := by
  unfold XTree.Fit
  rw [XTree.erase_height_fill, VTree.store_height]
  exact ⟨hu.1, VTree.store_typed hu.2⟩

theorem XTree.Fit.mark {u : XTree V} {b : Bool} (hu : u.Fit w h) : (u.mark b).Fit w h := by
  cases u <;> exact hu

theorem XTree.Fit.pos {u : XTree V} (hu : u.Fit w h) : 1 ≤ h := Nat.le_trans (VTree.height_pos _) hu.1

/-- From one store to another by putting such trees to two places. -/
inductive Puts (w : TyIx → Bool) (h : Nat) (x t : TPlace) (σ : TStore V) : TStore V → Prop
  | refl : Puts w h x t σ σ
  | left {σ' : TStore V} {u : XTree V} : Puts w h x t σ σ' → u.Fit w h → Puts w h x t σ (σ'.put x u.erase)
  | right {σ' : TStore V} {u : XTree V} : Puts w h x t σ σ' → u.Fit w h → Puts w h x t σ (σ'.put t u.erase)

theorem Puts.symm (hp : Puts w h x t σ σ') : Puts w h t x σ σ' := by
  induction hp with
  | refl => exact .refl
  | left _ hu ih => exact .right ih hu
  | right _ hu ih => exact .left ih hu

theorem Puts.bound (hp : Puts w h x t σ σ') (hB : σ.Bound w m) (hx : x.path.length + h ≤ m) (ht : t.path.length + h ≤ m) : σ'.Bound w m := by
  induction hp with
  | refl => exact hB
  | left _ hu ih => exact ih.put (by have := hu.1; omega) hu.2
  | right _ hu ih => exact ih.put (by have := hu.1; omega) hu.2

theorem Puts.other {z : Nat} (hp : Puts w h x t σ σ') (hx : z ≠ x.var) (ht : z ≠ t.var) : σ' z = σ z := by
  induction hp with
  | refl => rfl
  | left _ _ ih => simp only [TStore.put, upd, hx, if_false]; exact ih
  | right _ _ ih => simp only [TStore.put, upd, ht, if_false]; exact ih

theorem Puts.at {u : VTree V} (hp : Puts w h x t σ σ') (ha : x.Apart t) (hu : σ.at x = some u) (hh : u.height ≤ h ∧ u.Typed w) :
    ∃ u', σ'.at x = some u' ∧ u'.height ≤ h ∧ u'.Typed w := by
  induction hp with
  | refl => exact ⟨u, hu, hh⟩
  | @left σ' v _ hv ih =>
    obtain ⟨u', h1, _⟩ := ih
    exact ⟨v.erase, TStore.at_put (by rw [h1]; nofun), hv⟩
  | right _ hv ih =>
    obtain ⟨u', h1, h2⟩ := ih
    exact ⟨u', by rw [TStore.at_put_apart ha]; exact h1, h2⟩

/-! ### Outcomes -/

/-- The outcome meets `Q` if it is a value and `E` if it is an exception. -/
def Post {γ : Type} (Q : γ → XTSt V → Prop) (E : XTSt V → Prop) : Res (XTSt V) γ → Prop
  | .ok a σ => Q a σ
  | .exc _ σ => E σ
  | .fault _ => True

theorem Post.bind {γ δ : Type} {Q : γ → XTSt V → Prop} {Q' : δ → XTSt V → Prop} {E : XTSt V → Prop} {a : Eff (XTSt V) γ} {f : γ → Eff (XTSt V) δ}
    {σ : XTSt V} (ha : Post Q E (a σ)) (hf : ∀ v σ', Q v σ' → Post Q' E (f v σ')) : Post Q' E ((Bind.bind a f : Eff (XTSt V) δ) σ) := by
  simp only [Bind.bind, Eff.bind]
  cases h : a σ with
  | ok v σ' => rw [h] at ha; exact hf v σ' ha
  | exc e σ' => rw [h] at ha; exact ha
  | fault f => trivial

theorem Post.onExc {γ : Type} {Q : γ → XTSt V → Prop} {E E' : XTSt V → Prop} {a : Eff (XTSt V) γ} {b : Eff (XTSt V) Unit} {σ : XTSt V}
    (ha : Post Q E' (a σ)) (hb : ∀ σ', E' σ' → Post (fun _ => E) E (b σ')) : Post Q E (Eff.onExc a b σ) := by
  simp only [Eff.onExc]
  cases h : a σ with
  | ok v σ' => rw [h] at ha; exact ha
  | exc e σ' =>
    rw [h] at ha
    have := hb σ' ha
    cases hr : b σ' with
    | ok _ s => rw [hr] at this; simp only [hr]; exact this
    | exc _ s => simp only [hr]; trivial
    | fault _ => simp only [hr]; trivial
  | fault f => trivial

theorem Post.imp {γ : Type} {Q Q' : γ → XTSt V → Prop} {E E' : XTSt V → Prop} {r : Res (XTSt V) γ} (h : Post Q E r)
    (hQ : ∀ v σ', Q v σ' → Q' v σ') (hE : ∀ σ', E σ' → E' σ') : Post Q' E' r := by
  cases r with
  | ok v σ' => exact hQ v σ' h
  | exc e σ' => exact hE σ' h
  | fault f => trivial

section
variable {s : XTSt V}

/-- Operations that change no variable. -/
theorem post_run {γ : Type} {a : Eff Count γ} {R : γ → Prop} (hR : ∀ v c', a s.count = .ok v c' → R v) :
    Post (fun v s' => s'.values = s.values ∧ R v) (fun s' => s'.values = s.values) (xtRun a s) := by
  unfold xtRun
  cases h : a s.count with
  | ok v c => exact ⟨rfl, hR v c h⟩
  | exc e c => exact rfl
  | fault f => trivial

theorem post_may {b : Bool} {k : ExcKind} : Post (fun _ s' => s'.values = s.values) (fun s' => s'.values = s.values) (xtRun (xtMay C b k) s) :=
  (post_run (R := fun _ => True) fun _ _ _ => trivial).imp (fun _ _ h => h.1) fun _ h => h

theorem post_new : Post (fun _ s' => s'.values = s.values) (fun s' => s'.values = s.values) (xtRun (xtNew C) s) :=
  (post_run (R := fun _ => True) fun _ _ _ => trivial).imp (fun _ _ h => h.1) fun _ h => h

theorem post_copy {u : XTree V} (hu : u.Fit w h) :
    Post (fun v s' => s'.values = s.values ∧ v.Fit w h) (fun s' => s'.values = s.values) (xtRun (xtCopy C u) s) :=
  post_run fun _ _ hr => hu.copy hr

theorem post_put {E : XTSt V → Prop} {u : XTree V} : Post (fun _ s' => s'.values = s.values.put x u.erase) E (xtPut x u s) :=
  values_put (vs := s.vars) (c := s.count)

/-- Taking what is at `t`. -/
theorem post_take {r : XTree V} (ht : s.at t = some r) (hr : r.Fit w h) :
    Post (fun v s' => Puts w h x t s.values s'.values ∧ v.Fit w h) (fun s' => Puts w h x t s.values s'.values) (xtTake C t s) := by
  have ht' : XStore.at s.vars t = some r := ht
  cases hm : xtMove C s.count r with
  | ok u' src c' =>
    obtain ⟨e1, e2, _⟩ := xtMove_ok hm
    rw [show s = ⟨s.vars, s.count⟩ from rfl, xtTake_ok ht' hm]
    refine ⟨?_, ?_, ?_⟩
    · rw [values_put]
      refine .right .refl ⟨?_, ?_⟩
      · rw [e2]; exact Nat.le_trans (VTree.height_movedFrom _) hr.1
      · rw [e2]; exact VTree.typed_movedFrom hr.2
    · rw [e1]; exact Nat.le_trans (VTree.height_moved _) hr.1
    · rw [e1]; exact VTree.typed_moved hr.2
  | exc e src c' =>
    have hp := xtMove_exc hm
    rw [show s = ⟨s.vars, s.count⟩ from rfl, xtTake_exc ht' hm]
    show Puts _ _ _ _ _ _
    rw [values_put]
    exact .right .refl ⟨Nat.le_trans hp.height hr.1, hp.typed hr.2⟩

/-- Between two places. -/
abbrev PutsP (w : TyIx → Bool) (h : Nat) (x t : TPlace) (σ : TStore V) (r : Res (XTSt V) Unit) : Prop :=
  Post (fun _ s' => Puts w h x t σ s'.values) (fun s' => Puts w h x t σ s'.values) r

theorem puts_put {u : XTree V} (hp : Puts w h x t σ s.values) (hu : u.Fit w h) : PutsP w h x t σ (xtPut x u s) :=
  post_put.imp (fun _ s' he => by rw [he]; exact hp.left hu) fun _ h => h

theorem puts_putR {u : XTree V} (hp : Puts w h x t σ s.values) (hu : u.Fit w h) : PutsP w h x t σ (xtPut t u s) :=
  post_put.imp (fun _ s' he => by rw [he]; exact hp.right hu) fun _ h => h

/-- A copy is put to `x`. -/
theorem puts_copy {r : XTree V} (hp : Puts w h x t σ s.values) (hr : r.Fit w h) {f : XTree V → XTree V} (hf : ∀ u : XTree V, u.Fit w h → (f u).Fit w h) :
    PutsP w h x t σ ((do let u ← xtRun (xtCopy C r); xtPut x (f u) : Eff (XTSt V) Unit) s) :=
  ((post_copy hr).imp (fun _ _ h => h) (fun _ he => by rw [he]; exact hp)).bind fun u s' hq => puts_put (by rw [hq.1]; exact hp) (hf u hq.2)

theorem puts_fallback {fb : TyIx} (hp : Puts C.wrapped h x t σ s.values) (hfb : C.wrapped fb = false) (hh : 1 ≤ h) :
    PutsP C.wrapped h x t σ (xtFallback C x fb s) := by
  unfold xtFallback
  refine (post_may.imp (fun _ _ h => h) (fun _ he => by rw [he]; exact hp)).bind fun _ s' he => puts_put (by rw [he]; exact hp) ⟨?_, ?_⟩
  · exact hh
  · exact hfb

theorem puts_guarded {l r : XTree V} (hp : Puts w h x t σ s.values) (hl : l.Fit w h) (hr : r.Fit w h) :
    PutsP w h x t σ (xtGuarded C x l r s) := by
  have keep : ∀ {s s' : XTSt V}, Puts w h x t σ s.values → s'.values = s.values → Puts w h x t σ s'.values := fun hp he => by rw [he]; exact hp
  unfold xtGuarded
  by_cases hb : l.backed = true
  · rw [if_pos hb]; exact puts_copy (f := fun u => u) hp hr fun _ h => h
  · rw [if_neg hb]
    by_cases hm : C.nothrowMove l.which = true
    · rw [if_pos hm]
      refine (post_may.imp (fun _ _ h => h) (fun _ he => keep hp he)).bind fun _ s1 h1 => ?_
      have hp1 := keep hp h1
      refine Post.bind (Q := fun u s' => Puts w h x t σ s'.values ∧ u.Fit w h) ?_ fun u s2 h2 => puts_put h2.1 h2.2
      refine ((post_copy hr).imp (fun _ _ h => ⟨keep hp1 h.1, h.2⟩) (fun _ he => keep hp1 he)).onExc fun s3 h3 => ?_
      exact (post_may.imp (fun _ _ h => h) (fun _ he => keep h3 he)).bind fun _ s4 h4 => puts_put (keep h3 h4) hl.fill
    · rw [if_neg hm]
      refine (post_new.imp (fun _ _ h => h) (fun _ he => keep hp he)).bind fun _ s1 h1 => ?_
      have hp1 := keep hp h1
      refine ((post_copy hl).imp (fun _ _ h => h) (fun _ he => keep hp1 he)).bind fun l' s2 h2 => ?_
      have hp2 := keep hp1 h2.1
      refine Post.bind (Q := fun u s' => Puts w h x t σ s'.values ∧ u.Fit w h) ?_ fun u s2 h2 => puts_put h2.1 h2.2
      exact ((post_copy hr).imp (fun _ _ h => ⟨keep hp2 h.1, h.2⟩) (fun _ he => keep hp2 he)).onExc fun s3 h3 => puts_put h3 h2.2.mark

theorem puts_replace {l r : XTree V} (hfb : ∀ fb, C.fallback = some fb → C.wrapped fb = false) (hp : Puts C.wrapped h x t σ s.values)
    (hl : l.Fit C.wrapped h) (hr : r.Fit C.wrapped h) : PutsP C.wrapped h x t σ (xtReplace C x l r s) := by
  have keep : ∀ {s s' : XTSt V}, Puts C.wrapped h x t σ s.values → s'.values = s.values → Puts C.wrapped h x t σ s'.values := fun hp he => by
    rw [he]; exact hp
  unfold xtReplace
  by_cases h1 : C.nothrowCopy r.which = true
  · rw [if_pos h1]; exact puts_copy (f := fun u => u) hp hr fun _ h => h
  · rw [if_neg h1]
    by_cases h2 : C.nothrowMove r.which = true
    · rw [if_pos h2]
      refine ((post_copy hr).imp (fun _ _ h => h) (fun _ he => keep hp he)).bind fun u s1 h1 => ?_
      have hp1 := keep hp h1.1
      exact (post_may.imp (fun _ _ h => h) (fun _ he => keep hp1 he)).bind fun _ s4 h4 => puts_put (keep hp1 h4) h1.2.fill
    · rw [if_neg h2]
      cases hf : C.fallback with
      | none => exact puts_guarded hp hl hr
      | some fb =>
        refine Post.bind (Q := fun u s' => Puts C.wrapped h x t σ s'.values ∧ u.Fit C.wrapped h) ?_ fun u s2 h2 => puts_put h2.1 h2.2
        exact ((post_copy hr).imp (fun _ _ h => ⟨keep hp h.1, h.2⟩) (fun _ he => keep hp he)).onExc fun s3 h3 =>
          puts_fallback h3 (hfb fb hf) hr.pos

theorem puts_replaceMove {l r : XTree V} (hfb : ∀ fb, C.fallback = some fb → C.wrapped fb = false)
    (hl : l.Fit C.wrapped h) (hr : r.Fit C.wrapped h) (ht : s.at t = some r) : PutsP C.wrapped h x t s.values (xtReplaceMove C x t l r s) := by
  unfold xtReplaceMove
  by_cases h1 : C.nothrowMove r.which = true
  · rw [if_pos h1]
    exact (post_take ht hr).bind fun u s1 h1 => puts_put h1.1 h1.2
  · rw [if_neg h1]
    by_cases h2 : C.nothrowCopy r.which = true
    · rw [if_pos h2]; exact puts_copy (f := fun u => u) .refl hr fun _ h => h
    · rw [if_neg h2]
      cases hf : C.fallback with
      | none => exact puts_guarded .refl hl hr
      | some fb =>
        refine Post.bind (Q := fun u s' => Puts C.wrapped h x t s.values s'.values ∧ u.Fit C.wrapped h) ?_ fun u s2 h2 => puts_put h2.1 h2.2
        exact (post_take ht hr).onExc fun s3 h3 => puts_fallback h3 (hfb fb hf) hr.pos

theorem post_get {E : XTSt V → Prop} {u : XTree V} (hx : s.at x = some u) : Post (fun v s' => v = u ∧ s' = s) E (xtGet x s) := by
  simp only [xtGet, hx]; exact ⟨rfl, rfl⟩

theorem puts_assign {l r : XTree V} (hfb : ∀ fb, C.fallback = some fb → C.wrapped fb = false) (hx : s.at x = some l) (ht : s.at t = some r)
    (hl : l.Fit C.wrapped h) (hr : r.Fit C.wrapped h) : PutsP C.wrapped h x t s.values (xtAssign C x t s) := by
  have keep : ∀ {s0 s s' : XTSt V}, Puts C.wrapped h x t s0.values s.values → s'.values = s.values → Puts C.wrapped h x t s0.values s'.values :=
    fun hp he => by rw [he]; exact hp
  unfold xtAssign
  refine (post_get hx).bind fun l' s1 ⟨e1, e2⟩ => ?_
  subst e1 e2
  refine (post_get ht).bind fun r' s1 ⟨e1, e2⟩ => ?_
  subst e1 e2
  split
  · rename_i hk
    cases l' with
    | leaf b k u =>
      cases r' with
      | leaf b' k' v =>
        refine Post.bind (Q := fun _ s' => s'.values = s1.values) ?_ fun _ s2 h2 => puts_put (keep .refl h2) hl
        exact (post_may.imp (fun _ _ h => h) (fun _ he => he)).onExc fun s3 h3 => puts_put (keep .refl h3) hl
      | node => exact trivial
    | node b k a f =>
      cases r' with
      | leaf => exact trivial
      | node b' k' a' f' =>
        refine (post_may.imp (fun _ _ h => h) (fun _ he => keep .refl he)).bind fun _ s2 h2 => ?_
        have hp2 := keep (s0 := s1) .refl h2
        have hk' : k = k' := hk.1
        subst hk'
        refine ((post_run (R := fun g => (XTree.node b k (C.ops.copy k a') g).Fit C.wrapped h) fun g c' hg => ?_).imp (fun _ _ h => h) (fun _ he => keep hp2 he)).bind
          fun g s3 h3 => puts_put (keep hp2 h3.1) h3.2
        have e1 := xtCopyAll_ok hg
        unfold XTree.Fit at hr ⊢
        rw [XTree.erase, VTree.height, VTree.Typed] at hr ⊢
        rw [e1, VForest.height_copied]
        exact ⟨hr.1, hr.2.1, VForest.typed_copied hr.2.2⟩
  · exact puts_replace hfb .refl hl hr

theorem puts_moveAssign {l r : XTree V} (hfb : ∀ fb, C.fallback = some fb → C.wrapped fb = false) (hx : s.at x = some l) (ht : s.at t = some r)
    (hl : l.Fit C.wrapped h) (hr : r.Fit C.wrapped h) : PutsP C.wrapped h x t s.values (xtMoveAssign C x t s) := by
  have keep : ∀ {s0 s s' : XTSt V}, Puts C.wrapped h x t s0.values s.values → s'.values = s.values → Puts C.wrapped h x t s0.values s'.values :=
    fun hp he => by rw [he]; exact hp
  unfold xtMoveAssign
  refine (post_get hx).bind fun l' s1 ⟨e1, e2⟩ => ?_
  subst e1 e2
  refine (post_get ht).bind fun r' s1 ⟨e1, e2⟩ => ?_
  subst e1 e2
  split
  · cases l' with
    | leaf b k u =>
      cases r' with
      | leaf b' k' v =>
        rename_i hk
        have hk' : k = k' := hk.1
        subst hk'
        show PutsP _ _ _ _ _ ((if x = t then _ else _ : Eff (XTSt V) Unit) s1)
        split
        · refine Post.bind (Q := fun _ s' => s'.values = s1.values) ?_ fun _ s2 h2 => puts_put (keep .refl h2) hl
          exact (post_may.imp (fun _ _ h => h) (fun _ he => he)).onExc fun s3 h3 => puts_put (keep .refl h3) hl
        · refine Post.bind (Q := fun _ s' => s'.values = s1.values) ?_ fun _ s2 h2 => ?_
          · refine (post_may.imp (fun _ _ h => h) (fun _ he => he)).onExc fun s3 h3 => ?_
            exact Post.bind (Q := fun _ s' => Puts C.wrapped h x t s1.values s'.values) (puts_put (keep .refl h3) ⟨hl.1, hl.2⟩) fun _ s4 h4 => puts_putR h4 ⟨hr.1, hr.2⟩
          · exact Post.bind (Q := fun _ s' => Puts C.wrapped h x t s1.values s'.values) (puts_put (keep .refl h2) ⟨hl.1, hl.2⟩) fun _ s4 h4 => puts_putR h4 ⟨hr.1, hr.2⟩
      | node => exact trivial
    | node b k a f =>
      cases r' with
      | leaf => exact trivial
      | node b' k' a' f' => exact (puts_put .refl hr).bind fun _ s4 h4 => puts_putR h4 hl
  · exact puts_replaceMove hfb hl hr ht

theorem at_of_values {u : VTree V} (hu : s.values.at x = some u) : ∃ l : XTree V, s.at x = some l ∧ l.erase = u := by
  have : (XTSt.values ⟨s.vars, s.count⟩ : TStore V).at x = some u := hu
  rw [values_at] at this
  cases hx : XStore.at s.vars x with
  | none => rw [hx] at this; cases this
  | some l => rw [hx] at this; cases this; exact ⟨l, hx, rfl⟩

theorem values_of_at {u : XTree V} (hu : s.at x = some u) : s.values.at x = some u.erase := by
  show (XTSt.values ⟨s.vars, s.count⟩ : TStore V).at x = _
  rw [values_at, show XStore.at s.vars x = some u from hu]; rfl

theorem post_set {E : XTSt V → Prop} {z : Nat} {u : Option (XTree V)} :
    Post (fun _ s' => s'.values = upd s.values z (u.map XTree.erase)) E (xtSet z u s) :=
  values_upd (vs := s.vars) (c := s.count)

theorem XTree.fill_fit {l r : XTree V} {v : V} (hl : l.Fit w h) (hr : r.Fit w h) (hk : l.which = r.which) : (l.fill v r.members).Fit w h := by
  obtain ⟨h1, h2⟩ := hl
  obtain ⟨h3, h4⟩ := hr
  cases l with
  | leaf b k u => exact ⟨h1, h2⟩
  | node b k a f =>
    cases r with
    | leaf b' k' u =>
      have hk' : k = k' := hk
      subst hk'
      rw [XTree.erase, VTree.Typed] at h2
      rw [XTree.erase, VTree.Typed] at h4
      rw [h2.1] at h4; cases h4
    | node b' k' a' f' =>
      unfold XTree.Fit
      rw [XTree.erase, VTree.Typed] at h2 h4
      rw [XTree.erase, VTree.height] at h3
      show (XTree.node b k v f').erase.height ≤ h ∧ (XTree.node b k v f').erase.Typed w
      rw [XTree.erase, VTree.height, VTree.Typed]
      exact ⟨h3, h2.1, h4.2⟩

theorem puts_swap {l r : XTree V} {z : Nat} (hx : s.at x = some l) (ht : s.at t = some r) (hl : l.Fit w h) (hr : r.Fit w h)
    (hk : l.which = r.which) : PutsP w h x t s.values (xtSwap C x t z s) := by
  have keep : ∀ {s0 s s' : XTSt V}, Puts w h x t s0.values s.values → s'.values = s.values → Puts w h x t s0.values s'.values :=
    fun hp he => by rw [he]; exact hp
  unfold xtSwap
  refine (post_get hx).bind fun l' s1 ⟨e1, e2⟩ => ?_
  subst e1 e2
  refine (post_get ht).bind fun r' s1 ⟨e1, e2⟩ => ?_
  subst e1 e2
  rw [if_pos hk]
  split
  · refine Post.bind (Q := fun _ s' => s'.values = s1.values) ?_ fun _ s2 h2 => puts_put (keep .refl h2) hl.fill
    exact (post_may.imp (fun _ _ h => h) (fun _ he => he)).onExc fun s3 h3 => puts_put (keep .refl h3) hl.fill
  · refine Post.bind (Q := fun _ s' => s'.values = s1.values) ?_ fun _ s2 h2 => ?_
    · refine (post_may.imp (fun _ _ h => h) (fun _ he => he)).onExc fun s3 h3 => ?_
      exact (puts_put (keep .refl h3) hl.fill).bind fun _ s4 h4 => puts_putR h4 hr.fill
    · exact (puts_put (keep .refl h2) (XTree.fill_fit hl hr hk)).bind fun _ s4 h4 => puts_putR h4 (XTree.fill_fit hr hl hk.symm)

/-- Swap between types. -/
theorem bound_swap_other {l r : XTree V} {z : Nat} (hfb : ∀ fb, C.fallback = some fb → C.wrapped fb = false) (hx : s.at x = some l)
    (ht : s.at t = some r) (hl : l.Fit C.wrapped h) (hr : r.Fit C.wrapped h) (hk : l.which ≠ r.which) (ha : x.Apart t)
    (hz : s.values z = none) (hB : s.values.Bound C.wrapped m) (h1 : x.path.length + h ≤ m) (h2 : t.path.length + h ≤ m) :
    Post (fun _ s' => s'.values.Bound C.wrapped m) (fun s' => s'.values.Bound C.wrapped m) (xtSwap C x t z s) := by
  have hzx : z ≠ x.var := ne_of_at (x := x) (by rw [values_of_at hx]; nofun) hz
  have hzt : z ≠ t.var := ne_of_at (x := t) (by rw [values_of_at ht]; nofun) hz
  have hvx := values_of_at hx
  have hvt := values_of_at ht
  unfold xtSwap
  refine (post_get hx).bind fun l' s1 ⟨e1, e2⟩ => ?_
  subst e1 e2
  refine (post_get ht).bind fun r' s1 ⟨e1, e2⟩ => ?_
  subst e1 e2
  rw [if_neg hk]
  refine ((post_take (x := x) ht hr).imp (fun _ _ h => h) (fun s' hp => hp.bound hB h1 h2)).bind fun u s2 ⟨hp, hu⟩ => ?_
  have hB2 := hp.bound hB h1 h2
  obtain ⟨u1, a1, a2⟩ := hp.at ha hvx hl
  obtain ⟨u2, b1, b2⟩ := hp.symm.at ha.symm hvt hr
  refine post_set.bind fun _ s3 e3 => ?_
  have hB3 : s3.values.Bound C.wrapped m := by rw [e3]; exact hB2.upd (by have := hu.1; omega) hu.2
  have a3 : s3.values.at x = some u1 := by rw [e3, TStore.upd_at hzx]; exact a1
  have b3 : s3.values.at t = some u2 := by rw [e3, TStore.upd_at hzt]; exact b1
  have z3 : s3.values z = some u.erase := by rw [e3, upd_same]; rfl
  refine Post.bind (Q := fun _ s' => s'.values.Bound C.wrapped m) ?_ fun _ s4 h4 => post_set.imp (fun _ s' he => by
    rw [he]; exact h4.del) fun _ h => h
  refine Post.onExc (E' := fun s' => s'.values.Bound C.wrapped m) ?_ fun s4 h4 => post_set.imp (fun _ s' he => by
    rw [he]; exact h4.del) fun _ h => h
  obtain ⟨l3, c1, rfl⟩ := at_of_values a3
  obtain ⟨r3, d1, rfl⟩ := at_of_values b3
  refine ((puts_moveAssign (h := h) hfb d1 c1 b2 a2).imp (fun _ _ h => h) (fun s' hp => hp.bound hB3 h2 h1)).bind fun _ s5 hp5 => ?_
  have hB5 := hp5.bound hB3 h2 h1
  obtain ⟨u5, a5, a6⟩ := hp5.symm.at ha a3 a2
  have z5 : s5.values z = some u.erase := by rw [hp5.other hzt hzx]; exact z3
  obtain ⟨l5, c5, rfl⟩ := at_of_values a5
  obtain ⟨z6, c6, e6⟩ := at_of_values (s := s5) (x := ⟨z, []⟩) (u := u.erase) (by
    unfold TStore.at; simp only [z5]; exact VTree.sub_nil _)
  refine (puts_moveAssign (h := h) hfb c5 c6 a6 (by unfold XTree.Fit; rw [e6]; exact hu)).imp (fun _ s' hp => ?_) (fun s' hp => ?_)
  · exact hp.bound hB5 h1 (by show 0 + h ≤ m; omega)
  · exact hp.bound hB5 h1 (by show 0 + h ≤ m; omega)

theorem post_getAll : ∀ {ts : List TPlace} {f : VForest V}, s.values.all ts = some f →
    ∃ g, xtGetAll ts s = .ok g s ∧ XTree.eraseL g = f
  | [], f, hf => by cases hf; exact ⟨[], rfl, rfl⟩
  | t :: ts, f, hf => by
    rw [TStore.all] at hf
    cases h1 : s.values.at t with
    | none => rw [h1] at hf; cases hf
    | some u =>
      cases h2 : s.values.all ts with
      | none => rw [h1, h2] at hf; cases hf
      | some f' =>
        rw [h1, h2] at hf; cases hf
        obtain ⟨l, e1, rfl⟩ := at_of_values h1
        obtain ⟨g, e2, rfl⟩ := post_getAll h2
        exact ⟨l :: g, by simp only [xtGetAll, bind, Eff.bind, xtGet, e1, e2, pure, Eff.pure], rfl⟩

theorem all_of_at : ∀ {ts : List TPlace}, (∀ t ∈ ts, σ.at t ≠ none) → ∃ f, σ.all ts = some f
  | [], _ => ⟨.nil, rfl⟩
  | t :: ts, hv => by
    obtain ⟨u, h1⟩ := at_of_ne (hv t (.head _))
    obtain ⟨f, h2⟩ := all_of_at fun t' h' => hv t' (.tail _ h')
    exact ⟨.cons u f, by simp only [TStore.all, h1, h2]⟩

/-- In one statement the trees get at most twice as high. -/
theorem exact_bound {c : TCmd V} (hfb : ∀ fb, C.fallback = some fb → C.wrapped fb = false) (hm : 1 ≤ m) (hB : s.values.Bound C.wrapped m)
    (hv : s.values.Valid C c) (hr : c.risky C s = false) :
    Post (fun _ s' => s'.values.Bound C.wrapped (2 * m)) (fun s' => s'.values.Bound C.wrapped (2 * m)) (c.exact C s) := by
  have hB2 : s.values.Bound C.wrapped (2 * m) := hB.mono (by omega)
  have keep : ∀ {s' : XTSt V}, s'.values = s.values → s'.values.Bound C.wrapped (2 * m) := fun he => by rw [he]; exact hB2
  have side : ∀ t, s.values.at t ≠ none → ∃ u, s.at t = some u ∧ u.Fit C.wrapped m ∧ t.path.length + m ≤ 2 * m := fun t ht => by
    obtain ⟨u, hu⟩ := at_of_ne ht
    obtain ⟨h1, h2⟩ := hB.at hu
    obtain ⟨l, h3, rfl⟩ := at_of_values hu
    exact ⟨l, h3, ⟨by omega, h2⟩, by omega⟩
  have puts : ∀ {x t : TPlace} {r : Res (XTSt V) Unit}, PutsP C.wrapped m x t s.values r → x.path.length + m ≤ 2 * m → t.path.length + m ≤ 2 * m →
      Post (fun _ s' => s'.values.Bound C.wrapped (2 * m)) (fun s' => s'.values.Bound C.wrapped (2 * m)) r := fun hp h1 h2 =>
    hp.imp (fun _ _ h => h.bound hB2 h1 h2) (fun _ h => h.bound hB2 h1 h2)
  have set : ∀ {s' : XTSt V} {y : Nat} {u : XTree V}, s'.values.Bound C.wrapped (2 * m) → u.Fit C.wrapped (2 * m) →
      Post (fun _ s' => s'.values.Bound C.wrapped (2 * m)) (fun s' => s'.values.Bound C.wrapped (2 * m)) (xtSet y (some u) s') := fun hb hu =>
    post_set.imp (fun _ s' he => by rw [he]; exact hb.upd hu.1 hu.2) fun _ h => h
  have up : ∀ {u : XTree V}, u.Fit C.wrapped m → u.Fit C.wrapped (2 * m) := fun h => ⟨by have := h.1; omega, h.2⟩
  cases c with
  | leaf x k v =>
    refine (post_may.imp (fun _ _ h => h) (fun _ he => keep he)).bind fun _ s1 h1 => set (keep h1) ⟨?_, hv.2⟩
    show 1 ≤ 2 * m
    omega
  | node x k a ys =>
    obtain ⟨f, hf⟩ := all_of_at hv.2.2
    obtain ⟨g, h1, rfl⟩ := post_getAll hf
    obtain ⟨h2, h3⟩ := hB.all hf
    show Post _ _ ((xtGetAll ys >>= _ : Eff (XTSt V) Unit) s)
    refine Post.bind (Q := fun f s' => f = g ∧ s' = s) (by rw [h1]; exact ⟨rfl, rfl⟩) fun f s1 ⟨e1, e2⟩ => ?_
    subst e1 e2
    refine ((post_run (R := fun g : List (XTree V) => (XTree.node false k a g).Fit C.wrapped (2 * m)) fun g c' hg => ?_).imp (fun _ _ h => h)
      (fun _ he => keep he)).bind fun g s3 h3 => ?_
    · have e1 := xtCopyAll_ok hg
      unfold XTree.Fit
      rw [XTree.erase, VTree.height, VTree.Typed, e1, VForest.height_copied]
      exact ⟨by omega, hv.2.1, VForest.typed_copied h3⟩
    · exact ((post_copy h3.2).imp (fun _ _ h => h) (fun _ he => keep (he.trans h3.1))).bind fun u s4 h4 => set (keep (h4.1.trans h3.1)) h4.2
  | copy x t =>
    obtain ⟨u, h1, h2, _⟩ := side t hv.2
    refine (post_get h1).bind fun l' s1 ⟨e1, e2⟩ => ?_
    subst e1 e2
    exact ((post_copy h2).imp (fun _ _ h => h) (fun _ he => keep he)).bind fun u s4 h4 => set (keep h4.1) (up h4.2)
  | move x t =>
    obtain ⟨u, h1, h2, h3⟩ := side t hv.2
    refine ((post_take (x := t) h1 h2).imp (fun _ _ h => h) (fun s' hp => hp.bound hB2 h3 h3)).bind fun u s2 ⟨hp, hu⟩ =>
      set (hp.bound hB2 h3 h3) (up hu)
  | assign x t =>
    obtain ⟨l, h1, h2, h3⟩ := side x hv.1
    obtain ⟨r, g1, g2, g3⟩ := side t hv.2
    exact puts (puts_assign hfb h1 g1 h2 g2) h3 g3
  | moveAssign x t =>
    obtain ⟨l, h1, h2, h3⟩ := side x hv.1
    obtain ⟨r, g1, g2, g3⟩ := side t hv.2
    exact puts (puts_moveAssign hfb h1 g1 h2 g2) h3 g3
  | swap x t z =>
    obtain ⟨l, h1, h2, h3⟩ := side x hv.1
    obtain ⟨r, g1, g2, g3⟩ := side t hv.2.1
    by_cases hk : l.which = r.which
    · exact puts (puts_swap h1 g1 h2 g2 hk) h3 g3
    · simp only [TCmd.risky, h1, g1, Bool.or_eq_false_iff] at hr
      refine bound_swap_other hfb h1 g1 h2 g2 hk ?_ hv.2.2 hB2 h3 g3
      rcases TPlace.cases x t with e | e | e | e
      · subst e; rw [h1] at g1; cases g1; exact absurd rfl hk
      · exact e
      · rw [hr.1.1] at e; cases e
      · rw [hr.1.2] at e; cases e
  | store x v =>
    obtain ⟨l, h1, h2, h3⟩ := side x hv
    refine (post_get h1).bind fun l' s1 ⟨e1, e2⟩ => ?_
    subst e1 e2
    exact puts (puts_put (t := x) .refl h2.fill) h3 h3
  | destroy x => exact post_set.imp (fun _ s' he => by rw [he]; exact hB2.del) fun _ h => h

end

end

end BVariant
