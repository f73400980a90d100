/-
Variants that are never in a backup (C80).
-/
import Verif.Spec.TreeScope
import Verif.Lemmas.ExactTreeBound

namespace BVariant

section
variable {V : Type} {C : TreeCfg V}

mutual
/-- Nothing in the tree is in a backup. -/
def XTree.Clear : XTree V → Prop
  | .leaf b _ _ => b = false
  | .node b _ _ f => b = false ∧ XTree.ClearL f
def XTree.ClearL : List (XTree V) → Prop
  | [] => True
  | t :: ts => t.Clear ∧ XTree.ClearL ts
end

theorem XTree.Clear.backed {u : XTree V} (h : u.Clear) : u.backed = false := by
  cases u with
  | leaf => rw [XTree.Clear] at h; exact h
  | node => rw [XTree.Clear] at h; exact h.1

theorem XTree.Clear.leaf {b : Bool} {k k' : TyIx} {u v : V} (h : (XTree.leaf b k u).Clear) : (XTree.leaf b k' v).Clear := by
  rw [XTree.Clear] at h ⊢; exact h

theorem XTree.Clear.members {u : XTree V} (h : u.Clear) : XTree.ClearL u.members := by
  cases u with
  | leaf => trivial
  | node => rw [XTree.Clear] at h; exact h.2

theorem XTree.Clear.fill {u : XTree V} {v : V} {f : List (XTree V)} (h : u.Clear) (hf : XTree.ClearL f) : (u.fill v f).Clear := by
  cases u with
  | leaf => rw [XTree.Clear] at h; exact h
  | node => rw [XTree.Clear] at h; exact ⟨h.1, hf⟩

theorem XTree.ClearL.get : ∀ {f : List (XTree V)} {i : Nat} {t : XTree V}, XTree.ClearL f → f[i]? = some t → t.Clear
  | [], _, _, _, h => by simp at h
  | t :: ts, 0, _, hc, h => by cases h; rw [XTree.ClearL] at hc; exact hc.1
  | t :: ts, i + 1, _, hc, h => by rw [XTree.ClearL] at hc; exact XTree.ClearL.get hc.2 (by simpa using h)

theorem XTree.ClearL.set : ∀ {f : List (XTree V)} {i : Nat} {t : XTree V}, XTree.ClearL f → t.Clear → XTree.ClearL (f.set i t)
  | [], _, _, _, _ => trivial
  | t :: ts, 0, _, hc, h => by rw [XTree.ClearL] at hc; exact ⟨h, hc.2⟩
  | t :: ts, i + 1, _, hc, h => by rw [XTree.ClearL] at hc; exact ⟨hc.1, XTree.ClearL.set hc.2 h⟩

theorem XTree.Clear.sub : ∀ {is : List Nat} {t u : XTree V}, t.Clear → t.sub is = some u → u.Clear
  | [], t, u, hc, h => by cases t <;> (cases h; exact hc)
  | i :: is, .leaf .., u, hc, h => by cases h
  | i :: is, .node b k a f, u, hc, h => by
    rw [XTree.Clear] at hc
    simp only [XTree.sub] at h
    cases hf : f[i]? with
    | none => rw [hf] at h; cases h
    | some t => rw [hf] at h; exact XTree.Clear.sub (hc.2.get hf) h

theorem XTree.Clear.put : ∀ {is : List Nat} {t u : XTree V}, t.Clear → u.Clear → (t.put is u).Clear
  | [], t, u, _, hu => by cases t <;> exact hu
  | i :: is, .leaf .., u, hc, _ => hc
  | i :: is, .node b k a f, u, hc, hu => by
    have hc' := hc
    rw [XTree.Clear] at hc'
    simp only [XTree.put]
    cases hf : f[i]? with
    | none => exact hc
    | some t => exact ⟨hc'.1, hc'.2.set (XTree.Clear.put (hc'.2.get hf) hu)⟩

theorem eff_bind_ok {S γ δ : Type} {a : Eff S γ} {f : γ → Eff S δ} {s s' : S} {d : δ} (h : (a >>= f) s = .ok d s') :
    ∃ v s1, a s = .ok v s1 ∧ f v s1 = .ok d s' := by
  simp only [bind, Eff.bind] at h
  cases ha : a s with
  | ok v s1 => rw [ha] at h; exact ⟨v, s1, rfl, h⟩
  | exc e s1 => rw [ha] at h; cases h
  | fault f => rw [ha] at h; cases h

mutual
theorem xtCopy_clear : ∀ {u u' : XTree V} {c c' : Count}, xtCopy C u c = .ok u' c' → u'.Clear
  | .leaf b k v, u', c, c', h => by
    rw [xtCopy] at h
    obtain ⟨_, _, _, h⟩ := eff_bind_ok h
    cases h; rw [XTree.Clear]
  | .node b k a f, u', c, c', h => by
    rw [xtCopy] at h
    obtain ⟨_, _, _, h⟩ := eff_bind_ok h
    obtain ⟨_, _, _, h⟩ := eff_bind_ok h
    obtain ⟨_, _, h1, h⟩ := eff_bind_ok h
    cases h; rw [XTree.Clear]
    exact ⟨rfl, xtCopyAll_clear h1⟩
theorem xtCopyAll_clear : ∀ {f f' : List (XTree V)} {c c' : Count}, xtCopyAll C f c = .ok f' c' → XTree.ClearL f'
  | [], f', c, c', h => by rw [xtCopyAll] at h; cases h; trivial
  | t :: ts, f', c, c', h => by
    rw [xtCopyAll] at h
    obtain ⟨_, _, h1, h⟩ := eff_bind_ok h
    obtain ⟨_, _, h2, h⟩ := eff_bind_ok h
    cases h
    exact ⟨xtCopy_clear h1, xtCopyAll_clear h2⟩
end

/-- What is moved stays out of backups. -/
def Moved.All {β : Type} (P : β → Prop) : Moved β → Prop
  | .ok to src _ => P to ∧ P src
  | .exc _ src _ => P src

mutual
theorem xtMove_clear : ∀ {u : XTree V} (c : Count), u.Clear → (xtMove C c u).All XTree.Clear
  | .leaf b k v, c, h => by
    rw [XTree.Clear] at h
    rw [xtMove]
    split
    · exact ⟨by rw [XTree.Clear], by rw [XTree.Clear]; exact h⟩
    · show XTree.Clear _; rw [XTree.Clear]; exact h
    · exact ⟨by rw [XTree.Clear]; exact h, by rw [XTree.Clear]; exact h⟩
  | .node b k a f, c, h => by
    have h0 := h
    rw [XTree.Clear] at h
    rw [xtMove]
    split
    · split
      · split
        · exact ⟨by rw [XTree.Clear]; exact ⟨rfl, h.2⟩, by rw [XTree.Clear]; exact ⟨h.1, trivial⟩⟩
        · rename_i c1 _ _ c2 _ _
          have hm := xtMoveAll_clear c2 h.2
          split
          · rename_i h1
            rw [h1] at hm
            exact ⟨by rw [XTree.Clear]; exact ⟨rfl, hm.1⟩, by rw [XTree.Clear]; exact ⟨h.1, hm.2⟩⟩
          · rename_i h1
            rw [h1] at hm
            show XTree.Clear _
            rw [XTree.Clear]; exact ⟨h.1, hm⟩
      · show XTree.Clear _; rw [XTree.Clear]; exact h
      · exact ⟨h0, h0⟩
    · exact h0
    · exact ⟨h0, h0⟩
theorem xtMoveAll_clear : ∀ {f : List (XTree V)} (c : Count), XTree.ClearL f → (xtMoveAll C c f).All XTree.ClearL
  | [], c, h => by rw [xtMoveAll]; exact ⟨trivial, trivial⟩
  | t :: ts, c, h => by
    rw [XTree.ClearL] at h
    have h1 := xtMove_clear c h.1
    rw [xtMoveAll]
    split
    · rename_i c1 e1
      rw [e1] at h1
      have h2 := xtMoveAll_clear c1 h.2
      split
      · rename_i e2
        rw [e2] at h2
        exact ⟨⟨h1.1, h2.1⟩, ⟨h1.2, h2.2⟩⟩
      · rename_i e2
        rw [e2] at h2
        exact ⟨h1.2, h2⟩
    · rename_i e1
      rw [e1] at h1
      exact ⟨h1, h.2⟩
end

/-! ### States -/

/-- Nothing is in a backup. -/
def XTSt.Clear (s : XTSt V) : Prop := ∀ x u, s.vars x = some u → u.Clear

variable {s : XTSt V} {x t : TPlace}

theorem XTSt.Clear.at {u : XTree V} (h : s.Clear) (hx : s.at x = some u) : u.Clear := by
  unfold XTSt.at at hx
  cases hv : s.vars x.var with
  | none => rw [hv] at hx; cases hx
  | some T => rw [hv] at hx; exact (h _ _ hv).sub hx

/-- The outcome is a state in which nothing is in a backup. -/
abbrev ClearP {γ : Type} (R : γ → Prop) (r : Res (XTSt V) γ) : Prop := Post (fun v s' => s'.Clear ∧ R v) (fun s' => s'.Clear) r

theorem clear_put {u : XTree V} (h : s.Clear) (hu : u.Clear) : ClearP (fun _ => True) (xtPut x u s) := by
  refine ⟨?_, trivial⟩
  intro y T hy
  simp only at hy
  by_cases hyx : y = x.var
  · subst hyx
    rw [upd_same] at hy
    cases hv : s.vars x.var with
    | none => rw [hv] at hy; cases hy
    | some T0 => rw [hv] at hy; cases hy; exact (h _ _ hv).put hu
  · rw [upd_ne _ _ hyx] at hy; exact h _ _ hy

theorem clear_set {u : Option (XTree V)} {x : Nat} (h : s.Clear) (hu : ∀ v, u = some v → v.Clear) : ClearP (fun _ => True) (xtSet x u s) := by
  refine ⟨?_, trivial⟩
  intro y T hy
  simp only at hy
  by_cases hyx : y = x
  · subst hyx; rw [upd_same] at hy; exact hu _ hy
  · rw [upd_ne _ _ hyx] at hy; exact h _ _ hy

theorem clear_run {γ : Type} {a : Eff Count γ} {R : γ → Prop} (h : s.Clear) (hR : ∀ v c', a s.count = .ok v c' → R v) : ClearP R (xtRun a s) := by
  unfold xtRun
  cases ha : a s.count with
  | ok v c => exact ⟨h, hR v c ha⟩
  | exc e c => exact h
  | fault f => trivial

theorem clear_copy {u : XTree V} (h : s.Clear) : ClearP XTree.Clear (xtRun (xtCopy C u) s) := clear_run h fun _ _ hr => xtCopy_clear hr

theorem clear_may {b : Bool} {k : ExcKind} (h : s.Clear) : ClearP (fun _ => True) (xtRun (xtMay C b k) s) := clear_run h fun _ _ _ => trivial

theorem clear_get (h : s.Clear) : ClearP XTree.Clear (xtGet x s) := by
  unfold xtGet
  cases hx : s.at x with
  | none => trivial
  | some u => exact ⟨h, h.at hx⟩

theorem clear_getAll : ∀ {ts : List TPlace} {s : XTSt V}, s.Clear → ClearP (fun _ => True) (xtGetAll ts s)
  | [], s, h => ⟨h, trivial⟩
  | t :: ts, s, h => by
    rw [xtGetAll]
    exact (clear_get h).bind fun u s1 h1 => (clear_getAll h1.1).bind fun us s2 h2 => ⟨h2.1, trivial⟩

theorem clear_take (h : s.Clear) : ClearP XTree.Clear (xtTake C t s) := by
  unfold xtTake
  refine (clear_get h).bind fun u s1 ⟨h1, hu⟩ => ?_
  have hm := xtMove_clear (C := C) s1.count hu
  cases hr : xtMove C s1.count u with
  | ok u' src c =>
    rw [hr] at hm
    simp only
    exact (clear_put (s := { s1 with count := c }) h1 hm.2).bind fun _ s2 h2 => ⟨h2.1, hm.1⟩
  | exc e src c =>
    rw [hr] at hm
    simp only
    exact (clear_put (s := { s1 with count := c }) h1 hm).bind fun _ s2 h2 => h2.1

theorem clear_fallback {fb : TyIx} (h : s.Clear) : ClearP (fun _ => True) (xtFallback C x fb s) := by
  unfold xtFallback
  exact (clear_may h).bind fun _ s1 h1 => clear_put h1.1 (by rw [XTree.Clear])

theorem ClearP.exc {r : Res (XTSt V) Unit} (h : ClearP (fun _ => True) r) : Post (fun _ s' => s'.Clear) (fun s' => s'.Clear) r :=
  h.imp (fun _ _ h => h.1) fun _ h => h

theorem clear_guarded {l r : XTree V} (h : s.Clear) (hl : l.Clear) (hk : C.nothrowMove l.which = true) :
    ClearP (fun _ => True) (xtGuarded C x l r s) := by
  unfold xtGuarded
  rw [if_neg (by rw [hl.backed]; decide), if_pos hk]
  refine (clear_may h).bind fun _ s1 h1 => ?_
  refine Post.bind (Q := fun u s' => s'.Clear ∧ u.Clear) ?_ fun u s2 h2 => clear_put h2.1 h2.2
  refine Post.onExc (clear_copy h1.1) fun s3 h3 => ?_
  exact (clear_may h3).bind fun _ s4 h4 => (clear_put h4.1 (hl.fill hl.members)).exc

theorem clear_replace {l r : XTree V} (hC : C.NeverBacksUp) (h : s.Clear) (hl : l.Clear) (hk : l.which ≠ r.which) :
    ClearP (fun _ => True) (xtReplace C x l r s) := by
  unfold xtReplace
  by_cases h1 : C.nothrowCopy r.which = true
  · rw [if_pos h1]; exact (clear_copy h).bind fun u s1 h1 => clear_put h1.1 h1.2
  · rw [if_neg h1]
    by_cases h2 : C.nothrowMove r.which = true
    · rw [if_pos h2]
      refine (clear_copy h).bind fun u s1 h1 => ?_
      exact (clear_may h1.1).bind fun _ s2 h3 => clear_put h3.1 (h1.2.fill h1.2.members)
    · rw [if_neg h2]
      cases hf : C.fallback with
      | none =>
        refine clear_guarded h hl ?_
        rcases hC with hC | hC
        · exact absurd hf hC
        · rcases hC _ _ hk with h3 | h3 | h3
          · exact h3
          · exact absurd h3 h1
          · exact absurd h3 h2
      | some fb =>
        refine Post.bind (Q := fun u s' => s'.Clear ∧ u.Clear) ?_ fun u s2 h2 => clear_put h2.1 h2.2
        exact Post.onExc (clear_copy h) fun s3 h3 => (clear_fallback h3).exc

theorem clear_replaceMove {l r : XTree V} (hC : C.NeverBacksUp) (h : s.Clear) (hl : l.Clear) (hk : l.which ≠ r.which) :
    ClearP (fun _ => True) (xtReplaceMove C x t l r s) := by
  unfold xtReplaceMove
  by_cases h1 : C.nothrowMove r.which = true
  · rw [if_pos h1]; exact (clear_take h).bind fun u s1 h1 => clear_put h1.1 h1.2
  · rw [if_neg h1]
    by_cases h2 : C.nothrowCopy r.which = true
    · rw [if_pos h2]; exact (clear_copy h).bind fun u s1 h1 => clear_put h1.1 h1.2
    · rw [if_neg h2]
      cases hf : C.fallback with
      | none =>
        refine clear_guarded h hl ?_
        rcases hC with hC | hC
        · exact absurd hf hC
        · rcases hC _ _ hk with h3 | h3 | h3
          · exact h3
          · exact absurd h3 h2
          · exact absurd h3 h1
      | some fb =>
        refine Post.bind (Q := fun u s' => s'.Clear ∧ u.Clear) ?_ fun u s2 h2 => clear_put h2.1 h2.2
        exact Post.onExc (clear_take h) fun s3 h3 => (clear_fallback h3).exc

theorem clear_assign (hC : C.NeverBacksUp) (h : s.Clear) : ClearP (fun _ => True) (xtAssign C x t s) := by
  unfold xtAssign
  refine (clear_get h).bind fun l s1 ⟨h1, hl⟩ => ?_
  refine (clear_get h1).bind fun r s2 ⟨h2, hr⟩ => ?_
  split
  · cases l with
    | leaf b k u =>
      cases r with
      | leaf b' k' v =>
        refine Post.bind (Q := fun _ s' => s'.Clear ∧ True) ?_ fun _ s3 h3 => clear_put h3.1 hl.leaf
        exact Post.onExc (clear_may h2) fun s3 h3 => (clear_put h3 hl.leaf).exc
      | node => exact trivial
    | node b k a f =>
      cases r with
      | leaf => exact trivial
      | node b' k' a' f' =>
        refine (clear_may h2).bind fun _ s3 h3 => ?_
        refine (clear_run (R := XTree.ClearL) h3.1 fun _ _ hr => xtCopyAll_clear hr).bind fun g s4 h4 => clear_put h4.1 ?_
        rw [XTree.Clear] at hl ⊢
        exact ⟨hl.1, h4.2⟩
  · rename_i hk
    refine clear_replace hC h2 hl fun h => hk ⟨h, ?_⟩
    rw [hl.backed, hr.backed]

theorem clear_moveAssign (hC : C.NeverBacksUp) (h : s.Clear) : ClearP (fun _ => True) (xtMoveAssign C x t s) := by
  unfold xtMoveAssign
  refine (clear_get h).bind fun l s1 ⟨h1, hl⟩ => ?_
  refine (clear_get h1).bind fun r s2 ⟨h2, hr⟩ => ?_
  split
  · cases l with
    | leaf b k u =>
      cases r with
      | leaf b' k' v =>
        show ClearP _ ((if x = t then _ else _ : Eff (XTSt V) Unit) s2)
        split
        · refine Post.bind (Q := fun _ s' => s'.Clear ∧ True) ?_ fun _ s3 h3 => clear_put h3.1 hl.leaf
          exact Post.onExc (clear_may h2) fun s3 h3 => (clear_put h3 hl.leaf).exc
        · refine Post.bind (Q := fun _ s' => s'.Clear ∧ True) ?_ fun _ s3 h3 => ?_
          · refine Post.onExc (clear_may h2) fun s3 h3 => ClearP.exc ?_
            exact (clear_put h3 hl.leaf).bind fun _ s4 h4 => clear_put h4.1 hr.leaf
          · exact (clear_put h3.1 hl.leaf).bind fun _ s4 h4 => clear_put h4.1 hr.leaf
      | node => exact trivial
    | node b k a f =>
      cases r with
      | leaf => exact trivial
      | node b' k' a' f' => exact (clear_put h2 hr).bind fun _ s4 h4 => clear_put h4.1 hl
  · rename_i hk
    refine clear_replaceMove hC h2 hl fun h => hk ⟨h, ?_⟩
    rw [hl.backed, hr.backed]

theorem clear_swap {z : Nat} (hC : C.NeverBacksUp) (h : s.Clear) : ClearP (fun _ => True) (xtSwap C x t z s) := by
  unfold xtSwap
  refine (clear_get h).bind fun l s1 ⟨h1, hl⟩ => ?_
  refine (clear_get h1).bind fun r s2 ⟨h2, hr⟩ => ?_
  split
  · split
    · refine Post.bind (Q := fun _ s' => s'.Clear ∧ True) ?_ fun _ s3 h3 => clear_put h3.1 (hl.fill hl.members)
      exact Post.onExc (clear_may h2) fun s3 h3 => (clear_put h3 (hl.fill hl.members)).exc
    · refine Post.bind (Q := fun _ s' => s'.Clear ∧ True) ?_ fun _ s3 h3 => ?_
      · refine Post.onExc (clear_may h2) fun s3 h3 => ClearP.exc ?_
        exact (clear_put h3 (hl.fill hl.members)).bind fun _ s4 h4 => clear_put h4.1 (hr.fill hr.members)
      · exact (clear_put h3.1 (hl.fill hr.members)).bind fun _ s4 h4 => clear_put h4.1 (hr.fill hl.members)
  · refine (clear_take h2).bind fun u s3 ⟨h3, hu⟩ => ?_
    refine (clear_set h3 fun v hv => by cases hv; exact hu).bind fun _ s4 h4 => ?_
    refine Post.bind (Q := fun _ s' => s'.Clear ∧ True) ?_ fun _ s5 h5 => clear_set h5.1 fun _ h => by cases h
    refine Post.onExc (E' := fun s' => s'.Clear) ?_ fun s5 h5 => (clear_set h5 fun _ h => by cases h).exc
    exact (clear_moveAssign hC h4.1).bind fun _ s5 h5 => clear_moveAssign hC h5.1

/-- With such types nothing ever is in a backup. -/
theorem clear_exact (hC : C.NeverBacksUp) (c : TCmd V) (h : s.Clear) : ClearP (fun _ => True) (c.exact C s) := by
  cases c with
  | leaf x k v => exact (clear_may h).bind fun _ s1 h1 => clear_set h1.1 fun v hv => by cases hv; rw [XTree.Clear]
  | node x k a ys =>
    exact (clear_getAll h).bind fun f s1 h1 => (clear_run (R := fun _ => True) h1.1 fun _ _ _ => trivial).bind fun f' s2 h2 =>
      (clear_copy h2.1).bind fun u s3 h3 => clear_set h3.1 fun v hv => by cases hv; exact h3.2
  | copy x t => exact (clear_get h).bind fun r s1 h1 => (clear_copy h1.1).bind fun u s3 h3 => clear_set h3.1 fun v hv => by cases hv; exact h3.2
  | move x t => exact (clear_take h).bind fun u s3 h3 => clear_set h3.1 fun v hv => by cases hv; exact h3.2
  | assign x t => exact clear_assign hC h
  | moveAssign x t => exact clear_moveAssign hC h
  | swap x t z => exact clear_swap hC h
  | store x v => exact (clear_get h).bind fun u s1 h1 => clear_put h1.1 (h1.2.fill h1.2.members)
  | destroy x => exact clear_set h fun _ h => by cases h

/-- Then statements without a side that is a part of the other are supported. -/
theorem risky_clear {c : TCmd V} (hd : c.Disjoint) (h : s.Clear) : c.risky C s = false := by
  cases c with
  | assign x t =>
    simp only [TCmd.risky]
    cases hx : s.at x with
    | none => rfl
    | some l =>
      cases ht : s.at t with
      | none => rfl
      | some r => simp [(h.at ht).backed, hd.1, hd.2]
  | moveAssign x t =>
    simp only [TCmd.risky]
    cases hx : s.at x with
    | none => rfl
    | some l =>
      cases ht : s.at t with
      | none => rfl
      | some r => simp [(h.at ht).backed, hd.1, hd.2]
  | swap x t z =>
    simp only [TCmd.risky]
    cases hx : s.at x with
    | none => rfl
    | some l =>
      cases ht : s.at t with
      | none => rfl
      | some r => simp [(h.at hx).backed, hd.1, hd.2]
  | _ => rfl

end

end BVariant
