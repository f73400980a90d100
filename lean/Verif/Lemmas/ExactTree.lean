/-
Copying and moving recursive variants, exactly: the model and Spec/ExactTree.lean agree.
-/
import Verif.Spec.ExactTree
import Verif.Lemmas.TreeStep

namespace BVariant

section
variable {V : Type} {C : TreeCfg V} {s s' : TreeSt V} {h h' : ObjId → Option (TCell V)}

open ATree AStore

variable {α : AStore V} {G G' : List (ATree V)} {n : Nat} {x y : TPlace}

mutual
/-- The annotated tree has this value, and these marks. -/
def ATree.Shows : ATree V → XTree V → Prop
  | .leaf k v b, .leaf m k' v' => b.isSome = m ∧ k = k' ∧ v = v'
  | .node k a _ f b, .node m k' a' f' => b.isSome = m ∧ k = k' ∧ a = a' ∧ ATree.ShowsL f f'
  | _, _ => False
def ATree.ShowsL : List (ATree V) → List (XTree V) → Prop
  | [], [] => True
  | t :: ts, t' :: f' => t.Shows t' ∧ ATree.ShowsL ts f'
  | _, _ => False
end

mutual
theorem ATree.Shows.is : ∀ {T : ATree V} {t : XTree V}, T.Shows t → T.Is t.erase
  | .leaf k v b, .leaf m k' v', hs => by rw [Shows] at hs; rw [XTree.erase, Is]; exact hs.2
  | .node k a p f b, .node m k' a' f', hs => by
    rw [Shows] at hs; rw [XTree.erase, Is]; exact ⟨hs.2.1, hs.2.2.1, ATree.ShowsL.is hs.2.2.2⟩
  | .leaf .., .node .., hs => by simp [Shows] at hs
  | .node .., .leaf .., hs => by simp [Shows] at hs
  | .dead .., _, hs => by simp [Shows] at hs
  | .blk .., _, hs => by simp [Shows] at hs
theorem ATree.ShowsL.is : ∀ {F : List (ATree V)} {f : List (XTree V)}, ATree.ShowsL F f → IsL F (XTree.eraseL f)
  | [], [], _ => by simp [XTree.eraseL, IsL]
  | t :: ts, t' :: f', hs => by rw [ShowsL] at hs; rw [XTree.eraseL, IsL]; exact ⟨hs.1.is, hs.2.is⟩
  | [], _ :: _, hs => by simp [ShowsL] at hs
  | _ :: _, [], hs => by simp [ShowsL] at hs
end

theorem XTree.erase_which (t : XTree V) : t.erase.which = t.which := by cases t <;> rfl

theorem XTree.which_mark (b : Bool) (t : XTree V) : (t.mark b).which = t.which := by cases t <;> rfl

theorem XTree.erase_mark (b : Bool) (t : XTree V) : (t.mark b).erase = t.erase := by cases t <;> simp [XTree.mark, XTree.erase]

theorem ATree.Shows.which {T : ATree V} {t : XTree V} (hs : T.Shows t) : T.which = t.which := by
  rw [hs.is.which, XTree.erase_which]

theorem ATree.Shows.box {T : ATree V} {t : XTree V} (hs : T.Shows t) : T.box.isSome = t.backed := by
  cases T <;> cases t <;> simp_all [Shows, ATree.box, XTree.backed]

theorem ATree.Shows.setBox {T : ATree V} {t : XTree V} (hs : T.Shows t) (b : Option ObjId) : (T.setBox b).Shows (t.mark b.isSome) := by
  cases T <;> cases t <;> simp_all [Shows, ATree.setBox, XTree.mark]

theorem ATree.Shows.unbox {T : ATree V} {t : XTree V} (hs : T.Shows t) (hb : t.backed = false) : T.box = none := by
  rw [← hs.box] at hb; cases hT : T.box <;> simp_all

theorem showsL_append : ∀ {F F' : List (ATree V)} {f f' : List (XTree V)}, ShowsL F f → ShowsL F' f' → ShowsL (F ++ F') (f ++ f')
  | [], _, [], _, _, h => h
  | t :: ts, F', t' :: f, f', hs, h => by
    rw [ShowsL] at hs
    simp only [List.cons_append, ShowsL]
    exact ⟨hs.1, showsL_append hs.2 h⟩
  | [], _, _ :: _, _, hs, _ => by simp [ShowsL] at hs
  | _ :: _, _, [], _, hs, _ => by simp [ShowsL] at hs

theorem showsL_get : ∀ {F : List (ATree V)} {f : List (XTree V)} {i : Nat}, ShowsL F f →
    (∃ T t, F[i]? = some T ∧ f[i]? = some t ∧ T.Shows t) ∨ (F[i]? = none ∧ f[i]? = none)
  | [], [], i, _ => .inr ⟨rfl, rfl⟩
  | T :: F, t :: f, 0, hs => by rw [ShowsL] at hs; exact .inl ⟨T, t, rfl, rfl, hs.1⟩
  | T :: F, t :: f, i + 1, hs => by
    rw [ShowsL] at hs
    simpa only [List.getElem?_cons_succ] using showsL_get (i := i) hs.2
  | [], _ :: _, _, hs => by simp [ShowsL] at hs
  | _ :: _, [], _, hs => by simp [ShowsL] at hs

theorem showsL_set : ∀ {F : List (ATree V)} {f : List (XTree V)} {i : Nat} {T : ATree V} {t : XTree V}, ShowsL F f → T.Shows t →
    ShowsL (F.set i T) (f.set i t)
  | [], [], i, _, _, _, _ => by simp [ShowsL]
  | T0 :: F, t0 :: f, 0, T, t, hs, ht => by rw [ShowsL] at hs; simp only [List.set_cons_zero, ShowsL]; exact ⟨ht, hs.2⟩
  | T0 :: F, t0 :: f, i + 1, T, t, hs, ht => by
    rw [ShowsL] at hs
    simp only [List.set_cons_succ, ShowsL]
    exact ⟨hs.1, showsL_set hs.2 ht⟩
  | [], _ :: _, _, _, _, hs, _ => by simp [ShowsL] at hs
  | _ :: _, [], _, _, _, hs, _ => by simp [ShowsL] at hs

theorem walk_shows : ∀ (is : List Nat) {T : ATree V} {t : XTree V} (l : TLoc), T.Shows t →
    (∃ l' T' t', T.walk l is = some (l', T') ∧ t.sub is = some t' ∧ T'.Shows t') ∨ (T.walk l is = none ∧ t.sub is = none)
  | [], T, t, l, hs => .inl ⟨l, T, t, by simp [ATree.walk], by cases t <;> rfl, hs⟩
  | i :: is, T, t, l, hs => by
    cases T with
    | leaf k v b =>
      cases t with
      | leaf k' v' => exact .inr ⟨rfl, rfl⟩
      | node => simp [Shows] at hs
    | node k a p f b =>
      cases t with
      | leaf k' v' => simp [Shows] at hs
      | node b' k' a' g =>
        rw [Shows] at hs
        rcases showsL_get (i := i) hs.2.2.2 with ⟨t1, u1, h1, h2, h3⟩ | ⟨h1, h2⟩
        · simp only [ATree.walk, h1, XTree.sub, h2]
          exact walk_shows is _ h3
        · exact .inr ⟨by simp only [ATree.walk, h1], by simp only [XTree.sub, h2]⟩
    | dead => simp [Shows] at hs
    | blk => simp [Shows] at hs

theorem put_shows : ∀ (is : List Nat) {T U : ATree V} {t u : XTree V}, T.Shows t → U.Shows u → (T.put is U).Shows (t.put is u)
  | [], T, U, t, u, hs, hw => by simpa [ATree.put, XTree.put] using hw
  | i :: is, T, U, t, u, hs, hw => by
    cases T with
    | leaf k v b =>
      cases t with
      | leaf k' v' => simpa [ATree.put, XTree.put] using hs
      | node => simp [Shows] at hs
    | node k a p f b =>
      cases t with
      | leaf k' v' => simp [Shows] at hs
      | node b' k' a' g =>
        have hs' := hs
        rw [Shows] at hs'
        rcases showsL_get (i := i) hs'.2.2.2 with ⟨t1, u1, h1, h2, h3⟩ | ⟨h1, h2⟩
        · simp only [ATree.put, h1, XTree.put, h2, Shows]
          exact ⟨hs'.1, hs'.2.1, hs'.2.2.1, showsL_set hs'.2.2.2 (put_shows is h3 hw)⟩
        · simpa only [ATree.put, h1, XTree.put, h2] using hs
    | dead => simp [Shows] at hs
    | blk => simp [Shows] at hs

/-! ### Counters -/

/-- The counters of a state. -/
def TreeSt.count (s : TreeSt V) : Count := ⟨s.tick, s.allocs⟩

theorem count_eq (h1 : s'.tick = s.tick) (h2 : s'.allocs = s.allocs) : s'.count = s.count := by
  simp only [TreeSt.count, h1, h2]

theorem count_next (h1 : s'.tick = s.tick + 1) (h2 : s'.allocs = s.allocs) : s'.count = { s.count with tick := s.count.tick + 1 } := by
  simp only [TreeSt.count, h1, h2]

/-- One operation of the elements, in the model and in the specification. -/
theorem tMay_x (nothrow : Bool) (k : ExcKind) (s : TreeSt V) :
    (tMayThrow C nothrow k s = .ok () { s with tick := s.tick + 1 } ∧
      xtMay C nothrow k s.count = .ok () { s.count with tick := s.tick + 1 }) ∨
    (tMayThrow C nothrow k s = .exc ⟨k, s.tick⟩ { s with tick := s.tick + 1 } ∧
      xtMay C nothrow k s.count = .exc ⟨k, s.tick⟩ { s.count with tick := s.tick + 1 } ∧ nothrow = false ∧ C.throws s.tick = true) := by
  simp only [tMayThrow, xtMay, TreeSt.count]
  by_cases hC : C.throws s.tick = true
  · cases nothrow <;> simp [hC]
  · cases nothrow <;> simp [hC]

/-- An allocation, in the model and in the specification. -/
theorem tAlloc_x (s : TreeSt V) :
    (tAlloc C s = .ok s.next { s with heap := upd s.heap s.next (some .raw), next := s.next + 1, tick := s.tick + 1, allocs := s.allocs + 1 } ∧
      xtNew C s.count = .ok () ⟨s.tick + 1, s.allocs + 1⟩) ∨
    (tAlloc C s = .exc ⟨.badAlloc, s.tick⟩ { s with tick := s.tick + 1, allocs := s.allocs + 1 } ∧
      xtNew C s.count = .exc ⟨.badAlloc, s.tick⟩ ⟨s.tick + 1, s.allocs + 1⟩ ∧ C.throws s.tick = true) := by
  simp only [tAlloc, xtNew, bind, Eff.bind, Eff.modify, tMayThrow, xtMay, TreeSt.count]
  cases hC : C.throws s.tick <;> simp

/-! ### Copying -/

mutual
/-- The value of a copy. -/
theorem xtCopy_ok : ∀ {t t' : XTree V} {c c' : Count}, xtCopy C t c = .ok t' c' → t'.erase = t.erase.copied C.ops ∧ t'.backed = false
  | .leaf b k v, t', c, c', hr => by
    simp only [xtCopy, bind, Eff.bind] at hr
    split at hr
    · cases hr; exact ⟨rfl, rfl⟩
    · cases hr
    · cases hr
  | .node b k a f, t', c, c', hr => by
    simp only [xtCopy, bind, Eff.bind] at hr
    split at hr
    · split at hr
      · split at hr
        · rename_i hf
          cases hr
          simp only [XTree.erase, VTree.copied, xtCopyAll_ok hf, XTree.backed, and_self]
        · cases hr
        · cases hr
      · cases hr
      · cases hr
    · cases hr
    · cases hr
theorem xtCopyAll_ok : ∀ {f f' : List (XTree V)} {c c' : Count}, xtCopyAll C f c = .ok f' c' →
    XTree.eraseL f' = (XTree.eraseL f).copied C.ops
  | [], f', c, c', hr => by
    simp only [xtCopyAll, pure, Eff.pure] at hr
    cases hr; rfl
  | t :: f, f', c, c', hr => by
    simp only [xtCopyAll, bind, Eff.bind] at hr
    split at hr
    · rename_i ht
      split at hr
      · rename_i hf
        cases hr
        simp only [XTree.eraseL, VForest.copied, xtCopy_ok ht, xtCopyAll_ok hf]
      · cases hr
      · cases hr
    · cases hr
    · cases hr
end

theorem TGrown.holds (hg : TGrown s s' ms) {T : ATree V} (hT : T.Holds s.heap) : T.Holds s'.heap :=
  hT.frame fun p hp => hg.frame p fun hm => hT.alive p hp (hg.new p hm)

theorem TGrown.holdsL (hg : TGrown s s' ms) {F : List (ATree V)} (hF : HoldsL s.heap F) : HoldsL s'.heap F :=
  hF.frame fun p hp => hg.frame p fun hm => hF.alive p hp (hg.new p hm)

/-- Copying, in the model and in the specification. -/
def CopyX (C : TreeCfg V) (s : TreeSt V) (r : Res (TreeSt V) γ) (q : Res Count δ)
    (P : TreeSt V → List ObjId → γ → δ → Prop) : Prop :=
  (∃ a s' ns d, r = .ok a s' ∧ q = .ok d s'.count ∧ P s' ns a d ∧ TGrown s s' ns) ∨
  (∃ e s', r = .exc e s' ∧ q = .exc e s'.count ∧ TUndone C s e s' ∧ s'.Fresh)

/-- A new block around what a constructor constructs. -/
theorem tNew_x {γ : Type} {ctor : Eff (TreeSt V) (TCell V)} {m : Eff Count γ} {P : TreeSt V → List ObjId → TCell V → γ → Prop}
    (hf : s.Fresh) (hctor : ∀ s1 : TreeSt V, (∀ p, p ≠ s.next → s1.heap p = s.heap p) → s1.Fresh → CopyX C s1 (ctor s1) (m s1.count) P)
    (hP : ∀ (s1 s2 : TreeSt V) (c : TCell V) (d : γ) (ns : List ObjId), P s1 ns c d → (∀ p ∈ ns, s2.heap p = s1.heap p) → P s2 ns c d) :
    CopyX C s (tNew C ctor s) ((do xtNew C; m : Eff Count γ) s.count)
      (fun s' ns q d => ∃ c ms, s'.heap q = some c ∧ P s' ms c d ∧ ns = q :: ms) := by
  rcases tAlloc_x (C := C) s with ⟨hal, hx⟩ | ⟨hal, hx, ht⟩
  · have hf1 : TreeSt.Fresh { s with heap := upd s.heap s.next (some .raw), next := s.next + 1, tick := s.tick + 1, allocs := s.allocs + 1 } := by
      intro p hp
      simp only at hp
      simp only [upd]
      rw [if_neg (by omega)]; exact hf p (by omega)
    rcases hctor _ (fun p hp => by simp only [upd, hp, if_false]) hf1 with ⟨c, s2, ns, d, hr, hq, hc, hg⟩ | ⟨e, s2, hr, hq, hu, hfu⟩
    · have hraw : s2.heap s.next = some .raw := by
        rw [hg.frame s.next fun hm => by have := hg.new _ hm; simp at this]; simp
      have hnin : s.next ∉ ns := fun hm => by have := hg.new _ hm; simp at this
      refine .inl ⟨s.next, { s2 with heap := upd s2.heap s.next (some c) }, s.next :: ns, d, ?_, ?_,
        ⟨c, ns, by simp, hP _ _ _ _ _ hc fun p hp => ?_, rfl⟩, ?_⟩
      · simp only [tNew, bind, Eff.bind, hal, Eff.onExc, hr, tFill, hraw, pure, Eff.pure]
      · simp only [bind, Eff.bind, hx]; exact hq
      · simp only [upd]; rw [if_neg]; rintro rfl; exact hnin hp
      · refine ⟨List.nodup_cons.mpr ⟨hnin, hg.nodup⟩, ?_, ?_, hg.vars, ?_, ?_, ?_⟩
        · intro p hp
          rcases List.mem_cons.mp hp with rfl | hp
          · exact hf _ (Nat.le_refl _)
          · have := hg.new p hp
            simp only [upd] at this
            split at this
            · cases this
            · exact this
        · intro p hp
          have h1 : p ≠ s.next := fun h => hp (h ▸ .head _)
          have h2 : p ∉ ns := fun h => hp (.tail _ h)
          simp only [upd, h1, if_false]
          rw [hg.frame p h2]
          simp only [upd, h1, if_false]
        · have := hg.next; simp only at this; simp only; omega
        · intro p hp
          have := hg.next
          simp only at hp this
          simp only [upd]
          rw [if_neg (by omega)]; exact hg.fresh p hp
        · have := hg.tick; simp only at this; simp only; omega
    · have hraw : s2.heap s.next = some .raw := by rw [hu.heap]; simp
      have hheap : upd s2.heap s.next none = s.heap := by
        rw [hu.heap]; funext p; simp only [upd]
        by_cases h : p = s.next
        · rw [if_pos h, h, hf _ (Nat.le_refl _)]
        · simp only [h, if_false]
      have hn := hu.next
      have hlo := hu.lo
      simp only at hn hlo
      refine .inr ⟨e, { s2 with heap := upd s2.heap s.next none }, ?_, ?_, ⟨hheap, hu.vars, ?_, ?_, hu.hi, hu.throws⟩, ?_⟩
      · simp only [tNew, bind, Eff.bind, hal, Eff.onExc, hr, tFree, hraw]
      · simp only [bind, Eff.bind, hx]; exact hq
      · simp only; omega
      · omega
      · intro p hp
        simp only at hp
        rw [hheap]; exact hf p (by omega)
  · refine .inr ⟨⟨.badAlloc, s.tick⟩, { s with tick := s.tick + 1, allocs := s.allocs + 1 }, ?_, ?_,
      ⟨rfl, rfl, Nat.le_refl _, Nat.le_refl _, Nat.lt_succ_self _, ht⟩, hf⟩
    · simp only [tNew, bind, Eff.bind, hal]
    · simp only [bind, Eff.bind, hx]; rfl

theorem content_read {R : ATree V} {t : XTree V} (hh : R.Holds s.heap) (hs : R.Shows t) : tContent R.var s = .ok R.content s := by
  cases R with
  | leaf k v b =>
    rw [Holds] at hh
    cases b with
    | none => rfl
    | some q => simp only [tContent, ATree.var, ATree.box, tReadBox, hh q rfl, ATree.content]
  | node k a p f b =>
    rw [Holds] at hh
    cases b with
    | none => rfl
    | some q => simp only [tContent, ATree.var, ATree.box, tReadBox, hh.1 q rfl, ATree.content]
  | dead => simp [Shows] at hs
  | blk => simp [Shows] at hs

/-- The copy of an annotated tree is another one. -/
abbrev CopyP (β : ATree V → γ) (s' : TreeSt V) (ns : List ObjId) (a : γ) (t' : XTree V) : Prop :=
  ∃ U : ATree V, a = β U ∧ U.Shows t' ∧ U.Holds s'.heap ∧ U.blocks = ns

abbrev CopyPL (s' : TreeSt V) (ns : List ObjId) (a : List (TVar V)) (f' : List (XTree V)) : Prop :=
  ∃ us : List (ATree V), a = us.map ATree.var ∧ ShowsL us f' ∧ HoldsL s'.heap us ∧ blocksL us = ns

/-- Copying a node. -/
theorem tCopyNode_x {F : List (ATree V)} {f : List (XTree V)} {k : TyIx} {a : V}
    (ih : ∀ {s : TreeSt V}, HoldsL s.heap F → s.Fresh →
      CopyX C s (tCopyList (tCopyVar C n) (tDestroyVar n) (F.map ATree.var) s) (xtCopyAll C f s.count) CopyPL)
    (hF : HoldsL s.heap F) (hf : s.Fresh) :
    CopyX C s (tNew C (tCopyNode C (tCopyVar C n) (tDestroyVar n) k a (F.map ATree.var)) s) (xtCopy C (.node b k a f) s.count)
      (fun s' ns q t' => ∃ us f', t' = .node false k (C.ops.copy k a) f' ∧ s'.heap q = some (.node (C.ops.copy k a) (us.map ATree.var)) ∧
        ShowsL us f' ∧ HoldsL s'.heap us ∧ ns = q :: blocksL us) := by
  have hnew := tNew_x (C := C) (s := s) (ctor := tCopyNode C (tCopyVar C n) (tDestroyVar n) k a (F.map ATree.var))
    (m := do
      xtMay C (C.tr k).nothrowCopy (.copyCtor k)
      let f' ← xtCopyAll C f
      pure (XTree.node false k (C.ops.copy k a) f'))
    (P := fun s' ns c t' => ∃ us f', t' = .node false k (C.ops.copy k a) f' ∧ c = .node (C.ops.copy k a) (us.map ATree.var) ∧
        ShowsL us f' ∧ HoldsL s'.heap us ∧ blocksL us = ns) hf
    (fun s1 hs1 hf1 => by
      have hF1 : HoldsL s1.heap F := hF.frame fun q hq => hs1 q fun h => hF.alive q hq (h ▸ hf _ (Nat.le_refl _))
      rcases tMay_x (C := C) (C.tr k).nothrowCopy (.copyCtor k) s1 with ⟨h, hx⟩ | ⟨h, hx, _, ht⟩
      · rcases ih (s := { s1 with tick := s1.tick + 1 }) hF1 hf1 with
          ⟨_, s2, ns, f', hr, hq, ⟨us, rfl, h1, h2, h3⟩, hg⟩ | ⟨e, s2, hr, hq, hu, hfu⟩
        · refine .inl ⟨_, s2, ns, _, ?_, ?_, ⟨us, f', rfl, rfl, h1, h2, h3⟩, (grown_tick hf1).trans hg nofun⟩
          · simp only [tCopyNode, bind, Eff.bind, h, hr, pure, Eff.pure]
          · simp only [bind, Eff.bind, hx, pure, Eff.pure]
            simp only [TreeSt.count] at hq ⊢
            simp only [hq]
        · refine .inr ⟨e, s2, ?_, ?_, ⟨hu.heap, hu.vars, hu.next, Nat.le_of_succ_le hu.lo, hu.hi, hu.throws⟩, hfu⟩
          · simp only [tCopyNode, bind, Eff.bind, h, hr]
          · simp only [bind, Eff.bind, hx]
            simp only [TreeSt.count] at hq ⊢
            simp only [hq]
      · refine .inr ⟨_, _, ?_, ?_, undone_tick (k := .copyCtor k) ht, hf1⟩
        · simp only [tCopyNode, bind, Eff.bind, h]
        · simp only [bind, Eff.bind, hx]; rfl)
    (by
      rintro s1 s2 c t' ns ⟨us, f', h1, h2, h3, h4, h5⟩ hh
      exact ⟨us, f', h1, h2, h3, h4.frame fun p hp => hh p (h5 ▸ hp), h5⟩)
  rcases hnew with ⟨q, s2, ns, d, hr, hq, ⟨c, ms, h1, ⟨us, f', h2, rfl, h3, h4, rfl⟩, rfl⟩, hg⟩ | ⟨e, s2, hr, hq, hu, hfu⟩
  · exact .inl ⟨q, s2, _, d, hr, by rw [xtCopy]; exact hq, ⟨us, f', h2, h1, h3, h4, rfl⟩, hg⟩
  · exact .inr ⟨e, s2, hr, by rw [xtCopy]; exact hq, hu, hfu⟩

/-- Copying an object of a bounded type. -/
theorem tCopyContent_x' {R : ATree V} {t : XTree V} (hh : R.Holds s.heap) (hs : R.Shows t) (hf : s.Fresh)
    (ih : ∀ {s : TreeSt V} {k : TyIx} {a : V} {p : ObjId} {F : List (ATree V)} {b : Option ObjId} {m : Bool} {f : List (XTree V)},
      R = .node k a p F b → t = .node m k a f → HoldsL s.heap F → s.Fresh →
      CopyX C s (tCopyList (tCopyVar C n) (tDestroyVar n) (F.map ATree.var) s) (xtCopyAll C f s.count) CopyPL) :
    CopyX C s (tCopyContent C (tCopyVar C n) (tDestroyVar n) R.which R.content s) (xtCopy C t s.count) (CopyP ATree.content) := by
  cases R with
  | dead => simp [Shows] at hs
  | blk => simp [Shows] at hs
  | leaf k v b =>
    cases t with
    | node => simp [Shows] at hs
    | leaf m k' v' =>
      rw [Shows] at hs
      obtain ⟨_, rfl, rfl⟩ := hs
      rcases tMay_x (C := C) (C.tr k).nothrowCopy (.copyCtor k) s with ⟨h, hx⟩ | ⟨h, hx, _, ht⟩
      · refine .inl ⟨_, _, [], .leaf false k (C.ops.copy k v), ?_, ?_, ⟨.leaf k (C.ops.copy k v) none, rfl, ?_, ?_, rfl⟩, grown_tick hf⟩
        · simp only [tCopyContent, ATree.content, ATree.which, bind, Eff.bind, h, pure, Eff.pure]
        · simp only [xtCopy, bind, Eff.bind, hx, pure, Eff.pure]; rfl
        · rw [Shows]; exact ⟨rfl, rfl, rfl⟩
        · rw [Holds]; nofun
      · refine .inr ⟨_, _, ?_, ?_, undone_tick (k := .copyCtor k) ht, hf⟩
        · simp only [tCopyContent, ATree.content, ATree.which, bind, Eff.bind, h]
        · simp only [xtCopy, bind, Eff.bind, hx]; rfl
  | node k a p F b =>
    cases t with
    | leaf => simp [Shows] at hs
    | node m k' a' f =>
      rw [Shows] at hs
      obtain ⟨_, rfl, rfl, hs⟩ := hs
      rw [Holds] at hh
      have hp := hh.2.1
      rcases tCopyNode_x (k := k) (a := a) (b := m) (fun {s} => ih (s := s) rfl rfl) hh.2.2 hf with
        ⟨q, s2, ns, t', hr, hq, ⟨us, f', rfl, h1, h2, h3, rfl⟩, hg⟩ | ⟨e, s2, hr, hq, hu, hfu⟩
      · refine .inl ⟨_, s2, _, _, ?_, hq, ⟨.node k (C.ops.copy k a) q us none, rfl, ?_, ?_, rfl⟩, hg⟩
        · simp only [tCopyContent, ATree.content, ATree.which, bind, Eff.bind, tReadNode, hp, hr, pure, Eff.pure]
        · rw [Shows]; exact ⟨rfl, rfl, rfl, h2⟩
        · rw [Holds]; exact ⟨nofun, h1, h3⟩
      · refine .inr ⟨e, s2, ?_, hq, hu, hfu⟩
        simp only [tCopyContent, ATree.content, ATree.which, bind, Eff.bind, tReadNode, hp, hr]

/-- Copying a variant, given how its content is copied. -/
theorem tCopyVar_of {R : ATree V} {t : XTree V} (hh : R.Holds s.heap) (hs : R.Shows t)
    (h : CopyX C s (tCopyContent C (tCopyVar C n) (tDestroyVar n) R.which R.content s) (xtCopy C t s.count) (CopyP ATree.content)) :
    CopyX C s (tCopyVar C (n + 1) R.var s) (xtCopy C t s.count) (CopyP ATree.var) := by
  have hc := content_read hh hs
  rcases h with ⟨_, s2, ns, t', hr, hq, ⟨U, rfl, h1, h2, h3⟩, hg⟩ | ⟨e, s2, hr, hq, hu, hfu⟩
  · obtain ⟨h4, h5⟩ := xtCopy_ok hq
    refine .inl ⟨_, s2, ns, t', ?_, hq, ⟨U, rfl, h1, h2, h3⟩, hg⟩
    have hk : R.which = U.which := by
      rw [hs.is.which, h1.is.which, h4, VTree.which_copied]
    simp only [tCopyVar, bind, Eff.bind, hc, var_which, hr, pure, Eff.pure]
    rw [var_none (h1.unbox h5), hk]
  · refine .inr ⟨e, s2, ?_, hq, hu, hfu⟩
    simp only [tCopyVar, bind, Eff.bind, hc, var_which, hr]

mutual
/-- Copying a variant. -/
theorem tCopyVar_x : ∀ {t : XTree V} {R : ATree V} {n : Nat} {s : TreeSt V},
    R.Holds s.heap → R.Shows t → t.erase.height ≤ n → s.Fresh →
    CopyX C s (tCopyVar C n R.var s) (xtCopy C t s.count) (CopyP ATree.var)
  | .leaf m k v, R, 0, s, _, _, hn, _ => by simp [XTree.erase, VTree.height] at hn
  | .node m k a f, R, 0, s, _, _, hn, _ => by simp [XTree.erase, VTree.height] at hn
  | .leaf m k v, R, n + 1, s, hh, hs, hn, hf => tCopyVar_of hh hs (tCopyContent_x' hh hs hf fun _ h => by cases h)
  | .node m k a f, R, n + 1, s, hh, hs, hn, hf => by
    rw [XTree.erase, VTree.height] at hn
    refine tCopyVar_of hh hs (tCopyContent_x' hh hs hf fun {s} k a p F b m f hR ht hF hf => ?_)
    cases ht
    subst hR
    rw [Shows] at hs
    exact tCopyList_x hF hs.2.2.2 (by omega) hf
theorem tCopyList_x : ∀ {f : List (XTree V)} {F : List (ATree V)} {n : Nat} {s : TreeSt V},
    HoldsL s.heap F → ShowsL F f → (XTree.eraseL f).height ≤ n → s.Fresh →
    CopyX C s (tCopyList (tCopyVar C n) (tDestroyVar n) (F.map ATree.var) s) (xtCopyAll C f s.count) CopyPL
  | [], F, n, s, hh, hs, _, hf => by
    cases F with
    | cons => simp [ShowsL] at hs
    | nil => exact .inl ⟨[], s, [], [], rfl, by simp only [xtCopyAll]; rfl, ⟨[], rfl, trivial, trivial, rfl⟩, .refl hf⟩
  | t :: f, F, n, s, hh, hs, hn, hf => by
    cases F with
    | nil => simp [ShowsL] at hs
    | cons T F =>
      rw [ShowsL] at hs
      rw [HoldsL] at hh
      rw [XTree.eraseL, VForest.height] at hn
      rcases tCopyVar_x (n := n) hh.1 hs.1 (by omega) hf with
        ⟨_, s1, ns1, t', hr1, hq1, ⟨U, rfl, h1, h2, rfl⟩, hg1⟩ | ⟨e, s1, hr1, hq1, hu, hfu⟩
      · rcases tCopyList_x (n := n) (hg1.holdsL hh.2) hs.2 (by omega) hg1.fresh with
          ⟨_, s2, ns2, f', hr2, hq2, ⟨us, rfl, h3, h4, rfl⟩, hg2⟩ | ⟨e, s2, hr2, hq2, hu, hfu⟩
        · refine .inl ⟨_, s2, U.blocks ++ blocksL us, t' :: f', ?_, ?_, ⟨U :: us, rfl, ?_, ?_, rfl⟩, hg1.trans hg2 h2.alive⟩
          · simp only [List.map_cons, tCopyList, bind, Eff.bind, hr1, Eff.onExc, hr2, pure, Eff.pure]
          · simp only [xtCopyAll, bind, Eff.bind, hq1, hq2, pure, Eff.pure]
          · rw [ShowsL]; exact ⟨h1, h3⟩
          · rw [HoldsL]; exact ⟨hg2.holds h2, h4⟩
        · have hd := tDestroyVar_run (n := n) (s := s2) (ATree.rep (h2.frame fun p _ => by rw [hu.heap]) h1.is) hg1.nodup
            (by have := VTree.height_copied C.ops t.erase; rw [(xtCopy_ok hq1).1]; omega)
          have hheap : (s2.del U.blocks).heap = s.heap := by
            funext p
            simp only [TreeSt.del, hu.heap]
            by_cases hp : p ∈ U.blocks
            · rw [if_pos hp, hg1.new p hp]
            · rw [if_neg hp, hg1.frame p hp]
          refine .inr ⟨e, s2.del U.blocks, ?_, ?_, ⟨hheap, hu.vars.trans hg1.vars, Nat.le_trans hg1.next hu.next,
            Nat.le_trans hg1.tick hu.lo, hu.hi, hu.throws⟩, ?_⟩
          · simp only [List.map_cons, tCopyList, bind, Eff.bind, hr1, Eff.onExc, hr2, hd]
          · simp only [xtCopyAll, bind, Eff.bind, hq1, hq2]; rfl
          · intro p hp
            rw [hheap]; exact hf p (Nat.le_trans hg1.next (Nat.le_trans hu.next hp))
      · refine .inr ⟨e, s1, ?_, ?_, hu, hfu⟩
        · simp only [List.map_cons, tCopyList, bind, Eff.bind, hr1]
        · simp only [xtCopyAll, bind, Eff.bind, hq1]
end

/-- Copying an object of a bounded type. -/
theorem tCopyContent_x {R : ATree V} {t : XTree V} (hh : R.Holds s.heap) (hs : R.Shows t) (hn : t.erase.height ≤ n + 1) (hf : s.Fresh) :
    CopyX C s (tCopyContent C (tCopyVar C n) (tDestroyVar n) R.which R.content s) (xtCopy C t s.count) (CopyP ATree.content) := by
  refine tCopyContent_x' hh hs hf fun {s} k a p F b m f hR ht hF hf => ?_
  subst hR ht
  rw [Shows] at hs
  rw [XTree.erase, VTree.height] at hn
  exact tCopyList_x hF hs.2.2.2 (by omega) hf

/-! ### Moving -/

mutual
/-- The value of what is moved, and of what is left. -/
theorem xtMove_ok : ∀ {t t' t'' : XTree V} {c c' : Count}, xtMove C c t = .ok t' t'' c' →
    t'.erase = t.erase.moved C ∧ t''.erase = t.erase.movedFrom C ∧ t'.backed = false
  | .leaf b k v, t', t'', c, c', hr => by
    simp only [xtMove, xtMay] at hr
    split at hr
    · cases hr; exact ⟨rfl, rfl, rfl⟩
    · cases hr
    · rename_i hm; split at hm <;> cases hm
  | .node b k a f, t', t'', c, c', hr => by
    simp only [xtMove] at hr
    split at hr
    · split at hr
      · split at hr
        · rename_i hst
          cases hr
          simp only [XTree.erase, VTree.moved, VTree.movedFrom, hst, if_true, XTree.backed, XTree.eraseL, and_self]
        · rename_i hst
          split at hr
          · rename_i hf
            cases hr
            have := xtMoveAll_ok hf
            simp only [XTree.erase, VTree.moved, VTree.movedFrom, hst, if_false, XTree.backed, this, Bool.false_eq_true, and_self]
          · cases hr
      · cases hr
      · rename_i hm; simp only [xtMay] at hm; split at hm <;> cases hm
    · cases hr
    · rename_i hm; simp only [xtNew, bind, Eff.bind, Eff.modify, xtMay] at hm; split at hm <;> cases hm
theorem xtMoveAll_ok : ∀ {f f' f'' : List (XTree V)} {c c' : Count}, xtMoveAll C c f = .ok f' f'' c' →
    XTree.eraseL f' = (XTree.eraseL f).moved C ∧ XTree.eraseL f'' = (XTree.eraseL f).movedFrom C
  | [], f', f'', c, c', hr => by
    simp only [xtMoveAll] at hr
    cases hr; exact ⟨rfl, rfl⟩
  | t :: f, f', f'', c, c', hr => by
    simp only [xtMoveAll] at hr
    split at hr
    · rename_i ht
      split at hr
      · rename_i hf
        cases hr
        have h1 := xtMove_ok ht
        have h2 := xtMoveAll_ok hf
        simp only [XTree.eraseL, VForest.moved, VForest.movedFrom, h1, h2, and_self]
      · cases hr
    · cases hr
end

mutual
/-- The value of what a failed move leaves. -/
theorem xtMove_exc : ∀ {t t' : XTree V} {c c' : Count} {e : Exc}, xtMove C c t = .exc e t' c' → t.erase.Partly C t'.erase
  | .leaf b k v, t', c, c', e, hr => by
    simp only [xtMove] at hr
    split at hr
    · cases hr
    · cases hr; exact .leaf k v
    · cases hr
  | .node b k a f, t', c, c', e, hr => by
    simp only [xtMove] at hr
    split at hr
    · split at hr
      · split at hr
        · cases hr
        · split at hr
          · cases hr
          · rename_i hf
            cases hr
            rw [XTree.erase, XTree.erase]
            exact .members k a (xtMoveAll_exc hf)
      · cases hr; rw [XTree.erase, XTree.erase]; exact .value k a _
      · cases hr
    · cases hr; exact .same _
    · cases hr
theorem xtMoveAll_exc : ∀ {f f' : List (XTree V)} {c c' : Count} {e : Exc}, xtMoveAll C c f = .exc e f' c' →
    (XTree.eraseL f).Partly C (XTree.eraseL f')
  | [], f', c, c', e, hr => by
    simp only [xtMoveAll] at hr; cases hr
  | t :: f, f', c, c', e, hr => by
    simp only [xtMoveAll] at hr
    split at hr
    · rename_i ht
      split at hr
      · cases hr
      · rename_i hf
        cases hr
        rw [XTree.eraseL, XTree.eraseL, (xtMove_ok ht).2.1]
        exact .there _ (xtMoveAll_exc hf)
    · rename_i ht
      cases hr
      rw [XTree.eraseL, XTree.eraseL]
      exact .here _ (xtMove_exc ht)
end

/-- Moving the variant `t` at `x`, in the model and in the specification. -/
def MovesX (C : TreeCfg V) (s : TreeSt V) (α : AStore V) (G : List (ATree V)) (x : TPlace) (t : XTree V) (β : ATree V → γ)
    (r : Res (TreeSt V) γ) : Prop :=
  (∃ s' U R' t' t'', r = .ok (β U) s' ∧ xtMove C s.count t = .ok t' t'' s'.count ∧ U.Shows t' ∧ R'.Shows t'' ∧
    Mem s' (α.put x R') (U :: G)) ∨
  (∃ e s' R' t'', r = .exc e s' ∧ xtMove C s.count t = .exc e t'' s'.count ∧ R'.Shows t'' ∧ Mem s' (α.put x R') G)

/-- Moving members, given how each is moved. -/
theorem tMoveList_x (ih : ∀ {s : TreeSt V} {α : AStore V} {G : List (ATree V)} {x : TPlace} {l : TLoc} {R : ATree V} {u : XTree V},
      Mem s α G → At α x l R → R.Shows u → u.erase.height ≤ n → MovesX C s α G x u ATree.var (tMoveVar C n l s))
    {l : TLoc} {k : TyIx} {a : V} {p : ObjId} {b : Option ObjId} : ∀ {todo done : List (ATree V)} {g : List (XTree V)} {s : TreeSt V}
    {α : AStore V} {G : List (ATree V)}, Mem s α G → At α x l (.node k a p (done ++ todo) b) → ShowsL todo g →
    (XTree.eraseL g).height ≤ n →
    (∃ s' us todo' g' g'', tMoveList (tMoveVar C n) (tDestroyVar n) p todo.length done.length s = .ok (us.map ATree.var) s' ∧
      xtMoveAll C s.count g = .ok g' g'' s'.count ∧
      ShowsL us g' ∧ ShowsL todo' g'' ∧ Mem s' (α.put x (.node k a p (done ++ todo') b)) (us ++ G)) ∨
    (∃ e s' todo' g'', tMoveList (tMoveVar C n) (tDestroyVar n) p todo.length done.length s = .exc e s' ∧
      xtMoveAll C s.count g = .exc e g'' s'.count ∧
      ShowsL todo' g'' ∧ Mem s' (α.put x (.node k a p (done ++ todo') b)) G)
  | [], done, [], s, α, G, hM, hx, _, _ => by
    refine .inl ⟨s, [], [], [], [], rfl, by simp only [xtMoveAll], trivial, trivial, ?_⟩
    rw [AStore.put_same hx]; exact hM
  | [], _, _ :: _, _, _, _, _, _, hi, _ => by simp [ShowsL] at hi
  | _ :: _, _, [], _, _, _, _, _, hi, _ => by simp [ShowsL] at hi
  | t :: ts, done, u :: g, s, α, G, hM, hx, hi, hn => by
    rw [ShowsL] at hi
    rw [XTree.eraseL, VForest.height] at hn
    have hget : (done ++ t :: ts)[done.length]? = some t := by simp
    have hset : ∀ R' : ATree V, (done ++ t :: ts).set done.length R' = (done ++ [R']) ++ ts := fun R' => by simp
    have hmem := hx.member hget
    simp only [List.length_cons, tMoveList]
    rcases ih hM hmem hi.1 (by omega) with ⟨s1, U, R', u', u'', hr1, hq1, hU, hR', hM1⟩ | ⟨e, s1, R', u'', hr1, hq1, hR', hM1⟩
    · rw [put_member hx hget, hset] at hM1
      have hx1 : At (α.put x (.node k a p ((done ++ [R']) ++ ts) b)) x l (.node k a p ((done ++ [R']) ++ ts) b) := hx.put
      have hlen : done.length + 1 = (done ++ [R']).length := by simp
      rw [hlen]
      rcases tMoveList_x ih hM1 hx1 hi.2 (by omega) with
        ⟨s2, us, ts', g', g'', hr2, hq2, hus, hts, hM2⟩ | ⟨e, s2, ts', g'', hr2, hq2, hts, hM2⟩
      · rw [AStore.put_put hx, List.append_assoc] at hM2
        refine .inl ⟨s2, U :: us, R' :: ts', u' :: g', u'' :: g'', ?_, ?_, ?_, ?_, ?_⟩
        · simp only [bind, Eff.bind, hr1, Eff.onExc, hr2, pure, Eff.pure, List.map_cons]
        · simp only [xtMoveAll, hq1, hq2]
        · rw [ShowsL]; exact ⟨hU, hus⟩
        · rw [ShowsL]; exact ⟨hR', hts⟩
        · exact hM2.perm (by simp [List.perm_middle])
      · rw [AStore.put_put hx, List.append_assoc] at hM2
        obtain ⟨s3, hd, hM3, ht3, hal3, _⟩ := hM2.destroy (n := n) hU.is
          (by rw [(xtMove_ok hq1).1]; exact Nat.le_trans (VTree.height_moved _) (by omega))
        refine .inr ⟨e, s3, R' :: ts', u'' :: g'', ?_, ?_, ?_, hM3⟩
        · simp only [bind, Eff.bind, hr1, Eff.onExc, hr2, hd]
        · simp only [xtMoveAll, hq1, hq2, count_eq ht3 hal3]
        · rw [ShowsL]; exact ⟨hR', hts⟩
    · rw [put_member hx hget, hset, List.append_assoc] at hM1
      refine .inr ⟨e, s1, R' :: ts, u'' :: g, ?_, ?_, ?_, hM1⟩
      · simp only [bind, Eff.bind, hr1]
      · simp only [xtMoveAll, hq1]
      · rw [ShowsL]; exact ⟨hR', hi.2⟩

/-- Moving a node into a raw block. -/
theorem tMoveNode_x (ih : ∀ {s : TreeSt V} {α : AStore V} {G : List (ATree V)} {x : TPlace} {l : TLoc} {R : ATree V} {u : XTree V},
      Mem s α G → At α x l R → R.Shows u → u.erase.height ≤ n → MovesX C s α G x u ATree.var (tMoveVar C n l s))
    {l : TLoc} {k : TyIx} {a : V} {p : ObjId} {f : List (ATree V)} {g : List (XTree V)} {b : Option ObjId} (hM : Mem s α G)
    (hx : At α x l (.node k a p f b)) (hf : ShowsL f g) (hn : (XTree.eraseL g).height ≤ n) {c0 : Count}
    (hc0 : xtNew C c0 = .ok () s.count) :
    (∃ s' us f' g' g'', tMoveNode C (tMoveVar C n) (tDestroyVar n) k p s = .ok (.node (C.ops.move k a) (us.map ATree.var)) s' ∧
      xtMove C c0 (.node b.isSome k a g) =
        .ok (.node false k (C.ops.move k a) g') (.node b.isSome k (C.ops.movedFrom k a) g'') s'.count ∧ ShowsL us g' ∧ ShowsL f' g'' ∧
      Mem s' (α.put x (.node k (C.ops.movedFrom k a) p f' b)) (us ++ G)) ∨
    (∃ e s' R' t'', tMoveNode C (tMoveVar C n) (tDestroyVar n) k p s = .exc e s' ∧
      xtMove C c0 (.node b.isSome k a g) = .exc e t'' s'.count ∧ R'.Shows t'' ∧ Mem s' (α.put x R') G) := by
  have hh := (hM.at_run hx).2.2
  rw [ATree.Holds] at hh
  have hrd : tReadNode p s = .ok (a, f.map ATree.var) s := by simp only [tReadNode, hh.2.1]
  have hM0 : Mem { s with tick := s.tick + 1 } α G := hM.same rfl rfl (Nat.le_refl _)
  rcases tMay_x (C := C) (C.tr k).nothrowMove (.moveCtor k) s with ⟨h, hq⟩ | ⟨h, hq, _, ht⟩
  · obtain ⟨s1, hs1, hM1, ht1, hal1, _⟩ := hM0.setNode (a' := C.ops.movedFrom k a) hx hh.2.2 hM0.ghosts (fun _ => rfl)
    have hc1 : ({ s.count with tick := s.tick + 1 } : Count) = s1.count := (count_next (s := s) ht1 hal1).symm
    have hx1 : At (α.put x (.node k (C.ops.movedFrom k a) p f b)) x l (.node k (C.ops.movedFrom k a) p f b) := hx.put
    by_cases hst : C.steals k = true
    · obtain ⟨s2, hs2, hM2, ht2, hal2, _⟩ := hM1.setNode (a' := C.ops.movedFrom k a) (f' := []) (G' := f ++ G) hx1 trivial
        (holdsL_append.mpr ⟨by
          have := (hM1.at_run hx1).2.2; rw [ATree.Holds] at this; exact this.2.2, hM1.ghosts⟩)
        (fun q => by rw [count_append]; simp [blocksL])
      rw [AStore.put_put hx] at hM2
      refine .inl ⟨s2, f, [], g, [], ?_, ?_, hf, trivial, hM2⟩
      · simp only [List.map_nil] at hs2
        simp only [tMoveNode, bind, Eff.bind, hrd, Eff.onExc, h, hs1, hst, if_true, hs2, pure, Eff.pure]
      · simp only [xtMove, hc0, hq, hst, if_true, hc1, count_eq ht2 hal2]
    · have hx1' : At (α.put x (.node k (C.ops.movedFrom k a) p f b)) x l (.node k (C.ops.movedFrom k a) p ([] ++ f) b) := hx1
      rcases tMoveList_x ih hM1 hx1' hf hn with ⟨s2, us, f', g', g'', hr2, hq2, hus, hf', hM2⟩ | ⟨e, s2, f', g'', hr2, hq2, hf', hM2⟩
      · rw [AStore.put_put hx] at hM2
        refine .inl ⟨s2, us, f', g', g'', ?_, ?_, hus, hf', hM2⟩
        · simp only [List.length_nil] at hr2
          simp only [tMoveNode, bind, Eff.bind, hrd, Eff.onExc, h, hs1, hst, Bool.false_eq_true, if_false, List.length_map, hr2, pure, Eff.pure]
        · simp only [xtMove, hc0, hq, hst, Bool.false_eq_true, if_false, hc1, hq2]
      · rw [AStore.put_put hx] at hM2
        refine .inr ⟨e, s2, _, .node b.isSome k (C.ops.movedFrom k a) g'', ?_, ?_, ?_, hM2⟩
        · simp only [List.length_nil] at hr2
          simp only [tMoveNode, bind, Eff.bind, hrd, Eff.onExc, h, hs1, hst, Bool.false_eq_true, if_false, List.length_map, hr2]
        · simp only [xtMove, hc0, hq, hst, Bool.false_eq_true, if_false, hc1, hq2]
        · rw [Shows]; exact ⟨rfl, rfl, rfl, hf'⟩
  · obtain ⟨s1, hs1, hM1, ht1, hal1, _⟩ := hM0.setNode (a' := C.ops.moveFailSrc k a) hx hh.2.2 hM0.ghosts (fun _ => rfl)
    have hc1 : ({ s.count with tick := s.tick + 1 } : Count) = s1.count := (count_next (s := s) ht1 hal1).symm
    refine .inr ⟨⟨.moveCtor k, s.tick⟩, s1, _, .node b.isSome k (C.ops.moveFailSrc k a) g, ?_, ?_, ?_, hM1⟩
    · simp only [tMoveNode, bind, Eff.bind, hrd, Eff.onExc, h, hs1]
    · simp only [xtMove, hc0, hq, hc1]
    · rw [Shows]; exact ⟨rfl, rfl, rfl, hf⟩

/-- Moving an object of a bounded type. -/
theorem tMoveRef_x' (ih : ∀ {s : TreeSt V} {α : AStore V} {G : List (ATree V)} {x : TPlace} {l : TLoc} {R : ATree V} {u : XTree V},
      Mem s α G → At α x l R → R.Shows u → u.erase.height ≤ n → MovesX C s α G x u ATree.var (tMoveVar C n l s))
    {l : TLoc} {R : ATree V} {u : XTree V} (hM : Mem s α G) (hx : At α x l R) (hR : R.Shows u) (hn : u.erase.height ≤ n + 1) :
    MovesX C s α G x u ATree.content (tMoveRef C (tMoveVar C n) (tDestroyVar n) R.which (R.var.ref l) s) := by
  obtain ⟨_, hl, hh⟩ := hM.at_run hx
  have hrd := ref_read hl hh
  cases R with
  | dead => simp [Shows] at hR
  | blk => simp [Shows] at hR
  | leaf k v b =>
    cases u with
    | node => simp [Shows] at hR
    | leaf m k' v' =>
      rw [Shows] at hR
      obtain ⟨rfl, rfl, rfl⟩ := hR
      have hM0 : Mem { s with tick := s.tick + 1 } α G := hM.same rfl rfl (Nat.le_refl _)
      rcases tMay_x (C := C) (C.tr k).nothrowMove (.moveCtor k) s with ⟨h, hq⟩ | ⟨h, hq, _, ht⟩
      · obtain ⟨hw, hM1⟩ := (hM0.leaf k (C.ops.movedFrom k v)).replaceRef hx rfl rfl rfl
        obtain ⟨c1, c2, _⟩ := set_counters k ((ATree.leaf k v b).var.ref l) (.leaf (C.ops.movedFrom k v)) { s with tick := s.tick + 1 }
        refine .inl ⟨_, .leaf k (C.ops.move k v) none, _, .leaf false k (C.ops.move k v), .leaf b.isSome k (C.ops.movedFrom k v), ?_, ?_, ?_, ?_,
          (hM1.drop rfl).leaf _ _⟩
        · simp only [which, content] at hw
          simp only [tMoveRef, bind, Eff.bind, hrd, content, which, Eff.onExc, h, hw, pure, Eff.pure]
        · simp only [xtMove, hq, which, content, count_next c1 c2]; rfl
        · rw [Shows]; exact ⟨rfl, rfl, rfl⟩
        · rw [setBox, Shows]; exact ⟨rfl, rfl, rfl⟩
      · obtain ⟨hw, hM1⟩ := (hM0.leaf k (C.ops.moveFailSrc k v)).replaceRef hx rfl rfl rfl
        obtain ⟨c1, c2, _⟩ := set_counters k ((ATree.leaf k v b).var.ref l) (.leaf (C.ops.moveFailSrc k v)) { s with tick := s.tick + 1 }
        refine .inr ⟨⟨.moveCtor k, s.tick⟩, _, _, .leaf b.isSome k (C.ops.moveFailSrc k v), ?_, ?_, ?_, hM1.drop rfl⟩
        · simp only [which, content] at hw
          simp only [tMoveRef, bind, Eff.bind, hrd, content, which, Eff.onExc, h, hw]
        · simp only [xtMove, hq, which, content, count_next c1 c2]; rfl
        · rw [setBox, Shows]; exact ⟨rfl, rfl, rfl⟩
  | node k a p f b =>
    cases u with
    | leaf => simp [Shows] at hR
    | node m k' a' g =>
      rw [Shows] at hR
      obtain ⟨rfl, rfl, rfl, hf⟩ := hR
      rw [XTree.erase, VTree.height] at hn
      rcases tAlloc_x (C := C) s with ⟨hal, hq⟩ | ⟨hal, hq, _⟩
      · rcases hM.alloc (C := C) with ⟨q, s1, h1, hM1, _⟩ | ⟨e, s1, h1, _⟩
        · rw [hal] at h1; cases h1
          rcases tMoveNode_x ih hM1 hx hf (by omega) hq with
            ⟨s2, us, f', g', g'', hr2, hq2, hus, hf', hM2⟩ | ⟨e, s2, R', t'', hr2, hq2, hR', hM2⟩
          · obtain ⟨s3, h3, hM3, ht3, hal3, _⟩ := Mem.fill (p := s.next) (F := us) (G := G) (U := .node k (C.ops.move k a) s.next us none)
              (c := .node (C.ops.move k a) (us.map ATree.var)) (hM2.perm List.perm_middle)
              (fun h' hq hus' => by rw [ATree.Holds]; exact ⟨nofun, hq, hus'⟩)
              (fun r => by simp only [blocks, Option.toList, List.nil_append, List.count_cons, List.count_nil]; omega)
            refine .inl ⟨s3, .node k (C.ops.move k a) s.next us none, _, .node false k (C.ops.move k a) g', .node b.isSome k (C.ops.movedFrom k a) g'', ?_, ?_, ?_, ?_, hM3⟩
            · simp only [tMoveRef, bind, Eff.bind, hrd, content, which, tNew, hal, Eff.onExc, hr2, h3, pure, Eff.pure]
            · rw [count_eq ht3 hal3]; exact hq2
            · rw [Shows]; exact ⟨rfl, rfl, rfl, hus⟩
            · rw [Shows]; exact ⟨rfl, rfl, rfl, hf'⟩
          · obtain ⟨s3, h3, hM3, ht3, hal3, _⟩ := hM2.free
            refine .inr ⟨e, s3, R', t'', ?_, ?_, hR', hM3⟩
            · simp only [tMoveRef, bind, Eff.bind, hrd, content, which, tNew, hal, Eff.onExc, hr2, h3]
            · rw [count_eq ht3 hal3]; exact hq2
        · rw [hal] at h1; cases h1
      · refine .inr ⟨⟨.badAlloc, s.tick⟩, { s with tick := s.tick + 1, allocs := s.allocs + 1 }, .node k a p f b, .node b.isSome k a g, ?_, ?_, ?_, ?_⟩
        · simp only [tMoveRef, bind, Eff.bind, hrd, content, tNew, hal]
        · simp only [xtMove, hq]; rfl
        · rw [Shows]; exact ⟨rfl, rfl, rfl, hf⟩
        · rw [AStore.put_same hx]; exact hM.same rfl rfl (Nat.le_refl _)

/-- Moving a variant. -/
theorem tMoveVar_x : ∀ {n : Nat} {s : TreeSt V} {α : AStore V} {G : List (ATree V)} {x : TPlace} {l : TLoc} {R : ATree V} {u : XTree V},
    Mem s α G → At α x l R → R.Shows u → u.erase.height ≤ n → MovesX C s α G x u ATree.var (tMoveVar C n l s)
  | 0, _, _, _, _, _, _, u, _, _, _, hn => by cases u <;> simp [XTree.erase, VTree.height] at hn
  | n + 1, s, α, G, x, l, R, u, hM, hx, hR, hn => by
    obtain ⟨_, hl, _⟩ := hM.at_run hx
    rcases tMoveRef_x' (fun hM hx hR hn => tMoveVar_x (n := n) hM hx hR hn) hM hx hR hn with
      ⟨s', U, R', t', t'', hr, hq, hU, hR', hM'⟩ | ⟨e, s', R', t'', hr, hq, hR', hM'⟩
    · refine .inl ⟨s', U, R', t', t'', ?_, hq, hU, hR', hM'⟩
      obtain ⟨h1, _, h3⟩ := xtMove_ok hq
      have hk : R.which = U.which := by rw [hR.is.which, hU.is.which, h1, VTree.which_moved]
      simp only [tMoveVar, bind, Eff.bind, hl, var_which, hr, pure, Eff.pure]
      rw [var_none (hU.unbox h3), hk]
    · refine .inr ⟨e, s', R', t'', ?_, hq, hR', hM'⟩
      simp only [tMoveVar, bind, Eff.bind, hl, var_which, hr]

theorem tMoveRef_x {l : TLoc} {R : ATree V} {u : XTree V} (hM : Mem s α G) (hx : At α x l R) (hR : R.Shows u)
    (hn : u.erase.height ≤ n + 1) :
    MovesX C s α G x u ATree.content (tMoveRef C (tMoveVar C n) (tDestroyVar n) R.which (R.var.ref l) s) :=
  tMoveRef_x' (fun hM hx hR hn => tMoveVar_x hM hx hR hn) hM hx hR hn

end

end BVariant
