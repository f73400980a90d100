/-
Runs of the operations on recursive variants (Core/Tree.lean) in terms of trees.
-/
import Verif.Spec.Tree

namespace BVariant

section
variable {V : Type} {C : TreeCfg V} {s s' : TreeSt V} {h h' : ObjId → Option (TCell V)}

mutual
theorem VTree.Rep.frame : ∀ {t : VTree V} {x : TVar V} {ns : List ObjId}, t.Rep h x ns → (∀ p ∈ ns, h' p = h p) → t.Rep h' x ns
  | .leaf k v, x, ns, hr, hf => by
    rw [VTree.Rep] at hr ⊢
    rcases hr with hr | ⟨q, hx, hq, rfl⟩
    · exact .inl hr
    · exact .inr ⟨q, hx, by rw [hf q (.head _)]; exact hq, rfl⟩
  | .node k a f, x, ns, hr, hf => by
    rw [VTree.Rep] at hr ⊢
    obtain ⟨p, cs, ms, hp, hfr, ⟨hx, rfl⟩ | ⟨q, hx, hq, rfl⟩⟩ := hr
    · exact ⟨p, cs, ms, by rw [hf p (.head _)]; exact hp, hfr.frame fun r hr => hf r (.tail _ hr), .inl ⟨hx, rfl⟩⟩
    · exact ⟨p, cs, ms, by rw [hf p (.tail _ (.head _))]; exact hp, hfr.frame fun r hr => hf r (.tail _ (.tail _ hr)),
        .inr ⟨q, hx, by rw [hf q (.head _)]; exact hq, rfl⟩⟩
theorem VForest.Rep.frame : ∀ {f : VForest V} {xs : List (TVar V)} {ns : List ObjId}, f.Rep h xs ns → (∀ p ∈ ns, h' p = h p) →
    f.Rep h' xs ns
  | .nil, xs, ns, hr, _ => by rw [VForest.Rep] at hr ⊢; exact hr
  | .cons t f, xs, ns, hr, hf => by
    rw [VForest.Rep] at hr ⊢
    obtain ⟨y, ys, ms, ms', hxs, ht, hfr, rfl⟩ := hr
    exact ⟨y, ys, ms, ms', hxs, ht.frame fun p hp => hf p (List.mem_append_left _ hp),
      hfr.frame fun p hp => hf p (List.mem_append_right _ hp), rfl⟩
end

mutual
theorem VTree.Rep.alive : ∀ {t : VTree V} {x : TVar V} {ns : List ObjId}, t.Rep h x ns → ∀ p ∈ ns, h p ≠ none
  | .leaf k v, x, ns, hr, p, hp => by
    rw [VTree.Rep] at hr
    rcases hr with ⟨_, rfl⟩ | ⟨q, _, hq, rfl⟩
    · cases hp
    · rw [List.mem_singleton.mp hp, hq]; nofun
  | .node k a f, x, ns, hr, p, hp => by
    rw [VTree.Rep] at hr
    obtain ⟨r, cs, ms, hr, hfr, ⟨hx, rfl⟩ | ⟨q, hx, hq, rfl⟩⟩ := hr
    · rcases List.mem_cons.mp hp with rfl | hp
      · rw [hr]; nofun
      · exact hfr.alive p hp
    · rcases List.mem_cons.mp hp with rfl | hp
      · rw [hq]; nofun
      · rcases List.mem_cons.mp hp with rfl | hp
        · rw [hr]; nofun
        · exact hfr.alive p hp
theorem VForest.Rep.alive : ∀ {f : VForest V} {xs : List (TVar V)} {ns : List ObjId}, f.Rep h xs ns → ∀ p ∈ ns, h p ≠ none
  | .nil, xs, ns, hr, p, hp => by rw [VForest.Rep] at hr; rw [hr.2] at hp; cases hp
  | .cons t f, xs, ns, hr, p, hp => by
    rw [VForest.Rep] at hr
    obtain ⟨y, ys, ms, ms', hxs, ht, hfr, rfl⟩ := hr
    rcases List.mem_append.mp hp with hp | hp
    · exact ht.alive p hp
    · exact hfr.alive p hp
end

/-! ### Destruction -/

/-- The state without the blocks listed. -/
def TreeSt.del (ns : List ObjId) (s : TreeSt V) : TreeSt V := { s with heap := fun p => if p ∈ ns then none else s.heap p }

theorem del_nil : s.del [] = s := by simp [TreeSt.del]

theorem del_del (ms ns : List ObjId) : (s.del ns).del ms = s.del (ms ++ ns) := by
  simp only [TreeSt.del, TreeSt.mk.injEq, and_true]
  funext p
  by_cases h1 : p ∈ ms <;> simp [h1]

theorem del_comm {ms ns : List ObjId} (hm : ∀ p, p ∈ ms ↔ p ∈ ns) : s.del ms = s.del ns := by
  simp only [TreeSt.del, hm]

theorem tDelete_run (p : ObjId) (s : TreeSt V) : tDelete p s = .ok () (s.del [p]) := by
  simp only [tDelete, bind, Eff.bind, Eff.modify, tFree, upd_same, TreeSt.del, Res.ok.injEq, TreeSt.mk.injEq, true_and, and_true]
  funext q
  simp only [upd, List.mem_singleton]
  split <;> rfl

/-- Destruction of a content, given that of the variants in it. -/
theorem tDestroyContent_run {d : TVar V → Eff (TreeSt V) Unit} {p : ObjId} {a : V} {cs : List (TVar V)} {ms : List ObjId}
    (hp : s.heap p = some (.node a cs)) (hd : tDestroyList d cs s = .ok () (s.del ms)) :
    tDestroyContent d (.wrap p) s = .ok () (s.del (p :: ms)) := by
  simp only [tDestroyContent, bind, Eff.bind, tReadNode, hp, hd, tDelete_run, del_del]
  rfl

mutual
/-- Destroying a tree frees exactly its blocks. -/
theorem tDestroyVar_run : ∀ {t : VTree V} {x : TVar V} {ns : List ObjId} {n : Nat} {s : TreeSt V},
    t.Rep s.heap x ns → ns.Nodup → t.height ≤ n → tDestroyVar n x s = .ok () (s.del ns)
  | .leaf k v, x, ns, 0, s, _, _, hn => by simp [VTree.height] at hn
  | .node k a f, x, ns, 0, s, _, _, hn => by simp [VTree.height] at hn
  | .leaf k v, x, ns, n + 1, s, hr, hnd, hn => by
    rw [VTree.Rep] at hr
    rcases hr with ⟨rfl, rfl⟩ | ⟨q, rfl, hq, rfl⟩
    · simp only [tDestroyVar, tDestroyContent, pure, Eff.pure, del_nil]
    · simp only [tDestroyVar, tDestroyContent, bind, Eff.bind, tReadBox, hq, pure, Eff.pure, tDelete_run]
  | .node k a f, x, ns, n + 1, s, hr, hnd, hn => by
    rw [VTree.Rep] at hr
    rw [VTree.height] at hn
    obtain ⟨p, cs, ms, hp, hfr, ⟨rfl, rfl⟩ | ⟨q, rfl, hq, rfl⟩⟩ := hr
    · rw [tDestroyVar]
      exact tDestroyContent_run hp (tDestroyList_run hfr (List.nodup_cons.mp hnd).2 (by omega))
    · have := tDestroyContent_run hp (tDestroyList_run (n := n) hfr
        (List.nodup_cons.mp (List.nodup_cons.mp hnd).2).2 (by omega))
      simp only [tDestroyVar, bind, Eff.bind, tReadBox, hq, this, tDelete_run, del_del]
      rfl
theorem tDestroyList_run : ∀ {f : VForest V} {xs : List (TVar V)} {ns : List ObjId} {n : Nat} {s : TreeSt V},
    f.Rep s.heap xs ns → ns.Nodup → f.height ≤ n → tDestroyList (tDestroyVar n) xs s = .ok () (s.del ns)
  | .nil, xs, ns, n, s, hr, _, _ => by
    rw [VForest.Rep] at hr
    obtain ⟨rfl, rfl⟩ := hr
    simp only [tDestroyList, pure, Eff.pure, del_nil]
  | .cons t f, xs, ns, n, s, hr, hnd, hn => by
    rw [VForest.Rep] at hr
    rw [VForest.height] at hn
    obtain ⟨y, ys, ms, ms', rfl, ht, hfr, rfl⟩ := hr
    obtain ⟨h1, h2, h3⟩ := List.nodup_append.mp hnd
    have hl := tDestroyList_run (n := n) hfr h2 (by omega)
    have ht' : t.Rep (s.del ms').heap y ms := ht.frame fun p hp => by
      simp only [TreeSt.del]
      rw [if_neg]; intro hp'; exact h3 p hp p hp' rfl
    have hv := tDestroyVar_run (n := n) ht' h1 (by omega)
    simp only [tDestroyList, bind, Eff.bind, hl, hv, del_del]
end

/-! ### Copying -/

mutual
theorem VTree.height_copied (o : Ops V) : ∀ t : VTree V, (t.copied o).height = t.height
  | .leaf k v => rfl
  | .node k a f => by rw [VTree.copied, VTree.height, VTree.height, VForest.height_copied o f]
theorem VForest.height_copied (o : Ops V) : ∀ f : VForest V, (f.copied o).height = f.height
  | .nil => rfl
  | .cons t f => by rw [VForest.copied, VForest.height, VForest.height, VTree.height_copied o t, VForest.height_copied o f]
end

/-- What a failed operation leaves: no memory is gained or lost. -/
structure TUndone (C : TreeCfg V) (s : TreeSt V) (e : Exc) (s' : TreeSt V) : Prop where
  heap : s'.heap = s.heap
  vars : s'.vars = s.vars
  next : s.next ≤ s'.next
  lo : s.tick ≤ e.tick
  hi : e.tick < s'.tick
  throws : C.throws e.tick = true

/-- The blocks `ns` are new; nothing else changed. -/
structure TGrown (s s' : TreeSt V) (ns : List ObjId) : Prop where
  nodup : ns.Nodup
  new : ∀ p ∈ ns, s.heap p = none
  frame : ∀ p, p ∉ ns → s'.heap p = s.heap p
  vars : s'.vars = s.vars
  next : s.next ≤ s'.next
  fresh : s'.Fresh
  tick : s.tick ≤ s'.tick

theorem TGrown.rep (hg : TGrown s s' ms) {t : VTree V} {x : TVar V} {ns : List ObjId} (h : t.Rep s.heap x ns) :
    t.Rep s'.heap x ns :=
  h.frame fun p hp => hg.frame p fun hm => h.alive p hp (hg.new p hm)

theorem TGrown.repF (hg : TGrown s s' ms) {f : VForest V} {xs : List (TVar V)} {ns : List ObjId} (h : f.Rep s.heap xs ns) :
    f.Rep s'.heap xs ns :=
  h.frame fun p hp => hg.frame p fun hm => h.alive p hp (hg.new p hm)

theorem TGrown.disjoint (hg : TGrown s s' ms) {ns : List ObjId} (h : ∀ p ∈ ns, s.heap p ≠ none) : ∀ p ∈ ns, p ∉ ms :=
  fun p hp hm => h p hp (hg.new p hm)

theorem TUndone.fresh {e : Exc} (hu : TUndone C s e s') (hf : s.Fresh) : s'.Fresh := fun p hp => by
  rw [hu.heap]; exact hf p (Nat.le_trans hu.next hp)

theorem TGrown.refl (hf : s.Fresh) : TGrown s s [] :=
  ⟨.nil, nofun, fun _ _ => rfl, rfl, Nat.le_refl _, hf, Nat.le_refl _⟩

theorem TGrown.trans {s'' : TreeSt V} {ms ns : List ObjId} (h1 : TGrown s s' ms) (h2 : TGrown s' s'' ns)
    (hm : ∀ p ∈ ms, s'.heap p ≠ none) : TGrown s s'' (ms ++ ns) where
  nodup := List.nodup_append.mpr ⟨h1.nodup, h2.nodup, fun p hp q hq h => hm p hp (h ▸ h2.new q hq)⟩
  new p hp := by
    rcases List.mem_append.mp hp with hp | hp
    · exact h1.new p hp
    · by_cases hpm : p ∈ ms
      · exact h1.new p hpm
      · rw [← h1.frame p hpm]; exact h2.new p hp
  frame p hp := by
    rw [h2.frame p fun h => hp (List.mem_append_right _ h), h1.frame p fun h => hp (List.mem_append_left _ h)]
  vars := h2.vars.trans h1.vars
  next := Nat.le_trans h1.next h2.next
  fresh := h2.fresh
  tick := Nat.le_trans h1.tick h2.tick

/-- The outcome of copying: a representation of the copied tree in new blocks, or nothing. -/
def TCopies (C : TreeCfg V) (s : TreeSt V) (P : (ObjId → Option (TCell V)) → α → List ObjId → Prop) (m : Nat)
    (r : Res (TreeSt V) α) : Prop :=
  (∃ a s' ns, r = .ok a s' ∧ P s'.heap a ns ∧ TGrown s s' ns ∧ s'.allocs = s.allocs + m ∧ ns.length = m) ∨
  (∃ e s', r = .exc e s' ∧ TUndone C s e s' ∧ s'.Fresh)

theorem tMayThrow_run (nothrow : Bool) (k : ExcKind) (s : TreeSt V) :
    (tMayThrow C nothrow k s = .ok () { s with tick := s.tick + 1 }) ∨
    (tMayThrow C nothrow k s = .exc ⟨k, s.tick⟩ { s with tick := s.tick + 1 } ∧ C.throws s.tick = true) := by
  simp only [tMayThrow]
  by_cases h : (!nothrow && C.throws s.tick) = true
  · rw [if_pos h]; simp only [Bool.and_eq_true] at h; exact .inr ⟨rfl, h.2⟩
  · rw [if_neg h]; exact .inl rfl

theorem undone_tick {k : ExcKind} (h : C.throws s.tick = true) : TUndone C s ⟨k, s.tick⟩ { s with tick := s.tick + 1 } :=
  ⟨rfl, rfl, Nat.le_refl _, Nat.le_refl _, Nat.lt_succ_self _, h⟩

theorem grown_tick (hf : s.Fresh) : TGrown s { s with tick := s.tick + 1 } [] :=
  ⟨.nil, nofun, fun _ _ => rfl, rfl, Nat.le_refl _, hf, Nat.le_succ _⟩

/-- A new block around what a constructor constructs. -/
theorem tNew_run {ctor : Eff (TreeSt V) (TCell V)} {P : (ObjId → Option (TCell V)) → TCell V → List ObjId → Prop} {m : Nat}
    (hf : s.Fresh) (hctor : ∀ s1 : TreeSt V, (∀ p, p ≠ s.next → s1.heap p = s.heap p) → s1.Fresh → TCopies C s1 P m (ctor s1))
    (hP : ∀ (h h' : ObjId → Option (TCell V)) (c : TCell V) (ns : List ObjId), P h c ns → (∀ p ∈ ns, h' p = h p) → P h' c ns) :
    TCopies C s (fun h q ns => ∃ c ms, h q = some c ∧ P h c ms ∧ ns = q :: ms) (m + 1) (tNew C ctor s) := by
  have hal : tAlloc C s = if C.throws s.tick = true then
      .exc ⟨.badAlloc, s.tick⟩ { s with tick := s.tick + 1, allocs := s.allocs + 1 } else
      .ok s.next { s with heap := upd s.heap s.next (some .raw), next := s.next + 1, tick := s.tick + 1, allocs := s.allocs + 1 } := by
    simp only [tAlloc, bind, Eff.bind, Eff.modify, tMayThrow]
    cases C.throws s.tick <;> rfl
  by_cases ht : C.throws s.tick = true
  · rw [if_pos ht] at hal
    refine .inr ⟨⟨.badAlloc, s.tick⟩, { s with tick := s.tick + 1, allocs := s.allocs + 1 }, ?_,
      ⟨rfl, rfl, Nat.le_refl _, Nat.le_refl _, Nat.lt_succ_self _, ht⟩, hf⟩
    simp only [tNew, bind, Eff.bind, hal]
  · rw [if_neg ht] at hal
    have hf1 : TreeSt.Fresh { s with heap := upd s.heap s.next (some .raw), next := s.next + 1, tick := s.tick + 1, allocs := s.allocs + 1 } := by
      intro p hp
      simp only at hp
      simp only [upd]
      rw [if_neg (by omega)]; exact hf p (by omega)
    rcases hctor _ (fun p hp => by simp only [upd, hp, if_false]) hf1 with ⟨c, s2, ns, hr, hc, hg, hall, hlen⟩ | ⟨e, s2, hr, hu, hfu⟩
    · have hraw : s2.heap s.next = some .raw := by
        rw [hg.frame s.next fun hm => by have := hg.new _ hm; simp at this]; simp
      have hnin : s.next ∉ ns := fun hm => by have := hg.new _ hm; simp at this
      refine .inl ⟨s.next, { s2 with heap := upd s2.heap s.next (some c) }, s.next :: ns, ?_,
        ⟨c, ns, by simp, hP _ _ _ _ hc fun p hp => ?_, rfl⟩, ?_, ?_, by simp [hlen]⟩
      · simp only [tNew, bind, Eff.bind, hal, Eff.onExc, hr, tFill, hraw, pure, Eff.pure]
      · simp only [upd]; rw [if_neg]; rintro rfl; exact hnin hp
      · refine ⟨List.nodup_cons.mpr ⟨hnin, hg.nodup⟩, ?_, ?_, hg.vars, ?_, ?_, ?_⟩
        · intro p hp
          rcases List.mem_cons.mp hp with rfl | hp
          · exact hf _ (Nat.le_refl _)
          · have := hg.new p hp
            simp only [upd] at this
            split at this
            · cases this
            · exact this
        · intro p hp
          have h1 : p ≠ s.next := fun h => hp (h ▸ .head _)
          have h2 : p ∉ ns := fun h => hp (.tail _ h)
          simp only [upd, h1, if_false]
          rw [hg.frame p h2]
          simp only [upd, h1, if_false]
        · have := hg.next; simp only at this; simp only; omega
        · intro p hp
          have := hg.next
          simp only at hp this
          simp only [upd]
          rw [if_neg (by omega)]; exact hg.fresh p hp
        · have := hg.tick; simp only at this; simp only; omega
      · simp only at hall; simp only [hall]; omega
    · have hraw : s2.heap s.next = some .raw := by rw [hu.heap]; simp
      have hheap : upd s2.heap s.next none = s.heap := by
        rw [hu.heap]; funext p; simp only [upd]
        by_cases h : p = s.next
        · rw [if_pos h, h, hf _ (Nat.le_refl _)]
        · simp only [h, if_false]
      have hn := hu.next
      have hlo := hu.lo
      simp only at hn hlo
      refine .inr ⟨e, { s2 with heap := upd s2.heap s.next none }, ?_, ⟨hheap, hu.vars, ?_, ?_, hu.hi, hu.throws⟩, ?_⟩
      · simp only [tNew, bind, Eff.bind, hal, Eff.onExc, hr, tFree, hraw]
      · simp only; omega
      · omega
      · intro p hp
        simp only at hp
        rw [hheap]; exact hf p (by omega)

mutual
/-- Copying a variant. -/
theorem tCopyVar_run : ∀ {t : VTree V} {x : TVar V} {ns : List ObjId} {n : Nat} {s : TreeSt V},
    t.Rep s.heap x ns → t.height ≤ n → s.Fresh →
    TCopies C s (fun h y ms => (t.copied C.ops).Rep h y ms) t.nodes (tCopyVar C n x s)
  | .leaf k v, x, ns, 0, s, _, hn, _ => by simp [VTree.height] at hn
  | .node k a f, x, ns, 0, s, _, hn, _ => by simp [VTree.height] at hn
  | .leaf k v, x, ns, n + 1, s, hr, hn, hf => by
    rw [VTree.Rep] at hr
    have hc : x.which = k ∧ tContent x s = .ok (.leaf v) s := by
      rcases hr with ⟨rfl, rfl⟩ | ⟨q, rfl, hq, rfl⟩
      · exact ⟨rfl, rfl⟩
      · exact ⟨rfl, by simp only [tContent, tReadBox, hq]⟩
    rcases tMayThrow_run (C := C) (C.tr k).nothrowCopy (.copyCtor k) s with h | ⟨h, ht⟩
    · refine .inl ⟨.plain k (.leaf (C.ops.copy k v)), _, [], ?_, ?_, grown_tick hf, rfl, rfl⟩
      · simp only [tCopyVar, bind, Eff.bind, hc.1, hc.2, tCopyContent, h, pure, Eff.pure]
      · show VTree.Rep _ _ _ _; rw [VTree.copied, VTree.Rep]; exact .inl ⟨rfl, rfl⟩
    · refine .inr ⟨_, _, ?_, undone_tick (k := .copyCtor k) ht, hf⟩
      simp only [tCopyVar, bind, Eff.bind, hc.1, hc.2, tCopyContent, h]
  | .node k a f, x, ns, n + 1, s, hr, hn, hf => by
    rw [VTree.Rep] at hr
    rw [VTree.height] at hn
    obtain ⟨p, cs, ms, hp, hfr, hx⟩ := hr
    have hc : x.which = k ∧ tContent x s = .ok (.wrap p) s := by
      rcases hx with ⟨rfl, rfl⟩ | ⟨q, rfl, hq, rfl⟩
      · exact ⟨rfl, rfl⟩
      · exact ⟨rfl, by simp only [tContent, tReadBox, hq]⟩
    have hnew := tNew_run (C := C) (ctor := tCopyNode C (tCopyVar C n) (tDestroyVar n) k a cs) (m := f.nodes)
      (P := fun h c ms => ∃ ds, c = .node (C.ops.copy k a) ds ∧ (f.copied C.ops).Rep h ds ms) hf
      (fun s1 hs1 hf1 => by
        have hfr1 : f.Rep s1.heap cs ms := hfr.frame fun q hq => hs1 q fun h => hfr.alive q hq (h ▸ hf _ (Nat.le_refl _))
        rcases tMayThrow_run (C := C) (C.tr k).nothrowCopy (.copyCtor k) s1 with h | ⟨h, ht⟩
        · rcases tCopyList_run (n := n) (s := { s1 with tick := s1.tick + 1 }) hfr1 (by omega) hf1 with
            ⟨ds, s2, ms2, hr2, hrep, hg, hall, hlen⟩ | ⟨e, s2, hr2, hu, hfu⟩
          · refine .inl ⟨.node (C.ops.copy k a) ds, s2, ms2, ?_, ⟨ds, rfl, hrep⟩, ?_, hall, hlen⟩
            · simp only [tCopyNode, bind, Eff.bind, h, hr2, pure, Eff.pure]
            · exact (grown_tick hf1).trans hg nofun
          · refine .inr ⟨e, s2, ?_, ⟨hu.heap, hu.vars, hu.next, Nat.le_of_succ_le hu.lo, hu.hi, hu.throws⟩, hfu⟩
            simp only [tCopyNode, bind, Eff.bind, h, hr2]
        · refine .inr ⟨_, _, ?_, undone_tick (k := .copyCtor k) ht, hf1⟩
          simp only [tCopyNode, bind, Eff.bind, h])
      (fun h h' c ms ⟨ds, hc, hr⟩ hh => ⟨ds, hc, hr.frame hh⟩)
    rcases hnew with ⟨q, s2, ns2, hr2, ⟨c, ms2, hq, ⟨ds, rfl, hrep⟩, rfl⟩, hg, hall, hlen⟩ | ⟨e, s2, hr2, hu, hfu⟩
    · refine .inl ⟨.plain k (.wrap q), s2, _, ?_, ?_, hg, hall, hlen⟩
      · simp only [tCopyVar, bind, Eff.bind, hc.1, hc.2, tCopyContent, tReadNode, hp, hr2, pure, Eff.pure]
      · show VTree.Rep _ _ _ _; rw [VTree.copied, VTree.Rep]
        exact ⟨q, ds, ms2, hq, hrep, .inl ⟨rfl, rfl⟩⟩
    · refine .inr ⟨e, s2, ?_, hu, hfu⟩
      simp only [tCopyVar, bind, Eff.bind, hc.1, hc.2, tCopyContent, tReadNode, hp, hr2]
theorem tCopyList_run : ∀ {f : VForest V} {xs : List (TVar V)} {ns : List ObjId} {n : Nat} {s : TreeSt V},
    f.Rep s.heap xs ns → f.height ≤ n → s.Fresh →
    TCopies C s (fun h ys ms => (f.copied C.ops).Rep h ys ms) f.nodes (tCopyList (tCopyVar C n) (tDestroyVar n) xs s)
  | .nil, xs, ns, n, s, hr, _, hf => by
    rw [VForest.Rep] at hr
    obtain ⟨rfl, rfl⟩ := hr
    exact .inl ⟨[], s, [], rfl, by show VForest.Rep _ _ _ _; rw [VForest.copied, VForest.Rep]; exact ⟨rfl, rfl⟩, .refl hf, rfl, rfl⟩
  | .cons t f, xs, ns, n, s, hr, hn, hf => by
    rw [VForest.Rep] at hr
    rw [VForest.height] at hn
    obtain ⟨y, ys, ms, ms', rfl, ht, hfr, rfl⟩ := hr
    rcases tCopyVar_run (n := n) ht (by omega) hf with ⟨y', s1, ns1, hr1, hrep1, hg1, hall1, hlen1⟩ | ⟨e, s1, hr1, hu, hfu⟩
    · rcases tCopyList_run (n := n) (hg1.repF hfr) (by omega) hg1.fresh with
        ⟨ys', s2, ns2, hr2, hrep2, hg2, hall2, hlen2⟩ | ⟨e, s2, hr2, hu, hfu⟩
      · refine .inl ⟨y' :: ys', s2, ns1 ++ ns2, ?_, ?_, hg1.trans hg2 hrep1.alive, ?_, ?_⟩
        · simp only [tCopyList, bind, Eff.bind, hr1, Eff.onExc, hr2, pure, Eff.pure]
        · show VForest.Rep _ _ _ _; rw [VForest.copied, VForest.Rep]
          exact ⟨y', ys', ns1, ns2, rfl, hg2.rep hrep1, hrep2, rfl⟩
        · rw [hall2, hall1, VForest.nodes]; omega
        · rw [List.length_append, hlen1, hlen2, VForest.nodes]
      · have hd := tDestroyVar_run (n := n) (s := s2) (hrep1.frame fun p _ => by rw [hu.heap]) hg1.nodup
          (by have := VTree.height_copied C.ops t; omega)
        have hheap : (s2.del ns1).heap = s.heap := by
          funext p
          simp only [TreeSt.del, hu.heap]
          by_cases hp : p ∈ ns1
          · rw [if_pos hp, hg1.new p hp]
          · rw [if_neg hp, hg1.frame p hp]
        refine .inr ⟨e, s2.del ns1, ?_, ⟨hheap, hu.vars.trans hg1.vars, Nat.le_trans hg1.next hu.next,
          Nat.le_trans hg1.tick hu.lo, hu.hi, hu.throws⟩, ?_⟩
        · simp only [tCopyList, bind, Eff.bind, hr1, Eff.onExc, hr2, hd]
        · intro p hp
          rw [hheap]; exact hf p (Nat.le_trans hg1.next (Nat.le_trans hu.next hp))
    · refine .inr ⟨e, s1, ?_, hu, hfu⟩
      simp only [tCopyList, bind, Eff.bind, hr1]
end

end

end BVariant
