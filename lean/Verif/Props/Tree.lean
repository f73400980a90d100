/-
C37: recursive variants are copied deeply, without leaks and without sharing.
C50: moving recursive variants.
-/
import Verif.Lemmas.TreeStep
import Verif.Spec.Examples

namespace BVariant

section
variable {V : Type} {C : TreeCfg V} {s s' : TreeSt V} {σ : TStore V} {own : Nat → List ObjId} {m n : Nat} {x : Nat}

open ATree AStore

/-- **C37**: copying a tree of any shape, in any heap, with any operation failing. If the copy succeeds it is an equal tree
(`copied_lawful`: for types whose copies are equal) whose nodes are new: one block for each node, none of them among the blocks
of the original or of anything else; and all the rest of the heap, so the original too, is untouched. If it fails, an
operation has thrown and the heap is what it was. -/
theorem C37_deep_copy (hl : C.ops.Lawful) {t : VTree V} {v : TVar V} {ns : List ObjId} (hr : t.Rep s.heap v ns)
    (hn : t.height ≤ n) (hf : s.Fresh) :
    (∃ v' s' ms, tCopyVar C n v s = .ok v' s' ∧ t.Rep s'.heap v' ms ∧ t.Rep s'.heap v ns ∧
      ms.Nodup ∧ ms.length = t.nodes ∧ (∀ p ∈ ms, s.heap p = none ∧ p ∉ ns) ∧ (∀ p, p ∉ ms → s'.heap p = s.heap p) ∧
      s'.allocs = s.allocs + t.nodes) ∨
    (∃ e s', tCopyVar C n v s = .exc e s' ∧ s'.heap = s.heap ∧ t.Rep s'.heap v ns ∧
      s.tick ≤ e.tick ∧ e.tick < s'.tick ∧ C.throws e.tick = true) := by
  rcases tCopyVar_run (C := C) hr hn hf with ⟨v', s', ms, h1, h2, hg, h3, h4⟩ | ⟨e, s', h1, hu, _⟩
  · rw [VTree.copied_lawful hl] at h2
    exact .inl ⟨v', s', ms, h1, h2, hg.rep hr, hg.nodup, h4,
      fun p hp => ⟨hg.new p hp, fun h => hr.alive p h (hg.new p hp)⟩, hg.frame, h3⟩
  · exact .inr ⟨e, s', h1, hu.heap, hu.heap ▸ hr, hu.lo, hu.hi, hu.throws⟩

/-- **C37**: destroying a tree frees exactly its blocks. -/
theorem C37_destroy_frees {t : VTree V} {v : TVar V} {ns : List ObjId} (hr : t.Rep s.heap v ns) (hnd : ns.Nodup)
    (hn : t.height ≤ n) :
    ∃ s', tDestroyVar n v s = .ok () s' ∧ (∀ p ∈ ns, s.heap p ≠ none ∧ s'.heap p = none) ∧
      (∀ p, p ∉ ns → s'.heap p = s.heap p) := by
  refine ⟨_, tDestroyVar_run hr hnd hn, fun p hp => ⟨hr.alive p hp, ?_⟩, fun p hp => ?_⟩ <;> simp only [TreeSt.del, hp, if_true, if_false]

/-! ### From memory to values, and back -/

theorem Mem.stores {α : AStore V} {G : List (ATree V)} (hM : Mem s α G) (hS : IsS α σ) : s.Stores σ fun x => blocksO (α x) := by
  refine ⟨fun y w hy => ?_, fun y hy => ?_, fun y => List.nodup_iff_count.mpr fun p => ?_, fun y z p h1 h2 => ?_⟩
  · have h := hS y
    rw [hy] at h
    cases hT : α y with
    | none => rw [hT] at h; simp [IsO] at h
    | some T =>
      rw [hT] at h
      exact ⟨T.var, by rw [hM.vars, hT]; rfl, ATree.rep (hM.holds y T hT) h⟩
  · have h := hS.none_iff.mp hy
    exact ⟨by rw [hM.vars, h]; rfl, by simp only [h, blocksO]⟩
  · have := hM.excl y p; omega
  · by_cases hyz : y = z
    · exact hyz
    · have := hM.disj y z p hyz
      have h3 := List.count_pos_iff.mpr h1
      have h4 := List.count_pos_iff.mpr h2
      omega

theorem Mem.represents {α : AStore V} (hM : Mem s α []) (hS : IsS α σ) : s.Represents σ fun x => blocksO (α x) :=
  ⟨hM.stores hS, fun p hp => (hM.owned p hp).elim (fun h => by simp [blocksL] at h) fun ⟨x, h⟩ => ⟨x, List.count_pos_iff.mp h⟩⟩

/-- Every representation is one of annotated trees. -/
theorem TreeSt.Represents.mem (hr : s.Represents σ own) (hf : s.Fresh) :
    ∃ α : AStore V, Mem s α [] ∧ IsS α σ ∧ ∀ x, blocksO (α x) = own x := by
  have h : ∀ x, ∃ T : Option (ATree V), IsO T (σ x) ∧ s.vars x = T.map ATree.var ∧ (∀ t, T = some t → t.Holds s.heap) ∧
      blocksO T = own x := fun x => by
    cases hx : σ x with
    | none => obtain ⟨h1, h2⟩ := hr.dead x hx; exact ⟨none, trivial, h1, nofun, h2.symm⟩
    | some u =>
      obtain ⟨v, h1, h2⟩ := hr.val x u hx
      obtain ⟨T, h3, h4, h5, h6⟩ := h2.annot
      exact ⟨some T, h3, by rw [h1, ← h5]; rfl, by rintro _ ⟨⟩; exact h4, h6⟩
  obtain ⟨α, hα⟩ := Classical.skolem.mp h
  refine ⟨α, ⟨fun x => (hα x).2.1, fun x => (hα x).2.2.1, trivial, fun x p => ?_, fun x y p hxy => ?_, fun p hp => ?_, hf⟩,
    fun x => (hα x).1, fun x => (hα x).2.2.2⟩
  · rw [(hα x).2.2.2]
    have := List.nodup_iff_count.mp (hr.nodup x) p
    simp only [blocksL, List.count_nil]; omega
  · rw [(hα x).2.2.2, (hα y).2.2.2]
    have h1 := List.nodup_iff_count.mp (hr.nodup x) p
    have h2 := List.nodup_iff_count.mp (hr.nodup y) p
    by_cases h3 : p ∈ own x
    · have : p ∉ own y := fun h4 => hxy (hr.disj x y p h3 h4)
      rw [List.count_eq_zero.mpr this]; omega
    · rw [List.count_eq_zero.mpr h3]; omega
  · obtain ⟨x, hx⟩ := hr.owned p hp
    exact .inr ⟨x, by rw [(hα x).2.2.2]; exact List.count_pos_iff.mpr hx⟩

theorem TreeSt.Represents.init : (TreeSt.init V).Represents (fun _ => none) (fun _ => []) :=
  ⟨⟨nofun, fun _ _ => ⟨rfl, rfl⟩, fun _ => .nil, fun _ _ _ h => absurd h List.not_mem_nil⟩, fun _ h => absurd rfl h⟩

theorem TreeSt.Fresh.init : (TreeSt.init V).Fresh := fun _ _ => rfl

mutual
/-- A variant has one value. -/
theorem VTree.Rep.unique {h : ObjId → Option (TCell V)} : ∀ {t t' : VTree V} {v : TVar V} {ns ns' : List ObjId}, t.Rep h v ns →
    t'.Rep h v ns' → t = t'
  | .leaf k a, .leaf k' a', v, ns, ns', h1, h2 => by
    rw [VTree.Rep] at h1; rw [VTree.Rep] at h2
    rcases h1 with ⟨rfl, _⟩ | ⟨q, rfl, hq, _⟩ <;> rcases h2 with ⟨h2, _⟩ | ⟨q', h2, hq', _⟩ <;> cases h2
    · rfl
    · rw [hq] at hq'; cases hq'; rfl
  | .leaf k a, .node k' a' f', v, ns, ns', h1, h2 => by
    rw [VTree.Rep] at h1; rw [VTree.Rep] at h2
    obtain ⟨p, cs, ms, hp, _, h2⟩ := h2
    rcases h1 with ⟨rfl, _⟩ | ⟨q, rfl, hq, _⟩ <;> rcases h2 with ⟨h2, _⟩ | ⟨q', h2, hq', _⟩ <;> cases h2
    rw [hq] at hq'; cases hq'
  | .node k a f, .leaf k' a', v, ns, ns', h1, h2 => by
    rw [VTree.Rep] at h1; rw [VTree.Rep] at h2
    obtain ⟨p, cs, ms, hp, _, h1⟩ := h1
    rcases h1 with ⟨rfl, _⟩ | ⟨q, rfl, hq, _⟩ <;> rcases h2 with ⟨h2, _⟩ | ⟨q', h2, hq', _⟩ <;> cases h2
    rw [hq] at hq'; cases hq'
  | .node k a f, .node k' a' f', v, ns, ns', h1, h2 => by
    rw [VTree.Rep] at h1; rw [VTree.Rep] at h2
    obtain ⟨p, cs, ms, hp, hf, h1⟩ := h1
    obtain ⟨p', cs', ms', hp', hf', h2⟩ := h2
    have : k = k' ∧ p = p' := by
      rcases h1 with ⟨rfl, _⟩ | ⟨q, rfl, hq, _⟩ <;> rcases h2 with ⟨h2, _⟩ | ⟨q', h2, hq', _⟩ <;> cases h2
      · exact ⟨rfl, rfl⟩
      · rw [hq] at hq'; cases hq'; exact ⟨rfl, rfl⟩
    obtain ⟨rfl, rfl⟩ := this
    rw [hp] at hp'; cases hp'
    rw [VForest.Rep.unique hf hf']
theorem VForest.Rep.unique {h : ObjId → Option (TCell V)} : ∀ {f f' : VForest V} {vs : List (TVar V)} {ns ns' : List ObjId},
    f.Rep h vs ns → f'.Rep h vs ns' → f = f'
  | .nil, .nil, _, _, _, _, _ => rfl
  | .nil, .cons t f, vs, ns, ns', h1, h2 => by
    rw [VForest.Rep] at h1; rw [VForest.Rep] at h2
    obtain ⟨y, ys, ms, ms', h, _⟩ := h2
    rw [h1.1] at h; cases h
  | .cons t f, .nil, vs, ns, ns', h1, h2 => by
    rw [VForest.Rep] at h1; rw [VForest.Rep] at h2
    obtain ⟨y, ys, ms, ms', h, _⟩ := h1
    rw [h2.1] at h; cases h
  | .cons t f, .cons t' f', vs, ns, ns', h1, h2 => by
    rw [VForest.Rep] at h1; rw [VForest.Rep] at h2
    obtain ⟨y, ys, ms, ms', rfl, ht, hf, _⟩ := h1
    obtain ⟨y', ys', ns, ns', h, ht', hf', _⟩ := h2
    cases h
    rw [VTree.Rep.unique ht ht', VForest.Rep.unique hf hf']
end

theorem TreeSt.Stores.value (hr : s.Stores σ own) {u : VTree V} {ns : List ObjId} (h : s.HasVal x u ns) : σ x = some u := by
  obtain ⟨v, hv, hu⟩ := h
  cases hx : σ x with
  | none => rw [(hr.dead x hx).1] at hv; cases hv
  | some w =>
    obtain ⟨v', h1, h2⟩ := hr.val x w hx
    rw [hv] at h1; cases h1
    rw [VTree.Rep.unique h2 hu]

theorem TreeSt.Stores.vars_none (hr : s.Stores σ own) : s.vars x = none ↔ σ x = none := by
  refine ⟨fun h => ?_, fun h => (hr.dead x h).1⟩
  cases hx : σ x with
  | none => rfl
  | some w => obtain ⟨v, h1, _⟩ := hr.val x w hx; rw [h] at h1; cases h1

/-! ### Statements and programs -/

/-- **C37**, for one statement: in any state in which every variable has its tree, in blocks of its own, and there is no other
memory, each statement the library supports does what it does on plain trees, and leaves such a state; this whether it succeeds
or an operation throws. There is no undefined behaviour on a stack as deep as the trees are high. -/
theorem C37_statement (hl : C.ops.Lawful) (hr : s.Represents σ own) (hf : s.Fresh) (hB : σ.Bound C.wrapped n) {c : TCmd V}
    (hv : c.valid C s = true) (hh : c.hazard C s = false) :
    (∃ s' σ' own', c.code C n s = .ok () s' ∧ TOk C c σ σ' ∧ s'.Represents σ' own' ∧ s'.Fresh) ∨
    (∃ e s' σ' own', c.code C n s = .exc e s' ∧ TExc C c σ σ' ∧ s'.Represents σ' own' ∧ s'.Fresh ∧ C.throws e.tick = true) := by
  obtain ⟨α, hM, hS, _⟩ := hr.mem hf
  rcases tStep_run hl hM hS hB (Nat.le_refl _) ((tValid_iff hM hS).mp hv) hh with
    ⟨s', α', σ', h1, h2, h3, h4⟩ | ⟨e, s', α', σ', h1, h2, h3, h4, h5⟩
  · exact .inl ⟨s', σ', _, h1, h2, h4.represents h3, h4.fresh⟩
  · exact .inr ⟨e, s', σ', _, h1, h2, h4.represents h3, h4.fresh, h5⟩

theorem two_pow_pos (k : Nat) : 1 ≤ 2 ^ k := Nat.one_le_two_pow

theorem tRun_inv (hl : C.ops.Lawful) (hfb : ∀ fb, C.fallback = some fb → C.wrapped fb = false) (cs : List (TCmd V))
    {α : AStore V} (hM : Mem s α []) (hS : IsS α σ) (hB : σ.Bound C.wrapped m) (hm : 1 ≤ m) (hn : m * 2 ^ cs.length ≤ n)
    (hc : tClean C n cs s = true) :
    ∃ s' α' σ', tRun C n cs s = some s' ∧ Mem s' α' [] ∧ IsS α' σ' ∧ σ'.Bound C.wrapped (m * 2 ^ cs.length) ∧ TSteps C cs σ σ' := by
  induction cs generalizing s σ α m with
  | nil => exact ⟨s, α, σ, rfl, hM, hS, by simpa using hB, .nil⟩
  | cons c cs ih =>
    have hpow : m * 2 ^ (c :: cs).length = 2 * m * 2 ^ cs.length := by
      rw [List.length_cons, Nat.pow_succ, Nat.mul_comm 2 m, Nat.mul_assoc, Nat.mul_comm (2 ^ cs.length)]
    have h2 : 2 * m ≤ 2 * m * 2 ^ cs.length := Nat.le_mul_of_pos_right _ (two_pow_pos _)
    rw [hpow] at hn ⊢
    by_cases hv : c.valid C s = true
    · rw [tClean, if_pos hv, Bool.and_eq_true, Bool.not_eq_true'] at hc
      obtain ⟨hz, hc⟩ := hc
      have hv' := (tValid_iff hM hS).mp hv
      rcases tStep_run (n := n) hl hM hS hB (by omega) hv' hz with
        ⟨s1, α1, σ1, hr, ho, hS1, hM1⟩ | ⟨e, s1, α1, σ1, hr, ho, hS1, hM1, _⟩
      · rw [hr] at hc
        obtain ⟨s2, α2, σ2, g1, g2, g3, g4, g5⟩ := ih hM1 hS1 (ho.bound hm hB hv') (by omega) hn hc
        exact ⟨s2, α2, σ2, by rw [tRun, if_pos hv, hr]; exact g1, g2, g3, g4, .ok hv' ho g5⟩
      · rw [hr] at hc
        obtain ⟨s2, α2, σ2, g1, g2, g3, g4, g5⟩ := ih hM1 hS1 (ho.bound hm hfb hB hv') (by omega) hn hc
        exact ⟨s2, α2, σ2, by rw [tRun, if_pos hv, hr]; exact g1, g2, g3, g4, .exc hv' ho g5⟩
    · rw [tClean, if_neg hv] at hc
      obtain ⟨s2, α2, σ2, g1, g2, g3, g4, g5⟩ := ih hM hS (hB.mono (by omega : m ≤ 2 * m)) (by omega) hn hc
      exact ⟨s2, α2, σ2, by rw [tRun, if_neg hv]; exact g1, g2, g3, g4, .skip (fun h => hv ((tValid_iff hM hS).mpr h)) g5⟩

/-- **C37**, for whole programs: constructing, copying, moving, assigning, swapping, changing and destroying recursive variants and parts
of them, with any operation failing. If the run meets no assignment or swap the library does not support (F1, F5, F20) it has no
undefined behaviour, on a stack that is deep enough, and afterwards: every variable has the value it has in the store of plain
trees; its blocks are its own; and there is no memory but theirs. -/
theorem C37_programs_on_trees (hl : C.ops.Lawful) (hfb : ∀ fb, C.fallback = some fb → C.wrapped fb = false)
    (cs : List (TCmd V)) (hn : 2 ^ cs.length ≤ n) (hc : tClean C n cs (TreeSt.init V) = true) :
    ∃ (s : TreeSt V) (σ : TStore V) (own : Nat → List ObjId), tRun C n cs (TreeSt.init V) = some s ∧
      TSteps C cs (fun _ => none) σ ∧ s.Represents σ own ∧ s.Fresh ∧ σ.Bound C.wrapped (2 ^ cs.length) := by
  obtain ⟨α, hM, hS, _⟩ := (TreeSt.Represents.init (V := V)).mem TreeSt.Fresh.init
  obtain ⟨s, α', σ, h1, h2, h3, h4, h5⟩ := tRun_inv (m := 1) hl hfb cs hM hS nofun (Nat.le_refl _) (by omega) hc
  exact ⟨s, σ, _, h1, h5, h2.represents h3, h2.fresh, by simpa using h4⟩

/-- **C37**: a program that has destroyed its variants has freed all memory. -/
theorem C37_nothing_leaks (hl : C.ops.Lawful) (hfb : ∀ fb, C.fallback = some fb → C.wrapped fb = false)
    {cs : List (TCmd V)} (hn : 2 ^ cs.length ≤ n) (hc : tClean C n cs (TreeSt.init V) = true)
    (h : tRun C n cs (TreeSt.init V) = some s) (hdead : ∀ x, s.vars x = none) (p : ObjId) : s.heap p = none := by
  obtain ⟨s', σ, own, h1, _, h2, _⟩ := C37_programs_on_trees hl hfb cs hn hc
  rw [h] at h1; cases h1
  cases hp : s.heap p with
  | none => rfl
  | some b =>
    obtain ⟨x, hx⟩ := h2.owned p (by rw [hp]; nofun)
    rw [(h2.dead x (h2.vars_none.mp (hdead x))).2] at hx; cases hx

/-- The statement constructs, assigns to, moves from, changes or destroys the variable or a part of it. -/
def TCmd.Touches (y : Nat) : TCmd V → Prop
  | .leaf x _ _ | .node x _ _ _ | .copy x _ | .destroy x => y = x
  | .move x t => y = x ∨ y = t.var
  | .assign x _ | .store x _ => y = x.var
  | .moveAssign x t => y = x.var ∨ y = t.var
  | .swap x t z => y = x.var ∨ y = t.var ∨ y = z

theorem TStore.put_ne {t : TPlace} {u : VTree V} (h : x ≠ t.var) : σ.put t u x = σ x := by simp only [TStore.put, upd, h, if_false]

/-- What a program does not touch it does not change. -/
theorem TSteps.frame {cs : List (TCmd V)} {σ σ' : TStore V} (h : TSteps C cs σ σ') (hw : ∀ c ∈ cs, ¬ c.Touches x) : σ' x = σ x := by
  induction h with
  | nil => rfl
  | @ok c _ _ _ _ _ h _ ih =>
    rw [ih fun c hc => hw c (.tail _ hc)]
    have hc := hw _ (.head _)
    cases h <;> simp only [TCmd.Touches, not_or] at hc <;>
      first
      | simp only [upd, hc, if_false]; done
      | exact TStore.put_ne hc
      | exact TStore.put_ne hc.1
      | exact (TStore.put_ne hc.2).trans (TStore.put_ne hc.1)
      | (simp only [upd, hc.1, if_false]; exact TStore.put_ne hc.2)
      | exact (TStore.put_ne hc.2.1).trans (TStore.put_ne hc.1)
  | @exc c _ _ _ _ _ h _ ih =>
    rw [ih fun c hc => hw c (.tail _ hc)]
    have hc := hw _ (.head _)
    cases h
    · rfl
    all_goals
      simp only [TCmd.Touches, not_or] at hc
      first
      | exact TStore.put_ne hc
      | exact TStore.put_ne hc.1
      | exact TStore.put_ne hc.2
      | exact (TStore.put_ne hc.2).trans (TStore.put_ne hc.1)
      | exact TStore.put_ne hc.2.1
      | exact (TStore.put_ne hc.2.1).trans (TStore.put_ne hc.1)
  | skip _ _ ih => exact ih fun c hc => hw c (.tail _ hc)

/-- **C37**: copies are independent: if after `variant x(y)` the program does anything that does not touch `y`, `y` keeps its
value, and likewise `x` the value it has copied. -/
theorem C37_copies_are_independent (hl : C.ops.Lawful) (hfb : ∀ fb, C.fallback = some fb → C.wrapped fb = false)
    (hrep : s.Represents σ own) (hf : s.Fresh) (hB : σ.Bound C.wrapped m) (hm : 1 ≤ m)
    {cs : List (TCmd V)} {y : Nat} {u : VTree V} {s'' : TreeSt V} (hn : m * 2 ^ (cs.length + 1) ≤ n)
    (hc : tClean C n cs s' = true) (hv : σ y = some u) (hx : s.vars x = none)
    (hr : TCmd.code C n (.copy x ⟨y, []⟩) s = .ok () s') (hcs : tRun C n cs s' = some s'') :
    ((∀ c ∈ cs, ¬ c.Touches y) → ∃ ns', s''.HasVal y u ns') ∧ ((∀ c ∈ cs, ¬ c.Touches x) → ∃ ns', s''.HasVal x u ns') := by
  obtain ⟨α, hM, hS, _⟩ := hrep.mem hf
  have hx' := hrep.vars_none.mp hx
  have hat : σ.at ⟨y, []⟩ = some u := by simp only [TStore.at, hv]; cases u <;> rfl
  have hvalid : σ.Valid C (.copy x ⟨y, []⟩) := ⟨hx', by rw [hat]; nofun⟩
  have hxy : x ≠ y := by rintro rfl; rw [hx'] at hv; cases hv
  have hpow : m * 2 ^ (cs.length + 1) = 2 * m * 2 ^ cs.length := by
    rw [Nat.pow_succ, Nat.mul_comm 2 m, Nat.mul_assoc, Nat.mul_comm (2 ^ cs.length)]
  have h2 : 2 * m ≤ 2 * m * 2 ^ cs.length := Nat.le_mul_of_pos_right _ (two_pow_pos _)
  rw [hpow] at hn
  rcases tStep_run (n := n) hl hM hS hB (by omega) hvalid rfl with ⟨s1, α1, σ1, hr1, hok, hS1, hM1⟩ | ⟨e, s1, α1, σ1, hr1, _⟩
  · rw [hr] at hr1; cases hr1
    obtain ⟨s2, α2, σ2, g1, g2, g3, _, hst⟩ := tRun_inv (n := n) hl hfb cs hM1 hS1 (hok.bound hm hB hvalid) (by omega) hn hc
    rw [hcs] at g1; cases g1
    cases hok with
    | copy h =>
      rw [hat] at h; cases h
      refine ⟨fun hw => ⟨_, (g2.represents g3).val y u ?_⟩, fun hw => ⟨_, (g2.represents g3).val x u ?_⟩⟩
      · rw [hst.frame hw]; simp only [upd, if_neg hxy.symm]; exact hv
      · rw [hst.frame hw]; simp only [upd, if_true]
  · rw [hr] at hr1; cases hr1

/-! ### Moving -/

/-- **C50**: `variant x(std::move(t))`, with `t` a variant anywhere in a tree. If it succeeds, `x` has the value `t` had, and `t`
is a moved-from tree, still a proper value; so many nodes are allocated as are moved (one, if the class of the node takes over
its list of members). If it fails an operation has thrown, `x` does not exist, and `t` is partly moved from, again a proper
value. In both cases all other values are as before, nothing is shared and nothing leaks. -/
theorem C50_move_construct (hl : C.ops.Lawful) (hr : s.Represents σ own) (hf : s.Fresh) (hB : σ.Bound C.wrapped n) {t : TPlace}
    {u : VTree V} (hx : s.vars x = none) (hu : σ.at t = some u) :
    (∃ s' own', TCmd.code C n (.move x t) s = .ok () s' ∧ s'.Represents (upd (σ.put t (u.movedFrom C)) x (some u)) own' ∧
      s'.allocs = s.allocs + u.moveNodes C) ∨
    (∃ e s' own' u', TCmd.code C n (.move x t) s = .exc e s' ∧ u.Partly C u' ∧ s'.Represents (σ.put t u') own' ∧
      C.throws e.tick = true) := by
  obtain ⟨α, hM, hS, _⟩ := hr.mem hf
  obtain ⟨l, R, ht⟩ := hS.at_iff.mp (by rw [hu]; nofun : σ.at t ≠ none)
  obtain ⟨u', hu', hR⟩ := hS.at ht
  rw [hu] at hu'; cases hu'
  have hx0 := hS.none_iff.mp (hr.vars_none.mp hx)
  obtain ⟨h3, _⟩ := hM.at_run ht
  rcases tMoveVar_run (C := C) (n := n) hM ht hR (by have := (hB.at hu).1; omega) with
    ⟨s2, U, R', g1, _, hU, hR', hM2, _, g2⟩ | ⟨e, s2, R', u', g1, hp, hR', hM2, hth⟩
  · rw [VTree.moved_lawful hl] at hU
    have hx' : (α.put t R') x = none := by
      unfold AStore.put
      by_cases hxt : x = t.var
      · subst hxt; rw [upd_same, hx0]; rfl
      · simp only [upd, hxt, if_false]; exact hx0
    refine .inl ⟨{ s2 with vars := upd s2.vars x (some U.var) }, _, ?_, (hM2.setVar hx').represents ((hS.put hR').upd hU), g2⟩
    simp only [TCmd.code, bind, Eff.bind, h3, g1, tSetVar, Eff.modify]
  · refine .inr ⟨e, s2, _, u', ?_, hp, hM2.represents (hS.put hR'), hth.throws⟩
    simp only [TCmd.code, bind, Eff.bind, h3, g1]

/-- **C50**: `x = std::move(t)` for nodes of the same type, at places neither of which is a part of the other: the nodes are
exchanged. Nothing is allocated, no operation that could throw is performed, so it always succeeds; no other variable changes. -/
theorem C50_same_type_exchanges (hr : s.Represents σ own) (hf : s.Fresh) {x t : TPlace} {k : TyIx} {c c' : TContent V} {a b : V} {f g : VForest V}
    (hx : σ.at x = some (.node k a f)) (ht : σ.at t = some (.node k b g)) (hlx : x.variant s = some (.plain k c))
    (hlt : t.variant s = some (.plain k c')) (h1 : t.inside x = false) (h2 : x.inside t = false) :
    ∃ s' own', TCmd.code C n (.moveAssign x t) s = .ok () s' ∧
      s'.Represents ((σ.put x (.node k b g)).put t (.node k a f)) own' ∧ s'.allocs = s.allocs ∧ s'.tick = s.tick := by
  obtain ⟨α, hM, hS, _⟩ := hr.mem hf
  obtain ⟨l, L, hL⟩ := hS.at_iff.mp (by rw [hx]; nofun : σ.at x ≠ none)
  obtain ⟨r, R, hR⟩ := hS.at_iff.mp (by rw [ht]; nofun : σ.at t ≠ none)
  obtain ⟨u0, hu0, hLi⟩ := hS.at hL
  obtain ⟨u, hu, hRi⟩ := hS.at hR
  rw [hx] at hu0; cases hu0
  rw [ht] at hu; cases hu
  obtain ⟨hle, hlr, hlh⟩ := hM.at_run hL
  obtain ⟨hre, hrr, hrh⟩ := hM.at_run hR
  have hlv := hM.variant_eq hL
  have hrv := hM.variant_eq hR
  rw [hlx] at hlv
  rw [hlt] at hrv
  cases L with
  | leaf => simp [ATree.Is] at hLi
  | dead => simp [ATree.Is] at hLi
  | blk => simp [ATree.Is] at hLi
  | node k1 a1 p1 f1 b1 =>
  cases R with
  | leaf => simp [ATree.Is] at hRi
  | dead => simp [ATree.Is] at hRi
  | blk => simp [ATree.Is] at hRi
  | node k2 a2 p2 f2 b2 =>
  have hb1 : b1 = none := by cases b1 with
    | none => rfl
    | some q => cases hlv
  have hb2 : b2 = none := by cases b2 with
    | none => rfl
    | some q => cases hrv
  subst hb1 hb2
  have hk1 : k1 = k := by rw [ATree.Is] at hLi; exact hLi.1
  have hk2 : k2 = k := by rw [ATree.Is] at hRi; exact hRi.1
  subst hk1 hk2
  have hcode : TCmd.code C n (.moveAssign x t) s = tMoveAssignContent C k2 (.inPlace l) (.inPlace r) s := by
    have hlr' : l.read s = .ok (.plain k2 (.wrap p1)) s := hlr
    have hrr' : r.read s = .ok (.plain k2 (.wrap p2)) s := hrr
    simp only [TCmd.code, bind, Eff.bind, hle, hre, tVariantMoveAssign, hlr', hrr', if_true]
  have hl1 := ref_read hlr hlh
  have hr1 := ref_read hrr hrh
  have hrun : ∀ {s1 s2 : TreeSt V}, (TRef.inPlace r).write k2 (TContent.wrap p1) s = .ok () s1 → (TRef.inPlace l).write k2 (TContent.wrap p2) s1 = .ok () s2 →
      tMoveAssignContent C k2 (.inPlace l) (.inPlace r) s = .ok () s2 := fun h3 h4 => by
    have hl2 : (TRef.inPlace l).read s = .ok (.wrap p1) s := hl1
    have hr2 : (TRef.inPlace r).read s = .ok (.wrap p2) s := hr1
    simp only [tMoveAssignContent, bind, Eff.bind, hl2, hr2, h3, h4]
  rw [hcode]
  rcases TPlace.cases x t with rfl | ha | h | h
  · obtain ⟨rfl, he⟩ := hL.unique hR
    cases he
    rw [hx] at ht; cases ht
    have hself := set_self hlr hlh
    have h3 := ref_write (k := k2) (c := .wrap p1) hl1
    simp only [content] at hself
    have h3' : (TRef.inPlace l).write k2 (TContent.wrap p1) s = .ok () s := h3.trans (by exact congrArg (Res.ok ()) hself)
    refine ⟨s, own, hrun h3' h3', ?_, rfl, rfl⟩
    rw [TStore.put_same hx, TStore.put_same hx]
    exact hr
  · obtain ⟨h3, h4, h5⟩ := hM.swapRef hL hR hLi hRi rfl ha
    obtain ⟨c1, c2, _⟩ := set_counters k2 (.inPlace r) (TContent.wrap p1) s
    obtain ⟨c3, c4, _⟩ := set_counters k2 (.inPlace l) (TContent.wrap p2) ((TRef.inPlace r).set k2 (TContent.wrap p1) s)
    exact ⟨_, _, hrun h3 h4, h5.represents ((hS.put (setBox_is _ hRi)).put (setBox_is _ hLi)), c4.trans c2, c3.trans c1⟩
  · rw [h1] at h; cases h
  · rw [h2] at h; cases h

end

/-! ### Non-vacuity -/

/-- Bounded types: 0 may throw, 1 is wrapped, 2 has a nothrow move, 3 a nothrow copy. -/
def exTree (fb : Option TyIx) (bad : List Nat) (st : Bool := false) : TreeCfg Nat where
  ops := natOps
  tr := fun k => if k = 2 then tMovable else if k = 3 then tCopyOnly else tThrowing
  throws := fun t => bad.contains t
  wrapped := fun k => k == 1
  steals := fun _ => st
  fallback := fb

/-- Four variants: `0` and `1` plain, `2` a node with copies of them, `3` a node with copies of `2`, of `0` and of the second
member of `2`; then a copy of `3`, and an assignment of the plain `0` to `2`. -/
def exTreeProg : List (TCmd Nat) :=
  [.leaf 0 0 5, .leaf 1 2 6, .node 2 1 7 [⟨0, []⟩, ⟨1, []⟩], .node 3 1 8 [⟨2, []⟩, ⟨0, []⟩, ⟨2, [1]⟩], .copy 4 ⟨3, []⟩,
   .assign ⟨2, []⟩ ⟨0, []⟩]

def tAfter (fb : Option TyIx) (bad : List Nat) (cs : List (TCmd Nat)) (st : Bool := false) : TreeSt Nat :=
  (tRun (exTree fb bad st) 4096 cs (TreeSt.init Nat)).getD (TreeSt.init Nat)

theorem tAfter_run {fb : Option TyIx} {bad : List Nat} {cs : List (TCmd Nat)} {st : Bool}
    (h : (tRun (exTree fb bad st) 4096 cs (TreeSt.init Nat)).isSome = true) :
    tRun (exTree fb bad st) 4096 cs (TreeSt.init Nat) = some (tAfter fb bad cs st) := by
  obtain ⟨s, hs⟩ := Option.isSome_iff_exists.mp h
  rw [tAfter, hs]; rfl

/-- The states after the example runs meet the hypotheses of the statements above. -/
theorem tAfter_rep {fb : Option TyIx} {bad : List Nat} {cs : List (TCmd Nat)} {st : Bool} (hfb : ∀ k, fb = some k → (k == 1) = false)
    (hlen : cs.length ≤ 12) (hc : tClean (exTree fb bad st) 4096 cs (TreeSt.init Nat) = true) :
    ∃ σ own, TSteps (exTree fb bad st) cs (fun _ => none) σ ∧ (tAfter fb bad cs st).Represents σ own ∧ (tAfter fb bad cs st).Fresh ∧
      σ.Bound (exTree fb bad st).wrapped 4096 := by
  have hp : 2 ^ cs.length ≤ 4096 := Nat.pow_le_pow_right (by decide : 0 < 2) hlen
  obtain ⟨s, σ, own, h1, h2, h3, h4, h5⟩ := C37_programs_on_trees (C := exTree fb bad st) (n := 4096) natOps_lawful hfb cs hp hc
  have h0 : tAfter fb bad cs st = s := by rw [tAfter, h1]; rfl
  rw [h0]
  exact ⟨σ, own, h2, h3, h4, fun x u hu => ⟨Nat.le_trans (h5 x u hu).1 hp, (h5 x u hu).2⟩⟩

/-- C37: without failures `2` ends with the value of `0`; if the last copy of `0` (operation 35) fails, `2` is a node in a
heap backup. Then a copy of that backup, and one that fails in the middle. -/
example : tClean (exTree none []) 4096 exTreeProg (TreeSt.init Nat) = true ∧
    tClean (exTree none [35]) 4096 (exTreeProg ++ [.copy 5 ⟨2, []⟩, .destroy 2]) (TreeSt.init Nat) = true ∧
    (tAfter none [] exTreeProg).vars 2 = some (.plain 0 (.leaf 5)) ∧
    (tAfter none [35] exTreeProg).vars 2 = some (.backup 1 6) ∧
    (tAfter none [35] exTreeProg).heap 6 = some (.box (.wrap 7)) ∧
    (tAfter none [35] exTreeProg).heap 7 = some (.node 7 [.plain 0 (.leaf 5), .plain 2 (.leaf 6)]) ∧
    (tAfter none [35] (exTreeProg ++ [.copy 5 ⟨2, []⟩, .destroy 2])).vars 5 = some (.plain 1 (.wrap 8)) ∧
    (tAfter none [35] (exTreeProg ++ [.copy 5 ⟨2, []⟩, .destroy 2])).heap 6 = none ∧
    (tAfter none [35, 38] (exTreeProg ++ [.copy 5 ⟨2, []⟩])).vars 5 = none ∧
    (tAfter none [35, 38] (exTreeProg ++ [.copy 5 ⟨2, []⟩])).allocs = 9 ∧
    (tAfter none [35, 38] (exTreeProg ++ [.copy 5 ⟨2, []⟩])).heap 8 = none := by
  decide +kernel

/-- C37: the statement on programs applies to that run. -/
example : ∃ (σ : TStore Nat) (own : Nat → List ObjId),
    TSteps (exTree none [35, 38]) (exTreeProg ++ [.copy 5 ⟨2, []⟩]) (fun _ => none) σ ∧
    (tAfter none [35, 38] (exTreeProg ++ [.copy 5 ⟨2, []⟩])).Represents σ own := by
  obtain ⟨σ, own, h1, h2, _⟩ := tAfter_rep (fb := none) (bad := [35, 38]) (st := false) (cs := exTreeProg ++ [.copy 5 ⟨2, []⟩]) nofun
    (by decide) (by decide +kernel)
  exact ⟨σ, own, h1, h2⟩

/-- C37: a tree of height 3, and one in a heap backup. -/
example : ∃ v ns, VTree.Rep (tAfter none [35] exTreeProg).heap
      (.node 1 8 (.cons (.node 1 7 (.cons (.leaf 0 5) (.cons (.leaf 2 6) .nil))) (.cons (.leaf 0 5) (.cons (.leaf 2 6) .nil)))) v ns ∧
    (tAfter none [35] exTreeProg).vars 4 = some v ∧ ns = [4, 5] := by
  refine ⟨.plain 1 (.wrap 4), [4, 5], ?_, by decide +kernel, rfl⟩
  rw [VTree.Rep]
  refine ⟨4, [.plain 1 (.wrap 5), .plain 0 (.leaf 5), .plain 2 (.leaf 6)], [5], by decide +kernel, ?_, .inl ⟨rfl, rfl⟩⟩
  rw [VForest.Rep]
  refine ⟨_, _, [5], [], rfl, ?_, ?_, rfl⟩
  · rw [VTree.Rep]
    refine ⟨5, [.plain 0 (.leaf 5), .plain 2 (.leaf 6)], [], by decide +kernel, ?_, .inl ⟨rfl, rfl⟩⟩
    simp [VForest.Rep, VTree.Rep]
  · simp [VForest.Rep, VTree.Rep]

example : VTree.Rep (tAfter none [35] exTreeProg).heap (.node 1 7 (.cons (.leaf 0 5) (.cons (.leaf 2 6) .nil))) (.backup 1 6)
    [6, 7] := by
  rw [VTree.Rep]
  refine ⟨7, [.plain 0 (.leaf 5), .plain 2 (.leaf 6)], [], by decide +kernel, ?_, .inr ⟨6, rfl, by decide +kernel, rfl⟩⟩
  simp [VForest.Rep, VTree.Rep]

/-- The state after a statement that succeeds. -/
def tOkState (C : TreeCfg Nat) (c : TCmd Nat) (s : TreeSt Nat) : Option (TreeSt Nat) :=
  match c.code C 4096 s with
  | .ok _ s' => some s'
  | _ => none

theorem tOkState_run {C : TreeCfg Nat} {c : TCmd Nat} {s s' : TreeSt Nat} (h : tOkState C c s = some s') :
    c.code C 4096 s = .ok () s' := by
  unfold tOkState at h
  cases hr : c.code C 4096 s with
  | ok _ s' => rw [hr] at h; cases h; rfl
  | exc _ _ => rw [hr] at h; cases h
  | fault _ => rw [hr] at h; cases h

/-- The tree of variable 3 in the example, and that it is there. -/
def exTree3 : VTree Nat :=
  .node 1 8 (.cons (.node 1 7 (.cons (.leaf 0 5) (.cons (.leaf 2 6) .nil))) (.cons (.leaf 0 5) (.cons (.leaf 2 6) .nil)))

theorem exTree3_val (st : Bool) : (tAfter none [] (exTreeProg.take 4) st).HasVal 3 exTree3 [2, 3] := by
  refine ⟨.plain 1 (.wrap 2), by cases st <;> decide +kernel, ?_⟩
  rw [exTree3, VTree.Rep]
  refine ⟨2, [.plain 1 (.wrap 3), .plain 0 (.leaf 5), .plain 2 (.leaf 6)], [3], by cases st <;> decide +kernel, ?_, .inl ⟨rfl, rfl⟩⟩
  rw [VForest.Rep]
  refine ⟨_, _, [3], [], rfl, ?_, by simp [VForest.Rep, VTree.Rep], rfl⟩
  rw [VTree.Rep]
  refine ⟨3, [.plain 0 (.leaf 5), .plain 2 (.leaf 6)], [], by cases st <;> decide +kernel, ?_, .inl ⟨rfl, rfl⟩⟩
  simp [VForest.Rep, VTree.Rep]

/-- A bound that suits the height of the trees in the example. -/
theorem exTree_bound {st : Bool} : ∃ σ own, (tAfter none [] (exTreeProg.take 4) st).Represents σ own ∧
    (tAfter none [] (exTreeProg.take 4) st).Fresh ∧ σ.Bound (exTree none [] st).wrapped 16 ∧ σ 3 = some exTree3 := by
  have hc : tClean (exTree none [] st) 4096 (exTreeProg.take 4) (TreeSt.init Nat) = true := by cases st <;> decide +kernel
  obtain ⟨s, σ, own, h1, _, h3, h4, h5⟩ := C37_programs_on_trees (C := exTree none [] st) (n := 4096) natOps_lawful nofun
    (exTreeProg.take 4) (by decide) hc
  have h0 : tAfter none [] (exTreeProg.take 4) st = s := by rw [tAfter, h1]; rfl
  have h6 := h3.value (x := 3) (by rw [← h0]; exact exTree3_val st)
  rw [h0]
  exact ⟨σ, own, h3, h4, h5, h6⟩

/-- C37: `4` is a copy of `3`; then a plain value is assigned to a part of `3`, and `3` is moved from. -/
example : ∃ s' s'' ns, TCmd.code (exTree none []) 4096 (.copy 4 ⟨3, []⟩) (tAfter none [] (exTreeProg.take 4)) = .ok () s' ∧
    tRun (exTree none []) 4096 [.assign ⟨3, [0]⟩ ⟨0, []⟩, .move 5 ⟨3, []⟩] s' = some s'' ∧
    s''.heap 2 = some (.node 0 [.plain 0 (.leaf 0), .plain 0 (.leaf 0), .plain 2 (.leaf 0)]) ∧ s''.HasVal 4 exTree3 ns := by
  obtain ⟨σ, own, hrep, hf, hB, hval⟩ := exTree_bound (st := false)
  have h1 : ((tOkState (exTree none []) (.copy 4 ⟨3, []⟩) (tAfter none [] (exTreeProg.take 4))).bind
      (tRun (exTree none []) 4096 [.assign ⟨3, [0]⟩ ⟨0, []⟩, .move 5 ⟨3, []⟩])).map (·.heap 2) =
      some (some (.node 0 [.plain 0 (.leaf 0), .plain 0 (.leaf 0), .plain 2 (.leaf 0)])) := by decide +kernel
  have h2 : (tOkState (exTree none []) (.copy 4 ⟨3, []⟩) (tAfter none [] (exTreeProg.take 4))).map
      (tClean (exTree none []) 4096 [.assign ⟨3, [0]⟩ ⟨0, []⟩, .move 5 ⟨3, []⟩]) = some true := by decide +kernel
  obtain ⟨s'', h3, h4⟩ := Option.map_eq_some_iff.mp h1
  obtain ⟨s', h5, h6⟩ := Option.bind_eq_some_iff.mp h3
  rw [h5] at h2
  obtain ⟨ns, h7⟩ := (C37_copies_are_independent (C := exTree none []) (n := 4096) natOps_lawful nofun hrep hf hB (by decide)
    (by decide) (Option.some.inj h2) hval (by decide +kernel) (tOkState_run h5) h6).2 (by simp [TCmd.Touches])
  exact ⟨s', s'', ns, tOkState_run h5, h6, h4, h7⟩

/-- C37: all variants destroyed. -/
example : ∀ p, (tAfter none [35] (exTreeProg ++ [.destroy 0, .destroy 1, .destroy 2, .destroy 3, .destroy 4])).heap p = none := by
  have hc : tClean (exTree none [35]) 4096 (exTreeProg ++ [.destroy 0, .destroy 1, .destroy 2, .destroy 3, .destroy 4])
    (TreeSt.init Nat) = true := by decide +kernel
  have h := tAfter_run (fb := none) (bad := [35]) (st := false)
    (cs := exTreeProg ++ [.destroy 0, .destroy 1, .destroy 2, .destroy 3, .destroy 4]) (by decide +kernel)
  refine C37_nothing_leaks (C := exTree none [35]) (n := 4096) natOps_lawful nofun (by decide) hc h ?_
  obtain ⟨σ, own, hst, hr, _⟩ := tAfter_rep (fb := none) (bad := [35]) (st := false) nofun (by decide) hc
  intro x
  match x with
  | 0 | 1 | 2 | 3 | 4 => decide +kernel
  | n + 5 => exact hr.vars_none.mpr (hst.frame (x := n + 5) (by simp [exTreeProg, TCmd.Touches]))

/-- C50: `3` is moved to a new variable, by a class that moves its members one by one and by one that
takes over the list; what it leaves; how many nodes are made; and a move that fails in the middle. -/
example : (tAfter none [] (exTreeProg.take 4 ++ [.move 5 ⟨3, []⟩])).heap 4 =
      some (.node 8 [.plain 1 (.wrap 5), .plain 0 (.leaf 5), .plain 2 (.leaf 6)]) ∧
    (tAfter none [] (exTreeProg.take 4 ++ [.move 5 ⟨3, []⟩])).heap 2 =
      some (.node 0 [.plain 1 (.wrap 3), .plain 0 (.leaf 0), .plain 2 (.leaf 0)]) ∧
    (tAfter none [] (exTreeProg.take 4 ++ [.move 5 ⟨3, []⟩])).heap 3 = some (.node 0 [.plain 0 (.leaf 0), .plain 2 (.leaf 0)]) ∧
    (tAfter none [] (exTreeProg.take 4 ++ [.move 5 ⟨3, []⟩]) true).heap 4 =
      some (.node 8 [.plain 1 (.wrap 3), .plain 0 (.leaf 5), .plain 2 (.leaf 6)]) ∧
    (tAfter none [] (exTreeProg.take 4 ++ [.move 5 ⟨3, []⟩]) true).heap 2 = some (.node 0 []) ∧
    (tAfter none [28] (exTreeProg.take 4 ++ [.move 5 ⟨3, []⟩])).vars 5 = none ∧
    (tAfter none [28] (exTreeProg.take 4 ++ [.move 5 ⟨3, []⟩])).heap 2 =
      some (.node 0 [.plain 1 (.wrap 3), .plain 0 (.leaf 5), .plain 2 (.leaf 6)]) ∧
    (tAfter none [28] (exTreeProg.take 4 ++ [.move 5 ⟨3, []⟩])).heap 3 = some (.node 0 [.plain 0 (.leaf 0), .plain 2 (.leaf 0)]) ∧
    (tAfter none [28] (exTreeProg.take 4 ++ [.move 5 ⟨3, []⟩])).heap 4 = none ∧
    exTree3.moveNodes (exTree none [] false) = 2 ∧ exTree3.moveNodes (exTree none [] true) = 1 := by
  decide +kernel

example : ∃ σ own, (tAfter none [] (exTreeProg.take 4)).Represents σ own ∧ (tAfter none [] (exTreeProg.take 4)).Fresh ∧
    σ.Bound (exTree none []).wrapped 16 ∧ (tAfter none [] (exTreeProg.take 4)).vars 5 = none ∧ σ.at ⟨3, []⟩ = some exTree3 := by
  obtain ⟨σ, own, h1, h2, h3, h4⟩ := exTree_bound (st := false)
  exact ⟨σ, own, h1, h2, h3, by decide +kernel, by simp only [TStore.at, h4]; rfl⟩

/-- C50: `2` and the first member of `3` exchange their nodes. -/
example : (tAfter none [] (exTreeProg.take 4 ++ [.store ⟨2, []⟩ 9, .moveAssign ⟨2, []⟩ ⟨3, [0]⟩])).vars 2 = some (.plain 1 (.wrap 3)) ∧
    (tAfter none [] (exTreeProg.take 4 ++ [.store ⟨2, []⟩ 9, .moveAssign ⟨2, []⟩ ⟨3, [0]⟩])).heap 2 =
      some (.node 8 [.plain 1 (.wrap 0), .plain 0 (.leaf 5), .plain 2 (.leaf 6)]) := by
  decide +kernel

example : ∃ (σ : TStore Nat) (s' : TreeSt Nat) (own' : Nat → List ObjId), σ 3 = some exTree3 ∧
    TCmd.code (exTree none []) 16 (.moveAssign ⟨2, []⟩ ⟨3, [0]⟩) (tAfter none [] (exTreeProg.take 4)) = .ok () s' ∧
    s'.Represents ((σ.put ⟨2, []⟩ (.node 1 7 (.cons (.leaf 0 5) (.cons (.leaf 2 6) .nil)))).put ⟨3, [0]⟩
      (.node 1 7 (.cons (.leaf 0 5) (.cons (.leaf 2 6) .nil)))) own' := by
  obtain ⟨σ, own, h1, h2, h3, h4⟩ := exTree_bound (st := false)
  have h5 : σ.at ⟨3, [0]⟩ = some (.node 1 7 (.cons (.leaf 0 5) (.cons (.leaf 2 6) .nil))) := by simp only [TStore.at, h4]; rfl
  have h6 : σ 2 = some (.node 1 7 (.cons (.leaf 0 5) (.cons (.leaf 2 6) .nil))) := by
    refine h1.value (x := 2) (ns := [0]) ⟨.plain 1 (.wrap 0), by decide +kernel, ?_⟩
    rw [VTree.Rep]
    exact ⟨0, [.plain 0 (.leaf 5), .plain 2 (.leaf 6)], [], by decide +kernel, by simp [VForest.Rep, VTree.Rep], .inl ⟨rfl, rfl⟩⟩
  have h7 : σ.at ⟨2, []⟩ = some (.node 1 7 (.cons (.leaf 0 5) (.cons (.leaf 2 6) .nil))) := by simp only [TStore.at, h6]; rfl
  obtain ⟨s', own', g1, g2, _⟩ := C50_same_type_exchanges (C := exTree none []) (n := 16) (k := 1) (c := .wrap 0) (c' := .wrap 3) h1 h2
    h7 h5 (by decide +kernel) (by decide +kernel) rfl rfl
  exact ⟨σ, s', own', h4, g1, g2⟩

/-- C37: copies of that tree and its destruction, and a statement on it. -/
example := C37_deep_copy (C := exTree none []) (n := 3) natOps_lawful (exTree3_val false).choose_spec.2 (by decide)
  (exTree_bound (st := false)).choose_spec.choose_spec.2.1
example : ∃ s', tDestroyVar 3 (.plain 1 (.wrap 2)) (tAfter none [] (exTreeProg.take 4)) = .ok () s' ∧ s'.heap 2 = none ∧
    s'.heap 3 = none := by
  obtain ⟨v, hv, hr⟩ := exTree3_val false
  have : (tAfter none [] (exTreeProg.take 4)).vars 3 = some (.plain 1 (.wrap 2)) := by decide +kernel
  rw [this] at hv
  cases hv
  obtain ⟨s', h, h1, -⟩ := C37_destroy_frees (n := 3) hr (by decide) (by decide)
  exact ⟨s', h, (h1 2 (by decide)).2, (h1 3 (by decide)).2⟩
example : ∃ σ own, (tAfter none [] (exTreeProg.take 4)).Represents σ own ∧
    ∃ s' σ' own', TCmd.code (exTree none []) 16 (.assign ⟨2, []⟩ ⟨3, [0]⟩) (tAfter none [] (exTreeProg.take 4)) = .ok () s' ∧
      TOk (exTree none []) (.assign ⟨2, []⟩ ⟨3, [0]⟩) σ σ' ∧ s'.Represents σ' own' := by
  obtain ⟨σ, own, h1, h2, h3, h4⟩ := exTree_bound (st := false)
  rcases C37_statement (C := exTree none []) (c := .assign ⟨2, []⟩ ⟨3, [0]⟩) natOps_lawful h1 h2 h3 (by decide +kernel)
    (by decide +kernel) with ⟨s', σ', own', g1, g2, g3, -⟩ | ⟨e, s', σ', own', -, -, -, -, g⟩
  · exact ⟨σ, own, h1, s', σ', own', g1, g2, g3⟩
  · cases g
example : ∃ (σ : TStore Nat) (s' : TreeSt Nat) (own' : Nat → List ObjId), σ 3 = some exTree3 ∧
    TCmd.code (exTree none [] true) 16 (.move 5 ⟨3, []⟩) (tAfter none [] (exTreeProg.take 4) true) = .ok () s' ∧
    s'.Represents (upd (σ.put ⟨3, []⟩ (.node 1 0 .nil)) 5 (some exTree3)) own' := by
  obtain ⟨σ, own, h1, h2, h3, h4⟩ := exTree_bound (st := true)
  rcases C50_move_construct (C := exTree none [] true) (x := 5) (t := ⟨3, []⟩) (u := exTree3) natOps_lawful h1 h2 h3 (by decide +kernel)
    (by simp only [TStore.at, h4]; rfl) with ⟨s', own', g1, g2, -⟩ | ⟨e, s', own', u', -, -, -, g⟩
  · exact ⟨σ, s', own', h4, g1, g2⟩
  · cases g

end BVariant
