/-
The memory of a state as annotated trees: one for each variable, and those that are in the course of an operation ("ghosts").
-/
import Verif.Lemmas.TreeMem

namespace BVariant

section
variable {V : Type} {C : TreeCfg V} {s s' : TreeSt V} {h h' : ObjId → Option (TCell V)}

/-- An annotated tree for each variable. -/
abbrev AStore (V : Type) := Nat → Option (ATree V)

def ATree.blocksO : Option (ATree V) → List ObjId
  | none => []
  | some t => t.blocks

open ATree

variable {α : AStore V} {G G' : List (ATree V)} {n x : Nat}

/-- The memory of `s` is that of the variables `α` and of the ghosts `G`, with no block in two places. -/
structure Mem (s : TreeSt V) (α : AStore V) (G : List (ATree V)) : Prop where
  vars : ∀ x, s.vars x = (α x).map ATree.var
  holds : ∀ x t, α x = some t → t.Holds s.heap
  ghosts : HoldsL s.heap G
  excl : ∀ x p, (blocksO (α x)).count p + (blocksL G).count p ≤ 1
  disj : ∀ x y p, x ≠ y → (blocksO (α x)).count p + (blocksO (α y)).count p ≤ 1
  owned : ∀ p, s.heap p ≠ none → 0 < (blocksL G).count p ∨ ∃ x, 0 < (blocksO (α x)).count p
  fresh : s.Fresh

theorem Mem.alive (hM : Mem s α G) {x : Nat} {p : ObjId} (hp : 0 < (blocksO (α x)).count p) : s.heap p ≠ none := by
  cases hx : α x with
  | none => rw [hx] at hp; simp [blocksO] at hp
  | some t => rw [hx] at hp; exact (hM.holds x t hx).alive p (List.count_pos_iff.mp hp)

theorem Mem.aliveG (hM : Mem s α G) {p : ObjId} (hp : 0 < (blocksL G).count p) : s.heap p ≠ none :=
  hM.ghosts.alive p (List.count_pos_iff.mp hp)

/-- The memory of one variable and of the ghosts changes. -/
theorem Mem.step (hM : Mem s α G) {T' : Option (ATree V)} (hv : s'.vars = upd s.vars x (T'.map ATree.var))
    (hT : ∀ t, T' = some t → t.Holds s'.heap) (hG : HoldsL s'.heap G')
    (h1 : ∀ p, (blocksO T').count p + (blocksL G').count p ≤ 1)
    (h2 : ∀ p, 0 < (blocksO T').count p + (blocksL G').count p →
      0 < (blocksO (α x)).count p + (blocksL G).count p ∨ s.heap p = none)
    (h3 : ∀ p, (blocksO (α x)).count p + (blocksL G).count p = 0 → (blocksO T').count p + (blocksL G').count p = 0 →
      s'.heap p = s.heap p)
    (h4 : ∀ p, 0 < (blocksO (α x)).count p + (blocksL G).count p → (blocksO T').count p + (blocksL G').count p = 0 →
      s'.heap p = none)
    (hf : s'.Fresh) : Mem s' (upd α x T') G' := by
  have hoth : ∀ y p, y ≠ x → 0 < (blocksO (α y)).count p →
      (blocksO (α x)).count p + (blocksL G).count p = 0 ∧ (blocksO T').count p + (blocksL G').count p = 0 := by
    intro y p hy hp
    have e1 := hM.excl y p
    have e2 := hM.disj y x p hy
    refine ⟨by omega, ?_⟩
    by_cases h0 : 0 < (blocksO T').count p + (blocksL G').count p
    · rcases h2 p h0 with h | h
      · omega
      · exact absurd h (hM.alive hp)
    · omega
  refine ⟨?_, ?_, hG, ?_, ?_, ?_, hf⟩
  · intro y
    rw [hv]
    by_cases hy : y = x
    · subst hy; simp
    · simp only [upd, hy, if_false]; exact hM.vars y
  · intro y t hy
    by_cases hyx : y = x
    · subst hyx
      rw [upd_same] at hy
      exact hT t hy
    · simp only [upd, hyx, if_false] at hy
      refine (hM.holds y t hy).frame fun p hp => ?_
      have := hoth y p hyx (by rw [hy]; exact mem_blocks.mp hp)
      exact h3 p this.1 this.2
  · intro y p
    by_cases hy : y = x
    · subst hy; rw [upd_same]; exact h1 p
    · simp only [upd, hy, if_false]
      by_cases h0 : 0 < (blocksO (α y)).count p
      · have := hoth y p hy h0
        have := hM.excl y p
        omega
      · have := h1 p; omega
  · intro y z p hyz
    by_cases hy : y = x <;> by_cases hz : z = x
    · exact absurd (hy.trans hz.symm) hyz
    · subst hy
      simp only [upd, hz, if_false, if_true]
      by_cases h0 : 0 < (blocksO (α z)).count p
      · have h5 := hoth z p hz h0
        have := hM.excl z p
        omega
      · have := h1 p; omega
    · subst hz
      simp only [upd, hy, if_false, if_true]
      by_cases h0 : 0 < (blocksO (α y)).count p
      · have h5 := hoth y p hy h0
        have := hM.excl y p
        omega
      · have := h1 p; omega
    · simp only [upd, hy, hz, if_false]; exact hM.disj y z p hyz
  · intro p hp
    by_cases hN : 0 < (blocksO T').count p + (blocksL G').count p
    · by_cases hg : 0 < (blocksL G').count p
      · exact .inl hg
      · exact .inr ⟨x, by rw [upd_same]; omega⟩
    · by_cases hO : 0 < (blocksO (α x)).count p + (blocksL G).count p
      · exact absurd (h4 p hO (by omega)) hp
      · rw [h3 p (by omega) (by omega)] at hp
        rcases hM.owned p hp with h | ⟨y, h⟩
        · omega
        · have hy : y ≠ x := by rintro rfl; omega
          exact .inr ⟨y, by simp only [upd, hy, if_false]; exact h⟩

/-- The same, with the same blocks. -/
theorem Mem.conserve (hM : Mem s α G) {T' : Option (ATree V)} (hv : s'.vars = upd s.vars x (T'.map ATree.var))
    (hT : ∀ t, T' = some t → t.Holds s'.heap) (hG : HoldsL s'.heap G')
    (hc : ∀ p, (blocksO T').count p + (blocksL G').count p = (blocksO (α x)).count p + (blocksL G).count p)
    (hs : ∀ p, (blocksO (α x)).count p + (blocksL G).count p = 0 → s'.heap p = s.heap p) (hn : s.next ≤ s'.next) :
    Mem s' (upd α x T') G' := by
  refine hM.step hv hT hG (fun p => by rw [hc]; exact hM.excl x p) (fun p hp => .inl (by rw [hc] at hp; exact hp))
    (fun p h _ => hs p h) (fun p h h' => by have := hc p; omega) fun p hp => ?_
  have h0 := hM.fresh p (Nat.le_trans hn hp)
  rw [hs p, h0]
  by_cases hO : 0 < (blocksO (α x)).count p
  · exact absurd h0 (hM.alive hO)
  · by_cases hg : 0 < (blocksL G).count p
    · exact absurd h0 (hM.aliveG hg)
    · omega

theorem upd_upd {α : Type} (f : Nat → α) (i : Nat) (a b : α) : upd (upd f i a) i b = upd f i b := by
  funext j; simp only [upd]; split <;> rfl

theorem upd_eq {α : Type} {f : Nat → α} {i : Nat} {a : α} (h : f i = a) : upd f i a = f := by
  funext j
  simp only [upd]
  split
  · rename_i hj; rw [hj, h]
  · rfl

/-- The memory of the ghosts changes. -/
theorem Mem.ghost (hM : Mem s α G) (hv : s'.vars = s.vars) (hG : HoldsL s'.heap G') (h1 : ∀ p, (blocksL G').count p ≤ 1)
    (h2 : ∀ p, 0 < (blocksL G').count p → 0 < (blocksL G).count p ∨ s.heap p = none)
    (h3 : ∀ p, (blocksL G).count p = 0 → (blocksL G').count p = 0 → s'.heap p = s.heap p)
    (h4 : ∀ p, 0 < (blocksL G).count p → (blocksL G').count p = 0 → s'.heap p = none)
    (hf : s'.Fresh) : Mem s' α G' := by
  have hz : ∀ p, 0 < (blocksO (α 0)).count p → (blocksL G).count p = 0 ∧ (blocksL G').count p = 0 := fun p hp => by
    have h5 := hM.excl 0 p
    refine ⟨by omega, ?_⟩
    by_cases h0 : 0 < (blocksL G').count p
    · rcases h2 p h0 with h | h
      · omega
      · exact absurd h (hM.alive hp)
    · omega
  have := hM.step (x := 0) (T' := α 0) (s' := s') (G' := G') (by rw [hv, ← hM.vars 0, upd_eq rfl])
    (fun t ht => (hM.holds 0 t ht).frame fun p hp => by
      have := hz p (by rw [ht]; exact mem_blocks.mp hp)
      exact h3 p this.1 this.2) hG
    (fun p => by
      have := h1 p
      by_cases h0 : 0 < (blocksO (α 0)).count p
      · have := hz p h0; have := hM.excl 0 p; omega
      · omega)
    (fun p hp => by
      by_cases h0 : 0 < (blocksO (α 0)).count p
      · exact .inl (by omega)
      · rcases h2 p (by omega) with h | h
        · exact .inl (by omega)
        · exact .inr h)
    (fun p hp hp' => h3 p (by omega) (by omega))
    (fun p hp hp' => h4 p (by omega) (by omega)) hf
  rwa [upd_eq rfl] at this

/-- Nothing changes but counters. -/
theorem Mem.same (hM : Mem s α G) (hv : s'.vars = s.vars) (hh : s'.heap = s.heap) (hn : s.next ≤ s'.next) : Mem s' α G := by
  refine ⟨fun x => by rw [hv]; exact hM.vars x, fun x t ht => by rw [hh]; exact hM.holds x t ht, by rw [hh]; exact hM.ghosts,
    hM.excl, hM.disj, fun p hp => hM.owned p (by rwa [hh] at hp), fun p hp => by rw [hh]; exact hM.fresh p (Nat.le_trans hn hp)⟩

theorem Mem.undone (hM : Mem s α G) {e : Exc} (hu : TUndone C s e s') : Mem s' α G := hM.same hu.vars hu.heap hu.next

/-- The ghosts are listed differently. -/
theorem Mem.regroup (hM : Mem s α G) (hG : HoldsL s.heap G') (hc : ∀ p, (blocksL G').count p = (blocksL G).count p) : Mem s α G' :=
  hM.ghost rfl hG (fun p => by have := hM.excl 0 p; have := hc p; omega) (fun p hp => .inl (by rw [← hc]; exact hp))
    (fun _ _ _ => rfl) (fun p h h' => by have := hc p; omega) hM.fresh

theorem Mem.perm (hM : Mem s α G) (hp : G.Perm G') : Mem s α G' :=
  hM.regroup (holdsL_iff.mpr fun t ht => holdsL_iff.mp hM.ghosts t (hp.mem_iff.mpr ht)) fun p => by
    rw [blocksL_eq, blocksL_eq]; exact ((hp.flatMap_right _).count_eq p).symm

/-- A ghost without memory. -/
theorem Mem.add (hM : Mem s α G) {U : ATree V} (hU : U.blocks = []) (hh : U.Holds s.heap) : Mem s α (U :: G) :=
  hM.regroup ⟨hh, hM.ghosts⟩ fun p => by rw [count_cons, hU]; simp

theorem Mem.drop {U : ATree V} (hM : Mem s α (U :: G)) (hU : U.blocks = []) : Mem s α G :=
  hM.regroup hM.ghosts.2 fun p => by rw [count_cons, hU]; simp

theorem Mem.dead (hM : Mem s α G) (k : TyIx) : Mem s α (.dead k none :: G) :=
  hM.add rfl (by rw [ATree.Holds]; nofun)

theorem Mem.leaf (hM : Mem s α G) (k : TyIx) (v : V) : Mem s α (.leaf k v none :: G) :=
  hM.add rfl (by rw [ATree.Holds]; nofun)

/-- New blocks. -/
theorem Mem.grown (hM : Mem s α G) {F : List (ATree V)} (hg : TGrown s s' (blocksL F)) (hF : HoldsL s'.heap F) : Mem s' α (F ++ G) := by
  have hnew : ∀ p, 0 < (blocksL F).count p → (blocksL G).count p = 0 := fun p hp => by
    by_cases h0 : 0 < (blocksL G).count p
    · exact absurd (hg.new p (List.count_pos_iff.mp hp)) (hM.aliveG h0)
    · omega
  refine hM.ghost hg.vars (holdsL_iff.mpr fun t ht => ?_) (fun p => ?_) (fun p hp => ?_) (fun p h1 h2 => ?_) (fun p h1 h2 => ?_) hg.fresh
  · rcases List.mem_append.mp ht with ht | ht
    · exact holdsL_iff.mp hF t ht
    · refine (holdsL_iff.mp hM.ghosts t ht).frame fun p hp => hg.frame p fun hp' => ?_
      exact (holdsL_iff.mp hM.ghosts t ht).alive p hp (hg.new p hp')
  · rw [count_append]
    have h1 := hM.excl 0 p
    have h2 : (blocksL F).count p ≤ 1 := List.nodup_iff_count.mp hg.nodup p
    have := hnew p
    omega
  · rw [count_append] at hp
    by_cases h0 : 0 < (blocksL F).count p
    · exact .inr (hg.new p (List.count_pos_iff.mp h0))
    · exact .inl (by omega)
  · rw [count_append] at h2
    exact hg.frame p fun h => by have := List.count_pos_iff.mpr h; omega
  · rw [count_append] at h2; omega

theorem holdsL_append {F : List (ATree V)} : HoldsL h (F ++ G) ↔ HoldsL h F ∧ HoldsL h G := by
  simp only [holdsL_iff, List.mem_append, or_imp, forall_and]

theorem Mem.heldL {F : List (ATree V)} (hM : Mem s α (F ++ G)) : HoldsL s.heap F ∧ HoldsL s.heap G := holdsL_append.mp hM.ghosts

/-- Ghosts are gone with their blocks. -/
theorem Mem.del {F : List (ATree V)} (hM : Mem s α (F ++ G)) : Mem (s.del (blocksL F)) α G := by
  have hc : ∀ p, (blocksL F).count p + (blocksL G).count p ≤ 1 := fun p => by
    have := hM.excl 0 p; rw [count_append] at this; omega
  refine hM.ghost rfl (hM.heldL.2.frame fun p hp => ?_) (fun p => ?_) (fun p hp => ?_) (fun p h1 h2 => ?_) (fun p h1 h2 => ?_) ?_
  · simp only [TreeSt.del]
    rw [if_neg]
    intro h
    have := hc p
    have := mem_blocksL.mp h
    have := mem_blocksL.mp hp
    omega
  · have := hc p; omega
  · left; rw [count_append]; omega
  · rw [count_append] at h1
    simp only [TreeSt.del]
    rw [if_neg]
    intro h
    have := mem_blocksL.mp h
    omega
  · rw [count_append] at h1
    simp only [TreeSt.del]
    rw [if_pos (mem_blocksL.mpr (by omega))]
  · intro p hp
    simp only [TreeSt.del]
    split
    · rfl
    · exact hM.fresh p hp

theorem Mem.nodupL {F : List (ATree V)} (hM : Mem s α (F ++ G)) : (blocksL F).Nodup :=
  List.nodup_iff_count.mpr fun p => by have := hM.excl 0 p; rw [count_append] at this; omega

/-- Destruction of ghosts. -/
theorem Mem.destroyList {F : List (ATree V)} {f : VForest V} (hM : Mem s α (F ++ G)) (hF : IsL F f) (hn : f.height ≤ n) :
    ∃ s', tDestroyList (tDestroyVar n) (F.map ATree.var) s = .ok () s' ∧ Mem s' α G ∧ s'.tick = s.tick ∧ s'.allocs = s.allocs ∧
      s'.next = s.next ∧ s'.vars = s.vars :=
  ⟨_, tDestroyList_run (ATree.repL hM.heldL.1 hF) hM.nodupL hn, hM.del, rfl, rfl, rfl, rfl⟩

theorem Mem.destroy {U : ATree V} {u : VTree V} (hM : Mem s α (U :: G)) (hU : U.Is u) (hn : u.height ≤ n) :
    ∃ s', tDestroyVar n U.var s = .ok () s' ∧ Mem s' α G ∧ s'.tick = s.tick ∧ s'.allocs = s.allocs ∧ s'.next = s.next ∧
      s'.vars = s.vars ∧ s' = s.del U.blocks := by
  have hM' : Mem s α ([U] ++ G) := hM
  have hb : blocksL [U] = U.blocks := by simp [blocksL]
  have hnd := hM'.nodupL
  have hd := hM'.del
  rw [hb] at hnd hd
  exact ⟨_, tDestroyVar_run (ATree.rep hM.ghosts.1 hU) hnd hn, hd, rfl, rfl, rfl, rfl, rfl⟩

/-! ### Variables -/

/-- A ghost becomes a variable. -/
theorem Mem.setVar {U : ATree V} (hM : Mem s α (U :: G)) (hx : α x = none) :
    Mem { s with vars := upd s.vars x (some U.var) } (upd α x (some U)) G := by
  refine hM.conserve (by rfl) (fun t ht => by cases ht; exact hM.ghosts.1) hM.ghosts.2 (fun p => ?_) (fun _ _ => rfl) (Nat.le_refl _)
  rw [hx, count_cons]; simp [blocksO]

/-- A variable becomes a ghost. -/
theorem Mem.takeVar {T : ATree V} (hM : Mem s α G) (hx : α x = some T) :
    Mem { s with vars := upd s.vars x none } (upd α x none) (T :: G) := by
  refine hM.conserve (by rfl) nofun ⟨hM.holds x T hx, hM.ghosts⟩ (fun p => ?_) (fun _ _ => rfl) (Nat.le_refl _)
  rw [hx, count_cons]; simp [blocksO]

/-! ### Blocks -/

/-- `operator new` gives a raw block or throws. -/
theorem Mem.alloc (hM : Mem s α G) :
    (∃ p s', tAlloc C s = .ok p s' ∧ Mem s' α (.blk p :: G) ∧ s'.tick = s.tick + 1 ∧ s'.allocs = s.allocs + 1 ∧ s'.vars = s.vars) ∨
    (∃ e s', tAlloc C s = .exc e s' ∧ Mem s' α G ∧ s.tick ≤ e.tick ∧ e.tick < s'.tick ∧ C.throws e.tick = true ∧ s'.vars = s.vars) := by
  have hal : tAlloc C s = if C.throws s.tick = true then
      .exc ⟨.badAlloc, s.tick⟩ { s with tick := s.tick + 1, allocs := s.allocs + 1 } else
      .ok s.next { s with heap := upd s.heap s.next (some .raw), next := s.next + 1, tick := s.tick + 1, allocs := s.allocs + 1 } := by
    simp only [tAlloc, bind, Eff.bind, Eff.modify, tMayThrow]
    cases C.throws s.tick <;> rfl
  by_cases ht : C.throws s.tick = true
  · rw [if_pos ht] at hal
    exact .inr ⟨_, _, hal, hM.same rfl rfl (Nat.le_refl _), Nat.le_refl _, Nat.lt_succ_self _, ht, rfl⟩
  · rw [if_neg ht] at hal
    refine .inl ⟨_, _, hal, ?_, rfl, rfl, rfl⟩
    have hb : blocksL [ATree.blk (V := V) s.next] = [s.next] := by simp [blocksL, blocks]
    refine hM.grown (F := [.blk s.next]) ⟨?_, ?_, ?_, rfl, Nat.le_succ _, ?_, Nat.le_succ _⟩ ⟨by rw [ATree.Holds]; simp, trivial⟩
    · rw [hb]; simp
    · rw [hb]; intro p hp; rw [List.mem_singleton.mp hp]; exact hM.fresh _ (Nat.le_refl _)
    · rw [hb]; intro p hp; simp only [List.mem_singleton] at hp; simp only [upd, hp, if_false]
    · intro p hp
      simp only at hp
      simp only [upd]
      rw [if_neg (by omega)]; exact hM.fresh p (by omega)

theorem Mem.free {p : ObjId} (hM : Mem s α (.blk p :: G)) :
    ∃ s', tFree p s = .ok () s' ∧ Mem s' α G ∧ s'.tick = s.tick ∧ s'.allocs = s.allocs ∧ s'.vars = s.vars := by
  have hr := hM.ghosts.1
  rw [ATree.Holds] at hr
  refine ⟨{ s with heap := upd s.heap p none }, by simp only [tFree, hr], ?_, rfl, rfl, rfl⟩
  have hM' : Mem s α ([ATree.blk p] ++ G) := hM
  have := hM'.del
  have he : s.del (blocksL [ATree.blk (V := V) p]) = { s with heap := upd s.heap p none } := by
    simp only [TreeSt.del, blocksL, blocks, TreeSt.mk.injEq, and_true]
    funext q
    simp [upd]
  rwa [he] at this

/-- An object is made in a raw block, of ghosts `F`. -/
theorem Mem.fill {p : ObjId} {F : List (ATree V)} {U : ATree V} {c : TCell V} (hM : Mem s α (.blk p :: (F ++ G)))
    (hU : ∀ h' : ObjId → Option (TCell V), h' p = some c → HoldsL h' F → U.Holds h')
    (hc : ∀ q, U.blocks.count q = [p].count q + (blocksL F).count q) :
    ∃ s', tFill p c s = .ok () s' ∧ Mem s' α (U :: G) ∧ s'.tick = s.tick ∧ s'.allocs = s.allocs ∧ s'.vars = s.vars := by
  have hr := hM.ghosts.1
  rw [ATree.Holds] at hr
  refine ⟨{ s with heap := upd s.heap p (some c) }, by simp only [tFill, hr], ?_, rfl, rfl, rfl⟩
  have hcnt : ∀ q, (blocksL (ATree.blk p :: (F ++ G))).count q = [p].count q + (blocksL F).count q + (blocksL G).count q := fun q => by
    rw [count_cons, count_append]; simp only [blocks]; omega
  have hp1 : [p].count p = 1 := by simp
  have hone : ∀ q, [p].count q + (blocksL F).count q + (blocksL G).count q ≤ 1 := fun q => by
    have := hM.excl 0 q; rw [hcnt] at this; omega
  have hne : ∀ q, 0 < (blocksL F).count q + (blocksL G).count q → q ≠ p := by
    rintro q hq rfl; have := hone q; omega
  have hheld := holdsL_append.mp hM.ghosts.2
  refine hM.ghost rfl ⟨hU _ (by simp) (hheld.1.frame fun q hq => ?_), hheld.2.frame fun q hq => ?_⟩ (fun q => ?_) (fun q hq => ?_)
    (fun q h1 h2 => ?_) (fun q h1 h2 => ?_) ?_
  · simp only [upd]; rw [if_neg (hne q (by have := mem_blocksL.mp hq; omega))]
  · simp only [upd]; rw [if_neg (hne q (by have := mem_blocksL.mp hq; omega))]
  · rw [count_cons, hc]; exact hone q
  · left; rw [hcnt]; rw [count_cons, hc] at hq; exact hq
  · rw [hcnt] at h1
    simp only [upd]
    rw [if_neg]
    rintro rfl; omega
  · rw [count_cons, hc] at h2; rw [hcnt] at h1; omega
  · intro q hq
    simp only [upd]
    rw [if_neg]
    · exact hM.fresh q hq
    · rintro rfl
      have := hM.fresh q hq; rw [hr] at this; cases this

end

end BVariant
