/-
C55: comparing, hashing and streaming recursive variants.
-/
import Verif.Lemmas.TreeObserve
import Verif.Props.Tree
import Verif.Props.Observe

namespace BVariant

section
variable {V : Type} {C : TreeCfg V} {s s' : TreeSt V} {σ : TStore V} {own : Nat → List ObjId} {w : TyIx → Bool} {m n : Nat}
  {eq lt : TyIx → V → V → Bool} {x y : TPlace} {t u : VTree V}

open ATree AStore

/-- What is read at a place. -/
theorem TreeSt.Represents.read (hr : s.Represents σ own) (hf : s.Fresh) (hx : σ.at x = some t) :
    ∃ l v ns, x.eval s = .ok l s ∧ l.read s = .ok v s ∧ t.Rep s.heap v ns := by
  obtain ⟨α, hM, hS, _⟩ := hr.mem hf
  obtain ⟨l, R, h⟩ := hS.at_iff.mp (by rw [hx]; nofun : σ.at x ≠ none)
  obtain ⟨u, hu, hR⟩ := hS.at h
  rw [hx] at hu; cases hu
  obtain ⟨h1, h2, h3⟩ := hM.at_run h
  exact ⟨l, _, _, h1, h2, ATree.rep h3 hR⟩

/-- **C55**: `x == y` for variants anywhere in trees (variables, or members of nodes; one may be a part of the other, or the same).
On a stack as deep as the trees are high it has no undefined behaviour, changes nothing, and is true iff the two trees are equal:
wherever their contents are, in place or in heap backups, at any depth. -/
theorem C55_equality_result (hr : s.Represents σ own) (hf : s.Fresh) (hB : σ.Bound w n) (hx : σ.at x = some t) (hy : σ.at y = some u) :
    ∃ b, tEq eq n x y s = .ok b s ∧ (b = true ↔ t.Same eq u) := by
  obtain ⟨l, v, ns, h1, h2, h3⟩ := hr.read hf hx
  obtain ⟨l', v', ns', h4, h5, h6⟩ := hr.read hf hy
  obtain ⟨b, h7, h8⟩ := tEqVar_run (eq := eq) (n := n) h3 h6 (hB.at hx).2 (hB.at hy).2 (by have := (hB.at hx).1; omega)
  exact ⟨b, by simp only [tEq, bind, Eff.bind, h1, h2, h4, h5]; exact h7, h8⟩

/-- **C55**: `x < y`, likewise: it is true iff the left tree comes first, by the index of the type, then the value, then the members
as in a dictionary. -/
theorem C55_less_result (hr : s.Represents σ own) (hf : s.Fresh) (hB : σ.Bound w n) (hx : σ.at x = some t) (hy : σ.at y = some u) :
    ∃ b, tLt lt n x y s = .ok b s ∧ (b = true ↔ t.order lt u = .lt) := by
  obtain ⟨l, v, ns, h1, h2, h3⟩ := hr.read hf hx
  obtain ⟨l', v', ns', h4, h5, h6⟩ := hr.read hf hy
  obtain ⟨⟨b, h7, h8⟩, _⟩ := tLtVar_run (lt := lt) (n := n) h3 h6 (hB.at hx).2 (hB.at hy).2 (by have := (hB.at hx).1; omega)
  exact ⟨b, by simp only [tLt, bind, Eff.bind, h1, h2, h4, h5]; exact h7, h8⟩

/-- `x == y` is true. -/
def TEqv (eq : TyIx → V → V → Bool) (n : Nat) (s : TreeSt V) (x y : TPlace) : Prop := tEq eq n x y s = .ok true s

/-- `x < y` is true. -/
def TLess (lt : TyIx → V → V → Bool) (n : Nat) (s : TreeSt V) (x y : TPlace) : Prop := tLt lt n x y s = .ok true s

/-- There is a variant at the place. -/
def TPlace.Alive (s : TreeSt V) (x : TPlace) : Prop := x.valid s = true

theorem tEqv_iff (hr : s.Represents σ own) (hf : s.Fresh) (hB : σ.Bound w n) (hx : σ.at x = some t) (hy : σ.at y = some u) :
    TEqv eq n s x y ↔ t.Same eq u := by
  obtain ⟨b, h1, h2⟩ := C55_equality_result (eq := eq) hr hf hB hx hy
  unfold TEqv
  rw [h1, ← h2]
  cases b <;> simp

theorem tLess_iff (hr : s.Represents σ own) (hf : s.Fresh) (hB : σ.Bound w n) (hx : σ.at x = some t) (hy : σ.at y = some u) :
    TLess lt n s x y ↔ t.order lt u = .lt := by
  obtain ⟨b, h1, h2⟩ := C55_less_result (lt := lt) hr hf hB hx hy
  unfold TLess
  rw [h1, ← h2]
  cases b <;> simp

theorem tAlive_at (hr : s.Represents σ own) (hf : s.Fresh) (hx : x.Alive s) : ∃ t, σ.at x = some t := by
  obtain ⟨α, hM, hS, _⟩ := hr.mem hf
  exact at_of_ne (hS.at_iff.mpr (hM.valid_iff.mp hx))

/-- **C55**: if the element types' `operator==` are equivalences, so is that of recursive variants, on all variants there are in a
state: variables, and parts of their contents. -/
theorem C55_equality_equivalence (hr : s.Represents σ own) (hf : s.Fresh) (hB : σ.Bound w n)
    (he : ∀ k, EquivOn (fun _ => True) (BRel (eq k))) : EquivOn (TPlace.Alive s) (TEqv eq n s) := by
  refine ⟨fun x hx => ?_, fun x y hx hy h => ?_, fun x y z hx hy hz h1 h2 => ?_⟩
  · obtain ⟨t, ht⟩ := tAlive_at hr hf hx
    exact (tEqv_iff hr hf hB ht ht).mpr (.refl (fun k a => (he k).refl a trivial) t)
  · obtain ⟨t, ht⟩ := tAlive_at hr hf hx
    obtain ⟨u, hu⟩ := tAlive_at hr hf hy
    exact (tEqv_iff hr hf hB hu ht).mpr (((tEqv_iff hr hf hB ht hu).mp h).symm fun k a b => (he k).symm a b trivial trivial)
  · obtain ⟨t, ht⟩ := tAlive_at hr hf hx
    obtain ⟨u, hu⟩ := tAlive_at hr hf hy
    obtain ⟨v, hv⟩ := tAlive_at hr hf hz
    exact (tEqv_iff hr hf hB ht hv).mpr (((tEqv_iff hr hf hB ht hu).mp h1).trans
      (fun k a b c => (he k).trans a b c trivial trivial trivial) ((tEqv_iff hr hf hB hu hv).mp h2))

/-- **C55**: if the element types' `operator<` are strict weak orders, so is that of recursive variants. -/
theorem C55_less_strict_weak (hr : s.Represents σ own) (hf : s.Fresh) (hB : σ.Bound w n)
    (hs : ∀ k, StrictWeakOn (fun _ => True) (BRel (lt k))) : StrictWeakOn (TPlace.Alive s) (TLess lt n s) := by
  have hL := VTree.order_lawful hs
  refine ⟨fun x hx => ?_, fun x y z hx hy hz => ?_, fun x y z hx hy hz => ?_⟩
  · obtain ⟨t, ht⟩ := tAlive_at hr hf hx
    rw [tLess_iff hr hf hB ht ht, hL.refl t]; nofun
  · obtain ⟨t, ht⟩ := tAlive_at hr hf hx
    obtain ⟨u, hu⟩ := tAlive_at hr hf hy
    obtain ⟨v, hv⟩ := tAlive_at hr hf hz
    rw [tLess_iff hr hf hB ht hu, tLess_iff hr hf hB hu hv, tLess_iff hr hf hB ht hv]
    exact hL.trans t u v
  · obtain ⟨t, ht⟩ := tAlive_at hr hf hx
    obtain ⟨u, hu⟩ := tAlive_at hr hf hy
    obtain ⟨v, hv⟩ := tAlive_at hr hf hz
    rw [tLess_iff hr hf hB ht hu, tLess_iff hr hf hB hu hv, tLess_iff hr hf hB ht hv, tLess_iff hr hf hB hu ht,
      tLess_iff hr hf hB hv hu, tLess_iff hr hf hB hv ht]
    intro h1 h2 h3 h4
    have e1 := (VTree.order_opposite (lt := lt) t u).eq_of h1 h2
    have e2 := (VTree.order_opposite (lt := lt) u v).eq_of h3 h4
    have e3 : t.order lt v = .eq := (hL.eqL t u v e1).trans e2
    exact ⟨by rw [e3]; nofun, by rw [hL.swap t v, e3]; nofun⟩

/-- **C55**: if for each element type of any two values exactly one is true of "less", "equal" and "greater", the same holds for
recursive variants. -/
theorem C55_trichotomy (hr : s.Represents σ own) (hf : s.Fresh) (hB : σ.Bound w n)
    (hs : ∀ k, StrictWeakOn (fun _ => True) (BRel (lt k)))
    (he : ∀ k a b, eq k a b = true ↔ lt k a b = false ∧ lt k b a = false) (hx : x.Alive s) (hy : y.Alive s) :
    (TLess lt n s x y ∧ ¬ TEqv eq n s x y ∧ ¬ TLess lt n s y x) ∨ (¬ TLess lt n s x y ∧ TEqv eq n s x y ∧ ¬ TLess lt n s y x) ∨
    (¬ TLess lt n s x y ∧ ¬ TEqv eq n s x y ∧ TLess lt n s y x) := by
  obtain ⟨t, ht⟩ := tAlive_at hr hf hx
  obtain ⟨u, hu⟩ := tAlive_at hr hf hy
  have h := VTree.order_eq (lt := lt) (eq := eq) (fun k a b => by
    rw [he]; unfold ordOf; cases lt k a b <;> cases lt k b a <;> simp) t u
  rw [tLess_iff hr hf hB ht hu, tLess_iff hr hf hB hu ht, tEqv_iff hr hf hB ht hu, ← h, VTree.order_swap hs t u]
  cases t.order lt u <;> simp [Ordering.swap]

section
variable {H S : Type} {h : TyIx → V → H} {hn : TyIx → V → List H → H} {combine : H → TyIx → H} {P : Printer V S} {out : S}

/-- **C55**: `hash_value` of a recursive variant depends on its tree only. -/
theorem C55_hash_result (hr : s.Represents σ own) (hf : s.Fresh) (hB : σ.Bound w n) (hx : σ.at x = some t) :
    tHash h hn combine n x s = .ok (t.hash h hn combine) s := by
  obtain ⟨l, v, ns, h1, h2, h3⟩ := hr.read hf hx
  simp only [tHash, bind, Eff.bind, h1, h2]
  exact tHashVar_run h3 (by have := (hB.at hx).1; omega)

/-- **C55**: recursive variants that compare equal have equal hashes, if equal elements have. -/
theorem C55_equal_hashes (hr : s.Represents σ own) (hf : s.Fresh) (hB : σ.Bound w n) (h1 : ∀ k a b, eq k a b = true → h k a = h k b)
    (h2 : ∀ k a b hs, eq k a b = true → hn k a hs = hn k b hs) (hx : x.Alive s) (hy : y.Alive s) (he : TEqv eq n s x y) :
    ∃ a, tHash h hn combine n x s = .ok a s ∧ tHash h hn combine n y s = .ok a s := by
  obtain ⟨t, ht⟩ := tAlive_at hr hf hx
  obtain ⟨u, hu⟩ := tAlive_at hr hf hy
  refine ⟨_, C55_hash_result hr hf hB ht, ?_⟩
  rw [((tEqv_iff hr hf hB ht hu).mp he).hash h1 h2]
  exact C55_hash_result hr hf hB hu

/-- **C55**: streaming a recursive variant prints its tree: each element once, a node before and after its members, these in
order. -/
theorem C55_streaming (hr : s.Represents σ own) (hf : s.Fresh) (hB : σ.Bound w n) (hx : σ.at x = some t) :
    tPrint P n x out s = .ok (t.print P out) s := by
  obtain ⟨l, v, ns, h1, h2, h3⟩ := hr.read hf hx
  simp only [tPrint, bind, Eff.bind, h1, h2]
  exact tPrintVar_run h3 (by have := (hB.at hx).1; omega)

end

/-- **C55**: the copy a constructor makes compares equal to the original: `variant x(y); x == y`. -/
theorem C55_copy_equals_original (hl : C.ops.Lawful) (hr : s.Represents σ own) (hf : s.Fresh) (hB : σ.Bound C.wrapped n)
    (he : ∀ k a, eq k a a = true) {z : Nat} (hz : s.vars z = none) (hx : x.valid s = true)
    (hc : TCmd.code C n (.copy z x) s = .ok () s') : TEqv eq n s' ⟨z, []⟩ x := by
  have hv : TCmd.valid C s (.copy z x) = true := by simp [TCmd.valid, hz, hx]
  rcases C37_statement (n := n) hl hr hf hB hv rfl with ⟨s1, σ1, own1, h1, h2, h3, h4⟩ | ⟨e, s1, σ1, own1, h1, _⟩
  · rw [hc] at h1; cases h1
    cases h2 with
    | @copy _ _ t _ ht =>
      have hzx : x.var ≠ z := by
        rintro rfl
        unfold TStore.at at ht
        rw [hr.vars_none.mp hz] at ht; cases ht
      have h5 : TStore.at (upd σ z (some t)) ⟨z, []⟩ = some t := by
        simp only [TStore.at, upd_same]; exact VTree.sub_nil t
      have h6 : TStore.at (upd σ z (some t)) x = some t := by
        rw [← ht]; simp only [TStore.at, upd, hzx, if_false]
      exact (tEqv_iff h3 h4 (hB.upd (by have := (hB.at ht).1; omega) (hB.at ht).2) h5 h6).mpr (.refl he t)
  · rw [hc] at h1; cases h1

/-- **C55**: after any program on recursive variants in which no unsupported assignment occurs (see C37), with any operation having
failed: comparing any two of the variants that exist, or parts of them, compares their values in the store of plain trees, hashing
and streaming see these values, and no memory is touched. -/
theorem C55_after_any_program (hl : C.ops.Lawful) (hfb : ∀ fb, C.fallback = some fb → C.wrapped fb = false)
    (cs : List (TCmd V)) (hn : 2 ^ cs.length ≤ n) (hc : tClean C n cs (TreeSt.init V) = true) :
    ∃ (s : TreeSt V) (σ : TStore V), tRun C n cs (TreeSt.init V) = some s ∧ TSteps C cs (fun _ => none) σ ∧
      (∀ x, x.Alive s ↔ σ.at x ≠ none) ∧
      ∀ x y t u, σ.at x = some t → σ.at y = some u →
        (∃ b, tEq eq n x y s = .ok b s ∧ (b = true ↔ t.Same eq u)) ∧ (∃ b, tLt lt n x y s = .ok b s ∧ (b = true ↔ t.order lt u = .lt)) ∧
        (∀ (H : Type) h hn (combine : H → TyIx → H), tHash h hn combine n x s = .ok (t.hash h hn combine) s) ∧
        (∀ (S : Type) (P : Printer V S) out, tPrint P n x out s = .ok (t.print P out) s) := by
  obtain ⟨s, σ, own, h1, h2, h3, h4, h5⟩ := C37_programs_on_trees hl hfb cs hn hc
  have hB := h5.mono hn
  obtain ⟨α, hM, hS, _⟩ := h3.mem h4
  exact ⟨s, σ, h1, h2, fun x => hM.valid_iff.trans hS.at_iff.symm, fun x y t u hx hy =>
    ⟨C55_equality_result h3 h4 hB hx hy, C55_less_result h3 h4 hB hx hy, fun H h hn c => C55_hash_result h3 h4 hB hx,
      fun S P out => C55_streaming h3 h4 hB hx⟩⟩

end

/-! ### Concrete cases -/

/-- A failed assignment has left variable 2 in a heap backup; variable 4 is a copy of variable 3, which has an equal tree as its
first member. -/
def exTreeCmp : TreeSt Nat := tAfter none [35] exTreeProg

theorem exTreeCmp_rep : ∃ (σ : TStore Nat) (own : Nat → List ObjId), exTreeCmp.Represents σ own ∧ exTreeCmp.Fresh ∧
    σ.Bound (exTree none [35]).wrapped 4096 := by
  obtain ⟨σ, own, _, h2, h3, h4⟩ := tAfter_rep (fb := none) (bad := [35]) (st := false) (cs := exTreeProg) nofun (by decide) (by decide +kernel)
  exact ⟨σ, own, h2, h3, h4⟩

/-- A printer of nested lists. -/
def exPrinter : Printer Nat (List Nat) where
  pr _ v out := out ++ [v]
  before _ a out := out ++ [a, 100]
  after _ _ out := out ++ [101]

/-- What an observation answers. -/
def Res.answer {S α : Type} : Res S α → Option α
  | .ok a _ => some a
  | _ => none

example : exTreeCmp.vars 2 = some (.backup 1 6) ∧
    (tEq natEq 64 ⟨2, []⟩ ⟨3, [0]⟩ exTreeCmp).answer = some true ∧ (tEq natEq 64 ⟨4, []⟩ ⟨3, []⟩ exTreeCmp).answer = some true ∧
    (tEq natEq 64 ⟨3, []⟩ ⟨3, [0]⟩ exTreeCmp).answer = some false ∧ (tLt natLt 64 ⟨2, []⟩ ⟨3, []⟩ exTreeCmp).answer = some true ∧
    (tLt natLt 64 ⟨3, []⟩ ⟨2, []⟩ exTreeCmp).answer = some false ∧ (tLt natLt 64 ⟨0, []⟩ ⟨2, []⟩ exTreeCmp).answer = some true ∧
    (tPrint exPrinter 64 ⟨3, []⟩ [] exTreeCmp).answer = some [8, 100, 7, 100, 5, 6, 101, 5, 6, 101] := by
  decide +kernel

/-- C55: the statements apply to this state. -/
example : EquivOn (TPlace.Alive exTreeCmp) (TEqv natEq 4096 exTreeCmp) ∧ StrictWeakOn (TPlace.Alive exTreeCmp) (TLess natLt 4096 exTreeCmp) ∧
    TPlace.Alive exTreeCmp ⟨3, [0, 1]⟩ ∧ ¬ TPlace.Alive exTreeCmp ⟨3, [1, 1]⟩ := by
  obtain ⟨σ, own, h1, h2, h3⟩ := exTreeCmp_rep
  exact ⟨C55_equality_equivalence h1 h2 h3 natEq_equiv, C55_less_strict_weak h1 h2 h3 natLt_strict, by unfold TPlace.Alive; decide +kernel,
    by unfold TPlace.Alive; decide +kernel⟩

example : ∃ a, tHash (fun _ v => v % 8) (fun _ v hs => v + hs.sum) (fun a k => 31 * a + k) 4096 ⟨2, []⟩ exTreeCmp = .ok a exTreeCmp ∧
    tHash (fun _ v => v % 8) (fun _ v hs => v + hs.sum) (fun a k => 31 * a + k) 4096 ⟨3, [0]⟩ exTreeCmp = .ok a exTreeCmp := by
  obtain ⟨σ, own, h1, h2, h3⟩ := exTreeCmp_rep
  have hx : TPlace.Alive exTreeCmp ⟨2, []⟩ := by unfold TPlace.Alive; decide +kernel
  have hy : TPlace.Alive exTreeCmp ⟨3, [0]⟩ := by unfold TPlace.Alive; decide +kernel
  refine C55_equal_hashes (eq := natEq) h1 h2 h3 ?_ ?_ hx hy ?_
  · intro k a b h; simp [natEq] at h; rw [h]
  · intro k a b hs h; simp [natEq] at h; rw [h]
  · obtain ⟨t, ht⟩ := tAlive_at h1 h2 hx
    obtain ⟨u, hu⟩ := tAlive_at h1 h2 hy
    obtain ⟨b, h4, h5⟩ := C55_equality_result (eq := natEq) h1 h2 h3 ht hu
    have h6 : (tEq natEq 4096 ⟨2, []⟩ ⟨3, [0]⟩ exTreeCmp).answer = some true := by decide +kernel
    unfold TEqv
    rw [h4] at h6 ⊢
    cases h6; rfl

/-- C55: a copy, and its comparison with the original. -/
example : ∃ s', TCmd.code (exTree none [35]) 4096 (.copy 5 ⟨2, []⟩) exTreeCmp = .ok () s' ∧ TEqv natEq 4096 s' ⟨5, []⟩ ⟨2, []⟩ := by
  obtain ⟨σ, own, h1, h2, h3⟩ := exTreeCmp_rep
  have h0 : (TCmd.code (exTree none [35]) 4096 (.copy 5 ⟨2, []⟩) exTreeCmp).answer = some () := by decide +kernel
  cases h : TCmd.code (exTree none [35]) 4096 (.copy 5 ⟨2, []⟩) exTreeCmp with
  | ok a s' =>
    exact ⟨s', rfl, C55_copy_equals_original natOps_lawful h1 h2 h3 (fun k a => by simp [natEq]) (by decide +kernel) (by decide +kernel) h⟩
  | exc e s' => rw [h] at h0; cases h0
  | fault f => rw [h] at h0; cases h0

example := C55_after_any_program (C := exTree none [35]) (eq := natEq) (lt := natLt) (n := 4096) natOps_lawful nofun exTreeProg (by decide)
  (by decide +kernel)

/-- C55: `2` in its heap backup and the first member of `3` are equal; `2` is less than `3`; what is hashed and printed. -/
example : ∃ σ own, exTreeCmp.Represents σ own ∧ ∀ t, σ.at ⟨3, []⟩ = some t →
    ∃ b, tLt natLt 4096 ⟨3, []⟩ ⟨3, []⟩ exTreeCmp = .ok b exTreeCmp ∧ (b = true ↔ t.order natLt t = .lt) := by
  obtain ⟨σ, own, h1, h2, h3⟩ := exTreeCmp_rep
  exact ⟨σ, own, h1, fun t ht => C55_less_result h1 h2 h3 ht ht⟩
example : TLess natLt 4096 exTreeCmp ⟨2, []⟩ ⟨3, []⟩ ∧ ¬ TEqv natEq 4096 exTreeCmp ⟨2, []⟩ ⟨3, []⟩ ∧
      ¬ TLess natLt 4096 exTreeCmp ⟨3, []⟩ ⟨2, []⟩ ∨
    ¬ TLess natLt 4096 exTreeCmp ⟨2, []⟩ ⟨3, []⟩ ∧ TEqv natEq 4096 exTreeCmp ⟨2, []⟩ ⟨3, []⟩ ∧
      ¬ TLess natLt 4096 exTreeCmp ⟨3, []⟩ ⟨2, []⟩ ∨
    ¬ TLess natLt 4096 exTreeCmp ⟨2, []⟩ ⟨3, []⟩ ∧ ¬ TEqv natEq 4096 exTreeCmp ⟨2, []⟩ ⟨3, []⟩ ∧
      TLess natLt 4096 exTreeCmp ⟨3, []⟩ ⟨2, []⟩ := by
  obtain ⟨σ, own, h1, h2, h3⟩ := exTreeCmp_rep
  exact C55_trichotomy h1 h2 h3 natLt_strict (fun _ a b => by simp [natEq, natLt]; omega)
    (by unfold TPlace.Alive; decide +kernel) (by unfold TPlace.Alive; decide +kernel)
example : tHash (fun _ v => v % 8) (fun _ v hs => v + hs.sum) (fun a k => 31 * a + k) 16 ⟨3, []⟩ (tAfter none [] (exTreeProg.take 4)) =
      .ok (exTree3.hash (fun _ v => v % 8) (fun _ v hs => v + hs.sum) (fun a k => 31 * a + k)) (tAfter none [] (exTreeProg.take 4)) ∧
    tPrint exPrinter 16 ⟨3, []⟩ [1] (tAfter none [] (exTreeProg.take 4)) =
      .ok (exTree3.print exPrinter [1]) (tAfter none [] (exTreeProg.take 4)) := by
  obtain ⟨σ, own, h1, h2, h3, h4⟩ := exTree_bound (st := false)
  have hat : σ.at ⟨3, []⟩ = some exTree3 := by simp only [TStore.at, h4]; rfl
  exact ⟨C55_hash_result h1 h2 h3 hat, C55_streaming h1 h2 h3 hat⟩

end BVariant
