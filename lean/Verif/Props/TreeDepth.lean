/-
C58: how much stack operations on recursive variants need.
-/
import Verif.Lemmas.TreeDepthMove
import Verif.Props.TreeObserve

namespace BVariant

section
variable {V : Type} {C : TreeCfg V} {s s' : TreeSt V} {σ : TStore V} {own : Nat → List ObjId} {w : TyIx → Bool} {m n : Nat}

open ATree AStore

/-! ### More stack changes nothing -/

/-- **C58**: in any state, a statement that ends (in success or with an exception) on a stack of depth `n` does the same on a deeper
one. -/
theorem C58_more_stack (h : n ≤ m) (c : TCmd V) (s : TreeSt V) : (∃ x, c.code C n s = .fault x) ∨ c.code C m s = c.code C n s :=
  (tCode_le h c).at_ s

/-- **C58**: so does a program, in any state. -/
theorem C58_more_stack_programs (h : n ≤ m) {cs : List (TCmd V)} (hr : tRun C n cs s = some s') : tRun C m cs s = some s' :=
  tRun_le h cs hr

/-- **C58**: so do the comparisons. -/
theorem C58_more_stack_comparisons {eq lt : TyIx → V → V → Bool} (h : n ≤ m) (x y : TPlace) (s : TreeSt V) :
    ((∃ e, tEq eq n x y s = .fault e) ∨ tEq eq m x y s = tEq eq n x y s) ∧
    ((∃ e, tLt lt n x y s = .fault e) ∨ tLt lt m x y s = tLt lt n x y s) := by
  have h1 : Eff.Le (tEq eq n x y) (tEq eq m x y) := by unfold tEq; le_tac [tEqVar_le h]
  have h2 : Eff.Le (tLt lt n x y) (tLt lt m x y) := by unfold tLt; le_tac [tLtVar_le h]
  exact ⟨h1.at_ s, h2.at_ s⟩

/-- **C58**: so do hashing and streaming. -/
theorem C58_more_stack_observers {H S : Type} {hh : TyIx → V → H} {hn : TyIx → V → List H → H} {combine : H → TyIx → H} {P : Printer V S}
    (h : n ≤ m) (x : TPlace) (o : S) (s : TreeSt V) :
    ((∃ e, tHash hh hn combine n x s = .fault e) ∨ tHash hh hn combine m x s = tHash hh hn combine n x s) ∧
    ((∃ e, tPrint P n x o s = .fault e) ∨ tPrint P m x o s = tPrint P n x o s) := by
  have h1 : Eff.Le (tHash hh hn combine n x) (tHash hh hn combine m x) := by unfold tHash; le_tac [tHashVar_le h]
  have h2 : Eff.Le (tPrint P n x o) (tPrint P m x o) := by unfold tPrint; le_tac [tPrintVar_le h]
  exact ⟨h1.at_ s, h2.at_ s⟩

/-! ### What each operation needs -/

/-- **C58**: the destructor of a variant needs a stack exactly as deep as its tree is high: on any such stack it succeeds, on any
other it overflows. -/
theorem C58_destroy (hr : s.Represents σ own) {x : Nat} {t : VTree V} (hx : σ x = some t) :
    ((∃ s', TCmd.code C n (.destroy x) s = .ok () s') ↔ t.height ≤ n) ∧
    ((∃ e, TCmd.code C n (.destroy x) s = .fault e) ↔ n < t.height) := by
  obtain ⟨v, h1, h2⟩ := hr.val x t hx
  have hnd := hr.nodup x
  have hvar : tVar x s = .ok v s := by simp only [tVar, h1]
  have hup : t.height ≤ n → ∃ s', TCmd.code C n (.destroy x) s = .ok () s' := fun h => by
    simp only [TCmd.code, tEndVar, bind, Eff.bind, hvar, tDestroyVar_run h2 hnd h]
    exact ⟨_, rfl⟩
  have hdown : ∀ {s'}, TCmd.code C n (.destroy x) s = .ok () s' → t.height ≤ n := fun h => by
    rw [TCmd.code, tEndVar] at h
    obtain ⟨v', s1, g1, g2⟩ := Eff.bind_ok h
    rw [hvar] at g1; cases g1
    obtain ⟨_, s1, g3, _⟩ := Eff.bind_ok g2
    exact tDestroyVar_ok h2 hnd g3
  refine ⟨⟨fun ⟨_, h⟩ => hdown h, hup⟩, fun ⟨e, h⟩ => ?_, fun h => ?_⟩
  · by_cases hn : t.height ≤ n
    · obtain ⟨s', h'⟩ := hup hn
      rw [h] at h'; cases h'
    · omega
  · have hok : ∃ s', TCmd.code C t.height (.destroy x) s = .ok () s' := by
      simp only [TCmd.code, tEndVar, bind, Eff.bind, hvar, tDestroyVar_run h2 hnd (Nat.le_refl _)]
      exact ⟨_, rfl⟩
    obtain ⟨s', hok⟩ := hok
    rcases Eff.Le.of_ok (n := n) (f := fun n => TCmd.code C n (.destroy x)) (fun h => tCode_le h _) hok with h' | h'
    · have := hdown h'; omega
    · exact h'

/-- **C58**: copy construction needs a stack at least as deep as the tree is high, whatever throws: on any other it never succeeds.
If nothing throws then it succeeds on any such stack, and on any other it overflows. -/
theorem C58_copy (hr : s.Represents σ own) (hf : s.Fresh) {x : Nat} {y : TPlace} {t : VTree V} (hy : σ.at y = some t) :
    (∀ s', TCmd.code C n (.copy x y) s = .ok () s' → t.height ≤ n) ∧
    (C.NoThrow → (((∃ s', TCmd.code C n (.copy x y) s = .ok () s') ↔ t.height ≤ n) ∧
      ((∃ e, TCmd.code C n (.copy x y) s = .fault e) ↔ n < t.height))) := by
  obtain ⟨l, v, ns, h1, h2, h3⟩ := hr.read hf hy
  have hdown : ∀ s', TCmd.code C n (.copy x y) s = .ok () s' → t.height ≤ n := fun s' h => by
    rw [TCmd.code] at h
    obtain ⟨l', s1, g1, g2⟩ := Eff.bind_ok h
    rw [h1] at g1; cases g1
    obtain ⟨v', s1, g3, g4⟩ := Eff.bind_ok g2
    rw [h2] at g3; cases g3
    obtain ⟨v', s1, g5, _⟩ := Eff.bind_ok g4
    exact tCopyVar_ok h3 hf g5
  refine ⟨hdown, fun hnt => ?_⟩
  have hup : ∀ {j}, t.height ≤ j → ∃ s', TCmd.code C j (.copy x y) s = .ok () s' := fun {j} h => by
    rcases tCopyVar_run (C := C) h3 h hf with ⟨v', s', ms, g1, _⟩ | ⟨e, s', _, hu, _⟩
    · simp only [TCmd.code, bind, Eff.bind, h1, h2, g1]
      exact ⟨_, rfl⟩
    · have := hu.throws; rw [hnt] at this; cases this
  refine ⟨⟨fun ⟨_, h⟩ => hdown _ h, hup⟩, fun ⟨e, h⟩ => ?_, fun h => ?_⟩
  · by_cases hn : t.height ≤ n
    · obtain ⟨s', h'⟩ := hup hn
      rw [h] at h'; cases h'
    · omega
  · obtain ⟨s', hok⟩ := hup (Nat.le_refl _)
    rcases Eff.Le.of_ok (n := n) (f := fun n => TCmd.code C n (.copy x y)) (fun h => tCode_le h _) hok with h' | h'
    · have := hdown _ h'; omega
    · exact h'

/-- **C58**: if nothing throws, move construction needs a stack exactly as deep as it recurses: not below nodes that take over the
list of the members as a whole (so depth 1, if all do). -/
theorem C58_move (hr : s.Represents σ own) (hf : s.Fresh) {x : Nat} {y : TPlace} {t : VTree V} (hy : σ.at y = some t)
    (hnt : C.NoThrow) :
    ((∃ s', TCmd.code C n (.move x y) s = .ok () s') ↔ t.moveHeight C ≤ n) ∧
    ((∃ e, TCmd.code C n (.move x y) s = .fault e) ↔ n < t.moveHeight C) := by
  obtain ⟨α, hM, hS, _⟩ := hr.mem hf
  obtain ⟨l, R, h⟩ := hS.at_iff.mp (by rw [hy]; nofun : σ.at y ≠ none)
  obtain ⟨u, hu, hR⟩ := hS.at h
  rw [hy] at hu; cases hu
  obtain ⟨h1, h2, h3⟩ := hM.at_run h
  rcases tMoveVar_run (C := C) hM h hR (Nat.le_refl _) with ⟨s1, U, R', hr1, _⟩ | ⟨e, s1, R', u', _, _, _, _, hth⟩
  rotate_left
  · have := hth.throws; rw [hnt] at this; cases this
  have hd := fun j => tMoveVar_depth (C := C) (n := j) hM h hR (Nat.le_refl _) hr1
  have hfull : ∃ s', TCmd.code C t.height (.move x y) s = .ok () s' := by
    simp only [TCmd.code, bind, Eff.bind, h1, hr1]
    exact ⟨_, rfl⟩
  obtain ⟨sf, hfull⟩ := hfull
  have hiff : ∀ j, (∃ s', TCmd.code C j (.move x y) s = .ok () s') ↔ t.moveHeight C ≤ j := fun j => by
    rw [← hd j]
    refine ⟨fun ⟨s', h⟩ => ?_, fun h => ?_⟩
    · rw [TCmd.code] at h
      obtain ⟨l', s2, g1, g2⟩ := Eff.bind_ok h
      rw [h1] at g1; cases g1
      obtain ⟨v', s2, g3, g4⟩ := Eff.bind_ok g2
      rcases Eff.Le.of_ok (n := j) (fun h => tMoveVar_le (C := C) h l) hr1 with h' | ⟨e, h'⟩
      · exact h'
      · rw [h'] at g3; cases g3
    · simp only [TCmd.code, bind, Eff.bind, h1, h]
      exact ⟨_, rfl⟩
  refine ⟨hiff n, fun ⟨e, h⟩ => ?_, fun h => ?_⟩
  · by_cases hn : t.moveHeight C ≤ n
    · obtain ⟨s', h'⟩ := (hiff n).mpr hn
      rw [h] at h'; cases h'
    · omega
  · rcases Eff.Le.of_ok (n := n) (f := fun n => TCmd.code C n (.move x y)) (fun h => tCode_le h _) hfull with h' | h'
    · have := (hiff n).mp ⟨_, h'⟩; omega
    · exact h'

/-- **C58**: hashing and streaming need a stack exactly as deep as the tree is high. -/
theorem C58_hash_and_print {H S : Type} {h : TyIx → V → H} {hn : TyIx → V → List H → H} {combine : H → TyIx → H} {P : Printer V S}
    (hr : s.Represents σ own) (hf : s.Fresh) {x : TPlace} {t : VTree V} (hx : σ.at x = some t) (o : S) :
    (((∃ a s', tHash h hn combine n x s = .ok a s') ↔ t.height ≤ n) ∧ ((∃ e, tHash h hn combine n x s = .fault e) ↔ n < t.height)) ∧
    (((∃ a s', tPrint P n x o s = .ok a s') ↔ t.height ≤ n) ∧ ((∃ e, tPrint P n x o s = .fault e) ↔ n < t.height)) := by
  obtain ⟨l, v, ns, h1, h2, h3⟩ := hr.read hf hx
  have e1 : ∀ j, tHash h hn combine j x s = tHashVar h hn combine j v s := fun j => by simp only [tHash, bind, Eff.bind, h1, h2]
  have e2 : ∀ j, tPrint P j x o s = tPrintVar P j v o s := fun j => by simp only [tPrint, bind, Eff.bind, h1, h2]
  refine ⟨⟨⟨fun ⟨a, s', g⟩ => ?_, fun g => ?_⟩, fun ⟨e, g⟩ => ?_, fun g => ?_⟩, ⟨⟨fun ⟨a, s', g⟩ => ?_, fun g => ?_⟩, fun ⟨e, g⟩ => ?_, fun g => ?_⟩⟩
  · rw [e1] at g; exact tHashVar_ok h3 g
  · exact ⟨_, _, by rw [e1]; exact tHashVar_run h3 g⟩
  · by_cases hh : t.height ≤ n
    · rw [e1, tHashVar_run h3 hh] at g; cases g
    · omega
  · rcases Eff.Le.of_ok (n := n) (fun h' => tHashVar_le (hl := h) (hn := hn) (combine := combine) h' v)
      (tHashVar_run (h := h) (hn := hn) (combine := combine) h3 (Nat.le_refl _)) with h' | h'
    · have := tHashVar_ok h3 h'; omega
    · rw [e1]; exact h'
  · rw [e2] at g; exact tPrintVar_ok h3 g
  · exact ⟨_, _, by rw [e2]; exact tPrintVar_run h3 g⟩
  · by_cases hh : t.height ≤ n
    · rw [e2, tPrintVar_run h3 hh] at g; cases g
    · omega
  · rcases Eff.Le.of_ok (n := n) (fun h' => tPrintVar_le (P := P) h' v o) (tPrintVar_run (P := P) (out := o) h3 (Nat.le_refl _)) with h' | h'
    · have := tPrintVar_ok h3 h'; omega
    · rw [e2]; exact h'

/-- **C58**: so does the comparison of equal trees. (Of different ones it may stop above: C55 says that the height of the lower is
always enough.) -/
theorem C58_equal {eq : TyIx → V → V → Bool} (hr : s.Represents σ own) (hf : s.Fresh) (hB : σ.Bound w m) {x y : TPlace} {t u : VTree V}
    (hx : σ.at x = some t) (hy : σ.at y = some u) (hs : t.Same eq u) :
    (tEq eq n x y s = .ok true s ↔ t.height ≤ n) ∧ ((∃ e, tEq eq n x y s = .fault e) ↔ n < t.height) := by
  obtain ⟨l, v, ns, h1, h2, h3⟩ := hr.read hf hx
  obtain ⟨l', v', ns', h4, h5, h6⟩ := hr.read hf hy
  have e1 : ∀ j, tEq eq j x y s = tEqVar eq j v v' s := fun j => by simp only [tEq, bind, Eff.bind, h1, h2, h4, h5]
  have hup : ∀ {j}, t.height ≤ j → tEqVar eq j v v' s = .ok true s := fun {j} hj => by
    obtain ⟨b, h7, h8⟩ := tEqVar_run (eq := eq) (n := j) h3 h6 (hB.at hx).2 (hB.at hy).2 (by omega)
    rw [h7, h8.mpr hs]
  refine ⟨⟨fun g => ?_, fun g => ?_⟩, fun ⟨e, g⟩ => ?_, fun g => ?_⟩
  · rw [e1] at g; exact tEqVar_ok h3 h6 (hB.at hx).2 (hB.at hy).2 hs g
  · rw [e1]; exact hup g
  · by_cases hh : t.height ≤ n
    · rw [e1, hup hh] at g; cases g
    · omega
  · rcases Eff.Le.of_ok (n := n) (fun h' => tEqVar_le (eq := eq) h' v v') (hup (Nat.le_refl _)) with h' | h'
    · have := tEqVar_ok h3 h6 (hB.at hx).2 (hB.at hy).2 hs h'; omega
    · rw [e1]; exact h'

/-- **C58**: within a type, `swap` needs no stack for the trees (the nodes exchange the lists of their members): what it does does not
depend on the stack, and it never overflows. -/
theorem C58_swap_within_a_type (hl : C.ops.Lawful) (hr : s.Represents σ own) (hf : s.Fresh) (hB : σ.Bound C.wrapped m) {x y : TPlace}
    {z : Nat} {t u : VTree V} (hv : (TCmd.swap x y z : TCmd V).valid C s = true) (hh : (TCmd.swap x y z : TCmd V).hazard C s = false)
    (hx : σ.at x = some t) (hy : σ.at y = some u) (hk : t.which = u.which) :
    TCmd.code C n (.swap x y z) s = TCmd.code C m (.swap x y z) s ∧ ¬ ∃ e, TCmd.code C n (.swap x y z) s = .fault e := by
  obtain ⟨l, v, ns, h1, h2, h3⟩ := hr.read hf hx
  obtain ⟨l', v', ns', h4, h5, h6⟩ := hr.read hf hy
  have he : TCmd.code C n (.swap x y z) s = TCmd.code C m (.swap x y z) s := by
    simp only [TCmd.code, bind, Eff.bind, h1, h4, tSwap, h2, h5, h3.which, h6.which, hk, if_true]
  refine ⟨he, fun ⟨e, h⟩ => ?_⟩
  rw [he] at h
  rcases C37_statement hl hr hf hB hv hh with ⟨s', _, _, g, _⟩ | ⟨e, s', _, _, g, _⟩ <;> rw [g] at h <;> cases h

/-- **C58**: nor does move assignment of a node to a node of the same type (the wrappers exchange their pointers), if both are in place. -/
theorem C58_move_assign_within_a_type (hl : C.ops.Lawful) (hr : s.Represents σ own) (hf : s.Fresh) (hB : σ.Bound C.wrapped m)
    {x y : TPlace} {k : TyIx} {c d : TContent V} (hh : (TCmd.moveAssign x y : TCmd V).hazard C s = false)
    (hx : x.variant s = some (.plain k c)) (hy : y.variant s = some (.plain k d)) :
    TCmd.code C n (.moveAssign x y) s = TCmd.code C m (.moveAssign x y) s ∧ ¬ ∃ e, TCmd.code C n (.moveAssign x y) s = .fault e := by
  have hread : ∀ {t : TPlace} {v : TVar V}, t.variant s = some v → ∃ l s1, t.eval s = .ok l s1 ∧ ∃ s2, l.read s1 = .ok v s2 := fun {t v} h => by
    unfold TPlace.variant at h
    split at h
    · rename_i l s1 h1
      split at h
      · rename_i v' s2 h2
        cases h; exact ⟨l, s1, h1, s2, h2⟩
      · cases h
    · cases h
  have hval : ∀ {t : TPlace} {v : TVar V}, t.variant s = some v → t.valid s = true := fun {t v} h => by
    obtain ⟨l, s1, h1, s2, h2⟩ := hread h
    simp only [TPlace.valid, h1, h2]
  have hv : (TCmd.moveAssign x y : TCmd V).valid C s = true := by simp only [TCmd.valid, hval hx, hval hy, Bool.and_self]
  obtain ⟨α, hM, hS, _⟩ := hr.mem hf
  have hst : ∀ {t : TPlace} {v : TVar V}, t.variant s = some v → ∃ l, t.eval s = .ok l s ∧ l.read s = .ok v s := fun {t v} h => by
    obtain ⟨l, s1, h1, s2, h2⟩ := hread h
    obtain ⟨l', R, hat⟩ := hM.valid_iff.mp (hval h)
    obtain ⟨g1, g2, _⟩ := hM.at_run hat
    rw [g1] at h1; cases h1
    rw [g2] at h2
    cases h2
    exact ⟨l, g1, g2⟩
  obtain ⟨l, h1, h2⟩ := hst hx
  obtain ⟨r, h3, h4⟩ := hst hy
  have he : TCmd.code C n (.moveAssign x y) s = TCmd.code C m (.moveAssign x y) s := by
    simp only [TCmd.code, bind, Eff.bind, h1, h3, tVariantMoveAssign, h2, h4, if_true]
  refine ⟨he, fun ⟨e, h⟩ => ?_⟩
  rw [he] at h
  rcases C37_statement hl hr hf hB hv hh with ⟨s', _, _, g, _⟩ | ⟨e, s', _, _, g, _⟩ <;> rw [g] at h <;> cases h

/-! ### No stack is deep enough -/

theorem tRun_append : ∀ (cs ds : List (TCmd V)) (s : TreeSt V), tRun C n (cs ++ ds) s = (tRun C n cs s).bind (tRun C n ds)
  | [], _, _ => rfl
  | c :: cs, ds, s => by
    simp only [List.cons_append, tRun]
    split
    · cases c.code C n s <;> simp only [tRun_append cs ds, Option.bind]
    · exact tRun_append cs ds s

theorem tClean_append : ∀ (cs ds : List (TCmd V)) {s s' : TreeSt V}, tRun C n cs s = some s' → tClean C n cs s = true →
    tClean C n ds s' = true → tClean C n (cs ++ ds) s = true
  | [], _, _, _, hr, _, hd => by cases hr; exact hd
  | c :: cs, ds, s, s', hr, hc, hd => by
    simp only [List.cons_append]
    unfold tClean at hc ⊢
    unfold tRun at hr
    split
    · rename_i hv
      rw [if_pos hv] at hc hr
      simp only [Bool.and_eq_true] at hc ⊢
      refine ⟨hc.1, ?_⟩
      cases h : c.code C n s with
      | ok a s1 => rw [h] at hc hr; exact tClean_append cs ds hr hc.2 hd
      | exc e s1 => rw [h] at hc hr; exact tClean_append cs ds hr hc.2 hd
      | fault x => rfl
    · rename_i hv
      rw [if_neg hv] at hc hr
      exact tClean_append cs ds hr hc hd

theorem chain_height (k₀ k : TyIx) (v a : V) : ∀ j, (chain k₀ k v a j).height = j + 1
  | 0 => rfl
  | j + 1 => by rw [chain, VTree.height, VForest.height, VForest.height, chain_height k₀ k v a j]; omega

theorem chain_typed {k₀ k : TyIx} (hk₀ : C.wrapped k₀ = false) (hk : C.wrapped k = true) (v a : V) :
    ∀ j, (chain k₀ k v a j).Typed C.wrapped
  | 0 => hk₀
  | j + 1 => by rw [chain, VTree.Typed, VForest.Typed, VForest.Typed]; exact ⟨hk, chain_typed hk₀ hk v a j, trivial⟩

/-- The store of the program. -/
def chainStore (k₀ k : TyIx) (v a : V) (j : Nat) : TStore V := fun i => if i ≤ j then some (chain k₀ k v a i) else none

/-- What the program makes, on a stack as deep as there are nodes. -/
theorem chainProgram_run (hl : C.ops.Lawful) (hnt : C.NoThrow) {k₀ k : TyIx} (hk₀ : C.wrapped k₀ = false) (hk : C.wrapped k = true) (v a : V) :
    ∀ j, j ≤ n → ∃ s own, tRun C n (chainProgram k₀ k v a j) (TreeSt.init V) = some s ∧
      tClean C n (chainProgram k₀ k v a j) (TreeSt.init V) = true ∧ s.Fresh ∧ s.Represents (chainStore k₀ k v a j) own
  | 0, _ => by
    have hv : (TCmd.leaf 0 k₀ v).valid C (TreeSt.init V) = true := by simp [TCmd.valid, TreeSt.init, hk₀]
    rcases C37_statement (n := n) hl (TreeSt.Represents.init (V := V)) TreeSt.Fresh.init nofun hv rfl with
      ⟨s, σ, own, h1, h2, h3, h4⟩ | ⟨e, s, σ, own, _, _, _, _, ht⟩
    · have hσ : σ = chainStore k₀ k v a 0 := by
        cases h2
        funext i
        simp only [upd, chainStore, Nat.le_zero]
        split
        · rename_i h; rw [h]; rfl
        · rfl
      rw [hσ] at h3
      refine ⟨s, own, by simp only [chainProgram, tRun, hv, h1, if_true], ?_, h4, h3⟩
      simp only [chainProgram, tClean, hv, h1, if_true]; rfl
    · rw [hnt] at ht; cases ht
  | j + 1, hj => by
    obtain ⟨s, own, h1, h2, h3, h4⟩ := chainProgram_run hl hnt hk₀ hk v a j (by omega)
    have hB : (chainStore k₀ k v a j).Bound C.wrapped n := fun i u hi => by
      simp only [chainStore] at hi
      split at hi
      · cases hi
        exact ⟨by rw [chain_height]; omega, chain_typed hk₀ hk v a i⟩
      · cases hi
    have hat : (chainStore k₀ k v a j).at ⟨j, []⟩ = some (chain k₀ k v a j) := by
      simp only [TStore.at, chainStore, if_pos (Nat.le_refl j)]
      cases chain k₀ k v a j <;> rfl
    obtain ⟨α, hM, hS, _⟩ := h4.mem h3
    have hv : (TCmd.node (j + 1) k a [⟨j, []⟩]).valid C s = true := by
      refine (tValid_iff hM hS).mpr ⟨by simp [chainStore], hk, fun t ht => ?_⟩
      cases List.mem_singleton.mp ht
      rw [hat]; nofun
    rcases C37_statement (n := n) hl h4 h3 hB hv rfl with ⟨s', σ, own', g1, g2, g3, g4⟩ | ⟨e, s', σ, own', _, _, _, _, ht⟩
    · have hσ : σ = chainStore k₀ k v a (j + 1) := by
        cases g2 with
        | node hall =>
          simp only [TStore.all, hat] at hall
          cases hall
          funext i
          simp only [upd, chainStore]
          by_cases hi : i = j + 1
          · rw [if_pos hi, hi, if_pos (Nat.le_refl _), chain]
          · rw [if_neg hi]
            by_cases hi' : i ≤ j
            · rw [if_pos hi', if_pos (by omega)]
            · rw [if_neg hi', if_neg (by omega)]
      rw [hσ] at g3
      refine ⟨s', own', ?_, ?_, g4, g3⟩
      · rw [chainProgram, tRun_append, h1]
        simp only [Option.bind, tRun, hv, g1, if_true]
      · refine tClean_append _ _ h1 h2 ?_
        simp only [tClean, hv, g1, if_true]; rfl
    · rw [hnt] at ht; cases ht

/-- **C58** (finding F23): no stack is deep enough for all programs. For every depth `n` there is a program of `n + 2` statements, all
of them supported, in which nothing throws, whose last statement, the destructor of a variant that the program has made on that
same stack, overflows it. On a stack that is one deeper the program runs to its end. -/
theorem C58_no_stack_is_deep_enough (hl : C.ops.Lawful) (hnt : C.NoThrow) {k₀ k : TyIx} (hk₀ : C.wrapped k₀ = false) (hk : C.wrapped k = true)
    (v a : V) (n : Nat) : ∃ cs : List (TCmd V), cs.length = n + 2 ∧ tClean C n cs (TreeSt.init V) = true ∧
      (∃ s, tRun C n (cs.take (n + 1)) (TreeSt.init V) = some s ∧ ∃ e, TCmd.code C n (.destroy n) s = .fault e) ∧
      cs[n + 1]? = some (.destroy n) ∧
      tRun C n cs (TreeSt.init V) = none ∧ ∀ m, n < m → (tRun C m cs (TreeSt.init V)).isSome = true := by
  have hlen : ∀ j, (chainProgram k₀ k v a j).length = j + 1 := fun j => by
    induction j with
    | zero => rfl
    | succ j ih => rw [chainProgram, List.length_append, ih]; rfl
  obtain ⟨s, own, h1, h2, h3, h4⟩ := chainProgram_run (n := n) hl hnt hk₀ hk v a n (Nat.le_refl _)
  have hx : chainStore k₀ k v a n n = some (chain k₀ k v a n) := by simp [chainStore]
  obtain ⟨α, hM, hS, _⟩ := h4.mem h3
  have hv : (TCmd.destroy n).valid C s = true := (tValid_iff hM hS).mpr (by show chainStore k₀ k v a n n ≠ none; rw [hx]; nofun)
  obtain ⟨e, hfault⟩ := ((C58_destroy (C := C) (n := n) h4 hx).2).mpr (by rw [chain_height]; omega)
  refine ⟨chainProgram k₀ k v a n ++ [.destroy n], by rw [List.length_append, hlen]; rfl, ?_, ⟨s, ?_, e, hfault⟩, ?_, ?_, fun m hm => ?_⟩
  · refine tClean_append _ _ h1 h2 ?_
    simp only [tClean, hv, hfault, if_true]; rfl
  · rw [List.take_append_of_le_length (by rw [hlen]; exact Nat.le_refl _), List.take_of_length_le (by rw [hlen]; exact Nat.le_refl _)]
    exact h1
  · rw [List.getElem?_append_right (by rw [hlen]; exact Nat.le_refl _), hlen]; simp
  · rw [tRun_append, h1]
    simp only [Option.bind, tRun, hv, hfault, if_true]
  · rw [tRun_append, tRun_le (Nat.le_of_lt hm) _ h1]
    obtain ⟨s', hok⟩ := ((C58_destroy (C := C) (n := m) h4 hx).1).mpr (by rw [chain_height]; omega)
    simp only [Option.bind, tRun, hv, hok, if_true, Option.isSome]

/-! ### Examples -/

/-- The tree of variable 3 of `exTreeProg` has height 3 and `moveHeight` 3, or 1 if nodes take over the lists of their members. -/
example : exTree3.height = 3 ∧ exTree3.moveHeight (exTree none [] false) = 3 ∧ exTree3.moveHeight (exTree none [] true) = 1 := by
  decide +kernel

/-- How a statement ends. -/
def Res.ending {S α : Type} : Res S α → String
  | .ok _ _ => "ok"
  | .exc _ _ => "exception"
  | .fault _ => "fault"

/-- The state after the first four statements of `exTreeProg`. -/
def exDepth (st : Bool) (n : Nat) (c : TCmd Nat) : String :=
  (c.code (exTree none [] st) n (tAfter none [] (exTreeProg.take 4) st)).ending

/-- Runs of the statements of C58 on that tree: destructor, copy, move with members moved one by one, move with members taken over,
`swap` with the node 2 and move assignment to it. -/
example : (List.range 5).map (fun n => exDepth false n (.destroy 3)) = ["fault", "fault", "fault", "ok", "ok"] ∧
    (List.range 5).map (fun n => exDepth false n (.copy 4 ⟨3, []⟩)) = ["fault", "fault", "fault", "ok", "ok"] ∧
    (List.range 5).map (fun n => exDepth false n (.move 4 ⟨3, []⟩)) = ["fault", "fault", "fault", "ok", "ok"] ∧
    (List.range 5).map (fun n => exDepth true n (.move 4 ⟨3, []⟩)) = ["fault", "ok", "ok", "ok", "ok"] ∧
    (List.range 5).map (fun n => exDepth false n (.swap ⟨2, []⟩ ⟨3, []⟩ 9)) = ["ok", "ok", "ok", "ok", "ok"] ∧
    (List.range 5).map (fun n => exDepth false n (.moveAssign ⟨2, []⟩ ⟨3, []⟩)) = ["ok", "ok", "ok", "ok", "ok"] ∧
    (List.range 5).map (fun n => exDepth false n (.assign ⟨2, []⟩ ⟨3, []⟩)) = ["fault", "fault", "ok", "ok", "ok"] := by
  decide +kernel

/-- The state meets the hypotheses. -/
example (n : Nat) : (∃ s', TCmd.code (exTree none []) n (.destroy 3) (tAfter none [] (exTreeProg.take 4)) = .ok () s') ↔ 3 ≤ n := by
  obtain ⟨σ, own, h1, _, _, h4⟩ := exTree_bound (st := false)
  exact (C58_destroy (C := exTree none []) h1 h4).1

example (n : Nat) : (∃ s', TCmd.code (exTree none [] true) n (.move 4 ⟨3, []⟩) (tAfter none [] (exTreeProg.take 4) true) = .ok () s') ↔ 1 ≤ n := by
  obtain ⟨σ, own, h1, h2, _, h4⟩ := exTree_bound (st := true)
  have hat : σ.at ⟨3, []⟩ = some exTree3 := by simp only [TStore.at, h4]; rfl
  exact (C58_move (C := exTree none [] true) h1 h2 hat fun _ => rfl).1

/-- A program for each depth, with the configuration of the examples. -/
example (n : Nat) : ∃ cs : List (TCmd Nat), cs.length = n + 2 ∧ tRun (exTree none []) n cs (TreeSt.init Nat) = none := by
  obtain ⟨cs, h1, _, _, _, h2, _⟩ := C58_no_stack_is_deep_enough (C := exTree none []) natOps_lawful (fun _ => rfl) (k₀ := 0) (k := 1) rfl rfl 5 7 n
  exact ⟨cs, h1, h2⟩

end

example (m : Nat) (h : 3 ≤ m) : TCmd.code (exTree none []) m (.copy 4 ⟨3, []⟩) (tAfter none [] (exTreeProg.take 4)) =
    TCmd.code (exTree none []) 3 (.copy 4 ⟨3, []⟩) (tAfter none [] (exTreeProg.take 4)) := by
  rcases C58_more_stack (C := exTree none []) h (.copy 4 ⟨3, []⟩) (tAfter none [] (exTreeProg.take 4)) with ⟨e, h⟩ | h
  · have : exDepth false 3 (.copy 4 ⟨3, []⟩) = "ok" := by decide +kernel
    rw [exDepth, h] at this
    exact absurd this (by simp [Res.ending])
  · exact h
example (m : Nat) (h : 4096 ≤ m) : tRun (exTree none []) m exTreeProg (TreeSt.init Nat) = some (tAfter none [] exTreeProg) :=
  C58_more_stack_programs h (tAfter_run (st := false) (by decide +kernel))
example (m : Nat) (h : 3 ≤ m) : tEq (fun _ a b => a == b) m ⟨3, []⟩ ⟨3, []⟩ (tAfter none [] (exTreeProg.take 4)) =
    tEq (fun _ a b => a == b) 3 ⟨3, []⟩ ⟨3, []⟩ (tAfter none [] (exTreeProg.take 4)) := by
  rcases (C58_more_stack_comparisons (eq := fun _ a b => a == b) (lt := fun _ a b => decide (a < b)) h ⟨3, []⟩ ⟨3, []⟩
    (tAfter none [] (exTreeProg.take 4))).1 with ⟨e, h⟩ | h
  · have : (tEq (fun _ a b => a == b) 3 ⟨3, []⟩ ⟨3, []⟩ (tAfter none [] (exTreeProg.take 4))).ending = "ok" := by decide +kernel
    rw [h] at this
    exact absurd this (by simp [Res.ending])
  · exact h
example (m : Nat) (h : 3 ≤ m) : tHash (fun _ v => v) (fun _ v hs => v + hs.sum) (fun a k => 31 * a + k) m ⟨3, []⟩
      (tAfter none [] (exTreeProg.take 4)) =
    tHash (fun _ v => v) (fun _ v hs => v + hs.sum) (fun a k => 31 * a + k) 3 ⟨3, []⟩ (tAfter none [] (exTreeProg.take 4)) := by
  rcases (C58_more_stack_observers (hh := fun _ v => v) (hn := fun _ v hs => v + hs.sum) (combine := fun a k => 31 * a + k)
    (P := exPrinter) h ⟨3, []⟩ [] (tAfter none [] (exTreeProg.take 4))).1 with ⟨e, h⟩ | h
  · have : (tHash (fun _ v => v) (fun _ v hs => v + hs.sum) (fun a k => 31 * a + k) 3 ⟨3, []⟩
      (tAfter none [] (exTreeProg.take 4))).ending = "ok" := by decide +kernel
    rw [h] at this
    exact absurd this (by simp [Res.ending])
  · exact h
example (n : Nat) : (∃ s', TCmd.code (exTree none []) n (.copy 4 ⟨3, []⟩) (tAfter none [] (exTreeProg.take 4)) = .ok () s') ↔ 3 ≤ n := by
  obtain ⟨σ, own, h1, h2, _, h4⟩ := exTree_bound (st := false)
  have hat : σ.at ⟨3, []⟩ = some exTree3 := by simp only [TStore.at, h4]; rfl
  exact ((C58_copy (C := exTree none []) h1 h2 hat).2 fun _ => rfl).1
example (n : Nat) : (∃ a s', tHash (fun _ v => v) (fun _ v hs => v + hs.sum) (fun a k => 31 * a + k) n ⟨3, []⟩
    (tAfter none [] (exTreeProg.take 4)) = .ok a s') ↔ 3 ≤ n := by
  obtain ⟨σ, own, h1, h2, _, h4⟩ := exTree_bound (st := false)
  have hat : σ.at ⟨3, []⟩ = some exTree3 := by simp only [TStore.at, h4]; rfl
  exact (C58_hash_and_print (P := exPrinter) h1 h2 hat []).1.1
example (n : Nat) : tEq (fun _ a b => a == b) n ⟨3, []⟩ ⟨3, []⟩ (tAfter none [] (exTreeProg.take 4)) =
    .ok true (tAfter none [] (exTreeProg.take 4)) ↔ 3 ≤ n := by
  obtain ⟨σ, own, h1, h2, h3, h4⟩ := exTree_bound (st := false)
  have hat : σ.at ⟨3, []⟩ = some exTree3 := by simp only [TStore.at, h4]; rfl
  exact (C58_equal h1 h2 h3 hat hat (VTree.Same.refl (by simp) _)).1
example (n : Nat) : TCmd.code (exTree none []) n (.swap ⟨2, []⟩ ⟨3, []⟩ 9) (tAfter none [] (exTreeProg.take 4)) =
    TCmd.code (exTree none []) 16 (.swap ⟨2, []⟩ ⟨3, []⟩ 9) (tAfter none [] (exTreeProg.take 4)) := by
  obtain ⟨σ, own, h1, h2, h3, h4⟩ := exTree_bound (st := false)
  have hat : σ.at ⟨3, []⟩ = some exTree3 := by simp only [TStore.at, h4]; rfl
  have h6 : σ 2 = some (.node 1 7 (.cons (.leaf 0 5) (.cons (.leaf 2 6) .nil))) := by
    refine h1.value (x := 2) (ns := [0]) ⟨.plain 1 (.wrap 0), by decide +kernel, ?_⟩
    rw [VTree.Rep]
    exact ⟨0, [.plain 0 (.leaf 5), .plain 2 (.leaf 6)], [], by decide +kernel, by simp [VForest.Rep, VTree.Rep], .inl ⟨rfl, rfl⟩⟩
  exact (C58_swap_within_a_type natOps_lawful h1 h2 h3 (by decide +kernel) (by decide +kernel)
    (show σ.at ⟨2, []⟩ = some (.node 1 7 (.cons (.leaf 0 5) (.cons (.leaf 2 6) .nil))) by simp only [TStore.at, h6]; rfl) hat rfl).1
example (n : Nat) : ¬ ∃ e, TCmd.code (exTree none []) n (.moveAssign ⟨2, []⟩ ⟨3, []⟩) (tAfter none [] (exTreeProg.take 4)) = .fault e := by
  obtain ⟨σ, own, h1, h2, h3, _⟩ := exTree_bound (st := false)
  exact (C58_move_assign_within_a_type (k := 1) (c := .wrap 0) (d := .wrap 2) natOps_lawful h1 h2 h3 (by decide +kernel)
    (by decide +kernel) (by decide +kernel)).2

end BVariant
