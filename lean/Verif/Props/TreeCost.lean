/-
C66: how many allocations assignments of recursive variants make.
-/
import Verif.Props.TreeDepth
import Verif.Props.TreeSwap

namespace BVariant

section
variable {V : Type} {C : TreeCfg V} {s s' : TreeSt V} {σ : TStore V} {own : Nat → List ObjId} {n : Nat} {x t : TPlace}

open ATree AStore

/-- Specification: to assign an object of type `k`, the content of the variant `lv` has to be copied to the heap first. No operation on
`k` helps, there is no fallback type, the content is in place, and it cannot be moved without exceptions. -/
def TreeCfg.CopiesLeft (C : TreeCfg V) (lv : TVar V) (k : TyIx) : Prop :=
  C.nothrowCopy k = false ∧ C.nothrowMove k = false ∧ C.fallback = none ∧ ∃ k0 c0, lv = .plain k0 c0 ∧ C.nothrowMove k0 = false

open Classical in
/-- Specification: the allocations for the backup of the left content, whose value is `u0`: one for the copy of each node, and one
for the backup. -/
noncomputable def TreeCfg.leftCost (C : TreeCfg V) (lv : TVar V) (k : TyIx) (u0 : VTree V) : Nat :=
  if C.CopiesLeft lv k then u0.nodes + 1 else 0

theorem backupCost_eq {L : ATree V} {u0 : VTree V} {k : TyIx} (hc : C.nothrowCopy k = false) (hm : C.nothrowMove k = false)
    (hfb : C.fallback = none) : C.backupCost L u0 = C.leftCost L.var k u0 := by
  unfold TreeCfg.backupCost TreeCfg.leftCost
  cases hb : L.box with
  | some q =>
    rw [if_pos (.inl nofun), if_neg]
    rintro ⟨_, _, _, k0, c0, hv, _⟩
    unfold ATree.var at hv; rw [hb] at hv; cases hv
  | none =>
    have hv := var_none hb
    cases hn : C.nothrowMove L.which with
    | true =>
      rw [if_pos (.inr rfl), if_neg]
      rintro ⟨_, _, _, k0, c0, hv', h⟩
      rw [hv] at hv'; cases hv'; rw [hn] at h; cases h
    | false =>
      rw [if_neg (by simp), if_pos ⟨hc, hm, hfb, _, _, hv, hn⟩]

/-- Between types the operands are not the same variant. -/
theorem assign_apart {α : AStore V} {l r : TLoc} {L R : ATree V} (hx : At α x l L) (ht : At α t r R) (hb : R.box = none)
    (hne : ∀ c, L.var ≠ .plain R.which c) (h1 : t.inside x = false) (h2 : x.inside t = false) : x.Apart t := by
  rcases TPlace.cases x t with rfl | h | h | h
  · obtain ⟨rfl, rfl⟩ := hx.unique ht
    exact absurd (var_none hb) (hne _)
  · exact h
  · rw [h] at h1; cases h1
  · rw [h] at h2; cases h2

/-- **C66**: `x = t` for two recursive variants anywhere in the trees of the program, neither a part of the other. Their types differ
(or `x` is in a heap backup), and `t` is not in a backup. If the assignment succeeds it has made one allocation for each node of the
right side, and, iff `CopiesLeft` holds, also one for each node of the *left* side and one for the backup: the tree that is being
replaced is copied as a whole before it is destroyed. -/
theorem C66_assign (hl : C.ops.Lawful) (hr : s.Represents σ own) (hf : s.Fresh) (hB : σ.Bound C.wrapped n) {lv : TVar V} {k : TyIx}
    {c : TContent V} (hlv : x.variant s = some lv) (hrv : t.variant s = some (.plain k c)) (hne : ∀ c', lv ≠ .plain k c')
    (h1 : t.inside x = false) (h2 : x.inside t = false) (hok : TCmd.code C n (.assign x t) s = .ok () s') :
    ∃ u0 u, σ.at x = some u0 ∧ σ.at t = some u ∧ s'.allocs = s.allocs + C.leftCost lv k u0 + u.nodes := by
  obtain ⟨α, hM, hS, _⟩ := hr.mem hf
  obtain ⟨l, L, u0, hx, rfl, h0, h0t⟩ := hM.side hS hB hlv
  obtain ⟨r, R, u, ht, hRv, h3, h3t⟩ := hM.side hS hB hrv
  have hb : R.box = none := by
    cases hb : R.box with
    | none => rfl
    | some q => unfold ATree.var at hRv; rw [hb] at hRv; cases hRv
  rw [var_none hb] at hRv
  cases hRv
  refine ⟨u0, u, hx.val, ht.val, ?_⟩
  have ha := assign_apart hx.at_ ht.at_ hb hne h1 h2
  rw [(assign_code hM hx.at_ ht.at_ hb hne).1] at hok
  have hw := ht.is.which
  rcases tAssigner_run (C := C) (n := n) hl hM hx.at_ ht.at_ hx.is ht.is hb h0t h3t h0 h3 (.inl ha) with
    ⟨s1, U, g1, _, _, g2⟩ | ⟨e, s1, W, w, g1, _⟩
  · rw [hok] at g1; cases g1
    rw [g2, TreeCfg.assignCost]
    split
    · rename_i hcond
      have : C.leftCost L.var R.which u0 = 0 := by
        refine if_neg ?_
        rintro ⟨q1, q2, q3, _⟩
        rw [← hw] at hcond
        rcases hcond with h | h | h
        · rw [q1] at h; cases h
        · rw [q2] at h; cases h
        · exact h q3
      omega
    · rename_i hcond
      rw [backupCost_eq (k := R.which)]
      · omega
      · rw [hw]; exact Bool.eq_false_iff.mpr fun h => hcond (.inl h)
      · rw [hw]; exact Bool.eq_false_iff.mpr fun h => hcond (.inr (.inl h))
      · exact Classical.byContradiction fun h => hcond (.inr (.inr h))
  · rw [hok] at g1; cases g1

/-- **C66**: the same for `x = std::move(t)`. If the content is moved, there is one allocation for each node that moving constructs;
otherwise the cost is that of copy assignment. -/
theorem C66_move_assign (hl : C.ops.Lawful) (hr : s.Represents σ own) (hf : s.Fresh) (hB : σ.Bound C.wrapped n) {lv : TVar V} {k : TyIx}
    {c : TContent V} (hlv : x.variant s = some lv) (hrv : t.variant s = some (.plain k c)) (hne : ∀ c', lv ≠ .plain k c')
    (h1 : t.inside x = false) (h2 : x.inside t = false) (hok : TCmd.code C n (.moveAssign x t) s = .ok () s') :
    ∃ u0 u, σ.at x = some u0 ∧ σ.at t = some u ∧ (C.Moves k → s'.allocs = s.allocs + u.moveNodes C) ∧
      (¬ C.Moves k → s'.allocs = s.allocs + C.leftCost lv k u0 + u.nodes) := by
  obtain ⟨α, hM, hS, _⟩ := hr.mem hf
  obtain ⟨l, L, u0, hx, rfl, h0, h0t⟩ := hM.side hS hB hlv
  obtain ⟨r, R, u, ht, hRv, h3, h3t⟩ := hM.side hS hB hrv
  have hb : R.box = none := by
    cases hb : R.box with
    | none => rfl
    | some q => unfold ATree.var at hRv; rw [hb] at hRv; cases hRv
  rw [var_none hb] at hRv
  cases hRv
  refine ⟨u0, u, hx.val, ht.val, ?_⟩
  have ha := assign_apart hx.at_ ht.at_ hb hne h1 h2
  rw [(assign_code hM hx.at_ ht.at_ hb hne).2] at hok
  obtain ⟨hx, hxv, hL⟩ := hx
  obtain ⟨ht, htv, hR⟩ := ht
  have hw := hR.which
  have hRv : R.var.ref r = .inPlace r := by rw [var_none hb]; rfl
  -- the left content is destroyed, then the right one moved
  have hmove : ∀ {h : Eff (TreeSt V) Unit}, (do
        tDestroyAt n l
        let c ← Eff.onExc (tMoveRef C (tMoveVar C n) (tDestroyVar n) R.which (.inPlace r)) h
        l.write (.plain R.which c) : Eff (TreeSt V) Unit) s = .ok () s' → s'.allocs = s.allocs + u.moveNodes C := by
    intro h hok
    obtain ⟨s1, g1, hM1, _, a1, _⟩ := hM.destroyAt (n := n) hx hL h0
    have ht1 : At (α.put x (.dead L.which none)) t r R := ht.put_apart ha.symm
    have hrun := tMoveRef_run (C := C) (n := n) hM1 ht1 hR (by omega)
    rw [hRv] at hrun
    simp only [bind, Eff.bind, g1, Eff.onExc] at hok
    rcases hrun with ⟨s2, U, R', g2, hUb, hU, hR', hM2, _, a2⟩ | ⟨e, s2, R', u', g2, _⟩
    · rw [g2] at hok
      rw [VTree.moved_lawful hl] at hU
      rw [AStore.put_comm ha.symm] at hM2
      obtain ⟨s3, g3, hM3, _, a3⟩ := hM2.construct (hx.put_apart (U := R') ha) hUb
      have hk : R.which = U.which := by rw [hw, hU.which]
      simp only at hok
      rw [hk, g3] at hok
      cases hok
      omega
    · rw [g2] at hok
      simp only at hok
      cases hh : h s2 <;> rw [hh] at hok <;> cases hok
  have hnoexc : ∀ {m : Eff (TreeSt V) Unit}, Eff.noexcept m s = .ok () s' → m s = .ok () s' := by
    intro m h
    unfold Eff.noexcept at h
    cases hm : m s <;> rw [hm] at h
    · exact h
    · cases h
    · cases h
  unfold tMoveAssigner at hok
  by_cases hm : C.nothrowMove R.which = true
  · rw [if_pos hm] at hok
    refine ⟨fun _ => hmove (h := Eff.fail .ub) ?_, fun h => absurd (.inl hm) h⟩
    have := hnoexc hok
    simp only [bind, Eff.bind] at this ⊢
    cases hd : tDestroyAt n l s with
    | ok _ s1 =>
      rw [hd] at this
      simp only [Eff.onExc] at this ⊢
      cases hmv : tMoveRef C (tMoveVar C n) (tDestroyVar n) R.which (.inPlace r) s1 with
      | ok c s2 => rw [hmv] at this; exact this
      | exc e s2 => rw [hmv] at this; cases this
      | fault f => rw [hmv] at this; cases this
    | exc e s1 => rw [hd] at this; cases this
    | fault f => rw [hd] at this; cases this
  · rw [if_neg hm] at hok
    by_cases hc : C.nothrowCopy R.which = true
    · rw [if_pos hc] at hok
      refine ⟨fun h => h.elim (fun h => absurd h hm) fun h => absurd hc (by rw [h.1]; nofun), fun _ => ?_⟩
      obtain ⟨s1, U, g1, _, _, g2⟩ := tAssign_nothrowCopy hl hM hx ht hL hR hb h3t h0 ha hc
      rw [hok] at g1; cases g1
      have : C.leftCost L.var R.which u0 = 0 := if_neg fun h => absurd hc (by rw [h.1]; nofun)
      omega
    · rw [if_neg hc] at hok
      cases hfb : C.fallback with
      | some fb =>
        rw [hfb] at hok
        refine ⟨fun _ => hmove hok, fun h => absurd (.inr ⟨Bool.eq_false_iff.mpr hc, by rw [hfb]; nofun⟩) h⟩
      | none =>
        rw [hfb] at hok
        simp only at hok
        refine ⟨fun h => h.elim (fun h => absurd h hm) fun h => absurd hfb h.2, fun _ => ?_⟩
        rcases tBackupAssign_run (C := C) hl hM hx ht hL hR hb h0t h0 h3 (.inl ha) with ⟨s1, U, g1, _, _, g2⟩ | ⟨e, s1, W, w, g1, _⟩
        · rw [hok] at g1; cases g1
          rw [g2, backupCost_eq (k := R.which) (Bool.eq_false_iff.mpr hc) (Bool.eq_false_iff.mpr hm) hfb]
          omega
        · rw [hok] at g1; cases g1

/-! ### No bound -/

theorem chain_nodes (k₀ k : TyIx) (v a : V) : ∀ j, (chain k₀ k v a j).nodes = j
  | 0 => rfl
  | j + 1 => by rw [chain, VTree.nodes, VForest.nodes, VForest.nodes, chain_nodes k₀ k v a j]

/-- A copy is made, in place. -/
theorem copy_in_place (hl : C.ops.Lawful) (hnt : C.NoThrow) (hr : s.Represents σ own) (hf : s.Fresh) (hB : σ.Bound C.wrapped n) {y i : Nat}
    {u : VTree V} (hi : σ i = some u) (hy : σ y = none) :
    ∃ s' own' c, (TCmd.copy y ⟨i, []⟩).valid C s = true ∧ TCmd.code C n (.copy y ⟨i, []⟩) s = .ok () s' ∧
      s'.Represents (upd σ y (some u)) own' ∧ s'.Fresh ∧ s'.vars y = some (.plain u.which c) ∧ ∀ z, z ≠ y → s'.vars z = s.vars z := by
  obtain ⟨α, hM, hS, _⟩ := hr.mem hf
  have hat : σ.at ⟨i, []⟩ = some u := by
    simp only [TStore.at, hi]; cases u <;> rfl
  have hv : (TCmd.copy y ⟨i, []⟩).valid C s = true := (tValid_iff hM hS).mpr ⟨hy, by rw [hat]; nofun⟩
  obtain ⟨l, v, ns, h1, h2, h3⟩ := hr.read hf hat
  rcases C37_statement hl hr hf hB hv rfl with ⟨s', σ', own', g1, g2, g3, g4⟩ | ⟨e, s', σ', own', _, _, _, _, ht⟩
  · cases g2 with
    | copy hu =>
      rw [hat] at hu; cases hu
      rcases tCopyVar_run (C := C) h3 (hB i u hi).1 hf with ⟨v', s1, ms, k1, k2, hg, _⟩ | ⟨e, s1, _, hu, _⟩
      · have hcode : TCmd.code C n (.copy y ⟨i, []⟩) s = .ok () { s1 with vars := upd s1.vars y (some v') } := by
          simp only [TCmd.code, bind, Eff.bind, h1, h2, k1]; rfl
        rw [g1] at hcode; cases hcode
        have hpl : ∃ c, v' = .plain u.which c := by
          cases hn : n with
          | zero => rw [hn] at k1; cases k1
          | succ j =>
            rw [hn] at k1
            simp only [tCopyVar] at k1
            obtain ⟨c, s2, q1, q2⟩ := Eff.bind_ok k1
            obtain ⟨c', s3, q3, q4⟩ := Eff.bind_ok q2
            cases q4
            refine ⟨c', ?_⟩
            rw [VTree.copied_lawful hl] at k2
            cases u with
            | leaf k w =>
              rw [VTree.Rep] at k2
              rcases k2 with ⟨h, _⟩ | ⟨q, h, _⟩
              · cases h; rfl
              · cases h
            | node k a f =>
              rw [VTree.Rep] at k2
              obtain ⟨p, cs, ms, _, _, ⟨h, _⟩ | ⟨q, h, _⟩⟩ := k2
              · cases h; rfl
              · cases h
        obtain ⟨c, rfl⟩ := hpl
        refine ⟨_, own', c, hv, g1, g3, g4, by simp [upd], fun z hz => ?_⟩
        simp only [upd, hz, if_false, hg.vars]
      · have := hu.throws; rw [hnt] at this; cases this
  · rw [hnt] at ht; cases ht

/-- **C66** (finding F27): to assign a plain value can take any number of allocations. Without a fallback type, let the plain type `k₀`
have neither a nothrow copy nor a nothrow move constructor. For every `m` there is a program in which nothing throws and whose last
statement assigns a plain value to a variant with a tree of `m + 1` nodes. That statement makes `m + 2` allocations, all of them for a
copy of the tree that it then throws away. -/
theorem C66_no_bound (hl : C.ops.Lawful) (hnt : C.NoThrow) {k₀ k : TyIx} (hk₀ : C.wrapped k₀ = false) (hk : C.wrapped k = true)
    (hc : (C.tr k₀).nothrowCopy = false) (hm : (C.tr k₀).nothrowMove = false) (hfb : C.fallback = none) (v a : V) (m : Nat) :
    ∃ (cs : List (TCmd V)) (x y : Nat) (s s' : TreeSt V) (σ' : TStore V) (own' : Nat → List ObjId),
      tRun C (m + 2) cs (TreeSt.init V) = some s ∧ s.vars y = some (.plain k₀ (.leaf v)) ∧
      TCmd.code C (m + 2) (.assign ⟨x, []⟩ ⟨y, []⟩) s = .ok () s' ∧ s'.Represents σ' own' ∧ σ' x = some (.leaf k₀ v) ∧
      s'.allocs = s.allocs + (m + 2) := by
  obtain ⟨s, own, h1, h2, h3, h4⟩ := chainProgram_run (n := m + 2) hl hnt hk₀ hk v a (m + 1) (by omega)
  have hB : (chainStore k₀ k v a (m + 1)).Bound C.wrapped (m + 2) := fun i u hi => by
    simp only [chainStore] at hi
    split at hi
    · cases hi
      exact ⟨by rw [chain_height]; omega, chain_typed hk₀ hk v a i⟩
    · cases hi
  -- two copies, which are in place
  obtain ⟨s1, own1, c1, v1, g1, r1, f1, p1, _⟩ := copy_in_place (C := C) (y := m + 2) (i := m + 1) hl hnt h4 h3 hB
    (u := chain k₀ k v a (m + 1)) (by simp [chainStore]) (by simp [chainStore])
  have hB1 : TStore.Bound C.wrapped (m + 2) (upd (chainStore k₀ k v a (m + 1)) (m + 2) (some (chain k₀ k v a (m + 1)))) := fun i u hi => by
    simp only [upd] at hi
    split at hi
    · cases hi; exact ⟨by rw [chain_height]; omega, chain_typed hk₀ hk v a _⟩
    · exact hB i u hi
  obtain ⟨s2, own2, c2, v2, g2, r2, f2, p2, fr2⟩ := copy_in_place (C := C) (y := m + 3) (i := 0) hl hnt r1 f1 hB1
    (u := .leaf k₀ v) (by simp [chainStore, upd, chain]) (by simp [chainStore, upd])
  have hB2 : TStore.Bound C.wrapped (m + 2)
      (upd (upd (chainStore k₀ k v a (m + 1)) (m + 2) (some (chain k₀ k v a (m + 1)))) (m + 3) (some (.leaf k₀ v))) := fun i u hi => by
    rw [upd] at hi
    split at hi
    · cases hi; exact ⟨by rw [VTree.height]; omega, hk₀⟩
    · exact hB1 i u hi
  have hx2 : s2.vars (m + 2) = some (.plain k c1) := by rw [fr2 _ (by omega)]; exact p1
  have hkne : k ≠ k₀ := fun h => by rw [h, hk₀] at hk; cases hk
  have hvx : (⟨m + 2, []⟩ : TPlace).variant s2 = some (.plain k c1) := by
    simp only [TPlace.variant, TPlace.eval, tWalk, pure, Eff.pure, TLoc.read, tVar, hx2]
  have hvy : (⟨m + 3, []⟩ : TPlace).variant s2 = some (.plain k₀ c2) := by
    have p2 : s2.vars (m + 3) = some (.plain k₀ c2) := p2
    simp only [TPlace.variant, TPlace.eval, tWalk, pure, Eff.pure, TLoc.read, tVar, p2]
  have hin1 : (⟨m + 3, []⟩ : TPlace).inside ⟨m + 2, []⟩ = false := by simp [TPlace.inside]
  have hin2 : (⟨m + 2, []⟩ : TPlace).inside ⟨m + 3, []⟩ = false := by simp [TPlace.inside]
  have hv3 : (TCmd.assign (V := V) ⟨m + 2, []⟩ ⟨m + 3, []⟩).valid C s2 = true := by
    simp only [TCmd.valid, variant_valid hvx, variant_valid hvy, Bool.and_self]
  have hh3 : (TCmd.assign (V := V) ⟨m + 2, []⟩ ⟨m + 3, []⟩).hazard C s2 = false := by
    simp only [TCmd.hazard, hvx, hvy, hin1, hin2, Bool.false_and, Bool.or_self, Bool.and_false]
  rcases C37_statement hl r2 f2 hB2 hv3 hh3 with ⟨s3, σ3, own3, g3, o3, r3, f3⟩ | ⟨e, s3, σ3, own3, _, _, _, _, ht⟩
  · have hne : ∀ c', (TVar.plain k c1 : TVar V) ≠ .plain k₀ c' := fun c' h => by cases h; exact hkne rfl
    obtain ⟨u0, u, q1, q2, q3⟩ := C66_assign hl r2 f2 hB2 hvx hvy hne hin1 hin2 g3
    have e0 : u0 = chain k₀ k v a (m + 1) := by
      simp only [TStore.at, upd, show m + 2 ≠ m + 3 by omega, if_false, if_true, VTree.sub] at q1; cases q1; rfl
    have e1 : u = .leaf k₀ v := by
      simp only [TStore.at, upd, if_true, VTree.sub] at q2; cases q2; rfl
    have hcl : C.CopiesLeft (.plain k c1) k₀ :=
      ⟨by simp [TreeCfg.nothrowCopy, hc], by simp [TreeCfg.nothrowMove, hm], hfb, k, c1, rfl, by simp [TreeCfg.nothrowMove, hk]⟩
    have hleaf : s2.vars (m + 3) = some (.plain k₀ (.leaf v)) := by
      obtain ⟨w, w1, w2⟩ := r2.val (m + 3) (.leaf k₀ v) (by simp [upd])
      rw [VTree.Rep] at w2
      rcases w2 with ⟨rfl, _⟩ | ⟨q, rfl, _⟩
      · exact w1
      · rw [p2] at w1; cases w1
    refine ⟨chainProgram k₀ k v a (m + 1) ++ [.copy (m + 2) ⟨m + 1, []⟩, .copy (m + 3) ⟨0, []⟩], m + 2, m + 3, s2, s3, σ3, own3, ?_, hleaf, g3, r3, ?_, ?_⟩
    · rw [tRun_append, h1]
      simp only [Option.bind, tRun, v1, v2, g1, g2, if_true]
    · cases o3 with
      | assign hu =>
        rw [q2] at hu; cases hu
        rw [e1]
        simp [TStore.put, upd, VTree.put]
    · rw [q3, TreeCfg.leftCost, if_pos hcl, e0, e1, chain_nodes, VTree.nodes]
      omega
  · rw [hnt] at ht; cases ht

end

/-! ### Non-vacuity -/

/-- The variable `3` has a tree of two nodes. To assign it the plain value of `0`, three allocations are made; with a fallback type,
none. The other way round it is two in either case, also if the tree is moved (here the members are moved one by one). -/
example :
    (tAfter none [] (exTreeProg.take 4 ++ [.assign ⟨3, []⟩ ⟨0, []⟩])).allocs = (tAfter none [] (exTreeProg.take 4)).allocs + 3 ∧
    (tAfter (some 0) [] (exTreeProg.take 4 ++ [.assign ⟨3, []⟩ ⟨0, []⟩])).allocs = (tAfter (some 0) [] (exTreeProg.take 4)).allocs ∧
    (tAfter (some 0) [] (exTreeProg.take 4 ++ [.assign ⟨0, []⟩ ⟨3, []⟩])).allocs = (tAfter (some 0) [] (exTreeProg.take 4)).allocs + 2 ∧
    (tAfter (some 0) [] (exTreeProg.take 4 ++ [.moveAssign ⟨0, []⟩ ⟨3, []⟩])).allocs = (tAfter (some 0) [] (exTreeProg.take 4)).allocs + 2 ∧
    (tAfter (some 0) [] (exTreeProg.take 4 ++ [.moveAssign ⟨0, []⟩ ⟨3, []⟩]) true).allocs =
      (tAfter (some 0) [] (exTreeProg.take 4) true).allocs + 1 := by
  decide +kernel

/-- The hypotheses of the theorems on assignment are met by it. -/
example : ∃ (s' : TreeSt Nat) (u0 u : VTree Nat), TCmd.code (exTree none []) 4096 (.assign ⟨3, []⟩ ⟨0, []⟩) (tAfter none [] (exTreeProg.take 4)) = .ok () s' ∧
    s'.allocs = (tAfter none [] (exTreeProg.take 4)).allocs + (exTree none []).leftCost (.plain 1 (.wrap 2)) 0 u0 + VTree.nodes u ∧
    (exTree none []).CopiesLeft (.plain 1 (.wrap 2)) 0 := by
  obtain ⟨σ, own, _, h1, h2, h3⟩ := tAfter_rep (fb := none) (bad := []) (st := false) (cs := exTreeProg.take 4) nofun (by decide)
    (by decide +kernel)
  have hok : ∃ s', TCmd.code (exTree none []) 4096 (.assign ⟨3, []⟩ ⟨0, []⟩) (tAfter none [] (exTreeProg.take 4)) = .ok () s' := by
    have : (TCmd.code (exTree none []) 4096 (.assign ⟨3, []⟩ ⟨0, []⟩) (tAfter none [] (exTreeProg.take 4))).ending = "ok" := by
      decide +kernel
    cases h : TCmd.code (exTree none []) 4096 (.assign ⟨3, []⟩ ⟨0, []⟩) (tAfter none [] (exTreeProg.take 4)) with
    | ok _ s' => exact ⟨s', rfl⟩
    | exc e s' => rw [h] at this; exact absurd this (by simp [Res.ending])
    | fault f => rw [h] at this; exact absurd this (by simp [Res.ending])
  obtain ⟨s', hok⟩ := hok
  obtain ⟨u0, u, _, _, h⟩ := C66_assign (C := exTree none []) (lv := .plain 1 (.wrap 2)) (k := 0) (c := .leaf 5) natOps_lawful h1 h2 h3
    (by decide +kernel) (by decide +kernel) nofun (by decide) (by decide) hok
  exact ⟨s', u0, u, hok, h, by decide, by decide, rfl, 1, .wrap 2, rfl, by decide⟩

/-- The same for move assignment, with a fallback type. -/
example : ∃ (s' : TreeSt Nat) (u : VTree Nat), TCmd.code (exTree (some 0) []) 4096 (.moveAssign ⟨0, []⟩ ⟨3, []⟩)
      (tAfter (some 0) [] (exTreeProg.take 4)) = .ok () s' ∧
    s'.allocs = (tAfter (some 0) [] (exTreeProg.take 4)).allocs + u.moveNodes (exTree (some 0) []) := by
  obtain ⟨σ, own, _, h1, h2, h3⟩ := tAfter_rep (fb := some 0) (bad := []) (st := false) (cs := exTreeProg.take 4)
    (fun k h => by cases h; rfl) (by decide) (by decide +kernel)
  have hok : ∃ s', TCmd.code (exTree (some 0) []) 4096 (.moveAssign ⟨0, []⟩ ⟨3, []⟩) (tAfter (some 0) [] (exTreeProg.take 4)) = .ok () s' := by
    have : (TCmd.code (exTree (some 0) []) 4096 (.moveAssign ⟨0, []⟩ ⟨3, []⟩) (tAfter (some 0) [] (exTreeProg.take 4))).ending = "ok" := by
      decide +kernel
    cases h : TCmd.code (exTree (some 0) []) 4096 (.moveAssign ⟨0, []⟩ ⟨3, []⟩) (tAfter (some 0) [] (exTreeProg.take 4)) with
    | ok _ s' => exact ⟨s', rfl⟩
    | exc e s' => rw [h] at this; exact absurd this (by simp [Res.ending])
    | fault f => rw [h] at this; exact absurd this (by simp [Res.ending])
  obtain ⟨s', hok⟩ := hok
  obtain ⟨u0, u, _, _, h, _⟩ := C66_move_assign (C := exTree (some 0) []) (lv := .plain 0 (.leaf 5)) (k := 1) (c := .wrap 2) natOps_lawful
    h1 h2 h3 (by decide +kernel) (by decide +kernel) nofun (by decide) (by decide) hok
  exact ⟨s', u, hok, h (.inr ⟨by decide, nofun⟩)⟩

example (m : Nat) := C66_no_bound (C := exTree none []) (k₀ := 0) (k := 1) natOps_lawful (fun _ => rfl) rfl rfl rfl rfl rfl 5 7 m

end BVariant
