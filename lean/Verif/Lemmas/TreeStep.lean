/-
Statements on recursive variants do what they do on plain values.
-/
import Verif.Lemmas.TreeExchange

namespace BVariant

section
variable {V : Type} {C : TreeCfg V} {s s' : TreeSt V}

open ATree AStore

variable {α : AStore V} {σ : TStore V} {G : List (ATree V)} {n m : Nat} {x t : TPlace}

theorem tPlaces_run (hM : Mem s α G) (hS : IsS α σ) : ∀ {ts : List TPlace}, (∀ t ∈ ts, σ.at t ≠ none) →
    ∃ F f, tPlaces ts s = .ok (F.map ATree.var) s ∧ σ.all ts = some f ∧ HoldsL s.heap F ∧ IsL F f
  | [], _ => ⟨[], .nil, rfl, rfl, trivial, trivial⟩
  | t :: ts, h => by
    obtain ⟨l, R, ht⟩ := hS.at_iff.mp (h t (.head _))
    obtain ⟨u, hu, hR⟩ := hS.at ht
    obtain ⟨h1, h2, h3⟩ := hM.at_run ht
    obtain ⟨F, f, g1, g2, g3, g4⟩ := tPlaces_run hM hS fun t' h' => h t' (.tail _ h')
    refine ⟨R :: F, .cons u f, ?_, ?_, ⟨h3, g3⟩, ⟨hR, g4⟩⟩
    · simp only [tPlaces, bind, Eff.bind, h1, h2, g1, pure, Eff.pure, List.map_cons]
    · simp only [TStore.all, hu, g2]

theorem tValid_iff (hM : Mem s α []) (hS : IsS α σ) {c : TCmd V} : c.valid C s = true ↔ σ.Valid C c := by
  have hp : ∀ t : TPlace, t.valid s = true ↔ σ.at t ≠ none := fun t => by rw [hM.valid_iff, hS.at_iff]
  have hv : ∀ x, s.vars x = none ↔ σ x = none := fun x => by
    rw [hM.vars, hS.none_iff]; cases α x <;> simp
  have hv' : ∀ x, (s.vars x).isSome = true ↔ σ x ≠ none := fun x => by
    rw [ne_eq, ← hv x]; cases s.vars x <;> simp
  cases c with
  | leaf x k v => simp only [TCmd.valid, TStore.Valid, Bool.and_eq_true, Option.isNone_iff_eq_none, hv, Bool.not_eq_true']
  | node x k a ys =>
    simp only [TCmd.valid, TStore.Valid, Bool.and_eq_true, Option.isNone_iff_eq_none, hv, List.all_eq_true, hp, and_assoc]
  | copy x t => simp only [TCmd.valid, TStore.Valid, Bool.and_eq_true, Option.isNone_iff_eq_none, hv, hp]
  | move x t => simp only [TCmd.valid, TStore.Valid, Bool.and_eq_true, Option.isNone_iff_eq_none, hv, hp]
  | assign x t => simp only [TCmd.valid, TStore.Valid, Bool.and_eq_true, hp]
  | moveAssign x t => simp only [TCmd.valid, TStore.Valid, Bool.and_eq_true, hp]
  | swap x t z => simp only [TCmd.valid, TStore.Valid, Bool.and_eq_true, Option.isNone_iff_eq_none, hv, hp, and_assoc]
  | store x v => simp only [TCmd.valid, TStore.Valid, hp]
  | destroy x => simp only [TCmd.valid, TStore.Valid, hv']

/-- Any statement, from any memory that represents a store of trees. -/
theorem tStep_at (hl : C.ops.Lawful) {c : TCmd V} (hM : Mem s α []) (hS : IsS α σ) (hB : σ.Bound C.wrapped m) (hn : m ≤ n)
    (hv : σ.Valid C c) (hh : c.hazard C s = false) : DoesAt C c α σ [] (c.code C n s) := by
  have side : ∀ t, σ.at t ≠ none → ∃ l R u, Side s α σ t l R u ∧ u.height ≤ n ∧ u.Typed C.wrapped := fun t ht => by
    obtain ⟨l, R, h1⟩ := hS.at_iff.mp ht
    obtain ⟨u, h2, h3⟩ := hS.at h1
    obtain ⟨h4, h5⟩ := hB.at h2
    exact ⟨l, R, u, ⟨h1, h2, h3⟩, by omega, h5⟩
  have hM1 : Mem { s with tick := s.tick + 1 } α [] := hM.same rfl rfl (Nat.le_refl _)
  cases c with
  | leaf x k v =>
    have hx := hS.none_iff.mp hv.1
    rcases tMayThrow_run (C := C) (C.tr k).nothrowCopy (.copyCtor k) s with hthr | ⟨hthr, hto⟩
    · obtain ⟨s2, h2, hM2, _⟩ := (hM1.leaf k (C.ops.copy k v)).newVar hx
      refine .inl ⟨s2, _, _, ?_, .leaf, hS.upd (u := .leaf k v) ?_, hM2, .new hx, trivial⟩
      · have h2' : tSetVar x (some (.plain k (.leaf (C.ops.copy k v)))) { s with tick := s.tick + 1 } = .ok () s2 := h2
        simp only [TCmd.code, bind, Eff.bind, hthr, h2']
      · rw [ATree.Is, hl.copy_eq]; exact ⟨rfl, rfl⟩
    · refine .inr ⟨⟨.copyCtor k, s.tick⟩, { s with tick := s.tick + 1 }, α, σ, ?_, .same nofun nofun, hS, hM1, hto, .refl, trivial⟩
      simp only [TCmd.code, bind, Eff.bind, hthr]
  | node x k a ys =>
    have hx := hS.none_iff.mp hv.1
    obtain ⟨F, f, h1, h2, h3, h4⟩ := tPlaces_run hM hS hv.2.2
    obtain ⟨h5, _⟩ := hB.all h2
    rcases hM.copyList (C := C) (n := n) hl h3 h4 (by omega) with ⟨s2, us, g1, g2, hM2, t2, _⟩ | ⟨e, s2, g1, hM2, hth⟩
    · have hdes : ∀ {s : TreeSt V} {G' : List (ATree V)}, Mem s α (us ++ G') → ∃ s', tDestroyList (tDestroyVar n) (us.map ATree.var) s = .ok () s' ∧
          Mem s' α G' ∧ s'.tick = s.tick := fun hM => by
        obtain ⟨s', k1, k2, k3, _⟩ := hM.destroyList (n := n) g2 (by omega)
        exact ⟨s', k1, k2, k3⟩
      have hthrow : ∀ {e : Exc} {s3 : TreeSt V}, tNew C (tCopyNode C (tCopyVar C n) (tDestroyVar n) k a (us.map ATree.var)) s2 = .exc e s3 →
          Mem s3 α us → Threw C s2 e s3 → DoesAt C (.node x k a ys) α σ [] ((TCmd.node x k a ys).code C n s) := by
        intro e s3 k1 k2 k3
        obtain ⟨s4, k4, k5, k6⟩ := hdes (G' := []) (by rw [List.append_nil]; exact k2)
        refine .inr ⟨e, s4, α, σ, ?_, .same nofun nofun, hS, k5, k3.throws, .refl, trivial⟩
        simp only [TCmd.code, bind, Eff.bind, h1, g1, Eff.onExc, k1, k4]
      rw [List.append_nil] at hM2
      rcases hM2.alloc (C := C) with ⟨p, s3, k1, hM3, t3, _⟩ | ⟨e, s3, k1, hM3, r1, r2, r3, _⟩
      · have hM4 : Mem { s3 with tick := s3.tick + 1 } α (.blk p :: us) := hM3.same rfl rfl (Nat.le_refl _)
        rcases tMayThrow_run (C := C) (C.tr k).nothrowCopy (.copyCtor k) s3 with hthr | ⟨hthr, hto⟩
        · rcases hM4.copyList (C := C) (n := n) hl hM4.ghosts.2 g2 (by omega) with ⟨s5, ws, q1, q2, hM5, t5, _⟩ | ⟨e, s5, q1, hM5, hth⟩
          · obtain ⟨s6, q3, hM6, t6, _⟩ := Mem.fill (p := p) (F := ws) (G := us) (U := .node k (C.ops.copy k a) p ws none)
              (c := .node (C.ops.copy k a) (ws.map ATree.var))
              (hM5.perm (by exact List.perm_middle))
              (fun h' hq hws => by rw [ATree.Holds]; exact ⟨nofun, hq, hws⟩)
              (fun q => by simp [ATree.blocks, List.count_cons]; omega)
            obtain ⟨s7, q4, hM7, t7⟩ := hdes (G' := [.node k (C.ops.copy k a) p ws none]) (hM6.perm (by
              exact (List.perm_append_singleton _ _).symm))
            obtain ⟨s8, q5, hM8, _⟩ := hM7.newVar hx
            refine .inl ⟨s8, _, _, ?_, .node h2, hS.upd (u := .node k a f) ?_, hM8, .new hx, trivial⟩
            · have q5' : tSetVar x (some (.plain k (.wrap p))) s7 = .ok () s8 := q5
              simp only [TCmd.code, bind, Eff.bind, h1, g1, Eff.onExc, tNew, k1, tCopyNode, hthr, q1, q3, q4, q5', pure, Eff.pure]
            · rw [ATree.Is, hl.copy_eq]; exact ⟨rfl, rfl, q2⟩
          · obtain ⟨s6, q3, hM6, t6, _⟩ := hM5.free
            refine hthrow (e := e) (s3 := s6) ?_ hM6 (hth.mono (by show s2.tick ≤ s3.tick + 1; omega) (by omega))
            simp only [tNew, bind, Eff.bind, k1, Eff.onExc, tCopyNode, hthr, q1, q3]
        · obtain ⟨s6, q3, hM6, t6, _⟩ := hM4.free
          refine hthrow (e := ⟨.copyCtor k, s3.tick⟩) (s3 := s6) ?_ hM6 ⟨by show s2.tick ≤ s3.tick; omega, ?_, hto⟩
          · simp only [tNew, bind, Eff.bind, k1, Eff.onExc, tCopyNode, hthr, q3]
          · rw [t6]; exact Nat.lt_succ_self _
      · refine hthrow (e := e) (s3 := s3) ?_ hM3 ⟨r1, r2, r3⟩
        simp only [tNew, bind, Eff.bind, k1]
    · refine .inr ⟨e, s2, α, σ, ?_, .same nofun nofun, hS, hM2, hth.throws, .refl, trivial⟩
      simp only [TCmd.code, bind, Eff.bind, h1, g1]
  | copy x t =>
    have hx := hS.none_iff.mp hv.1
    obtain ⟨l, R, u, ⟨ht, hu, hR⟩, h1, h2⟩ := side t hv.2
    obtain ⟨h3, h4, h5⟩ := hM.at_run ht
    rcases hM.copy (C := C) hl h5 hR h1 with ⟨s2, U, g1, hU, hM2, t2⟩ | ⟨e, s2, g1, hM2, hth⟩
    · obtain ⟨s3, g2, hM3, _⟩ := hM2.newVar hx
      refine .inl ⟨s3, _, _, ?_, .copy hu, hS.upd hU, hM3, .new hx, trivial⟩
      simp only [TCmd.code, bind, Eff.bind, h3, h4, g1, g2]
    · refine .inr ⟨e, s2, α, σ, ?_, .same nofun nofun, hS, hM2, hth.throws, .refl, trivial⟩
      simp only [TCmd.code, bind, Eff.bind, h3, h4, g1]
  | move x t =>
    have hx := hS.none_iff.mp hv.1
    obtain ⟨l, R, u, ⟨ht, hu, hR⟩, h1, h2⟩ := side t hv.2
    obtain ⟨h3, h4, h5⟩ := hM.at_run ht
    rcases tMoveVar_run (C := C) hM ht hR h1 with ⟨s2, U, R', g1, _, hU, hR', hM2, t2, _⟩ | ⟨e, s2, R', u', g1, hp, hR', hM2, hth⟩
    · rw [VTree.moved_lawful hl] at hU
      have hx' : (α.put t R') x = none := by
        unfold AStore.put
        by_cases hxt : x = t.var
        · subst hxt; rw [upd_same, hx]; rfl
        · simp only [upd, hxt, if_false]; exact hx
      obtain ⟨s3, g2, hM3, _⟩ := hM2.newVar hx'
      refine .inl ⟨s3, _, _, ?_, .move hu, (hS.put hR').upd hU, hM3, .trans (.put (by simp [TCmd.writes])) (.new hx'), trivial⟩
      simp only [TCmd.code, bind, Eff.bind, h3, g1, g2]
    · refine .inr ⟨e, s2, _, _, ?_, .move hu hp, hS.put hR', hM2, hth.throws, .put (by simp [TCmd.writes]), trivial⟩
      simp only [TCmd.code, bind, Eff.bind, h3, g1]
  | assign x t =>
    obtain ⟨l, L, u0, hx, h1, h2⟩ := side x hv.1
    obtain ⟨r, R, u, ht, h3, h4⟩ := side t hv.2
    have := tVariantAssign_run (n := n) hl hM hS hx ht h2 h4 h1 h3 hh
    simp only [TCmd.code, bind, Eff.bind, (hM.at_run hx.at_).1, (hM.at_run ht.at_).1]
    exact this
  | moveAssign x t =>
    obtain ⟨l, L, u0, hx, h1, h2⟩ := side x hv.1
    obtain ⟨r, R, u, ht, h3, h4⟩ := side t hv.2
    have := tVariantMoveAssign_run (n := n) hl hM hS hx ht h2 h4 h1 h3 hh
    simp only [TCmd.code, bind, Eff.bind, (hM.at_run hx.at_).1, (hM.at_run ht.at_).1]
    exact this
  | swap x t z =>
    obtain ⟨l, L, u, hx, h1, h2⟩ := side x hv.1
    obtain ⟨r, R, v, ht, h3, h4⟩ := side t hv.2.1
    have := tSwap_run (n := n) hl hM hS hx ht h2 h4 h1 h3 hv.2.2 hh
    simp only [TCmd.code, bind, Eff.bind, (hM.at_run hx.at_).1, (hM.at_run ht.at_).1]
    exact this
  | store x v =>
    obtain ⟨l, R, u, ⟨hx, hu, hR⟩, h1, h2⟩ := side x hv
    obtain ⟨h3, h4, h5⟩ := hM.at_run hx
    have h6 := tContent_run h5
    cases R with
    | leaf k w b =>
      cases u with
      | node => simp [ATree.Is] at hR
      | leaf k' w' =>
        rw [ATree.Is] at hR
        obtain ⟨rfl, rfl⟩ := hR
        obtain ⟨s2, g1, hM2, _⟩ := hM.setLeaf v hx
        refine .inl ⟨s2, _, _, ?_, .store hu, hS.put ?_, hM2, .put (by simp [TCmd.writes]), fun _ _ _ _ _ _ h => by cases (hx.unique h).2⟩
        · simp only [content] at h6
          simp only [TCmd.code, bind, Eff.bind, h3, h4, h6]
          rw [var_which]
          exact g1
        · rw [VTree.store, ATree.Is]; exact ⟨rfl, rfl⟩
    | node k a p f b =>
      cases u with
      | leaf => simp [ATree.Is] at hR
      | node k' a' f' =>
        rw [ATree.Is] at hR
        obtain ⟨rfl, rfl, hR⟩ := hR
        rw [ATree.Holds] at h5
        obtain ⟨s2, g1, hM2, _⟩ := hM.setNode (a' := v) (f' := f) (G' := []) hx h5.2.2 trivial fun _ => rfl
        refine .inl ⟨s2, _, _, ?_, .store hu, hS.put ?_, hM2, .put (by simp [TCmd.writes]), fun _ _ _ _ _ _ h => by
          obtain ⟨rfl, e⟩ := hx.unique h
          cases e
          exact hx.put⟩
        · simp only [content] at h6
          simp only [TCmd.code, bind, Eff.bind, h3, h4, h6, tReadNode, h5.2.1, g1]
        · rw [VTree.store, ATree.Is]; exact ⟨rfl, rfl, hR⟩
    | dead => simp [ATree.Is] at hR
    | blk => simp [ATree.Is] at hR
  | destroy x =>
    cases ha : α x with
    | none => exact absurd (hS.none_iff.mpr ha) hv
    | some T =>
      have hz := hS x
      rw [ha] at hz
      cases hsx : σ x with
      | none => exact absurd hsx hv
      | some u =>
        rw [hsx] at hz
        obtain ⟨s1, s2, g1, g2, hM2, _⟩ := hM.destroyVar (n := n) ha hz (Nat.le_trans (hB x u hsx).1 hn)
        refine .inl ⟨s2, _, _, ?_, .destroy, hS.del, hM2, .del (by simp [TCmd.writes]), trivial⟩
        have hrd := hM.read_var ha
        simp only [TLoc.read] at hrd
        simp only [TCmd.code, tEndVar, bind, Eff.bind, hrd, g1, g2]

/-- Any statement, from any memory that represents a store of trees. -/
theorem tStep_run (hl : C.ops.Lawful) {c : TCmd V} (hM : Mem s α []) (hS : IsS α σ) (hB : σ.Bound C.wrapped m) (hn : m ≤ n)
    (hv : σ.Valid C c) (hh : c.hazard C s = false) : Does C c σ [] (c.code C n s) :=
  (tStep_at hl hM hS hB hn hv hh).does

end

end BVariant
