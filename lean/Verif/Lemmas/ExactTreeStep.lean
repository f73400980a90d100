/-
Statements on recursive variants, in the model and in the specification for C73; and how high the trees can get.
-/
import Verif.Lemmas.TreeStep
import Verif.Lemmas.ExactTreeSwap

namespace BVariant

section
variable {V : Type} {C : TreeCfg V} {s s' : TreeSt V}

open ATree AStore

variable {α : AStore V} {G : List (ATree V)} {n m z : Nat} {x t : TPlace} {vs : XStore V} {k : Count}

/-! ### Validity and support -/

theorem okay_iff {c : TCmd V} : c.okay C ⟨vs, k⟩ = true ↔ (XTSt.values ⟨vs, k⟩ : TStore V).Valid C c := by
  have hp : ∀ t : TPlace, (XTSt.at ⟨vs, k⟩ t).isSome = true ↔ (XTSt.values ⟨vs, k⟩ : TStore V).at t ≠ none := fun t => by
    rw [values_at]
    show (XStore.at vs t).isSome = true ↔ _
    cases XStore.at vs t <;> simp
  have hv : ∀ y, vs y = none ↔ (XTSt.values ⟨vs, k⟩ : TStore V) y = none := fun y => by
    show _ ↔ (vs y).map XTree.erase = none
    cases vs y <;> simp
  have hv' : ∀ y, (vs y).isSome = true ↔ (XTSt.values ⟨vs, k⟩ : TStore V) y ≠ none := fun y => by
    rw [ne_eq, ← hv y]; cases vs y <;> simp
  cases c with
  | leaf x k v => simp only [TCmd.okay, TStore.Valid, Bool.and_eq_true, Option.isNone_iff_eq_none, hv, Bool.not_eq_true']
  | node x k a ys =>
    simp only [TCmd.okay, TStore.Valid, Bool.and_eq_true, Option.isNone_iff_eq_none, hv, List.all_eq_true, hp, and_assoc]
  | copy x t => simp only [TCmd.okay, TStore.Valid, Bool.and_eq_true, Option.isNone_iff_eq_none, hv, hp]
  | move x t => simp only [TCmd.okay, TStore.Valid, Bool.and_eq_true, Option.isNone_iff_eq_none, hv, hp]
  | assign x t => simp only [TCmd.okay, TStore.Valid, Bool.and_eq_true, hp]
  | moveAssign x t => simp only [TCmd.okay, TStore.Valid, Bool.and_eq_true, hp]
  | swap x t z => simp only [TCmd.okay, TStore.Valid, Bool.and_eq_true, Option.isNone_iff_eq_none, hv, hp, and_assoc]
  | store x v => simp only [TCmd.okay, TStore.Valid, hp]
  | destroy x => simp only [TCmd.okay, TStore.Valid, hv']

/-- The model and the specification agree on which statements are valid. -/
theorem okay_eq (hM : Mem s α []) (hS : ShowsS α vs) (c : TCmd V) : c.valid C s = c.okay C ⟨vs, k⟩ :=
  bool_iff ((tValid_iff hM hS.isS).trans okay_iff.symm)

theorem ShowsS.sideOf (hS : ShowsS α vs) (ht : (XTSt.values ⟨vs, k⟩ : TStore V).at t ≠ none) : ∃ l R u, XSide α vs t l R u := by
  obtain ⟨l, R, h1⟩ := hS.isS.at_iff.mp ht
  obtain ⟨u, h2, h3⟩ := hS.at h1
  exact ⟨l, R, u, h1, h2, h3⟩

/-- They agree on which statements the library does not support. -/
theorem risky_eq (hM : Mem s α []) (hS : ShowsS α vs) {c : TCmd V} (hv : (XTSt.values ⟨vs, k⟩ : TStore V).Valid C c) :
    c.hazard C s = c.risky C ⟨vs, k⟩ := by
  cases c with
  | assign x t =>
    obtain ⟨_, _, _, hx⟩ := hS.sideOf hv.1
    obtain ⟨_, _, _, ht⟩ := hS.sideOf hv.2
    exact hazard_assign hM hx ht
  | moveAssign x t =>
    obtain ⟨_, _, _, hx⟩ := hS.sideOf hv.1
    obtain ⟨_, _, _, ht⟩ := hS.sideOf hv.2
    exact hazard_moveAssign hM hx ht
  | swap x t z =>
    obtain ⟨_, _, _, hx⟩ := hS.sideOf hv.1
    obtain ⟨_, _, _, ht⟩ := hS.sideOf hv.2.1
    exact hazard_swap hM hx ht
  | _ => rfl

/-! ### Statements -/

theorem tPlaces_x (hM : Mem s α []) (hS : ShowsS α vs) : ∀ {ts : List TPlace}, (∀ t ∈ ts, (XTSt.values ⟨vs, k⟩ : TStore V).at t ≠ none) →
    ∃ F f, tPlaces ts s = .ok (F.map ATree.var) s ∧ xtGetAll ts ⟨vs, k⟩ = .ok f ⟨vs, k⟩ ∧ HoldsL s.heap F ∧ ShowsL F f ∧
      (XTSt.values ⟨vs, k⟩ : TStore V).all ts = some (XTree.eraseL f)
  | [], _ => ⟨[], [], rfl, rfl, trivial, by simp [ShowsL], rfl⟩
  | t :: ts, h => by
    obtain ⟨l, R, u, ht, hu, hR⟩ := hS.sideOf (h t (.head _))
    obtain ⟨h1, h2, h3⟩ := hM.at_run ht
    obtain ⟨F, f, g1, g2, g3, g4, g5⟩ := tPlaces_x hM hS fun t' h' => h t' (.tail _ h')
    refine ⟨R :: F, u :: f, ?_, ?_, ⟨h3, g3⟩, ?_, ?_⟩
    · simp only [tPlaces, bind, Eff.bind, h1, h2, g1, pure, Eff.pure, List.map_cons]
    · simp only [xtGetAll, bind, Eff.bind, xtGet_run hu, g2, pure, Eff.pure]
    · rw [ShowsL]; exact ⟨hR, g4⟩
    · simp only [TStore.all, values_at, hu, Option.map_some, g5, XTree.eraseL]

/-- Any statement the library supports, from any memory that shows trees. -/
theorem tStep_x {c : TCmd V} (hM : Mem s α []) (hS : ShowsS α vs) (hB : (XTSt.values ⟨vs, s.count⟩ : TStore V).Bound C.wrapped m)
    (hn : m ≤ n) (hv : (XTSt.values ⟨vs, s.count⟩ : TStore V).Valid C c) (hh : c.hazard C s = false) :
    Agree [] (c.code C n s) (c.exact C ⟨vs, s.count⟩) := by
  have side : ∀ t, (XTSt.values ⟨vs, s.count⟩ : TStore V).at t ≠ none →
      ∃ l R u, XSide α vs t l R u ∧ u.erase.height ≤ n ∧ u.erase.Typed C.wrapped := fun t ht => by
    obtain ⟨l, R, u, h⟩ := hS.sideOf ht
    obtain ⟨h4, h5⟩ := hB.at (t := t) (u := u.erase) (by rw [values_at, h.val]; rfl)
    exact ⟨l, R, u, h, by omega, h5⟩
  have hM1 : Mem { s with tick := s.tick + 1 } α [] := hM.same rfl rfl (Nat.le_refl _)
  have hnone : ∀ {y}, (XTSt.values ⟨vs, s.count⟩ : TStore V) y = none → α y = none := fun h => hS.isS.none_iff.mp h
  cases c with
  | leaf x k v =>
    have hx := hnone hv.1
    rcases tMay_x (C := C) (C.tr k).nothrowCopy (.copyCtor k) s with ⟨hthr, hq⟩ | ⟨hthr, hq, _⟩
    · have hM2 := (hM1.leaf k (C.ops.copy k v)).setVar hx
      refine .inl ⟨_, _, upd vs x (some (.leaf false k (C.ops.copy k v))), ?_, ?_, hS.upd ?_, hM2, trivial⟩
      · simp only [TCmd.code, bind, Eff.bind, hthr]; rfl
      · simp only [TCmd.exact, bind, Eff.bind, xtRun_ok hq, xtSet_run]; rfl
      · rw [Shows]; exact ⟨rfl, rfl, rfl⟩
    · refine .inr ⟨⟨.copyCtor k, s.tick⟩, { s with tick := s.tick + 1 }, α, vs, ?_, ?_, hS, hM1, trivial⟩
      · simp only [TCmd.code, bind, Eff.bind, hthr]
      · simp only [TCmd.exact, bind, Eff.bind, xtRun_exc hq]; rfl
  | node x k a ys =>
    have hx := hnone hv.1
    obtain ⟨F, f, h1, hq1, h3, h4, h2⟩ := tPlaces_x hM hS hv.2.2
    obtain ⟨h5, _⟩ := hB.all h2
    rcases hM.copyListX (C := C) (n := n) h3 h4 (by omega) with ⟨s2, us, f', g1, hq2, g2, hM2, _⟩ | ⟨e, s2, g1, hq2, hM2⟩
    · have hf' : (XTree.eraseL f').height ≤ n := by rw [xtCopyAll_ok hq2, VForest.height_copied]; omega
      have hdes : ∀ {s : TreeSt V} {G' : List (ATree V)}, Mem s α (us ++ G') → ∃ s', tDestroyList (tDestroyVar n) (us.map ATree.var) s = .ok () s' ∧
          Mem s' α G' ∧ s'.count = s.count := fun hM => by
        obtain ⟨s', k1, k2, k3, k4, _⟩ := hM.destroyList (n := n) (ATree.ShowsL.is g2) hf'
        exact ⟨s', k1, k2, count_eq k3 k4⟩
      have hthrow : ∀ {e : Exc} {s3 : TreeSt V}, tNew C (tCopyNode C (tCopyVar C n) (tDestroyVar n) k a (us.map ATree.var)) s2 = .exc e s3 →
          xtCopy C (.node false k a f') s2.count = .exc e s3.count →
          Mem s3 α us → Agree [] ((TCmd.node x k a ys).code C n s) ((TCmd.node x k a ys).exact C ⟨vs, s.count⟩) := by
        intro e s3 k1 kq k2
        obtain ⟨s4, k4, k5, k6⟩ := hdes (G' := []) (by rw [List.append_nil]; exact k2)
        refine .inr ⟨e, s4, α, vs, ?_, ?_, hS, k5, trivial⟩
        · simp only [TCmd.code, bind, Eff.bind, h1, g1, Eff.onExc, k1, k4]
        · rw [k6]
          simp only [TCmd.exact, bind, Eff.bind, hq1, xtRun_ok hq2, xtRun_exc kq]
      rw [List.append_nil] at hM2
      rcases hM2.allocX (C := C) with ⟨p, s3, k1, kq1, hM3⟩ | ⟨e, s3, k1, kq1, hM3⟩
      · have hM4 : Mem { s3 with tick := s3.tick + 1 } α (.blk p :: us) := hM3.same rfl rfl (Nat.le_refl _)
        rcases tMay_x (C := C) (C.tr k).nothrowCopy (.copyCtor k) s3 with ⟨hthr, hq⟩ | ⟨hthr, hq, _⟩
        · rcases hM4.copyListX (C := C) (n := n) hM4.ghosts.2 g2 hf' with ⟨s5, ws, f'', q1, hq5, q2, hM5, _⟩ | ⟨e, s5, q1, hq5, hM5⟩
          · obtain ⟨s6, q3, hM6, t6, a6, _⟩ := Mem.fill (p := p) (F := ws) (G := us) (U := .node k (C.ops.copy k a) p ws none)
              (c := .node (C.ops.copy k a) (ws.map ATree.var))
              (hM5.perm (by exact List.perm_middle))
              (fun h' hq hws => by rw [ATree.Holds]; exact ⟨nofun, hq, hws⟩)
              (fun q => by simp [ATree.blocks, List.count_cons]; omega)
            obtain ⟨s7, q4, hM7, t7⟩ := hdes (G' := [.node k (C.ops.copy k a) p ws none]) (hM6.perm (by
              exact (List.perm_append_singleton _ _).symm))
            have hM8 := hM7.setVar hx
            have kq : xtCopy C (.node false k a f') s2.count = .ok (.node false k (C.ops.copy k a) f'') s5.count := by
              have hq5' : xtCopyAll C f' { s3.count with tick := s3.tick + 1 } = .ok f'' s5.count := hq5
              simp only [xtCopy, bind, Eff.bind, kq1, hq, hq5', pure, Eff.pure]
            refine .inl ⟨_, _, upd vs x (some (.node false k (C.ops.copy k a) f'')), ?_, ?_, hS.upd ?_, hM8, trivial⟩
            · simp only [TCmd.code, bind, Eff.bind, h1, g1, Eff.onExc, tNew, k1, tCopyNode, hthr, q1, q3, q4, pure, Eff.pure]; rfl
            · have e1 : TreeSt.count { s7 with vars := upd s7.vars x (some (ATree.node k (C.ops.copy k a) p ws none).var) } = s5.count := by
                show s7.count = _
                rw [t7, count_eq t6 a6]
              rw [e1]
              simp only [TCmd.exact, bind, Eff.bind, hq1, xtRun_ok hq2, xtRun_ok kq, xtSet_run]
            · rw [Shows]; exact ⟨rfl, rfl, rfl, q2⟩
          · obtain ⟨s6, q3, hM6, t6, a6, _⟩ := hM5.free
            refine hthrow (e := e) (s3 := s6) ?_ ?_ hM6
            · simp only [tNew, bind, Eff.bind, k1, Eff.onExc, tCopyNode, hthr, q1, q3]
            · rw [count_eq t6 a6]
              have hq5' : xtCopyAll C f' { s3.count with tick := s3.tick + 1 } = .exc e s5.count := hq5
              simp only [xtCopy, bind, Eff.bind, kq1, hq, hq5']
        · obtain ⟨s6, q3, hM6, t6, a6, _⟩ := hM4.free
          refine hthrow (e := ⟨.copyCtor k, s3.tick⟩) (s3 := s6) ?_ ?_ hM6
          · simp only [tNew, bind, Eff.bind, k1, Eff.onExc, tCopyNode, hthr, q3]
          · rw [count_eq t6 a6]
            simp only [xtCopy, bind, Eff.bind, kq1, hq]; rfl
      · refine hthrow (e := e) (s3 := s3) ?_ ?_ hM3
        · simp only [tNew, bind, Eff.bind, k1]
        · simp only [xtCopy, bind, Eff.bind, kq1]
    · refine .inr ⟨e, s2, α, vs, ?_, ?_, hS, hM2, trivial⟩
      · simp only [TCmd.code, bind, Eff.bind, h1, g1]
      · simp only [TCmd.exact, bind, Eff.bind, hq1, xtRun_exc hq2]
  | copy x t =>
    have hx := hnone hv.1
    obtain ⟨l, R, u, ⟨ht, hu, hR⟩, h1, h2⟩ := side t hv.2
    obtain ⟨h3, h4, h5⟩ := hM.at_run ht
    rcases hM.copyX (C := C) h5 hR h1 with ⟨s2, U, u', g1, q1, hU, hM2⟩ | ⟨e, s2, g1, q1, hM2⟩
    · refine .inl ⟨_, _, upd vs x (some u'), ?_, ?_, hS.upd hU, hM2.setVar hx, trivial⟩
      · simp only [TCmd.code, bind, Eff.bind, h3, h4, g1]; rfl
      · simp only [TCmd.exact, bind, Eff.bind, xtGet_run hu, xtRun_ok q1, xtSet_run]; rfl
    · refine .inr ⟨e, s2, α, vs, ?_, ?_, hS, hM2, trivial⟩
      · simp only [TCmd.code, bind, Eff.bind, h3, h4, g1]
      · simp only [TCmd.exact, bind, Eff.bind, xtGet_run hu, xtRun_exc q1]
  | move x t =>
    have hx := hnone hv.1
    obtain ⟨l, R, u, ⟨ht, hu, hR⟩, h1, h2⟩ := side t hv.2
    obtain ⟨h3, h4, h5⟩ := hM.at_run ht
    rcases tMoveVar_x (C := C) hM ht hR h1 with ⟨s2, U, R', u', src, g1, q1, hU, hR', hM2⟩ | ⟨e, s2, R', src, g1, q1, hR', hM2⟩
    · have hx' : (α.put t R') x = none := by
        unfold AStore.put
        by_cases hxt : x = t.var
        · subst hxt; rw [upd_same, hx]; rfl
        · simp only [upd, hxt, if_false]; exact hx
      refine .inl ⟨_, _, upd (vs.put t src) x (some u'), ?_, ?_, (hS.put hR').upd hU, hM2.setVar hx', trivial⟩
      · simp only [TCmd.code, bind, Eff.bind, h3, g1]; rfl
      · simp only [TCmd.exact, bind, Eff.bind, xtTake_ok hu q1, xtSet_run]; rfl
    · refine .inr ⟨e, s2, _, vs.put t src, ?_, ?_, hS.put hR', hM2, trivial⟩
      · simp only [TCmd.code, bind, Eff.bind, h3, g1]
      · simp only [TCmd.exact, bind, Eff.bind, xtTake_exc hu q1]
  | assign x t =>
    obtain ⟨l, L, u0, hx, h1, h2⟩ := side x hv.1
    obtain ⟨r, R, u, ht, h3, h4⟩ := side t hv.2
    have := tVariantAssign_x (n := n) hM hS hx ht h2 h4 h1 h3 hh
    simp only [TCmd.code, bind, Eff.bind, (hM.at_run hx.at_).1, (hM.at_run ht.at_).1]
    exact this
  | moveAssign x t =>
    obtain ⟨l, L, u0, hx, h1, h2⟩ := side x hv.1
    obtain ⟨r, R, u, ht, h3, h4⟩ := side t hv.2
    have := (tVariantMoveAssign_x (n := n) hM hS hx ht h2 h4 h1 h3 hh).weaken
    simp only [TCmd.code, bind, Eff.bind, (hM.at_run hx.at_).1, (hM.at_run ht.at_).1]
    exact this
  | swap x t z =>
    obtain ⟨l, L, u, hx, h1, h2⟩ := side x hv.1
    obtain ⟨r, R, v, ht, h3, h4⟩ := side t hv.2.1
    have := tSwap_x (n := n) hM hS hx ht h2 h4 h1 h3 (hnone hv.2.2) hh
    simp only [TCmd.code, bind, Eff.bind, (hM.at_run hx.at_).1, (hM.at_run ht.at_).1]
    exact this
  | store x v =>
    obtain ⟨l, R, u, ⟨hx, hu, hR⟩, h1, h2⟩ := side x hv
    obtain ⟨h3, h4, h5⟩ := hM.at_run hx
    have h6 := tContent_run h5
    cases R with
    | leaf k w b =>
      cases u with
      | node => simp [Shows] at hR
      | leaf m' k' w' =>
        rw [Shows] at hR
        obtain ⟨rfl, rfl, rfl⟩ := hR
        obtain ⟨s2, g1, hM2, t2, a2⟩ := hM.setLeaf v hx
        refine .inl ⟨s2, _, vs.put x (.leaf b.isSome k v), ?_, ?_, hS.put ?_, hM2, trivial⟩
        · simp only [content] at h6
          simp only [TCmd.code, bind, Eff.bind, h3, h4, h6]
          rw [var_which]
          exact g1
        · rw [count_eq t2 a2]
          simp only [TCmd.exact, bind, Eff.bind, xtGet_run hu, xtPut_run]; rfl
        · rw [Shows]; exact ⟨rfl, rfl, rfl⟩
    | node k a p f b =>
      cases u with
      | leaf => simp [Shows] at hR
      | node m' k' a' f' =>
        rw [Shows] at hR
        obtain ⟨rfl, rfl, rfl, hR⟩ := hR
        rw [ATree.Holds] at h5
        obtain ⟨s2, g1, hM2, t2, a2, _⟩ := hM.setNode (a' := v) (f' := f) (G' := []) hx h5.2.2 trivial fun _ => rfl
        refine .inl ⟨s2, _, vs.put x (.node b.isSome k v f'), ?_, ?_, hS.put ?_, hM2, trivial⟩
        · simp only [content] at h6
          simp only [TCmd.code, bind, Eff.bind, h3, h4, h6, tReadNode, h5.2.1, g1]
        · rw [count_eq t2 a2]
          simp only [TCmd.exact, bind, Eff.bind, xtGet_run hu, xtPut_run]; rfl
        · rw [Shows]; exact ⟨rfl, rfl, rfl, hR⟩
    | dead => simp [Shows] at hR
    | blk => simp [Shows] at hR
  | destroy x =>
    cases ha : α x with
    | none => exact absurd (hS.isS.none_iff.mpr ha) hv
    | some T =>
      have hz := hS x
      rw [ha] at hz
      cases hsx : vs x with
      | none => rw [hsx] at hz; exact hz.elim
      | some u =>
        rw [hsx] at hz
        have hval : (XTSt.values ⟨vs, s.count⟩ : TStore V) x = some u.erase := by
          show (vs x).map XTree.erase = _
          rw [hsx]; rfl
        obtain ⟨s2, g1, hM2, c2⟩ := hM.endVarX (n := n) ha (ATree.Shows.is hz) (Nat.le_trans (hB x _ hval).1 hn)
        refine .inl ⟨s2, _, upd vs x none, g1, ?_, hS.del, hM2, trivial⟩
        rw [c2]; rfl

end

end BVariant
