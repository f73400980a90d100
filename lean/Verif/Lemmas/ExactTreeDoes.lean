/-
Assignments of recursive variants, as statements, in the model and in the specification for C73.
-/
import Verif.Lemmas.ExactTreeAssign

namespace BVariant

section
variable {V : Type} {C : TreeCfg V} {s s' : TreeSt V}

open ATree AStore

variable {α : AStore V} {G : List (ATree V)} {n : Nat} {x t : TPlace} {vs : XStore V} {c : Count}

/-- The outcome of a statement, in the model and in the specification; the trees are then as `P` says. -/
def AgreeP (P : AStore V → XStore V → Prop) (G : List (ATree V)) (r : Res (TreeSt V) Unit) (q : Res (XTSt V) Unit) : Prop :=
  (∃ s' α' vs', r = .ok () s' ∧ q = .ok () ⟨vs', s'.count⟩ ∧ ShowsS α' vs' ∧ Mem s' α' G ∧ P α' vs') ∨
  (∃ e s' α' vs', r = .exc e s' ∧ q = .exc e ⟨vs', s'.count⟩ ∧ ShowsS α' vs' ∧ Mem s' α' G ∧ P α' vs')

/-- The outcome of a statement, in the model and in the specification. -/
def Agree (G : List (ATree V)) (r : Res (TreeSt V) Unit) (q : Res (XTSt V) Unit) : Prop := AgreeP (fun _ _ => True) G r q

theorem AgreeP.weaken {P : AStore V → XStore V → Prop} {r : Res (TreeSt V) Unit} {q : Res (XTSt V) Unit} (h : AgreeP P G r q) :
    Agree G r q := by
  rcases h with ⟨s', α', vs', h1, h2, h3, h4, _⟩ | ⟨e, s', α', vs', h1, h2, h3, h4, _⟩
  · exact .inl ⟨s', α', vs', h1, h2, h3, h4, trivial⟩
  · exact .inr ⟨e, s', α', vs', h1, h2, h3, h4, trivial⟩

theorem AssignsX.agree {r : Res (TreeSt V) Unit} {q : Res (XTSt V) Unit} (hS : ShowsS α vs) (h : AssignsX G α vs x r q) : Agree G r q := by
  rcases h with ⟨s', U, u, h1, h2, h3, h4⟩ | ⟨e, s', U, u, h1, h2, h3, h4⟩
  · exact .inl ⟨s', _, _, h1, h2, hS.put h3, h4, trivial⟩
  · exact .inr ⟨e, s', _, _, h1, h2, hS.put h3, h4, trivial⟩

/-- Nothing but the two places has changed, if neither is a part of the other; what is then at `t` is not too high. -/
def KeptX (C : TreeCfg V) (n : Nat) (α : AStore V) (vs : XStore V) (x t : TPlace) (α' : AStore V) (vs' : XStore V) : Prop :=
  x.Apart t → ∃ U W v w, α' = (α.put x U).put t W ∧ vs' = (vs.put x v).put t w ∧ U.Shows v ∧ W.Shows w ∧
    w.erase.height ≤ n ∧ w.erase.Typed C.wrapped

/-! ### Unsupported statements -/

theorem bool_iff {a b : Bool} (h : a = true ↔ b = true) : a = b := by cases a <;> cases b <;> simp_all

theorem hazard_assign {l r : TLoc} {L R : ATree V} {u0 u : XTree V} (hM : Mem s α G) (hX : XSide α vs x l L u0)
    (hT : XSide α vs t r R u) : TCmd.hazard C s (.assign x t) = TCmd.risky C ⟨vs, c⟩ (.assign x t) := by
  have h1 : XTSt.at ⟨vs, c⟩ x = some u0 := hX.val
  have h2 : XTSt.at ⟨vs, c⟩ t = some u := hT.val
  simp only [TCmd.hazard, hM.variant_eq hX.at_, hM.variant_eq hT.at_, TCmd.risky, h1, h2, ← hX.shows.which, ← hT.shows.which,
    ← hX.shows.box, ← hT.shows.box]
  have hvL : ∀ {T : ATree V} {q : ObjId}, T.box = some q → T.var = .backup T.which q := fun h => by unfold var; rw [h]
  apply bool_iff
  cases hb : L.box with
  | none =>
    rw [var_none hb]
    cases hb' : R.box with
    | none =>
      rw [var_none hb']
      by_cases hk : L.which = R.which
      · simp [hk]
      · simp [hk, tDestroysFirst]
        cases C.nothrowCopy R.which <;> cases C.nothrowMove R.which <;> cases C.fallback <;> simp [or_comm]
    | some q => rw [hvL hb']; simp
  | some q =>
    rw [hvL hb]
    cases hb' : R.box with
    | none =>
      rw [var_none hb']
      simp [tDestroysFirst]
      cases C.nothrowCopy R.which <;> cases C.nothrowMove R.which <;> cases C.fallback <;> simp [or_comm]
    | some q =>
      rw [hvL hb']
      by_cases hk : L.which = R.which <;> simp [hk]

theorem hazard_moveAssign {l r : TLoc} {L R : ATree V} {u0 u : XTree V} (hM : Mem s α G) (hX : XSide α vs x l L u0)
    (hT : XSide α vs t r R u) : TCmd.hazard C s (.moveAssign x t) = TCmd.risky C ⟨vs, c⟩ (.moveAssign x t) := by
  have h1 : XTSt.at ⟨vs, c⟩ x = some u0 := hX.val
  have h2 : XTSt.at ⟨vs, c⟩ t = some u := hT.val
  simp only [TCmd.hazard, hM.variant_eq hX.at_, hM.variant_eq hT.at_, TCmd.risky, h1, h2, ← hX.shows.which, ← hT.shows.which,
    ← hX.shows.box, ← hT.shows.box]
  have hvL : ∀ {T : ATree V} {q : ObjId}, T.box = some q → T.var = .backup T.which q := fun h => by unfold var; rw [h]
  apply bool_iff
  cases hb : L.box with
  | none =>
    rw [var_none hb]
    cases hb' : R.box with
    | none =>
      rw [var_none hb']
      by_cases hk : L.which = R.which
      · simp [hk]
      · simp [hk, tMoveDestroysFirst]
        cases C.nothrowCopy R.which <;> cases C.nothrowMove R.which <;> cases C.fallback <;> simp [or_comm]
    | some q => rw [hvL hb']; simp
  | some q =>
    rw [hvL hb]
    cases hb' : R.box with
    | none =>
      rw [var_none hb']
      simp [tMoveDestroysFirst]
      cases C.nothrowCopy R.which <;> cases C.nothrowMove R.which <;> cases C.fallback <;> simp [or_comm]
    | some q =>
      rw [hvL hb']
      by_cases hk : L.which = R.which <;> simp [hk]

theorem hazard_swap {l r : TLoc} {L R : ATree V} {u0 u : XTree V} {z : Nat} (hM : Mem s α G) (hX : XSide α vs x l L u0)
    (hT : XSide α vs t r R u) : TCmd.hazard C s (.swap x t z) = TCmd.risky C ⟨vs, c⟩ (.swap x t z) := by
  have h1 : XTSt.at ⟨vs, c⟩ x = some u0 := hX.val
  have h2 : XTSt.at ⟨vs, c⟩ t = some u := hT.val
  simp only [TCmd.hazard, hM.variant_eq hX.at_, hM.variant_eq hT.at_, TCmd.risky, h1, h2, ← hX.shows.which, ← hT.shows.which,
    ← hX.shows.box]
  have hvL : ∀ {T : ATree V} {q : ObjId}, T.box = some q → T.var = .backup T.which q := fun h => by unfold var; rw [h]
  apply bool_iff
  cases hb : L.box with
  | none => rw [var_none hb]; simp
  | some q => rw [hvL hb]; simp [var_which, or_comm, or_left_comm]

/-! ### Copy assignment -/

theorem tAssignContent_x {l r : TLoc} {L R : ATree V} {u0 u : XTree V} (hM : Mem s α G) (hS : ShowsS α vs)
    (hX : XSide α vs x l L u0) (hT : XSide α vs t r R u) (h0 : u0.erase.Typed C.wrapped) (h1 : u.erase.Typed C.wrapped)
    (hk : L.which = R.which) (hbk : u0.backed = u.backed) (hn0 : u0.erase.height ≤ n) (hn : u.erase.height ≤ n) :
    Agree G (tAssignContent C n L.which (L.var.ref l) (R.var.ref r) s) (xtAssign C x t ⟨vs, s.count⟩) := by
  obtain ⟨_, hlr, hlh⟩ := hM.at_run hX.at_
  obtain ⟨_, hrr, hrh⟩ := hM.at_run hT.at_
  have hl1 := ref_read hlr hlh
  have hr1 := ref_read hrr hrh
  obtain ⟨hx, hxv, hL⟩ := hX
  obtain ⟨ht, htv, hR⟩ := hT
  have hk' : u0.which = u.which := by rw [← hL.which, ← hR.which, hk]
  have hcode : xtAssign C x t ⟨vs, s.count⟩ = (match u0, u with
    | .leaf b k u, .leaf _ _ v => do
      Eff.onExc (xtRun (xtMay C false (.copyAssign k))) (xtPut x (.leaf b k (C.ops.assignFail k u v)))
      xtPut x (.leaf b k (C.ops.assign k u v))
    | .node b k _ _, .node _ _ a f => do
      xtRun (xtMay C (C.tr k).nothrowCopy (.copyCtor k))
      let f' ← xtRun (xtCopyAll C f)
      xtPut x (.node b k (C.ops.copy k a) f')
    | _, _ => Eff.fail .ub : Eff (XTSt V) Unit) ⟨vs, s.count⟩ := by
    simp only [xtAssign, bind, Eff.bind, xtGet_run hxv, xtGet_run htv, hk', hbk, and_self, if_true]
    cases u0 <;> cases u <;> rfl
  rw [hcode]
  rcases same_kindX hL hR h0 h1 hk with ⟨k, v, w, b, b', rfl, rfl, rfl, rfl⟩ | ⟨k, a, p, f, b, a', p', f', b', g, g', rfl, rfl, rfl, rfl, h2, h3⟩
  · simp only [content] at hl1 hr1
    have hM1 : Mem { s with tick := s.tick + 1 } α G := hM.same rfl rfl (Nat.le_refl _)
    rcases tMay_x (C := C) false (.copyAssign k) s with ⟨hthr, hq⟩ | ⟨hthr, hq, _⟩
    · obtain ⟨s2, h4, hM2, t2, a2⟩ := hM1.setLeaf (C.ops.assign k v w) hx
      refine .inl ⟨s2, _, vs.put x (.leaf b.isSome k (C.ops.assign k v w)), ?_, ?_, hS.put ?_, hM2, trivial⟩
      · simp only [tAssignContent, which, bind, Eff.bind, hl1, hr1, Eff.onExc, hthr, h4]
      · rw [count_eq t2 a2]
        simp only [bind, Eff.bind, Eff.onExc, xtRun_ok hq, xtPut_run]; rfl
      · rw [Shows]; exact ⟨rfl, rfl, rfl⟩
    · obtain ⟨s2, h4, hM2, t2, a2⟩ := hM1.setLeaf (C.ops.assignFail k v w) hx
      refine .inr ⟨⟨.copyAssign k, s.tick⟩, s2, _, vs.put x (.leaf b.isSome k (C.ops.assignFail k v w)), ?_, ?_, hS.put ?_, hM2, trivial⟩
      · simp only [tAssignContent, which, bind, Eff.bind, hl1, hr1, Eff.onExc, hthr, h4]
      · rw [count_eq t2 a2]
        simp only [bind, Eff.bind, Eff.onExc, xtRun_exc hq, xtPut_run]; rfl
      · rw [Shows]; exact ⟨rfl, rfl, rfl⟩
  · simp only [content] at hl1 hr1
    rw [XTree.erase, VTree.height] at hn hn0
    rw [ATree.Holds] at hrh hlh
    have hq : tReadNode p' s = .ok (a', f'.map ATree.var) s := by simp only [tReadNode, hrh.2.1]
    rcases tMay_x (C := C) (C.tr k).nothrowCopy (.copyCtor k) s with ⟨hthr, hq1⟩ | ⟨hthr, hq1, _⟩
    · have hM1 : Mem { s with tick := s.tick + 1 } α G := hM.same rfl rfl (Nat.le_refl _)
      have hq1 : xtMay C (C.tr k).nothrowCopy (.copyCtor k) s.count = .ok () (TreeSt.count { s with tick := s.tick + 1 }) := hq1
      rcases hM1.copyListX (C := C) (n := n) hrh.2.2 h3 (by omega) with ⟨s2, us, f2, h4, hq2, h5, hM2, _⟩ | ⟨e, s2, h4, hq2, hM2⟩
      · have hh2 := (hM2.at_run hx).2.2
        rw [ATree.Holds] at hh2
        have hp : tReadNode p s2 = .ok (a, f.map ATree.var) s2 := by simp only [tReadNode, hh2.2.1]
        have hg := hM2.ghosts
        rw [holdsL_append] at hg
        obtain ⟨s3, h6, hM3, t3, a3, _⟩ := hM2.setNode (a' := C.ops.copy k a') (f' := us) (G' := f ++ G) hx hg.1
          (by rw [holdsL_append]; exact ⟨hh2.2.2, hg.2⟩) (fun q => by simp only [count_append]; omega)
        obtain ⟨s4, h7, hM4, t4, a4, _⟩ := hM3.destroyList (n := n) h2.is (by omega)
        refine .inl ⟨s4, _, vs.put x (.node b.isSome k (C.ops.copy k a') f2), ?_, ?_, hS.put ?_, hM4, trivial⟩
        · simp only [tAssignContent, which, bind, Eff.bind, hl1, hr1, tAssignNode, hq, hthr, h4, hp, h6, h7]
        · rw [count_eq t4 a4, count_eq t3 a3]
          simp only [bind, Eff.bind, xtRun_ok hq1, xtRun_ok hq2, xtPut_run]
        · rw [Shows]; exact ⟨rfl, rfl, rfl, h5⟩
      · refine .inr ⟨e, s2, α, vs, ?_, ?_, hS, hM2, trivial⟩
        · simp only [tAssignContent, which, bind, Eff.bind, hl1, hr1, tAssignNode, hq, hthr, h4]
        · simp only [bind, Eff.bind, xtRun_ok hq1, xtRun_exc hq2]
    · have hM1 : Mem { s with tick := s.tick + 1 } α G := hM.same rfl rfl (Nat.le_refl _)
      refine .inr ⟨⟨.copyCtor k, s.tick⟩, { s with tick := s.tick + 1 }, α, vs, ?_, ?_, hS, hM1, trivial⟩
      · simp only [tAssignContent, which, bind, Eff.bind, hl1, hr1, tAssignNode, hq, hthr]
      · simp only [bind, Eff.bind, xtRun_exc hq1]; rfl

theorem tVariantAssign_x {l r : TLoc} {L R : ATree V} {u0 u : XTree V} (hM : Mem s α G) (hS : ShowsS α vs)
    (hX : XSide α vs x l L u0) (hT : XSide α vs t r R u) (hty : u0.erase.Typed C.wrapped) (htu : u.erase.Typed C.wrapped)
    (hn0 : u0.erase.height ≤ n) (hn : u.erase.height ≤ n) (hh : TCmd.hazard C s (.assign x t) = false) :
    Agree G (tVariantAssign C n l r s) (xtAssign C x t ⟨vs, s.count⟩) := by
  obtain ⟨_, hlr, _⟩ := hM.at_run hX.at_
  obtain ⟨_, hrr, _⟩ := hM.at_run hT.at_
  simp only [TCmd.hazard, hM.variant_eq hX.at_, hM.variant_eq hT.at_] at hh
  have hcontent := tAssignContent_x (n := n) hM hS hX hT hty htu
  have hcode : tVariantAssign C n l r s = (match L.var, R.var with
      | .plain k _, .plain k' _ =>
        if k = k' then tAssignContent C n k (.inPlace l) (.inPlace r) else tAssigner C n l L.var k' (.inPlace r)
      | .backup k q, .backup k' q' =>
        if k = k' then tAssignContent C n k (.inBox q) (.inBox q') else Eff.fail .assertFailed
      | .backup _ _, .plain k' _ => tAssigner C n l L.var k' (.inPlace r)
      | .plain _ _, .backup _ _ => Eff.fail .assertFailed) s := by
    simp only [tVariantAssign, bind, Eff.bind, hlr, hrr]
    cases L.var <;> cases R.var <;> rfl
  rw [hcode]
  -- assignment between types
  have hass : R.box = none → (t.inside x && tDestroysFirst C L.var R.which) = false → x.inside t = false → L.which ≠ R.which ∨ L.box ≠ none →
      Agree G (tAssigner C n l L.var R.which (.inPlace r) s) (xtAssign C x t ⟨vs, s.count⟩) := by
    intro hRb h1 h2 hne
    have hne' : ¬ (u0.which = u.which ∧ u0.backed = u.backed) := by
      rw [← hX.shows.which, ← hT.shows.which, ← hX.shows.box, ← hT.shows.box, hRb]
      rintro ⟨h3, h4⟩
      rcases hne with h | h
      · exact h h3
      · cases hLb : L.box with
        | none => exact h hLb
        | some q => rw [hLb] at h4; cases h4
    have hq : xtAssign C x t ⟨vs, s.count⟩ = xtReplace C x u0 u ⟨vs, s.count⟩ := by
      simp only [xtAssign, bind, Eff.bind, xtGet_run hX.val, xtGet_run hT.val, hne', if_false]
    rw [hq]
    refine (tAssigner_x hM hX hT hRb hty htu hn0 hn ?_).agree hS
    rcases TPlace.cases x t with rfl | h | h | h
    · obtain ⟨rfl, rfl⟩ := hX.at_.unique hT.at_
      rcases hne with h | h
      · exact absurd rfl h
      · exact absurd hRb h
    · exact .inl h
    · rw [h, Bool.true_and] at h1
      obtain ⟨is, g1, _, _, g2⟩ := hX.at_.inside hT.at_ h
      exact .inr ⟨h1, is, g1, g2⟩
    · rw [h] at h2; cases h2
  have hbb : L.box.isSome = R.box.isSome → u0.backed = u.backed := fun h => by rw [← hX.shows.box, ← hT.shows.box, h]
  cases hb : L.box with
  | none =>
    have hv := var_none hb
    cases hb' : R.box with
    | none =>
      have hv' := var_none hb'
      rw [hv, hv'] at hh ⊢
      simp only at hh ⊢
      by_cases hk : L.which = R.which
      · rw [if_pos hk]
        have := hcontent hk (hbb (by rw [hb, hb'])) hn0 hn
        rw [hv, hv'] at this
        exact this
      · rw [if_neg hk]
        simp only [bne_iff_ne.mpr hk, Bool.true_and, Bool.or_eq_false_iff] at hh
        rw [← hv] at hh ⊢
        exact hass hb' hh.1 hh.2 (.inl hk)
    | some q' =>
      have hv' : R.var = .backup R.which q' := by unfold var; rw [hb']
      rw [hv, hv'] at hh
      simp at hh
  | some q =>
    have hv : L.var = .backup L.which q := by unfold var; rw [hb]
    cases hb' : R.box with
    | none =>
      have hv' := var_none hb'
      rw [hv, hv'] at hh
      simp only [Bool.or_eq_false_iff] at hh
      rw [hv, hv']
      simp only
      rw [← hv] at hh ⊢
      exact hass hb' hh.1 hh.2 (.inr (by rw [hb]; nofun))
    | some q' =>
      have hv' : R.var = .backup R.which q' := by unfold var; rw [hb']
      rw [hv, hv'] at hh ⊢
      simp only [bne_eq_false_iff_eq] at hh
      simp only [if_pos hh]
      have := hcontent hh (hbb (by rw [hb, hb']; rfl)) hn0 hn
      rw [hv, hv'] at this
      exact this

/-! ### Move assignment -/

/-- Move assignment of nodes, and of plain objects. -/
theorem tMoveAssignContent_x {l r : TLoc} {L R : ATree V} {u0 u : XTree V} (hM : Mem s α G) (hS : ShowsS α vs)
    (hX : XSide α vs x l L u0) (hT : XSide α vs t r R u) (h0 : u0.erase.Typed C.wrapped) (h1 : u.erase.Typed C.wrapped)
    (hk : L.which = R.which) (hbk : u0.backed = u.backed) (hn0 : u0.erase.height ≤ n) (hn : u.erase.height ≤ n)
    (hrel : x = t ∨ x.Apart t) :
    AgreeP (KeptX C n α vs x t) G (tMoveAssignContent C L.which (L.var.ref l) (R.var.ref r) s) (xtMoveAssign C x t ⟨vs, s.count⟩) := by
  obtain ⟨_, hlr, hlh⟩ := hM.at_run hX.at_
  obtain ⟨_, hrr, hrh⟩ := hM.at_run hT.at_
  have hl1 := ref_read hlr hlh
  have hr1 := ref_read hrr hrh
  obtain ⟨hx, hxv, hL⟩ := hX
  obtain ⟨ht, htv, hR⟩ := hT
  have hk' : u0.which = u.which := by rw [← hL.which, ← hR.which, hk]
  have hcode : xtMoveAssign C x t ⟨vs, s.count⟩ = (match u0, u with
    | .leaf b k u, .leaf b' _ v =>
      if x = t then do
        Eff.onExc (xtRun (xtMay C (C.tr k).nothrowMoveAssign (.moveAssign k))) (xtPut x (.leaf b k (C.ops.selfMoveFail k u)))
        xtPut x (.leaf b k (C.ops.selfMove k u))
      else do
        Eff.onExc (xtRun (xtMay C (C.tr k).nothrowMoveAssign (.moveAssign k))) do
          xtPut x (.leaf b k (C.ops.moveAssignFail k u v))
          xtPut t (.leaf b' k (C.ops.moveAssignFailSrc k u v))
        xtPut x (.leaf b k (C.ops.moveAssign k u v))
        xtPut t (.leaf b' k (C.ops.moveAssignSrc k u v))
    | .node .., .node .. => do
      xtPut x u
      xtPut t u0
    | _, _ => Eff.fail .ub : Eff (XTSt V) Unit) ⟨vs, s.count⟩ := by
    simp only [xtMoveAssign, bind, Eff.bind, xtGet_run hxv, xtGet_run htv, hk', hbk, and_self, if_true]
    cases u0 <;> cases u <;> rfl
  rw [hcode]
  rcases same_kindX hL hR h0 h1 hk with ⟨k, v, w, b, b', rfl, rfl, rfl, rfl⟩ | ⟨k, a, p, f, b, a', p', f', b', g, g', rfl, rfl, rfl, rfl, h2, h3⟩
  · simp only [content] at hl1 hr1
    have hM1 : Mem { s with tick := s.tick + 1 } α G := hM.same rfl rfl (Nat.le_refl _)
    rcases hrel with rfl | ha
    · obtain ⟨rfl, e⟩ := hx.unique ht
      cases e
      have hna : ∀ {P : Prop}, x.Apart x → P := fun ha => by
        have := ref_ne hM hx hx ha
        exact absurd rfl this
      rcases tMay_x (C := C) (C.tr k).nothrowMoveAssign (.moveAssign k) s with ⟨hthr, hq⟩ | ⟨hthr, hq, _⟩
      · obtain ⟨s2, h4, hM2, t2, a2⟩ := hM1.setLeaf (C.ops.selfMove k v) hx
        refine .inl ⟨s2, _, vs.put x (.leaf b.isSome k (C.ops.selfMove k v)), ?_, ?_, hS.put ?_, hM2, fun ha => hna ha⟩
        · simp only [tMoveAssignContent, which, bind, Eff.bind, hl1, if_true, Eff.onExc, hthr, h4]
        · rw [count_eq t2 a2]
          simp only [if_true, bind, Eff.bind, Eff.onExc, xtRun_ok hq, xtPut_run]; rfl
        · rw [Shows]; exact ⟨rfl, rfl, rfl⟩
      · obtain ⟨s2, h4, hM2, t2, a2⟩ := hM1.setLeaf (C.ops.selfMoveFail k v) hx
        refine .inr ⟨⟨.moveAssign k, s.tick⟩, s2, _, vs.put x (.leaf b.isSome k (C.ops.selfMoveFail k v)), ?_, ?_, hS.put ?_, hM2, fun ha => hna ha⟩
        · simp only [tMoveAssignContent, which, bind, Eff.bind, hl1, if_true, Eff.onExc, hthr, h4]
        · rw [count_eq t2 a2]
          simp only [if_true, bind, Eff.bind, Eff.onExc, xtRun_exc hq, xtPut_run]; rfl
        · rw [Shows]; exact ⟨rfl, rfl, rfl⟩
    · have hne := ref_ne hM hx ht ha
      have hxt : x ≠ t := by
        rintro rfl
        obtain ⟨rfl, e⟩ := hx.unique ht
        cases e
        exact hne rfl
      have hshow : ∀ (m : Option ObjId) (y : V), (ATree.leaf k y m).Shows (.leaf m.isSome k y) := fun m y => by rw [Shows]; exact ⟨rfl, rfl, rfl⟩
      have hhei : ∀ (y : V), (XTree.leaf b'.isSome k y).erase.height ≤ n := fun y => by
        rw [XTree.erase, VTree.height] at hn ⊢; exact hn
      have htyp : ∀ (y : V), (XTree.leaf b'.isSome k y).erase.Typed C.wrapped := fun y => by
        rw [XTree.erase, VTree.Typed] at h1 ⊢; exact h1
      rcases tMay_x (C := C) (C.tr k).nothrowMoveAssign (.moveAssign k) s with ⟨hthr, hq⟩ | ⟨hthr, hq, _⟩
      · obtain ⟨s2, h4, hM2, t2, a2⟩ := hM1.setLeaf (C.ops.moveAssign k v w) hx
        obtain ⟨s3, h5, hM3, t3, a3⟩ := hM2.setLeaf (C.ops.moveAssignSrc k v w) (ht.put_apart ha.symm)
        refine .inl ⟨s3, _, (vs.put x (.leaf b.isSome k (C.ops.moveAssign k v w))).put t (.leaf b'.isSome k (C.ops.moveAssignSrc k v w)),
          ?_, ?_, (hS.put (hshow _ _)).put (hshow _ _), hM3, fun _ => ⟨_, _, _, _, rfl, rfl, hshow _ _, hshow _ _, hhei _, htyp _⟩⟩
        · simp only [tMoveAssignContent, which, bind, Eff.bind, hl1, hr1, if_neg hne, Eff.onExc, hthr, h4, h5]
        · rw [count_eq t3 a3, count_eq t2 a2]
          simp only [if_neg hxt, bind, Eff.bind, Eff.onExc, xtRun_ok hq, xtPut_run]; rfl
      · obtain ⟨s2, h4, hM2, t2, a2⟩ := hM1.setLeaf (C.ops.moveAssignFail k v w) hx
        obtain ⟨s3, h5, hM3, t3, a3⟩ := hM2.setLeaf (C.ops.moveAssignFailSrc k v w) (ht.put_apart ha.symm)
        refine .inr ⟨⟨.moveAssign k, s.tick⟩, s3, _,
          (vs.put x (.leaf b.isSome k (C.ops.moveAssignFail k v w))).put t (.leaf b'.isSome k (C.ops.moveAssignFailSrc k v w)),
          ?_, ?_, (hS.put (hshow _ _)).put (hshow _ _), hM3, fun _ => ⟨_, _, _, _, rfl, rfl, hshow _ _, hshow _ _, hhei _, htyp _⟩⟩
        · simp only [tMoveAssignContent, which, bind, Eff.bind, hl1, hr1, if_neg hne, Eff.onExc, hthr, h4, h5]
        · rw [count_eq t3 a3, count_eq t2 a2]
          simp only [if_neg hxt, bind, Eff.bind, Eff.onExc, xtRun_exc hq, xtPut_run]; rfl
  · simp only [content] at hl1 hr1
    simp only [XTree.backed] at hbk
    rcases hrel with rfl | ha
    · have hna : ∀ {P : Prop}, x.Apart x → P := fun ha => by
        have := ref_ne hM hx hx ha
        exact absurd rfl this
      obtain ⟨rfl, e⟩ := hx.unique ht
      cases e
      have h4 := ref_write (k := k) (c := .wrap p) hl1
      have h5 := set_self hlr hlh
      simp only [which, content] at h5
      rw [h5] at h4
      rw [hxv] at htv
      cases htv
      refine .inl ⟨s, α, vs, ?_, ?_, hS, hM, fun ha => hna ha⟩
      · simp only [tMoveAssignContent, which, bind, Eff.bind, hl1, h4]
      · simp only [bind, Eff.bind, xtPut_run, XStore.put_same hxv]
    · obtain ⟨h4, h5, hM2⟩ := hM.swapRef hx ht hL.is hR.is rfl ha
      have hs1 : (setBox b (ATree.node k a' p' f' b')).Shows (.node b'.isSome k a' g') := by
        rw [← hbk, ATree.setBox, Shows]; exact ⟨rfl, rfl, rfl, h3⟩
      have hs2 : (setBox b' (ATree.node k a p f b)).Shows (.node b.isSome k a g) := by
        rw [hbk, ATree.setBox, Shows]; exact ⟨rfl, rfl, rfl, h2⟩
      obtain ⟨c1, d1, _⟩ := set_counters k ((ATree.node k a' p' f' b').var.ref r) (.wrap p) s
      obtain ⟨c2, d2, _⟩ := set_counters k ((ATree.node k a p f b).var.ref l) (.wrap p') (((ATree.node k a' p' f' b').var.ref r).set k (.wrap p) s)
      refine .inl ⟨_, _, (vs.put x (.node b'.isSome k a' g')).put t (.node b.isSome k a g), ?_, ?_, (hS.put hs1).put hs2, hM2,
        fun _ => ⟨_, _, _, _, rfl, rfl, hs1, hs2, hn0, h0⟩⟩
      · simp only [which, content] at h4 h5
        simp only [tMoveAssignContent, which, bind, Eff.bind, hl1, hr1, h4, h5, content]
      · simp only [which, content]
        rw [count_eq c2 d2, count_eq c1 d1]
        simp only [bind, Eff.bind, xtPut_run]

theorem AssignsX.kept {r : TLoc} {R : ATree V} {u : XTree V} {q : Res (XTSt V) Unit} {res : Res (TreeSt V) Unit} (hS : ShowsS α vs)
    (hT : XSide α vs t r R u) (htu : u.erase.Typed C.wrapped) (hn : u.erase.height ≤ n)
    (h : AssignsX G α vs x res q) : AgreeP (KeptX C n α vs x t) G res q := by
  have hk : ∀ {U : ATree V} {v : XTree V}, U.Shows v → KeptX C n α vs x t (α.put x U) (vs.put x v) := fun {U v} hU ha => by
    obtain ⟨u', h1, h2⟩ := (hS.put (x := x) hU).at (hT.at_.put_apart ha.symm)
    cases hT.shows.unique h2
    exact ⟨U, R, v, u, (AStore.put_same (hT.at_.put_apart ha.symm)).symm, (XStore.put_same h1).symm, hU, hT.shows, hn, htu⟩
  rcases h with ⟨s', U, u, h1, h2, h3, h4⟩ | ⟨e, s', U, u, h1, h2, h3, h4⟩
  · exact .inl ⟨s', _, _, h1, h2, hS.put h3, h4, hk h3⟩
  · exact .inr ⟨e, s', _, _, h1, h2, hS.put h3, h4, hk h3⟩

theorem tMoveAssigner_x {l r : TLoc} {L R : ATree V} {u0 u : XTree V} (hM : Mem s α G) (hS : ShowsS α vs)
    (hX : XSide α vs x l L u0) (hT : XSide α vs t r R u) (hRb : R.box = none) (hty : u0.erase.Typed C.wrapped) (htu : u.erase.Typed C.wrapped)
    (hn0 : u0.erase.height ≤ n) (hn : u.erase.height ≤ n)
    (hrel : x.Apart t ∨ (tMoveDestroysFirst C L.var R.which = false ∧ ∃ is, is ≠ [] ∧ L.walk l is = some (r, R))) :
    AgreeP (KeptX C n α vs x t) G (tMoveAssigner C n l L.var R.which (.inPlace r) s) (xtReplaceMove C x t u0 u ⟨vs, s.count⟩) := by
  have hRv : R.var.ref r = .inPlace r := by rw [var_none hRb]; rfl
  have hwh := hT.shows.which
  have hXT := And.intro hX hT
  obtain ⟨hx, hxv, hL⟩ := hX
  obtain ⟨ht, htv, hR⟩ := hT
  -- the left content is destroyed, then the right one moved
  have hmove : x.Apart t → ∃ s1, tDestroyAt n l s = .ok () s1 ∧ r.read s1 = .ok R.var s1 ∧
      ((∃ s2 U R' u' src, tMoveRef C (tMoveVar C n) (tDestroyVar n) R.which (.inPlace r) s1 = .ok U.content s2 ∧
          xtMove C s.count u = .ok u' src s2.count ∧ U.Shows u' ∧ R'.Shows src ∧
          ∃ s3, l.write (.plain R.which U.content) s2 = .ok () s3 ∧ s3.count = s2.count ∧ Mem s3 ((α.put x U).put t R') G) ∨
       (∃ e s2 R' src, tMoveRef C (tMoveVar C n) (tDestroyVar n) R.which (.inPlace r) s1 = .exc e s2 ∧
          xtMove C s.count u = .exc e src s2.count ∧ R'.Shows src ∧
          Mem s2 ((α.put t R').put x (.dead L.which none)) G ∧ At (α.put t R') x l L)) := by
    intro ha
    obtain ⟨s1, h1, hM1, t1, a1, _⟩ := hM.destroyAt (n := n) hx hL.is hn0
    have ht1 : At (α.put x (.dead L.which none)) t r R := ht.put_apart ha.symm
    refine ⟨s1, h1, (hM1.at_run ht1).2.1, ?_⟩
    have hx1 : ∀ R', At (α.put t R') x l L := fun R' => hx.put_apart ha
    have hmv := tMoveRef_x (C := C) (n := n) hM1 ht1 hR (by omega)
    rw [hRv, MovesX, count_eq t1 a1] at hmv
    rcases hmv with ⟨s2, U, R', u', src, h2, hq, hU, hR', hM2⟩ | ⟨e, s2, R', src, h2, hq, hR', hM2⟩
    · rw [AStore.put_comm ha.symm] at hM2
      obtain ⟨h5, _, h6⟩ := xtMove_ok hq
      obtain ⟨s3, h3, hM3, t3, a3⟩ := hM2.construct (hx1 R') (hU.unbox h6)
      have hk : R.which = U.which := by rw [hR.is.which, hU.is.which, h5, VTree.which_moved]
      refine .inl ⟨s2, U, R', u', src, h2, hq, hU, hR', s3, by rw [hk]; exact h3, count_eq t3 a3, ?_⟩
      rw [AStore.put_comm ha.symm]; exact hM3
    · rw [AStore.put_comm ha.symm] at hM2
      exact .inr ⟨e, s2, R', src, h2, hq, hR', hM2, hx1 R'⟩
  have hsrc : ∀ {u' src : XTree V} {c : Count}, xtMove C s.count u = .ok u' src c → src.erase.height ≤ n ∧ src.erase.Typed C.wrapped := by
    intro u' src c hq
    rw [(xtMove_ok hq).2.1]
    exact ⟨Nat.le_trans (VTree.height_movedFrom (C := C) u.erase) hn, VTree.typed_movedFrom htu⟩
  have hcomm : x.Apart t → ∀ (v w : XTree V), (vs.put t w).put x v = (vs.put x v).put t w := fun ha v w => XStore.put_comm ha v w
  unfold tMoveAssigner xtReplaceMove
  rw [← hwh]
  by_cases hm : C.nothrowMove R.which = true
  · rw [if_pos hm, if_pos hm]
    have ha : x.Apart t := by
      rcases hrel with h | ⟨h, _⟩
      · exact h
      · simp [tMoveDestroysFirst, hm] at h
    obtain ⟨s1, h1, hrd, ⟨s2, U, R', u', src, h2, hq, hU, hR', s3, h3, hc, hM3⟩ | ⟨e, s2, R', src, h2, _⟩⟩ := hmove ha
    · refine .inl ⟨s3, _, (vs.put x u').put t src, ?_, ?_, (hS.put hU).put hR', hM3, fun _ => ⟨_, _, _, _, rfl, rfl, hU, hR', hsrc hq⟩⟩
      · simp only [Eff.noexcept, bind, Eff.bind, h1, h2, h3]
      · rw [hc]; simp only [bind, Eff.bind, xtTake_ok htv hq, xtPut_run, hcomm ha]
    · exfalso
      simp only [TreeCfg.nothrowMove, Bool.and_eq_true, Bool.not_eq_true'] at hm
      obtain ⟨k, v, b, rfl, rfl⟩ := typed_leafX (C := C) hR htu hm.1
      cases (show b = none from hRb)
      exact tMoveRef_noexc hm.2 hrd h2
  · rw [if_neg hm, if_neg hm]
    by_cases hc : C.nothrowCopy R.which = true
    · rw [if_pos hc, if_pos hc]
      have ha : x.Apart t := by
        rcases hrel with h | ⟨h, _⟩
        · exact h
        · simp [tMoveDestroysFirst, hc] at h
      exact AssignsX.kept hS hXT.2 htu hn (.inl (tAssign_nothrowCopy_x hM hXT.1 hXT.2 hRb htu hn0 ha hc))
    · rw [if_neg hc, if_neg hc]
      cases hfb : C.fallback with
      | some fb =>
        have ha : x.Apart t := by
          rcases hrel with h | ⟨h, _⟩
          · exact h
          · simp [tMoveDestroysFirst, hfb] at h
        obtain ⟨s1, h1, hrd, ⟨s2, U, R', u', src, h2, hq, hU, hR', s3, h3, hc, hM3⟩ | ⟨e, s2, R', src, h2, hq, hR', hM2, hx1⟩⟩ := hmove ha
        · refine .inl ⟨s3, _, (vs.put x u').put t src, ?_, ?_, (hS.put hU).put hR', hM3, fun _ => ⟨_, _, _, _, rfl, rfl, hU, hR', hsrc hq⟩⟩
          · simp only [Eff.onExc, bind, Eff.bind, h1, h2, h3]
          · rw [hc]; simp only [bind, Eff.bind, Eff.onExc, xtTake_ok htv hq, xtPut_run, hcomm ha]
        · obtain ⟨s3, h3, hM3, t3, a3⟩ := (hM2.ticked.leaf fb (C.ops.defaultInit fb)).construct hx1 rfl
          rw [AStore.put_comm ha] at hM3
          have hmay : xtMay C true (.defaultCtor fb) s2.count = .ok () s3.count := by
            rw [count_eq t3 a3]
            exact xtMay_true _
          have hfs : (ATree.leaf fb (C.ops.defaultInit fb) none).Shows (.leaf false fb (C.ops.defaultInit fb)) := by
            rw [Shows]; exact ⟨rfl, rfl, rfl⟩
          have hp := xtMove_exc hq
          refine .inr ⟨e, s3, _, (vs.put x (.leaf false fb (C.ops.defaultInit fb))).put t src, ?_, ?_, (hS.put hfs).put hR', hM3,
            fun _ => ⟨_, _, _, _, rfl, rfl, hfs, hR', Nat.le_trans hp.height hn, hp.typed htu⟩⟩
          · simp only [which, content] at h3
            simp only [Eff.onExc, bind, Eff.bind, h1, h2, tFallback, tMayThrow_true, h3]
          · simp only [bind, Eff.bind, Eff.onExc, xtTake_exc htv hq, xtFallback, xtRun_ok hmay, xtPut_run, hcomm ha]
      | none =>
        have hrel' : x.Apart t ∨ (L.box ≠ none ∧ ∃ is, is ≠ [] ∧ L.walk l is = some (r, R)) := by
          rcases hrel with h | ⟨h, h'⟩
          · exact .inl h
          · refine .inr ⟨fun hb => ?_, h'⟩
            rw [var_none hb] at h
            simp [tMoveDestroysFirst, hfb] at h
        exact AssignsX.kept hS hXT.2 htu hn (tBackupAssign_x hM hXT.1 hXT.2 hRb hty hn0 hn hrel')

theorem tVariantMoveAssign_x {l r : TLoc} {L R : ATree V} {u0 u : XTree V} (hM : Mem s α G) (hS : ShowsS α vs)
    (hX : XSide α vs x l L u0) (hT : XSide α vs t r R u) (hty : u0.erase.Typed C.wrapped) (htu : u.erase.Typed C.wrapped)
    (hn0 : u0.erase.height ≤ n) (hn : u.erase.height ≤ n) (hh : TCmd.hazard C s (.moveAssign x t) = false) :
    AgreeP (KeptX C n α vs x t) G (tVariantMoveAssign C n l r s) (xtMoveAssign C x t ⟨vs, s.count⟩) := by
  obtain ⟨_, hlr, _⟩ := hM.at_run hX.at_
  obtain ⟨_, hrr, _⟩ := hM.at_run hT.at_
  simp only [TCmd.hazard, hM.variant_eq hX.at_, hM.variant_eq hT.at_] at hh
  have hcontent := fun (hk : L.which = R.which) (hbk : u0.backed = u.backed) (h1 : t.inside x = false) (h2 : x.inside t = false) =>
    tMoveAssignContent_x (n := n) hM hS hX hT hty htu hk hbk hn0 hn (by
    rcases TPlace.cases x t with h | h | h | h
    · exact .inl h
    · exact .inr h
    · rw [h] at h1; cases h1
    · rw [h] at h2; cases h2)
  have hcode : tVariantMoveAssign C n l r s = (match L.var, R.var with
      | .plain k _, .plain k' _ =>
        if k = k' then tMoveAssignContent C k (.inPlace l) (.inPlace r) else tMoveAssigner C n l L.var k' (.inPlace r)
      | .backup k q, .backup k' q' =>
        if k = k' then tMoveAssignContent C k (.inBox q) (.inBox q') else Eff.fail .assertFailed
      | .backup _ _, .plain k' _ => tMoveAssigner C n l L.var k' (.inPlace r)
      | .plain _ _, .backup _ _ => Eff.fail .assertFailed) s := by
    simp only [tVariantMoveAssign, bind, Eff.bind, hlr, hrr]
    cases L.var <;> cases R.var <;> rfl
  rw [hcode]
  have hass : R.box = none → (t.inside x && tMoveDestroysFirst C L.var R.which) = false → x.inside t = false → L.which ≠ R.which ∨ L.box ≠ none →
      AgreeP (KeptX C n α vs x t) G (tMoveAssigner C n l L.var R.which (.inPlace r) s) (xtMoveAssign C x t ⟨vs, s.count⟩) := by
    intro hRb h1 h2 hne
    have hne' : ¬ (u0.which = u.which ∧ u0.backed = u.backed) := by
      rw [← hX.shows.which, ← hT.shows.which, ← hX.shows.box, ← hT.shows.box, hRb]
      rintro ⟨h3, h4⟩
      rcases hne with h | h
      · exact h h3
      · cases hLb : L.box with
        | none => exact h hLb
        | some q => rw [hLb] at h4; cases h4
    have hq : xtMoveAssign C x t ⟨vs, s.count⟩ = xtReplaceMove C x t u0 u ⟨vs, s.count⟩ := by
      simp only [xtMoveAssign, bind, Eff.bind, xtGet_run hX.val, xtGet_run hT.val, hne', if_false]
    rw [hq]
    refine tMoveAssigner_x hM hS hX hT hRb hty htu hn0 hn ?_
    rcases TPlace.cases x t with rfl | h | h | h
    · obtain ⟨rfl, rfl⟩ := hX.at_.unique hT.at_
      rcases hne with h | h
      · exact absurd rfl h
      · exact absurd hRb h
    · exact .inl h
    · rw [h, Bool.true_and] at h1
      obtain ⟨is, g1, _, _, g2⟩ := hX.at_.inside hT.at_ h
      exact .inr ⟨h1, is, g1, g2⟩
    · rw [h] at h2; cases h2
  have hbb : L.box.isSome = R.box.isSome → u0.backed = u.backed := fun h => by rw [← hX.shows.box, ← hT.shows.box, h]
  cases hb : L.box with
  | none =>
    have hv := var_none hb
    cases hb' : R.box with
    | none =>
      have hv' := var_none hb'
      rw [hv, hv'] at hh ⊢
      simp only at hh ⊢
      by_cases hk : L.which = R.which
      · rw [if_pos hk]
        rw [if_pos hk] at hh
        simp only [Bool.or_eq_false_iff] at hh
        have := hcontent hk (hbb (by rw [hb, hb'])) hh.1 hh.2
        rw [hv, hv'] at this
        exact this
      · rw [if_neg hk]
        rw [if_neg hk] at hh
        simp only [Bool.or_eq_false_iff] at hh
        rw [← hv] at hh ⊢
        exact hass hb' hh.1 hh.2 (.inl hk)
    | some q' =>
      have hv' : R.var = .backup R.which q' := by unfold var; rw [hb']
      rw [hv, hv'] at hh
      simp at hh
  | some q =>
    have hv : L.var = .backup L.which q := by unfold var; rw [hb]
    cases hb' : R.box with
    | none =>
      have hv' := var_none hb'
      rw [hv, hv'] at hh
      simp only [Bool.or_eq_false_iff] at hh
      rw [hv, hv']
      simp only
      rw [← hv] at hh ⊢
      exact hass hb' hh.1 hh.2 (.inr (by rw [hb]; nofun))
    | some q' =>
      have hv' : R.var = .backup R.which q' := by unfold var; rw [hb']
      rw [hv, hv'] at hh ⊢
      simp only [Bool.or_eq_false_iff, bne_eq_false_iff_eq] at hh
      simp only [if_pos hh.1.1]
      have := hcontent hh.1.1 (hbb (by rw [hb, hb']; rfl)) hh.1.2 hh.2
      rw [hv, hv'] at this
      exact this

end

end BVariant
