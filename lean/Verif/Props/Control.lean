/-
C74: programs with control flow (branches, loops, exceptions with handlers, local variants) do exactly what their meaning says, both on
variants and on recursive variants.
-/
import Verif.Lemmas.ControlKeeps
import Verif.Props.Exact
import Verif.Props.ExactTree
import Verif.Props.SafetyScope
import Verif.Props.TreeObserve
import Verif.Props.Observe
import Verif.Lemmas.InPlace
import Verif.Lemmas.Backed

namespace BVariant

/-- The value of a condition, if looking at variants works. -/
theorem Test.code_run {P S U : Type} {L : Looks P S} {s : S} {get : P → Option U} {same less : U → U → Bool} {ty : U → TyIx}
    (h1 : ∀ x, L.there s x = (get x).isSome) (h2 : ∀ x y u v, get x = some u → get y = some v → L.eq x y s = .ok (same u v) s)
    (h3 : ∀ x y u v, get x = some u → get y = some v → L.lt x y s = .ok (less u v) s)
    (h4 : ∀ x u k, get x = some u → L.is x k s = .ok (ty u == k) s) (b : Test P) : b.code L s = .ok (b.holds get same less ty) s := by
  induction b with
  | eq x y =>
    simp only [Test.code, Test.holds, h1]
    cases hx : get x <;> cases hy : get y <;> simp [h2 x y, hx, hy]
  | lt x y =>
    simp only [Test.code, Test.holds, h1]
    cases hx : get x <;> cases hy : get y <;> simp [h3 x y, hx, hy]
  | is x k =>
    simp only [Test.code, Test.holds, h1]
    cases hx : get x <;> simp [h4 x, hx]
  | not b ih => simp only [Test.code, Test.holds, bind, Eff.bind, ih]; rfl
  | and b c ih1 ih2 =>
    simp only [Test.code, Test.holds, bind, Eff.bind, ih1]
    cases b.holds get same less ty with
    | false => rfl
    | true => simp [ih2]

/-! ### Variants -/

section
variable {V : Type} {C : Cfg V} {eq lt : TyIx → V → V → Bool} {inp : Nat → Except Exc Bool} {w : World V} {p : Prog (Cmd V) (Test Nat)}

theorem view_test (hg : Good C w) (b : Test Nat) :
    (varActions C eq lt).test b w = .ok (b.holds (fun x => w.view.vars (.user x)) (Tag.same eq) (Tag.less lt) Tag.ty) w := by
  have key : ∀ {x : Nat} {t : Tag V}, w.view.vars (.user x) = some t → ∃ s i, Owns C w (.user x) s i t.ty t.val := fun h => by
    obtain ⟨s, i, ho, -⟩ := hg.wf.inv.owns h
    exact ⟨s, i, ho⟩
  refine Test.code_run (fun x => ?_) (fun x y u v hx hy => ?_) (fun x y u v hx hy => ?_) (fun x u k hx => ?_) b
  · have h : w.view.vars (.user x) = none ↔ w.vars (.user x) = none := ⟨hg.wf.inv.vars_none, tagged_none⟩
    show (w.vars (.user x)).isSome = (w.view.vars (.user x)).isSome
    cases h2 : w.view.vars (.user x) <;> cases h3 : w.vars (.user x) <;> simp_all
  · obtain ⟨_, _, h1⟩ := key hx
    obtain ⟨_, _, h2⟩ := key hy
    simp only [varLooks, M.eff, opEq_eq hg h1.holds h2.holds, Tag.same]
    by_cases h : u.ty = v.ty <;> simp [h]
  · obtain ⟨_, _, h1⟩ := key hx
    obtain ⟨_, _, h2⟩ := key hy
    simp only [varLooks, M.eff, opLt_eq hg h1.holds h2.holds, Tag.less]
  · obtain ⟨_, _, h1⟩ := key hx
    simp only [varLooks, bind, Eff.bind, M.eff, h1.which_eq]
    show Res.ok (decide ((u.ty : Int) = (k : Int))) w = _
    rw [Res.ok.injEq]
    exact ⟨bool_iff (by simp [Int.natCast_inj]), rfl⟩

/-- The state of the model shows that of the specification. -/
def XRel (C : Cfg V) (_ : Nat) (w : World V) (σ : XSt V) : Prop := Good C w ∧ w.view = σ

theorem var_simulates (hs : Sane C) (eq lt : TyIx → V → V → Bool) (n : Nat) :
    Simulates (varActions C eq lt) (xActions C eq lt) (XRel C) n (fun c w => c.valid C w && c.readsBackup w) where
  mono h := h
  act := by
    rintro m w _ c ⟨hg, rfl⟩ - hz
    simp only [varActions, xActions, valid_view hg, hazard_view hg]
    cases hv : c.valid C w with
    | false => exact ⟨rfl, hg, rfl⟩
    | true =>
      rw [hv, Bool.true_and] at hz
      have h1 := C72_statement hs hg c hv hz
      simp only [hz, if_true, Bool.false_eq_true, if_false, M.eff]
      rcases wp_elim (wp_step hs hg c hv hz) with ⟨a, w', hm, hg', _⟩ | ⟨e, w', hm, hg', _, _⟩
      · rw [hm] at h1 ⊢
        simp only at h1
        rw [h1]
        exact ⟨rfl, hg', rfl⟩
      · rw [hm] at h1 ⊢
        simp only at h1
        rw [h1]
        exact ⟨rfl, hg', rfl⟩
  bad := by
    rintro m w _ c ⟨hg, rfl⟩ hz
    rw [Bool.and_eq_true] at hz
    simp only [xActions, valid_view hg, hazard_view hg, hz.1, hz.2, if_true]
  test := by
    rintro m w _ b ⟨hg, rfl⟩ -
    rw [view_test hg]
    exact ⟨rfl, hg, rfl⟩
  close x := by simp [varActions, Cmd.readsBackup]
  same x := rfl
  ends := by
    rintro m w _ x ⟨hg, rfl⟩ -
    simp only [varActions]
    cases hv : (Cmd.destroy x : Cmd V).valid C w with
    | false => exact ⟨w, rfl⟩
    | true =>
      have h1 := C72_statement hs hg (.destroy x) hv rfl
      simp only [if_true, M.eff]
      revert h1
      cases (Cmd.destroy x : Cmd V).code C w with
      | ok a w' => exact fun _ => ⟨w', rfl⟩
      | exc e w' => exact fun h => by cases h
      | fault f => exact fun h => h.elim

/-- A program on variants, in its first `k` steps: it never faults, its state is that of some specification state, and if it ends it
does so exactly as its meaning says. The condition is that it does not come to a statement that finding F1 concerns. -/
theorem C74_behaves (hs : Sane C) (k : Nat)
    (hz : ∀ j, j < k → ∀ c K i w, psteps (varActions C eq lt) inp j (p.start (World.init V)) = .conf ⟨.run (.act c), K, i, w⟩ →
      c.valid C w = true → c.readsBackup w = false) :
    match psteps (varActions C eq lt) inp k (p.start (World.init V)) with
    | .conf c => Good C c.st
    | .done r j w => Good C w ∧ Eval (xActions C eq lt) inp p 0 (XSt.init V) r j w.view
    | .fault _ => False := by
  have h := (var_simulates hs eq lt (1 * 2 ^ k)).steps (inp := inp) (k := k) (m := 1) (c := .run p) (K := []) (i := 0)
    (⟨good_init, view_init⟩ : XRel C 1 (World.init V) (XSt.init V)) (Nat.le_refl _)
  rcases h with ⟨⟨j, c, K, i, w, hj, h1, h2⟩, -⟩ | h
  · rw [Bool.and_eq_true] at h2
    rw [hz j hj c K i w h1 h2.1] at h2
    exact absurd h2.2 (by simp)
  · rw [Prog.start]
    revert h
    cases psteps (varActions C eq lt) inp k ⟨.run p, [], 0, World.init V⟩ with
    | conf c =>
      cases psteps (xActions C eq lt) inp k ⟨.run p, [], 0, XSt.init V⟩ with
      | conf d => exact fun h => h.2.2.2.1
      | done r j u => exact fun h => h.elim
      | fault f => exact fun h => h.elim
    | done r j w =>
      cases hN : psteps (xActions C eq lt) inp k ⟨.run p, [], 0, XSt.init V⟩ with
      | conf d => exact fun h => h.elim
      | done r' j' u =>
        rintro ⟨rfl, rfl, hg, rfl⟩
        exact ⟨hg, eval_iff.mpr ⟨k, hN⟩⟩
      | fault f => exact fun h => h.elim
    | fault f => exact fun h => h.elim

/-- What a program on variants means, it does: it ends in this way, in that state. -/
theorem C74_does (hs : Sane C) {r : Option Exc} {j : Nat} {σ : XSt V} (h : Eval (xActions C eq lt) inp p 0 (XSt.init V) r j σ) :
    ∃ k w, psteps (varActions C eq lt) inp k (p.start (World.init V)) = .done r j w ∧ Good C w ∧ w.view = σ := by
  obtain ⟨k, hk⟩ := Simulates.complete (M := fun _ => varActions C eq lt) (var_simulates hs eq lt)
    (⟨good_init, view_init⟩ : XRel C 1 (World.init V) (XSt.init V)) h
  obtain ⟨w, h1, h2⟩ := hk _ (Nat.le_refl _)
  exact ⟨k, w, h1, h2⟩

theorem view_nothing_left (hd : p.Declared Cmd.starts []) {r : Option Exc} {j : Nat} (h : Eval (xActions C eq lt) inp p 0 (XSt.init V) r j w.view)
    (hg : Good C w) : (∀ x, w.vars x = none) ∧ ∀ id, w.objs id = none := by
  have hdead : ∀ y, y ∉ [] → XSt.Dead y w.view := by
    refine Eval.declared (dead := XSt.Dead) (begins := Cmd.starts) ?_ ?_ ?_ h [] hd (fun y _ => rfl)
    · intro c y t hy ht u hu
      simp only [xActions] at hu
      cases hv : c.exactValid C t with
      | false => simp only [hv, Bool.false_eq_true, if_false] at hu; rcases hu with hu | ⟨e, hu⟩ <;> cases hu; exact ht
      | true =>
        have hk := keeps_exact hv ht hy t ht
        simp only [hv, if_true] at hu
        cases hz : c.exactHazard t with
        | true => simp only [hz, if_true] at hu; rcases hu with hu | ⟨e, hu⟩ <;> cases hu
        | false =>
          simp only [hz, Bool.false_eq_true, if_false] at hu
          rcases hu with hu | ⟨e, hu⟩ <;> (rw [hu] at hk; exact hk)
    · intro b y t ht u hu
      simp only [xActions] at hu
      rcases hu with ⟨v, hu⟩ | ⟨e, hu⟩ <;> cases hu
      exact ht
    · intro x t u hu
      simp only [xActions, Cmd.exactValid, Cmd.exactHazard, Cmd.exact] at hu
      cases hx : (t.vars (.user x)).isSome with
      | false =>
        simp only [hx, Bool.false_eq_true, if_false] at hu
        cases hu
        exact ⟨by simpa [XSt.Dead] using hx, fun y h => h⟩
      | true =>
        simp only [hx, if_true, Bool.false_eq_true, if_false, xPut, Eff.modify] at hu
        cases hu
        refine ⟨by simp [XSt.Dead, upd], fun y h => ?_⟩
        unfold XSt.Dead at h ⊢
        by_cases hy : VarId.user y = .user x <;> simp [upd, hy, h]
  have hv : ∀ x, w.vars (.user x) = none := fun x => hg.wf.inv.vars_none (hdead x List.not_mem_nil)
  refine ⟨fun x => ?_, fun id => ?_⟩
  · cases x with
    | user n => exact hv n
    | tmp n => exact hg.noTmp n
  · cases ho : w.objs id with
    | none => rfl
    | some p =>
      obtain ⟨x, t, hx, -⟩ := hg.wf.noLeak id (by rw [ho]; simp)
      cases x with
      | user n => rw [hv n] at hx; cases hx
      | tmp n => rw [hg.noTmp n] at hx; cases hx

/-- After a program in which every variable is declared by a scope around the statements that begin it, no variable is alive and there
is no object left, whether the program ended normally or by an exception. -/
theorem C74_nothing_left (hs : Sane C) (hd : p.Declared Cmd.starts []) {k : Nat}
    (hz : ∀ j, j < k → ∀ c K i w, psteps (varActions C eq lt) inp j (p.start (World.init V)) = .conf ⟨.run (.act c), K, i, w⟩ →
      c.valid C w = true → c.readsBackup w = false)
    {r : Option Exc} {j : Nat} (h1 : psteps (varActions C eq lt) inp k (p.start (World.init V)) = .done r j w) :
    (∀ x, w.vars x = none) ∧ ∀ id, w.objs id = none := by
  have hb := C74_behaves (eq := eq) (lt := lt) (inp := inp) (p := p) hs k hz
  rw [h1] at hb
  obtain ⟨hg, h⟩ := hb
  exact view_nothing_left hd h hg

/-! Variant types for which no heap backup can be made: without a condition on the program. -/

/-- As `XRel`, with all content in place. -/
def XRelInPlace (C : Cfg V) (_ : Nat) (w : World V) (σ : XSt V) : Prop := Good C w ∧ AllInPlace w ∧ w.view = σ

theorem var_simulates_inPlace (hs : Sane C) (hb : BackupFree C) (eq lt : TyIx → V → V → Bool) (n : Nat) :
    Simulates (varActions C eq lt) (xActions C eq lt) (XRelInPlace C) n (fun _ _ => false) where
  mono h := h
  act := by
    rintro m w _ c ⟨hg, ha, rfl⟩ - -
    have hz := ha.readsBackup c
    simp only [varActions, xActions, valid_view hg, hazard_view hg]
    cases hv : c.valid C w with
    | false => exact ⟨rfl, hg, ha, rfl⟩
    | true =>
      have h1 := C72_statement hs hg c hv hz
      simp only [hz, if_true, Bool.false_eq_true, if_false, M.eff]
      rcases wp_elim (wp_and (wp_step hs hg c hv hz) (wp_step_inPlace hs hb hg ha c hv)) with
        ⟨a, w', hm, ⟨hg', _⟩, ha', _⟩ | ⟨e, w', hm, ⟨hg', _, _⟩, ha', _⟩
      · rw [hm] at h1 ⊢
        simp only at h1
        rw [h1]
        exact ⟨rfl, hg', ha', rfl⟩
      · rw [hm] at h1 ⊢
        simp only at h1
        rw [h1]
        exact ⟨rfl, hg', ha', rfl⟩
  bad _ _ h := by cases h
  test := by
    rintro m w _ b ⟨hg, ha, rfl⟩ -
    rw [view_test hg]
    exact ⟨rfl, hg, ha, rfl⟩
  close _ := rfl
  same _ := rfl
  ends x h hm := (var_simulates hs eq lt n).ends x ⟨h.1, h.2.2⟩ hm

/-- Where no heap backup can be made, every program on variants is in a good state after any number of steps, or has ended exactly as its
meaning says; and if all its variables are declared nothing is left. -/
theorem C74_backup_free (hs : Sane C) (hb : BackupFree C) (k : Nat) :
    match psteps (varActions C eq lt) inp k (p.start (World.init V)) with
    | .conf c => Good C c.st ∧ AllInPlace c.st
    | .done r j w => Good C w ∧ Eval (xActions C eq lt) inp p 0 (XSt.init V) r j w.view ∧
        (p.Declared Cmd.starts [] → (∀ x, w.vars x = none) ∧ ∀ id, w.objs id = none)
    | .fault _ => False := by
  have h := (var_simulates_inPlace hs hb eq lt (1 * 2 ^ k)).steps (inp := inp) (k := k) (m := 1) (c := .run p) (K := []) (i := 0)
    (⟨good_init, allInPlace_init, view_init⟩ : XRelInPlace C 1 (World.init V) (XSt.init V)) (Nat.le_refl _)
  rcases h with ⟨⟨j, c, K, i, w, hj, h1, h2⟩, -⟩ | h
  · cases h2
  · rw [Prog.start]
    revert h
    cases psteps (varActions C eq lt) inp k ⟨.run p, [], 0, World.init V⟩ with
    | conf c =>
      cases psteps (xActions C eq lt) inp k ⟨.run p, [], 0, XSt.init V⟩ with
      | conf d => exact fun h => ⟨h.2.2.2.1, h.2.2.2.2.1⟩
      | done r j u => exact fun h => h.elim
      | fault f => exact fun h => h.elim
    | done r j w =>
      cases hN : psteps (xActions C eq lt) inp k ⟨.run p, [], 0, XSt.init V⟩ with
      | conf d => exact fun h => h.elim
      | done r' j' u =>
        rintro ⟨rfl, rfl, hg, -, rfl⟩
        have he := eval_iff.mpr ⟨k, hN⟩
        exact ⟨hg, he, fun hd => view_nothing_left hd he hg⟩
      | fault f => exact fun h => h.elim
    | fault f => exact fun h => h.elim

end

/-! ### Recursive variants -/

section
variable {V : Type} {C : TreeCfg V} {eq lt : TyIx → V → V → Bool} {inp : Nat → Except Exc Bool} {s : TreeSt V} {σ : XTSt V}
  {own : Nat → List ObjId} {p : Prog (TCmd V) (Test TPlace)} {n m : Nat}

mutual
theorem XTree.same_iff : ∀ {t u : XTree V}, t.same eq u = true ↔ t.erase.Same eq u.erase
  | .leaf _ k u, .leaf _ k' v => by
    simp only [XTree.same, XTree.erase, Bool.and_eq_true, beq_iff_eq]
    constructor
    · rintro ⟨rfl, h⟩; exact .leaf h
    · intro h; cases h with | leaf h => exact ⟨rfl, h⟩
  | .node _ k a f, .node _ k' b g => by
    simp only [XTree.same, XTree.erase, Bool.and_eq_true, beq_iff_eq]
    constructor
    · rintro ⟨⟨rfl, h⟩, h'⟩; exact .node h (XTree.sameL_iff.mp h')
    · intro h; cases h with | node h h' => exact ⟨⟨rfl, h⟩, XTree.sameL_iff.mpr h'⟩
  | .leaf .., .node .. => by
    simp only [XTree.same, XTree.erase, Bool.false_eq_true, false_iff]
    intro h; cases h
  | .node .., .leaf .. => by
    simp only [XTree.same, XTree.erase, Bool.false_eq_true, false_iff]
    intro h; cases h
theorem XTree.sameL_iff : ∀ {f g : List (XTree V)}, XTree.sameL eq f g = true ↔ (XTree.eraseL f).Same eq (XTree.eraseL g)
  | [], [] => by simp only [XTree.sameL, XTree.eraseL, true_iff]; exact .nil
  | t :: f, u :: g => by
    simp only [XTree.sameL, XTree.eraseL, Bool.and_eq_true]
    constructor
    · rintro ⟨h, h'⟩; exact .cons (XTree.same_iff.mp h) (XTree.sameL_iff.mp h')
    · intro h; cases h with | cons h h' => exact ⟨XTree.same_iff.mpr h, XTree.sameL_iff.mpr h'⟩
  | [], _ :: _ => by
    simp only [XTree.sameL, XTree.eraseL, Bool.false_eq_true, false_iff]
    intro h; cases h
  | _ :: _, [] => by
    simp only [XTree.sameL, XTree.eraseL, Bool.false_eq_true, false_iff]
    intro h; cases h
end

theorem TreeSt.Shows.represents (hr : s.Shows σ own) (hf : s.Fresh) : ∃ own', s.Represents σ.values own' := by
  obtain ⟨α, hM, hS⟩ := hr.mem hf
  rw [hr.count]
  exact ⟨_, hM.represents hS.isS⟩

theorem shows_test (hr : s.Shows σ own) (hf : s.Fresh) (hB : σ.values.Bound C.wrapped n) (b : Test TPlace) :
    (treeActions C eq lt n).test b s = .ok (b.holds σ.at (XTree.same eq) (XTree.less lt) XTree.which) s := by
  obtain ⟨own', hr'⟩ := hr.represents hf
  refine Test.code_run (fun x => ?_) (fun x y u v hx hy => ?_) (fun x y u v hx hy => ?_) (fun x u k hx => ?_) b
  · have := (C73_valid (C := C) hr hf (.assign x x)).1
    simp only [TCmd.valid, TCmd.okay, Bool.and_self] at this
    exact this
  · obtain ⟨b, h1, h2⟩ := C55_equality_result (eq := eq) hr' hf hB (values_of_at hx) (values_of_at hy)
    simp only [treeLooks, h1]
    rw [bool_iff (h2.trans XTree.same_iff.symm)]
  · obtain ⟨b, h1, h2⟩ := C55_less_result (lt := lt) hr' hf hB (values_of_at hx) (values_of_at hy)
    simp only [treeLooks, h1]
    rw [bool_iff (h2.trans (decide_eq_true_iff (p := u.erase.order lt v.erase = .lt)).symm)]
    rfl
  · obtain ⟨l, v, ns, h1, h2, h3⟩ := hr'.read hf (values_of_at hx)
    have hw : v.which = u.which := by rw [h3.which, XTree.erase_which]
    simp only [treeLooks, tWhich, bind, Eff.bind, h1, h2]
    show Res.ok (decide (v.which = k)) s = _
    rw [hw, Res.ok.injEq]
    exact ⟨bool_iff (by simp), rfl⟩

/-- The state of the model shows that of the specification, and its trees are not deeper than `m`. -/
def XTRel (C : TreeCfg V) (m : Nat) (s : TreeSt V) (σ : XTSt V) : Prop :=
  1 ≤ m ∧ ∃ own, s.Shows σ own ∧ s.Fresh ∧ σ.values.Bound C.wrapped m

theorem tree_simulates (hfb : ∀ fb, C.fallback = some fb → C.wrapped fb = false) (eq lt : TyIx → V → V → Bool) (n : Nat) :
    Simulates (treeActions C eq lt n) (xtActions C eq lt) (XTRel C) n (fun c s => c.valid C s && c.hazard C s) where
  mono := by
    rintro m s σ ⟨hm, own, hr, hf, hB⟩
    exact ⟨by omega, own, hr, hf, hB.mono (by omega)⟩
  act := by
    rintro m s σ c ⟨hm, own, hr, hf, hB⟩ hn hz
    obtain ⟨h1, h2⟩ := C73_valid (C := C) hr hf c
    simp only [treeActions, xtActions, ← h1]
    cases hv : c.valid C s with
    | false => exact ⟨rfl, by omega, own, hr, hf, hB.mono (by omega)⟩
    | true =>
      rw [hv, Bool.true_and] at hz
      have h3 := h2 hv
      rw [hz] at h3
      simp only [← h3, if_true, Bool.false_eq_true, if_false]
      have hb := exact_bound hfb hm hB (okay_iff.mp (h1 ▸ hv)) h3.symm
      rcases C73_statement hr hf (hB.mono hn) hv hz with ⟨s', σ', own', e1, e2, e3, e4⟩ | ⟨e, s', σ', own', e1, e2, e3, e4⟩
      · rw [e2] at hb
        rw [e1, e2]
        exact ⟨rfl, by omega, own', e3, e4, hb⟩
      · rw [e2] at hb
        rw [e1, e2]
        exact ⟨rfl, by omega, own', e3, e4, hb⟩
  bad := by
    rintro m s σ c ⟨hm, own, hr, hf, hB⟩ hz
    rw [Bool.and_eq_true] at hz
    obtain ⟨h1, h2⟩ := C73_valid (C := C) hr hf c
    simp only [xtActions, ← h1, ← h2 hz.1, hz.1, hz.2, if_true]
  test := by
    rintro m s σ b ⟨hm, own, hr, hf, hB⟩ hn
    rw [shows_test hr hf (hB.mono hn)]
    exact ⟨rfl, hm, own, hr, hf, hB⟩
  close x := by simp [treeActions, TCmd.hazard]
  same x := rfl
  ends := by
    rintro m s σ x ⟨hm, own, hr, hf, hB⟩ hn
    simp only [treeActions]
    cases hv : (TCmd.destroy x : TCmd V).valid C s with
    | false => exact ⟨s, rfl⟩
    | true =>
      simp only [if_true]
      rcases C73_statement hr hf (hB.mono hn) hv (c := .destroy x) rfl with ⟨s', σ', own', e1, e2, e3, e4⟩ | ⟨e, s', σ', own', e1, e2, e3, e4⟩
      · exact ⟨s', e1⟩
      · cases e2

theorem xtRel_init : XTRel C 1 (TreeSt.init V) (XTSt.init V) :=
  ⟨Nat.le_refl _, fun _ => [], ⟨nofun, fun _ _ => ⟨rfl, rfl⟩, fun _ => .nil, fun _ _ _ h => absurd h List.not_mem_nil, fun _ h => absurd rfl h, rfl, rfl⟩,
    fun _ _ => rfl, nofun⟩

/-- A program on recursive variants, in its first `k` steps, on a stack that is deep enough for these: it never faults, its variables are
finite trees, and if it ends it does so exactly as its meaning says. The condition is that it does not come to a statement that the
library does not support. -/
theorem C74_tree_behaves (hfb : ∀ fb, C.fallback = some fb → C.wrapped fb = false) (k : Nat) (hn : 2 ^ k ≤ n)
    (hz : ∀ j, j < k → ∀ c K i s, psteps (treeActions C eq lt n) inp j (p.start (TreeSt.init V)) = .conf ⟨.run (.act c), K, i, s⟩ →
      c.valid C s = true → c.hazard C s = false) :
    match psteps (treeActions C eq lt n) inp k (p.start (TreeSt.init V)) with
    | .conf c => ∃ σ own, c.st.Shows σ own
    | .done r j s => ∃ σ own, s.Shows σ own ∧ Eval (xtActions C eq lt) inp p 0 (XTSt.init V) r j σ
    | .fault _ => False := by
  have h := (tree_simulates hfb eq lt n).steps (inp := inp) (k := k) (m := 1) (c := .run p) (K := []) (i := 0) xtRel_init (by omega)
  rcases h with ⟨⟨j, c, K, i, w, hj, h1, h2⟩, -⟩ | h
  · rw [Bool.and_eq_true] at h2
    rw [hz j hj c K i w h1 h2.1] at h2
    exact absurd h2.2 (by simp)
  · rw [Prog.start]
    revert h
    cases psteps (treeActions C eq lt n) inp k ⟨.run p, [], 0, TreeSt.init V⟩ with
    | conf c =>
      cases psteps (xtActions C eq lt) inp k ⟨.run p, [], 0, XTSt.init V⟩ with
      | conf d => exact fun ⟨_, _, _, _, own, h, _⟩ => ⟨d.st, own, h⟩
      | done r j u => exact fun h => h.elim
      | fault f => exact fun h => h.elim
    | done r j w =>
      cases hN : psteps (xtActions C eq lt) inp k ⟨.run p, [], 0, XTSt.init V⟩ with
      | conf d => exact fun h => h.elim
      | done r' j' u =>
        rintro ⟨rfl, rfl, -, own, h, -⟩
        exact ⟨u, own, h, eval_iff.mpr ⟨k, hN⟩⟩
      | fault f => exact fun h => h.elim
    | fault f => exact fun h => h.elim

/-- What a program on recursive variants means, it does, on every stack that is deep enough: it ends in this way, with those trees. -/
theorem C74_tree_does (hfb : ∀ fb, C.fallback = some fb → C.wrapped fb = false) {r : Option Exc} {j : Nat} {σ : XTSt V}
    (h : Eval (xtActions C eq lt) inp p 0 (XTSt.init V) r j σ) :
    ∃ k, ∀ n, 2 ^ k ≤ n → ∃ s own, psteps (treeActions C eq lt n) inp k (p.start (TreeSt.init V)) = .done r j s ∧ s.Shows σ own := by
  obtain ⟨k, hk⟩ := Simulates.complete (M := fun n => treeActions C eq lt n) (tree_simulates hfb eq lt) xtRel_init h
  refine ⟨k, fun n hn => ?_⟩
  obtain ⟨s, h1, -, own, h2, -⟩ := hk n hn
  exact ⟨s, own, h1, h2⟩

/-- After a program in which every variable is declared by a scope around the statements that begin it, no variable is alive and the heap
is empty, whether the program ended normally or by an exception. -/
theorem C74_tree_nothing_left (hfb : ∀ fb, C.fallback = some fb → C.wrapped fb = false) (hd : p.Declared TCmd.begins []) {k : Nat} (hn : 2 ^ k ≤ n)
    (hz : ∀ j, j < k → ∀ c K i s, psteps (treeActions C eq lt n) inp j (p.start (TreeSt.init V)) = .conf ⟨.run (.act c), K, i, s⟩ →
      c.valid C s = true → c.hazard C s = false)
    {r : Option Exc} {j : Nat} (h1 : psteps (treeActions C eq lt n) inp k (p.start (TreeSt.init V)) = .done r j s) :
    (∀ x, s.vars x = none) ∧ ∀ q, s.heap q = none := by
  have hb := C74_tree_behaves (eq := eq) (lt := lt) (inp := inp) (p := p) hfb k hn hz
  rw [h1] at hb
  obtain ⟨σ, own, h2, h⟩ := hb
  have hdead : ∀ y, y ∉ [] → XTSt.Dead y σ := by
    refine Eval.declared (dead := XTSt.Dead) (begins := TCmd.begins) ?_ ?_ ?_ h [] hd (fun y _ => rfl)
    · intro c y t hy ht u hu
      simp only [xtActions] at hu
      cases hv : c.okay C t with
      | false => simp only [hv, Bool.false_eq_true, if_false] at hu; rcases hu with hu | ⟨e, hu⟩ <;> cases hu; exact ht
      | true =>
        have hk := keeps_texact (C := C) hy t ht
        simp only [hv, if_true] at hu
        cases hz : c.risky C t with
        | true => simp only [hz, if_true] at hu; rcases hu with hu | ⟨e, hu⟩ <;> cases hu
        | false =>
          simp only [hz, Bool.false_eq_true, if_false] at hu
          rcases hu with hu | ⟨e, hu⟩ <;> (rw [hu] at hk; exact hk)
    · intro b y t ht u hu
      simp only [xtActions] at hu
      rcases hu with ⟨v, hu⟩ | ⟨e, hu⟩ <;> cases hu
      exact ht
    · intro x t u hu
      simp only [xtActions, TCmd.okay, TCmd.risky, TCmd.exact] at hu
      cases hx : (t.vars x).isSome with
      | false =>
        simp only [hx, Bool.false_eq_true, if_false] at hu
        cases hu
        exact ⟨by simpa [XTSt.Dead] using hx, fun y h => h⟩
      | true =>
        simp only [hx, if_true, Bool.false_eq_true, if_false, xtSet, Eff.modify] at hu
        cases hu
        refine ⟨by simp [XTSt.Dead, upd], fun y h => ?_⟩
        unfold XTSt.Dead at h ⊢
        by_cases hy : y = x <;> simp [upd, hy, h]
  refine ⟨fun x => (h2.dead x (hdead x List.not_mem_nil)).1, fun q => ?_⟩
  cases hq : s.heap q with
  | none => rfl
  | some c =>
    obtain ⟨x, hx⟩ := h2.owned q (by rw [hq]; nofun)
    rw [(h2.dead x (hdead x List.not_mem_nil)).2] at hx
    exact absurd hx List.not_mem_nil

end

/-! ### The meaning of a program is unique -/

theorem psteps_done {A B T : Type} {N : Actions A B T} {inp : Nat → Except Exc Bool} {c : CConf A B T} {r : Option Exc} {j : Nat} {t : T} :
    ∀ {k l : Nat}, psteps N inp k c = .done r j t → k ≤ l → psteps N inp l c = .done r j t
  | k + 1, 0, _, hl => absurd hl (by omega)
  | k + 1, l + 1, h, hl => by
    simp only [psteps] at h ⊢
    cases hc : pstep N inp c with
    | conf d => rw [hc] at h; exact psteps_done h (by omega)
    | done r' j' t' => rw [hc] at h; exact h
    | fault f => rw [hc] at h; cases h

/-- There is at most one way in which a program can end. -/
theorem C74_unique {A B T : Type} {N : Actions A B T} {inp : Nat → Except Exc Bool} {p : Prog A B} {t u u' : T} {r r' : Option Exc} {j j' : Nat}
    (h : Eval N inp p 0 t r j u) (h' : Eval N inp p 0 t r' j' u') : r = r' ∧ j = j' ∧ u = u' := by
  obtain ⟨k, hk⟩ := eval_iff.mp h
  obtain ⟨l, hl⟩ := eval_iff.mp h'
  have h1 := psteps_done hk (Nat.le_max_left k l)
  have h2 := psteps_done hl (Nat.le_max_right k l)
  rw [h1] at h2
  cases h2
  exact ⟨rfl, rfl, rfl⟩

/-! ### Concrete cases -/

/-- How a program on trees ended, the trees of some variables and the counters. -/
structure PSeen where
  exc : Option Exc
  asked : Nat
  rows : List (List XRow)
  count : Count
deriving DecidableEq

def CNext.see {A B : Type} (xs : List Nat) : CNext A B (XTSt Nat) → Option PSeen
  | .done r i σ => some ⟨r, i, xs.map σ.see, σ.count⟩
  | _ => none

/-- `V x0 = 5; try { while (input()) { V x1 = node(7, x0, x0); x0 = x1; } } catch (...) { V x2 = x0; }`
`if (x0.which() == 1 && !(x0.child(0) == x0)) throw std::bad_alloc();` where `x0` and `x2` live on. -/
def exGrow : Prog (TCmd Nat) (Test TPlace) :=
  .seq (.act (.leaf 0 0 5))
    (.seq
      (.guarded
        (.loop .input (.scope 1 (.seq (.act (.node 1 1 7 [⟨0, []⟩, ⟨0, []⟩])) (.act (.assign ⟨0, []⟩ ⟨1, []⟩)))))
        (.act (.copy 2 ⟨0, []⟩)))
      (.cond (.test (.and (.is ⟨0, []⟩ 1) (.not (.eq ⟨0, [0]⟩ ⟨0, []⟩)))) (.raise ⟨.badAlloc, 0⟩) .skip))

/-- The same with scopes for all variables. -/
def exGrowScoped : Prog (TCmd Nat) (Test TPlace) := .scope 2 (.scope 0 exGrow)

/-- Twice yes, then no. -/
def exInput : Nat → Except Exc Bool := fun i => .ok (decide (i < 2))

/-- What it means when the operations `bad` fail. -/
def exGrowSee (bad : List Nat) (p : Prog (TCmd Nat) (Test TPlace)) (k : Nat) (xs : List Nat) : Option PSeen :=
  (psteps (xtActions (exTree none bad) (fun _ a b => a == b) (fun _ a b => decide (a < b))) exInput k (p.start (XTSt.init Nat))).see xs

/-- C74: a tree of seven variants is built in two rounds, in forty operations; or the second round fails at operation 20: its local
variable is destroyed, the handler copies what the first round built, and the program throws. -/
example : exGrowSee [] exGrow 60 [0, 1, 2] =
      some ⟨some ⟨.badAlloc, 0⟩, 3, [[⟨false, 1, 7, 2⟩, ⟨false, 1, 7, 2⟩, ⟨false, 0, 5, 0⟩, ⟨false, 0, 5, 0⟩, ⟨false, 1, 7, 2⟩, ⟨false, 0, 5, 0⟩,
        ⟨false, 0, 5, 0⟩], [], []], ⟨40, 10⟩⟩ ∧
    exGrowSee [20] exGrow 60 [0, 1, 2] =
      some ⟨some ⟨.badAlloc, 0⟩, 2, [[⟨false, 1, 7, 2⟩, ⟨false, 0, 5, 0⟩, ⟨false, 0, 5, 0⟩], [],
        [⟨false, 1, 7, 2⟩, ⟨false, 0, 5, 0⟩, ⟨false, 0, 5, 0⟩]], ⟨25, 6⟩⟩ ∧
    exGrowSee [20] exGrowScoped 60 [0, 1, 2] = some ⟨some ⟨.badAlloc, 0⟩, 2, [[], [], []], ⟨25, 6⟩⟩ := by
  decide +kernel

theorem exGrowSee_run {bad : List Nat} {p : Prog (TCmd Nat) (Test TPlace)} {k : Nat} {xs : List Nat} {q : PSeen}
    (h : exGrowSee bad p k xs = some q) : ∃ σ, psteps (xtActions (exTree none bad) (fun _ a b => a == b) (fun _ a b => decide (a < b))) exInput k
      (p.start (XTSt.init Nat)) = .done q.exc q.asked σ ∧ xs.map σ.see = q.rows := by
  revert h
  unfold exGrowSee
  cases psteps (xtActions (exTree none bad) (fun _ a b => a == b) (fun _ a b => decide (a < b))) exInput k (p.start (XTSt.init Nat)) with
  | conf c => intro h; cases h
  | done r i σ => intro h; simp only [CNext.see, Option.some.injEq] at h; subst h; exact ⟨σ, rfl, rfl⟩
  | fault f => intro h; cases h

/-- C74 for the program whose operation 20 fails: on every stack of at least 2^60 frames (the bound that the proof needs) it ends in the
model with that exception, and `x2` is a node with two members. -/
example : ∃ k, ∀ n, 2 ^ k ≤ n → ∃ s p cs, psteps (treeActions (exTree none [20]) (fun _ a b => a == b) (fun _ a b => decide (a < b)) n) exInput k
    (exGrow.start (TreeSt.init Nat)) = .done (some ⟨.badAlloc, 0⟩) 2 s ∧ s.vars 2 = some (.plain 1 (.wrap p)) ∧ s.heap p = some (.node 7 cs) ∧
    cs.length = 2 := by
  obtain ⟨σ, h1, h2⟩ := exGrowSee_run (bad := [20]) (p := exGrow) (k := 60) (xs := [2])
    (q := ⟨some ⟨.badAlloc, 0⟩, 2, [[⟨false, 1, 7, 2⟩, ⟨false, 0, 5, 0⟩, ⟨false, 0, 5, 0⟩]], ⟨25, 6⟩⟩) (by decide +kernel)
  obtain ⟨k, hk⟩ := C74_tree_does (C := exTree none [20]) nofun (eval_iff.mpr ⟨60, h1⟩)
  refine ⟨k, fun n hn => ?_⟩
  obtain ⟨s, own, h3, h4⟩ := hk n hn
  rw [List.map_singleton, List.singleton_inj] at h2
  obtain ⟨p, cs, h5, h6, h7⟩ := XTSt.see_node h4 h2
  exact ⟨s, p, cs, h3, h5, h6, h7⟩

/-- C74: all variables of the second program are declared, it comes to no statement that the library does not support, it ends with an
exception, and then nothing is left. -/
example {n : Nat} (hn : 2 ^ 60 ≤ n) : ∃ s, psteps (treeActions (exTree none [20]) (fun _ a b => a == b) (fun _ a b => decide (a < b)) n) exInput 60
    (exGrowScoped.start (TreeSt.init Nat)) = .done (some ⟨.badAlloc, 0⟩) 2 s ∧ (∀ x, s.vars x = none) ∧ ∀ q, s.heap q = none := by
  obtain ⟨σ, h1, -⟩ := exGrowSee_run (bad := [20]) (p := exGrowScoped) (k := 60) (xs := [])
    (q := ⟨some ⟨.badAlloc, 0⟩, 2, [], ⟨25, 6⟩⟩) (by decide +kernel)
  obtain ⟨hz, s, h2, -⟩ := (tree_simulates (C := exTree none [20]) nofun (fun _ a b => a == b) (fun _ a b => decide (a < b)) n).supported xtRel_init hn h1
  refine ⟨s, h2, C74_tree_nothing_left (C := exTree none [20]) nofun ?_ hn (fun j hj c K i s h hv => ?_) h2⟩
  · simp [exGrowScoped, exGrow, Prog.Declared, TCmd.begins]
  · have := hz j hj c K i s h
    rwa [hv, Bool.true_and] at this

/-- `V x0 = 5; V x1 = 8; while (true) swap(x0, x1);` where nothing asks for backups. -/
def exForever : Prog (Cmd Nat) (Test Nat) :=
  .scope 0 (.scope 1 (.seq (.act (.constructL 0 0 5)) (.seq (.act (.constructL 1 1 8)) (.loop .input (.act (.swap 0 1))))))

/-- C74: where no backups are made, that program is in a good state after any number of steps. -/
example (k : Nat) :
    match psteps (varActions exFall (fun _ a b => a == b) (fun _ a b => decide (a < b))) (fun _ => .ok true) k (exForever.start (World.init Nat)) with
    | .conf c => Good exFall c.st ∧ AllInPlace c.st
    | .done _ _ w => (∀ x, w.vars x = none) ∧ ∀ id, w.objs id = none
    | .fault _ => False := by
  have h := C74_backup_free (eq := fun _ a b => a == b) (lt := fun _ a b => decide (a < b)) (inp := fun _ => .ok true) (p := exForever)
    exFall_sane exFall_backupFree k
  revert h
  cases psteps (varActions exFall (fun _ a b => a == b) (fun _ a b => decide (a < b))) (fun _ => .ok true) k (exForever.start (World.init Nat)) with
  | conf c => exact fun h => h
  | done r j w => exact fun h => h.2.2 (by simp [exForever, Prog.Declared, Cmd.starts])
  | fault f => exact fun h => h

/-- How a program on variants ended, the contents of some variables, the operations and the allocations. -/
structure FSeen where
  exc : Option Exc
  asked : Nat
  rows : List (Option (TyIx × Nat × Bool))
  tick : Nat
  allocs : Nat
deriving DecidableEq

def CNext.look {A B : Type} (xs : List Nat) : CNext A B (XSt Nat) → Option FSeen
  | .done r i σ => some ⟨r, i, xs.map fun x => (σ.vars (.user x)).map fun t => (t.ty, t.val, t.backed), σ.tick, σ.allocs⟩
  | _ => none

/-- `V x0 = A(5); V x1 = B(7); try { x0 = x1; } catch (...) { V x2 = x0; if (x0 == x2 && !(x0.which() == 1)) x0 = B(9); else throw; }`
`while (input()) swap(x0, x1);` where `x2` lives on. -/
def exRetry : Prog (Cmd Nat) (Test Nat) :=
  .seq (.act (.constructC 0 0 5)) (.seq (.act (.constructC 1 1 7))
    (.seq (.guarded (.act (.copyAssign 0 1))
        (.seq (.act (.copyConstruct 2 0))
          (.cond (.test (.and (.eq 0 2) (.not (.is 0 1)))) (.act (.assignC 0 1 9)) (.raise ⟨.badAlloc, 0⟩))))
      (.loop .input (.act (.swap 0 1)))))

/-- What it means. -/
def exRetrySee (p : Prog (Cmd Nat) (Test Nat)) (k : Nat) (xs : List Nat) : Option FSeen :=
  (psteps (xActions exTwo (fun _ a b => a == b) (fun _ a b => decide (a < b))) exInput k (p.start (XSt.init Nat))).look xs

theorem exRetrySee_run {p : Prog (Cmd Nat) (Test Nat)} {k : Nat} {xs : List Nat} {q : FSeen} (h : exRetrySee p k xs = some q) :
    ∃ σ, psteps (xActions exTwo (fun _ a b => a == b) (fun _ a b => decide (a < b))) exInput k (p.start (XSt.init Nat)) = .done q.exc q.asked σ ∧
      (xs.map fun x => (σ.vars (.user x)).map fun t => (t.ty, t.val, t.backed)) = q.rows := by
  revert h
  unfold exRetrySee
  cases psteps (xActions exTwo (fun _ a b => a == b) (fun _ a b => decide (a < b))) exInput k (p.start (XSt.init Nat)) with
  | conf c => intro h; cases h
  | done r i σ => intro h; simp only [CNext.look, Option.some.injEq] at h; subst h; exact ⟨σ, rfl, rfl⟩
  | fault f => intro h; cases h

/-- C74: the assignment fails after the old content has gone to a heap backup; the handler copies it and assigns a value, which gives
the backup up; the two swaps cancel. Thirteen operations, one allocation. With scopes for all three variables, nothing is left. -/
example : exRetrySee exRetry 60 [0, 1, 2] = some ⟨none, 3, [some (1, 9, false), some (1, 7, false), some (0, 5, false)], 13, 1⟩ ∧
    exRetrySee (.scope 0 (.scope 1 (.scope 2 exRetry))) 60 [0, 1, 2] = some ⟨none, 3, [none, none, none], 13, 1⟩ := by
  decide +kernel

/-- C74: the model does the same. -/
example : ∃ k w, psteps (varActions exTwo (fun _ a b => a == b) (fun _ a b => decide (a < b))) exInput k (exRetry.start (World.init Nat)) = .done none 3 w ∧
    Good exTwo w ∧ (w.tagged (.user 0)).map (fun t => (t.ty, t.val, t.backed)) = some (1, 9, false) := by
  obtain ⟨σ, h1, h2⟩ := exRetrySee_run (p := exRetry) (k := 60) (xs := [0]) (q := ⟨none, 3, [some (1, 9, false)], 13, 1⟩) (by decide +kernel)
  obtain ⟨k, w, h3, h4, h5⟩ := C74_does exTwo_sane (eval_iff.mpr ⟨60, h1⟩)
  rw [List.map_singleton, List.singleton_inj] at h2
  subst h5
  exact ⟨k, w, h3, h4, h2⟩

/-- C74: at every one of the first sixty steps it is in a good state or has ended, and nothing is left at the end. -/
example : (∀ k, k ≤ 60 →
      match psteps (varActions exTwo (fun _ a b => a == b) (fun _ a b => decide (a < b))) exInput k
        ((Prog.scope 0 (.scope 1 (.scope 2 exRetry))).start (World.init Nat)) with
      | .conf c => Good exTwo c.st
      | .done _ _ w => Good exTwo w
      | .fault _ => False) ∧
    ∃ w, psteps (varActions exTwo (fun _ a b => a == b) (fun _ a b => decide (a < b))) exInput 60
      ((Prog.scope 0 (.scope 1 (.scope 2 exRetry))).start (World.init Nat)) = .done none 3 w ∧ (∀ x, w.vars x = none) ∧ ∀ i, w.objs i = none := by
  obtain ⟨σ, h1, -⟩ := exRetrySee_run (p := .scope 0 (.scope 1 (.scope 2 exRetry))) (k := 60) (xs := []) (q := ⟨none, 3, [], 13, 1⟩) (by decide +kernel)
  obtain ⟨hz, w, h2, -⟩ := (var_simulates exTwo_sane (fun _ a b => a == b) (fun _ a b => decide (a < b)) _).supported
    (⟨good_init, view_init⟩ : XRel exTwo 1 (World.init Nat) (XSt.init Nat)) (Nat.le_refl _) h1
  have hz' : ∀ j, j < 60 → ∀ c K i w, psteps (varActions exTwo (fun _ a b => a == b) (fun _ a b => decide (a < b))) exInput j
      ((Prog.scope 0 (.scope 1 (.scope 2 exRetry))).start (World.init Nat)) = .conf ⟨.run (.act c), K, i, w⟩ →
      c.valid exTwo w = true → c.readsBackup w = false := by
    intro j hj c K i w h hv
    have := hz j hj c K i w h
    rwa [hv, Bool.true_and] at this
  refine ⟨fun k hk => ?_, w, h2, C74_nothing_left exTwo_sane ?_ hz' h2⟩
  · have h := C74_behaves exTwo_sane k (fun j hj => hz' j (by omega))
    revert h
    cases psteps (varActions exTwo (fun _ a b => a == b) (fun _ a b => decide (a < b))) exInput k
        ((Prog.scope 0 (.scope 1 (.scope 2 exRetry))).start (World.init Nat)) with
    | conf c => exact fun h => h
    | done r j w => exact fun h => h.1
    | fault f => exact fun h => h
  · simp [exRetry, Prog.Declared, Cmd.starts]

/-- C74, uniqueness: that program cannot end otherwise. -/
example {r : Option Exc} {j : Nat} {σ : XSt Nat}
    (h : Eval (xActions exTwo (fun _ a b => a == b) (fun _ a b => decide (a < b))) exInput exRetry 0 (XSt.init Nat) r j σ) : r = none ∧ j = 3 := by
  obtain ⟨σ', h1, -⟩ := exRetrySee_run (p := exRetry) (k := 60) (xs := []) (q := ⟨none, 3, [], 13, 1⟩) (by decide +kernel)
  obtain ⟨h2, h3, -⟩ := C74_unique h (eval_iff.mpr ⟨60, h1⟩)
  exact ⟨h2, h3⟩

/-- C74: the tree program shows trees at each of its sixty steps. -/
example {n : Nat} (hn : 2 ^ 60 ≤ n) (k : Nat) (hk : k ≤ 60) :
    match psteps (treeActions (exTree none [20]) (fun _ a b => a == b) (fun _ a b => decide (a < b)) n) exInput k (exGrow.start (TreeSt.init Nat)) with
    | .conf c => ∃ σ own, c.st.Shows σ own
    | .done _ _ s => ∃ σ own, s.Shows σ own
    | .fault _ => False := by
  obtain ⟨σ, h1, -⟩ := exGrowSee_run (bad := [20]) (p := exGrow) (k := 60) (xs := []) (q := ⟨some ⟨.badAlloc, 0⟩, 2, [], ⟨25, 6⟩⟩) (by decide +kernel)
  obtain ⟨hz, -⟩ := (tree_simulates (C := exTree none [20]) nofun (fun _ a b => a == b) (fun _ a b => decide (a < b)) n).supported xtRel_init hn h1
  have h := C74_tree_behaves (C := exTree none [20]) (eq := fun _ a b => a == b) (lt := fun _ a b => decide (a < b)) (inp := exInput) (p := exGrow) (n := n)
    nofun k (Nat.le_trans (Nat.pow_le_pow_right (by omega) hk) hn) (fun j hj c K i s h hv => by
      have := hz j (by omega) c K i s h
      rwa [hv, Bool.true_and] at this)
  revert h
  cases psteps (treeActions (exTree none [20]) (fun _ a b => a == b) (fun _ a b => decide (a < b)) n) exInput k (exGrow.start (TreeSt.init Nat)) with
  | conf c => exact fun h => h
  | done r j s => exact fun ⟨σ, own, h, _⟩ => ⟨σ, own, h⟩
  | fault f => exact fun h => h

end BVariant
