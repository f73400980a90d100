/-
C76 for programs with control flow: branches, loops, exceptions with handlers and local variables over variants of several types, with
conversions between them.
-/
import Verif.Props.Control
import Verif.Props.ExactMixed
import Verif.Spec.ControlMixed

namespace BVariant

section
variable {V : Type} {D : Decls V} {ρ : Nat → Nat} {eq lt : Nat → TyIx → V → V → Bool} {inp : Nat → Except Exc Bool} {w : World V} {y : Nat}
  {p : Prog (MixCmd V) (Test Nat)}

theorem GoodMix.of_view (hg : GoodMix D.K ρ w) {x : Nat} {t : Tag V} (h : w.view.vars (.user x) = some t) :
    ∃ s i, Owns (D.K (ρ x)) w (.user x) s i t.ty t.val := by
  have h : w.tagged (.user x) = some t := h
  cases hs : w.vars (.user x) with
  | none => rw [tagged_none hs] at h; cases h
  | some s =>
    obtain ⟨i, k, v, ho⟩ := hg.owns hs
    rw [ho.tagged] at h
    cases h
    exact ⟨s, i, ho⟩

theorem GoodMix.view_none (hg : GoodMix D.K ρ w) {x : Nat} : w.view.vars (.user x) = none ↔ w.vars (.user x) = none := by
  refine ⟨fun h => ?_, tagged_none⟩
  cases hs : w.vars (.user x) with
  | none => rfl
  | some s =>
    obtain ⟨i, k, v, ho⟩ := hg.owns hs
    have h : w.tagged (.user x) = none := h
    rw [ho.tagged] at h
    cases h

theorem view_test_mix (hg : GoodMix D.K ρ w) (b : Test Nat) :
    (mixActions D ρ eq lt).test b w = .ok (b.holds (w.view.typed ρ) (Tag.sameMix eq) (Tag.lessMix lt) (fun u => u.2.ty)) w := by
  have key : ∀ {x : Nat} {u : Nat × Tag V}, w.view.typed ρ x = some u → u.1 = ρ x ∧ ∃ s i, Owns (D.K (ρ x)) w (.user x) s i u.2.ty u.2.val := by
    intro x u h
    simp only [XSt.typed, Option.map_eq_some_iff] at h
    obtain ⟨t, h, rfl⟩ := h
    exact ⟨rfl, hg.of_view h⟩
  refine Test.code_run (fun x => ?_) (fun x y u v hx hy => ?_) (fun x y u v hx hy => ?_) (fun x u k hx => ?_) b
  · have h := hg.view_none (x := x)
    simp only [XSt.typed, Option.isSome_map]
    show (w.vars (.user x)).isSome = (w.view.vars (.user x)).isSome
    cases h2 : w.view.vars (.user x) <;> cases h3 : w.vars (.user x) <;> simp_all
  · obtain ⟨e1, _, _, h1⟩ := key hx
    obtain ⟨e2, _, _, h2⟩ := key hy
    simp only [mixLooks, Tag.sameMix, e1, e2]
    by_cases he : ρ x = ρ y
    · rw [← he] at h2
      simp only [he, if_true, beq_self_eq_true, Bool.true_and]
      rw [he] at h1 h2
      simp only [M.eff, opEq_owns h1 h2, Tag.same]
      by_cases h : u.2.ty = v.2.ty <;> simp [h]
    · rw [if_neg he, beq_eq_false_iff_ne.mpr he]; rfl
  · obtain ⟨e1, _, _, h1⟩ := key hx
    obtain ⟨e2, _, _, h2⟩ := key hy
    simp only [mixLooks, Tag.lessMix, e1, e2]
    by_cases he : ρ x = ρ y
    · rw [← he] at h2
      simp only [he, if_true, beq_self_eq_true, Bool.true_and]
      rw [he] at h1 h2
      simp only [M.eff, opLt_owns h1 h2, Tag.less]
    · rw [if_neg he, beq_eq_false_iff_ne.mpr he]; rfl
  · obtain ⟨_, _, _, h1⟩ := key hx
    simp only [mixLooks, bind, Eff.bind, M.eff, h1.which_eq]
    show Res.ok (decide ((u.2.ty : Int) = (k : Int))) w = _
    rw [Res.ok.injEq]
    exact ⟨bool_iff (by simp [Int.natCast_inj]), rfl⟩

/-- The state of the model shows that of the specification. -/
def XMRel (D : Decls V) (ρ : Nat → Nat) (_ : Nat) (w : World V) (σ : XSt V) : Prop := GoodMix D.K ρ w ∧ w.view = σ

theorem mix_simulates (hs : ∀ vt, Sane (D.K vt)) (hD : D.Fits) (eq lt : Nat → TyIx → V → V → Bool) (n : Nat) :
    Simulates (mixActions D ρ eq lt) (xmActions D ρ eq lt) (XMRel D ρ) n (fun c w => c.valid D ρ w && c.readsBackup w) where
  mono h := h
  act := by
    rintro m w _ c ⟨hg, rfl⟩ - hz
    simp only [mixActions, xmActions, valid_view_mix hg]
    cases hv : c.valid D ρ w with
    | false => exact ⟨rfl, hg, rfl⟩
    | true =>
      rw [hv, Bool.true_and] at hz
      have h1 := C76_statement hs hD hg c hv hz
      simp only [hazard_view_mix hg c hv, hz, if_true, Bool.false_eq_true, if_false, M.eff]
      rcases C01_statement_with_conversions_partial hs hD hg c hv hz with ⟨a, w', hm, hg', _⟩ | ⟨e, w', hm, hg', _⟩
      · rw [hm] at h1 ⊢
        simp only at h1
        rw [h1]
        exact ⟨rfl, hg', rfl⟩
      · rw [hm] at h1 ⊢
        simp only at h1
        rw [h1]
        exact ⟨rfl, hg', rfl⟩
  bad := by
    rintro m w _ c ⟨hg, rfl⟩ hz
    rw [Bool.and_eq_true] at hz
    simp only [xmActions, valid_view_mix hg, hazard_view_mix hg c hz.1, hz.1, hz.2, if_true]
  test := by
    rintro m w _ b ⟨hg, rfl⟩ -
    rw [view_test_mix hg]
    exact ⟨rfl, hg, rfl⟩
  close x := by simp [mixActions, MixCmd.readsBackup, Cmd.readsBackup]
  same x := rfl
  ends := by
    rintro m w _ x ⟨hg, rfl⟩ -
    simp only [mixActions]
    cases hv : (MixCmd.on (ρ x) (.destroy x) : MixCmd V).valid D ρ w with
    | false => exact ⟨w, rfl⟩
    | true =>
      have h1 := C76_statement hs hD hg (.on (ρ x) (.destroy x)) hv rfl
      simp only [if_true, M.eff]
      revert h1
      cases (MixCmd.on (ρ x) (.destroy x) : MixCmd V).code D ρ w with
      | ok a w' => exact fun _ => ⟨w', rfl⟩
      | exc e w' => exact fun h => by cases h
      | fault f => exact fun h => h.elim

/-- A program on variants of several types, in its first `k` steps: it never faults, its state is a good one, and if it ends it does so
exactly as its meaning says. The condition is that it does not come to a statement that finding F1 concerns. -/
theorem C76_behaves (hs : ∀ vt, Sane (D.K vt)) (hD : D.Fits) (k : Nat)
    (hz : ∀ j, j < k → ∀ c K i w, psteps (mixActions D ρ eq lt) inp j (p.start (World.init V)) = .conf ⟨.run (.act c), K, i, w⟩ →
      c.valid D ρ w = true → c.readsBackup w = false) :
    match psteps (mixActions D ρ eq lt) inp k (p.start (World.init V)) with
    | .conf c => GoodMix D.K ρ c.st
    | .done r j w => GoodMix D.K ρ w ∧ Eval (xmActions D ρ eq lt) inp p 0 (XSt.init V) r j w.view
    | .fault _ => False := by
  have h := (mix_simulates hs hD eq lt (1 * 2 ^ k)).steps (inp := inp) (k := k) (m := 1) (c := .run p) (K := []) (i := 0)
    (⟨goodMix_init, view_init⟩ : XMRel D ρ 1 (World.init V) (XSt.init V)) (Nat.le_refl _)
  rcases h with ⟨⟨j, c, K, i, w, hj, h1, h2⟩, -⟩ | h
  · rw [Bool.and_eq_true] at h2
    rw [hz j hj c K i w h1 h2.1] at h2
    exact absurd h2.2 (by simp)
  · rw [Prog.start]
    revert h
    cases psteps (mixActions D ρ eq lt) inp k ⟨.run p, [], 0, World.init V⟩ with
    | conf c =>
      cases psteps (xmActions D ρ eq lt) inp k ⟨.run p, [], 0, XSt.init V⟩ with
      | conf d => exact fun h => h.2.2.2.1
      | done r j u => exact fun h => h.elim
      | fault f => exact fun h => h.elim
    | done r j w =>
      cases hN : psteps (xmActions D ρ eq lt) inp k ⟨.run p, [], 0, XSt.init V⟩ with
      | conf d => exact fun h => h.elim
      | done r' j' u =>
        rintro ⟨rfl, rfl, hg, rfl⟩
        exact ⟨hg, eval_iff.mpr ⟨k, hN⟩⟩
      | fault f => exact fun h => h.elim
    | fault f => exact fun h => h.elim

/-- What such a program means, it does: it ends in this way, in that state. -/
theorem C76_does (hs : ∀ vt, Sane (D.K vt)) (hD : D.Fits) {r : Option Exc} {j : Nat} {σ : XSt V}
    (h : Eval (xmActions D ρ eq lt) inp p 0 (XSt.init V) r j σ) :
    ∃ k w, psteps (mixActions D ρ eq lt) inp k (p.start (World.init V)) = .done r j w ∧ GoodMix D.K ρ w ∧ w.view = σ := by
  obtain ⟨k, hk⟩ := Simulates.complete (M := fun _ => mixActions D ρ eq lt) (mix_simulates hs hD eq lt)
    (⟨goodMix_init, view_init⟩ : XMRel D ρ 1 (World.init V) (XSt.init V)) h
  obtain ⟨w, h1, h2⟩ := hk _ (Nat.le_refl _)
  exact ⟨k, w, h1, h2⟩

/-! ### Programs in which all variables are declared -/

theorem keeps_xReturn {z : Nat} {b : Tag V} (h : VarId.user z ≠ .user y) : Stays (XSt.Dead y) (xReturn (.user z) b) :=
  .bind keeps_xGet fun _ => keeps_xPut (.inl h)

theorem keeps_xFrom {F : Foreign} {cv : ConvVal V} {z : Nat} {lent : Bool → Eff (XSt V) Unit} {conv : TyIx → V → Eff (XSt V) Unit}
    (h : VarId.user z ≠ .user y) (h1 : ∀ rv, Stays (XSt.Dead y) (lent rv)) (h2 : ∀ k v, Stays (XSt.Dead y) (conv k v)) :
    Stays (XSt.Dead y) (xFrom F cv (.user z) lent conv) := by
  refine .bind keeps_xGet fun b => ?_
  cases F.overload b.ty with
  | none => exact fun s _ => trivial
  | some o =>
    refine .ite ?_ (.ite ?_ (h2 _ _))
    · exact .bind (keeps_xPut (.inl h)) fun _ => .bind (.onExc (h1 _) (keeps_xReturn h)) fun _ => keeps_xReturn h
    · intro s hs
      have := h2 o.index (cv.value b.ty o.index b.val) s hs
      revert this
      unfold xUseUp
      cases conv o.index (cv.value b.ty o.index b.val) s with
      | ok a s' =>
        intro hd
        show upd s'.vars _ _ _ = none
        rw [upd, if_neg (Ne.symm h)]
        exact hd
      | exc e s' =>
        intro hd
        show upd s'.vars _ _ _ = none
        rw [upd, if_neg (Ne.symm h)]
        exact hd
      | fault f => exact fun h => h

theorem keeps_xTake {C : Cfg V} {t : VarId} {z : Nat} {rv : Bool} (ht : t ≠ .user y) (h : VarId.user z ≠ .user y) :
    Stays (XSt.Dead y) (xTake C t (.user z) rv) := by
  unfold xTake
  exact .ite (keeps_xMoveConstruct ht h) (keeps_xCopyConstruct ht)

/-- A valid statement begins only the variables it declares. -/
theorem keeps_exact_mix {c : MixCmd V} {σ : XSt V} (hv : c.exactValid D ρ σ = true) (hy : σ.Dead y) (h : y ∉ c.starts) :
    Stays (XSt.Dead y) (c.exact D ρ) := by
  have ne : ∀ z, (σ.vars (.user z)).isSome = true → VarId.user z ≠ .user y := fun z hz e => by
    cases e
    rw [XSt.Dead] at hy
    rw [hy] at hz
    cases hz
  have ne' : ∀ z, y ∉ [z] → VarId.user z ≠ .user y := fun z hz e => hz (by cases e; exact List.mem_cons_self)
  cases c <;> simp only [MixCmd.exactValid, Bool.and_eq_true] at hv <;> unfold MixCmd.exact
  case on vt c => exact keeps_exact hv.2 hy h
  case constructFrom rv const x z =>
    exact keeps_xFrom (ne _ hv.1.1.1.1.2) (fun _ => keeps_xTake (ne' _ h) (ne _ hv.1.1.1.1.2)) (fun _ _ => keeps_xConvert (ne' _ h))
  case assignFrom rv const x z =>
    exact keeps_xFrom (ne _ hv.1.1.1.1.2)
      (fun _ => .bind (keeps_xTake nofun (ne _ hv.1.1.1.1.2)) fun _ => keeps_xWithLocal (keeps_xMoveAssign (ne _ hv.1.1.1.1.1) nofun))
      (fun _ _ => keeps_xAssignValue (ne _ hv.1.1.1.1.1))

/-- After such a program in which every variable is declared by a scope around the statements that begin it, no variable is alive and
there is no object left, whether the program ended normally or by an exception. -/
theorem C76_nothing_left (hs : ∀ vt, Sane (D.K vt)) (hD : D.Fits) (hd : p.Declared MixCmd.starts []) {k : Nat}
    (hz : ∀ j, j < k → ∀ c K i w, psteps (mixActions D ρ eq lt) inp j (p.start (World.init V)) = .conf ⟨.run (.act c), K, i, w⟩ →
      c.valid D ρ w = true → c.readsBackup w = false)
    {r : Option Exc} {j : Nat} (h1 : psteps (mixActions D ρ eq lt) inp k (p.start (World.init V)) = .done r j w) :
    (∀ x, w.vars x = none) ∧ ∀ id, w.objs id = none := by
  have hb := C76_behaves (eq := eq) (lt := lt) (inp := inp) (p := p) hs hD k hz
  rw [h1] at hb
  obtain ⟨hg, h⟩ := hb
  have hdead : ∀ y, y ∉ [] → XSt.Dead y w.view := by
    refine Eval.declared (dead := XSt.Dead) (begins := MixCmd.starts) ?_ ?_ ?_ h [] hd (fun y _ => rfl)
    · intro c y t hy ht u hu
      simp only [xmActions] at hu
      cases hv : c.exactValid D ρ t with
      | false => simp only [hv, Bool.false_eq_true, if_false] at hu; rcases hu with hu | ⟨e, hu⟩ <;> cases hu; exact ht
      | true =>
        have hk := keeps_exact_mix hv ht hy t ht
        simp only [hv, if_true] at hu
        cases hz : c.exactHazard t with
        | true => simp only [hz, if_true] at hu; rcases hu with hu | ⟨e, hu⟩ <;> cases hu
        | false =>
          simp only [hz, Bool.false_eq_true, if_false] at hu
          rcases hu with hu | ⟨e, hu⟩ <;> (rw [hu] at hk; exact hk)
    · intro b y t ht u hu
      simp only [xmActions] at hu
      rcases hu with ⟨v, hu⟩ | ⟨e, hu⟩ <;> cases hu
      exact ht
    · intro x t u hu
      simp only [xmActions, MixCmd.exactValid, MixCmd.exactHazard, MixCmd.exact, Cmd.names, List.all_cons, List.all_nil, beq_self_eq_true,
        Bool.and_true, Bool.true_and, Cmd.exactValid, Cmd.exactHazard, Cmd.exact] at hu
      cases hx : (t.vars (.user x)).isSome with
      | false =>
        simp only [hx, Bool.false_eq_true, if_false] at hu
        cases hu
        exact ⟨by simpa [XSt.Dead] using hx, fun y h => h⟩
      | true =>
        simp only [hx, if_true, Bool.false_eq_true, if_false, xPut, Eff.modify] at hu
        cases hu
        refine ⟨by simp [XSt.Dead, upd], fun y h => ?_⟩
        unfold XSt.Dead at h ⊢
        by_cases hy : VarId.user y = .user x <;> simp [upd, hy, h]
  have hv : ∀ x, w.vars (.user x) = none := fun x => hg.view_none.mp (hdead x List.not_mem_nil)
  refine ⟨fun x => ?_, fun id => ?_⟩
  · cases x with
    | user n => exact hv n
    | tmp n => exact hg.noTmp n
  · cases ho : w.objs id with
    | none => rfl
    | some p =>
      obtain ⟨x, t, hx, -⟩ := hg.noLeak id (by rw [ho]; simp)
      rw [hv x] at hx
      cases hx

end

/-! ### Non-vacuity -/

/-- `V x0 = A(5); V x1 = B(7); try { x0 = x1; } catch (...) { W x4 = move(x0); }` `try { while (input()) x4 = x1; } catch (...) {}`
`if (x4.which() == 2 && !(x4 == x0)) throw bad_alloc();` where `V` and `W` are different variant types, so that the last comparison is
not made. -/
def exAcross : Prog (MixCmd Nat) (Test Nat) :=
  .seq (.act (.on 0 (.constructC 0 0 5))) (.seq (.act (.on 0 (.constructC 1 1 7)))
    (.seq (.guarded (.act (.on 0 (.copyAssign 0 1))) (.act (.constructFrom true false 4 0)))
      (.seq (.guarded (.loop .input (.act (.assignFrom false false 4 1))) .skip)
        (.cond (.test (.and (.is 4 2) (.not (.eq 4 0)))) (.raise ⟨.badAlloc, 0⟩) .skip))))

/-- What it means. -/
def exAcrossSee (p : Prog (MixCmd Nat) (Test Nat)) (k : Nat) (xs : List Nat) : Option FSeen :=
  (psteps (xmActions exDecls exMixR (fun _ _ a b => a == b) (fun _ _ a b => decide (a < b))) exInput k (p.start (XSt.init Nat))).look xs

theorem exAcrossSee_run {p : Prog (MixCmd Nat) (Test Nat)} {k : Nat} {xs : List Nat} {q : FSeen} (h : exAcrossSee p k xs = some q) :
    ∃ σ, psteps (xmActions exDecls exMixR (fun _ _ a b => a == b) (fun _ _ a b => decide (a < b))) exInput k (p.start (XSt.init Nat)) =
        .done q.exc q.asked σ ∧
      (xs.map fun x => (σ.vars (.user x)).map fun t => (t.ty, t.val, t.backed)) = q.rows := by
  revert h
  unfold exAcrossSee
  cases psteps (xmActions exDecls exMixR (fun _ _ a b => a == b) (fun _ _ a b => decide (a < b))) exInput k (p.start (XSt.init Nat)) with
  | conf c => intro h; cases h
  | done r i σ => intro h; simp only [CNext.look, Option.some.injEq] at h; subst h; exact ⟨σ, rfl, rfl⟩
  | fault f => intro h; cases h

/-- C76: the assignment fails after the old content has gone to a heap backup; the handler moves it to a variant of the other type; of the
two assignments in the loop the second fails; the condition holds and the program throws. With scopes for all variables nothing is left. -/
example : exAcrossSee exAcross 60 [0, 1, 4] =
      some ⟨some ⟨.badAlloc, 0⟩, 2, [some (0, 0, true), some (1, 7, false), some (2, 7, false)], 12, 1⟩ ∧
    exAcrossSee (.scope 0 (.scope 1 (.scope 4 exAcross))) 60 [0, 1, 4] = some ⟨some ⟨.badAlloc, 0⟩, 2, [none, none, none], 12, 1⟩ := by
  decide +kernel

/-- C76: the model does the same. -/
example : ∃ k w, psteps (mixActions exDecls exMixR (fun _ _ a b => a == b) (fun _ _ a b => decide (a < b))) exInput k (exAcross.start (World.init Nat)) =
      .done (some ⟨.badAlloc, 0⟩) 2 w ∧ GoodMix exDecls.K exMixR w ∧
    (w.tagged (.user 4)).map (fun t => (t.ty, t.val, t.backed)) = some (2, 7, false) := by
  obtain ⟨σ, h1, h2⟩ := exAcrossSee_run (p := exAcross) (k := 60) (xs := [4])
    (q := ⟨some ⟨.badAlloc, 0⟩, 2, [some (2, 7, false)], 12, 1⟩) (by decide +kernel)
  obtain ⟨k, w, h3, h4, h5⟩ := C76_does exConvK_sane exDecls_fits (eval_iff.mpr ⟨60, h1⟩)
  rw [List.map_singleton, List.singleton_inj] at h2
  subst h5
  exact ⟨k, w, h3, h4, h2⟩

/-- C76: with scopes for all variables, the model too leaves nothing. -/
example : ∃ w, psteps (mixActions exDecls exMixR (fun _ _ a b => a == b) (fun _ _ a b => decide (a < b))) exInput 60
      ((Prog.scope 0 (.scope 1 (.scope 4 exAcross))).start (World.init Nat)) = .done (some ⟨.badAlloc, 0⟩) 2 w ∧
    (∀ x, w.vars x = none) ∧ ∀ id, w.objs id = none := by
  obtain ⟨σ, h1, -⟩ := exAcrossSee_run (p := .scope 0 (.scope 1 (.scope 4 exAcross))) (k := 60) (xs := [])
    (q := ⟨some ⟨.badAlloc, 0⟩, 2, [], 12, 1⟩) (by decide +kernel)
  obtain ⟨hz, w, h2, -⟩ := (mix_simulates (ρ := exMixR) exConvK_sane exDecls_fits (fun _ _ a b => a == b) (fun _ _ a b => decide (a < b)) (2 ^ 60)).supported
    (⟨goodMix_init, view_init⟩ : XMRel exDecls exMixR 1 (World.init Nat) (XSt.init Nat)) (Nat.le_refl _) h1
  refine ⟨w, h2, C76_nothing_left exConvK_sane exDecls_fits ?_ (fun j hj c K i s h hv => ?_) h2⟩
  · simp [exAcross, Prog.Declared, MixCmd.starts, Cmd.starts]
  · have := hz j hj c K i s h
    rwa [hv, Bool.true_and] at this

/-! ### Instances -/

/-- Is the statement executed at step `j` other than one that reads a variant in its backup (finding F1)? -/
def exAcrossQuiet (p : Prog (MixCmd Nat) (Test Nat)) (j : Nat) : Bool :=
  match psteps (mixActions exDecls exMixR (fun _ _ a b => a == b) (fun _ _ a b => decide (a < b))) exInput j (p.start (World.init Nat)) with
  | .conf ⟨.run (.act c), _, _, w⟩ => !(c.valid exDecls exMixR w) || !(c.readsBackup w)
  | _ => true

/-- C76: `exAcross` meets the hypotheses of `C76_behaves`. -/
example := C76_behaves (eq := fun _ _ a b => a == b) (lt := fun _ _ a b => decide (a < b)) (inp := exInput) (p := exAcross) (ρ := exMixR)
  exConvK_sane exDecls_fits 60 (fun j hj c K i w h hv => by
    have hq : ∀ j < 60, exAcrossQuiet exAcross j = true := by decide +kernel
    have := hq j hj
    simp only [exAcrossQuiet, h, hv, Bool.not_true, Bool.false_or, Bool.not_eq_true'] at this
    exact this)

end BVariant
