/-
C76: what programs with variables of several variant types, and conversions between them, do, exactly.
-/
import Verif.Lemmas.ExactMixed
import Verif.Props.MixedConvert

set_option linter.unusedSimpArgs false

namespace BVariant

section
variable {V : Type} {D : Decls V} {ρ : Nat → Nat} {w w' : World V} {x y : Nat} {sy : VarSt} {id : ObjId} {j : TyIx} {v : V} {F : Foreign}
  {cv : ConvVal V} {o : Overload}

theorem GoodMix.setVal_view {K : Nat → Cfg V} (hg : GoodMix K ρ w) (hy : Owns (K (ρ y)) w (.user y) sy id j v) (u : V) :
    (setVal j id u w).view = { w.view with vars := upd w.view.vars (.user y) (some ⟨j, u, sy.backed⟩) } := by
  simp only [World.view, setVal, XSt.mk.injEq, and_true]
  funext z
  by_cases hz : z = .user y
  · subst hz
    simp only [World.tagged, hy.var, Option.bind_some, hy.rep.contentId, upd_same, Option.map_some, VarSt.backed]
  · rw [upd_ne _ _ hz]
    refine unchanged_tagged ⟨rfl, fun s i hs hi => upd_ne _ _ ?_⟩
    rintro rfl
    cases z with
    | tmp n => rw [hg.noTmp n] at hs; cases hs
    | user n =>
      have := hg.inj n y s sy i hs hy.var hi hy.rep.contentId
      subst this
      exact hz rfl

/-- A conversion shows what the specification says if both ways of making it do. -/
theorem shows_from {K : Nat → Cfg V} {C' : Cfg V} {use : Src V → M V Unit} {lent : Bool → Eff (XSt V) Unit} {conv : TyIx → V → Eff (XSt V) Unit}
    (hy : Owns C' w (.user y) sy id j v) (hC : C' = K (ρ y)) (ho : F.overload j = some o)
    (hB : Shows (asBounded j o.index id (use (if o.param.rv then .rref o.index id true else .lref o.index id true)))
      (xLend (.user y) ⟨j, v, sy.backed⟩ o.index (lent o.param.rv)) w)
    (hV : Shows (use (.conv o.index (cv.value j o.index v))) (conv o.index (cv.value j o.index v)) w)
    (hK : Ends (use (.conv o.index (cv.value j o.index v))) w (fun _ w' => GoodMix K ρ w' ∧ Unchanged w w' (.user y))
      (fun _ w' => GoodMix K ρ w' ∧ Unchanged w w' (.user y))) :
    Shows (fromVariable C' F cv (.user y) use) (xFrom F cv (.user y) lent conv) w := by
  subst hC
  have hr : readAs j id w = .ok v w := by simp only [readAs, hy.obj, if_true]
  have hX : xGet (.user y) w.view = .ok ⟨j, v, sy.backed⟩ w.view := by simp only [xGet, World.view, hy.tagged]
  unfold Shows
  rw [fromVariable]
  simp only [xFrom, bind, M.bind, Eff.bind, visit_content hy, hr, hX, ho]
  cases hbd : F.bound j o with
  | true =>
    simp only [if_true]
    exact hB
  | false =>
    simp only [Bool.false_eq_true, if_false, convertingFrom]
    have own : ∀ w', GoodMix K ρ w' ∧ Unchanged w w' (.user y) → Owns (K (ρ y)) w' (.user y) sy id j v := by
      rintro w' ⟨-, h1, h2⟩
      exact ⟨h1.trans hy.var, hy.rep, (h2 sy id hy.var hy.rep.contentId).trans hy.obj⟩
    unfold Shows at hV
    rcases hK with ⟨_, w', e1, e2⟩ | ⟨e, w', e1, e2⟩
    · rw [e1] at hV ⊢
      cases F.rv with
      | true => simp only [if_true, xUseUp, hV, e2.1.setVal_view (own w' e2)]
      | false => simp only [Bool.false_eq_true, if_false, hV]
    · rw [e1] at hV ⊢
      cases F.rv with
      | true => simp only [if_true, xUseUp, hV, e2.1.setVal_view (own w' e2)]
      | false => simp only [Bool.false_eq_true, if_false, hV]

/-- A variable from lent content. -/
theorem ref_take {C : Cfg V} {T : List (ObjId × TyIx)} {x y : VarId} {s : VarSt} {k : TyIx} (hw : Inv C T w) (hx : w.vars x = none) (hy : Owns C w y s id k v) (rv : Bool) :
    Conforms C T (convertConstruct C x (if rv then .rref k id true else .lref k id true)) (xTake C x y rv) w := by
  have h := ref_constructGet hw hx hy rv
  unfold Conforms at h ⊢
  rw [wp_applyVisitor C hy.var hy.rep hy.obj] at h
  cases rv <;> exact h

/-- The same, for an assignment. -/
theorem ref_assignTake {C : Cfg V} {T : List (ObjId × TyIx)} {l y : VarId} {s sl : VarSt} {k kl : TyIx} {idl : ObjId} {vl : V} (hs : Sane C) (hw : Inv C T w)
    (hl : Owns C w l sl idl kl vl) (hy : Owns C w y s id k v) (hne : l ≠ .tmp 0) (hly : l ≠ y) (htn : w.vars (.tmp 0) = none) (rv : Bool) :
    Conforms C T (assignValue C l (if rv then .rref k id true else .lref k id true))
      (do xTake C (.tmp 0) y rv; xWithLocal (.tmp 0) (xMoveAssign C l (.tmp 0))) w := by
  have h := ref_take (x := .tmp 0) hw htn hy rv
  unfold Conforms
  simp only [assignValue, wp_bind, directAssign]
  rw [wp_applyVisitor C hl.var hl.rep hl.obj]
  cases rv with
  | false =>
    simp only [Bool.false_eq_true, if_false, false_and, reduceCtorEq, wp_pure] at h ⊢
    exact ref_viaTmp hs h fun σ' hσ => xCopyConstruct_ok hne hl.tagged hy.tagged hσ
  | true =>
    simp only [Bool.false_eq_true, if_true, if_false, false_and, reduceCtorEq, wp_pure] at h ⊢
    exact ref_viaTmp hs h fun σ' hσ => (xMoveConstruct_ok hne hly hl.tagged hy.tagged hσ).2

/-- C76: from any good state, a valid statement that finding F1 does not concern does exactly what the specification says, also if it is a conversion from a
variable of another variant type: it ends in the same way, throws the same exception at the same operation, leaves the same content in every variable, and makes
the same number of operations and allocations. -/
theorem C76_statement (hs : ∀ vt, Sane (D.K vt)) (hD : D.Fits) (hg : GoodMix D.K ρ w) (c : MixCmd V) (hv : c.valid D ρ w = true)
    (hz : c.readsBackup w = false) :
    match c.code D ρ w with
    | .ok _ w' => c.exact D ρ w.view = .ok () w'.view
    | .exc e w' => c.exact D ρ w.view = .exc e w'.view
    | .fault _ => False := by
  have htn : ∀ (vt : Nat) (n : Nat), ¬ ∃ m, VarId.tmp n = .user m ∧ ρ m ≠ vt := by rintro vt n ⟨m, hm, -⟩; cases hm
  cases c with
  | on vt c =>
    simp only [MixCmd.valid, Bool.and_eq_true, List.all_eq_true, beq_iff_eq] at hv
    exact shows_on (hs vt) hg hv.1 hv.2 hz
  | constructFrom rv const x y =>
    simp only [MixCmd.valid, Bool.and_eq_true, Option.isNone_iff_eq_none, decide_eq_true_eq] at hv
    obtain ⟨⟨⟨⟨⟨h1, h2⟩, hne⟩, -⟩, h3⟩, h4⟩ := hv
    obtain ⟨s, id, j, v, hyo⟩ := hg.alive_owns h2
    obtain ⟨o, ho⟩ := hg.overload_of_valid hD hyo.holds' h3 h4
    have hk := hD.index_lt ho
    have hxy : x ≠ y := fun e => hne (by rw [e])
    have hqx : ¬ ∃ n, VarId.user x = .user n ∧ ρ n ≠ ρ x := by rintro ⟨n, hn, hn'⟩; cases hn; exact hn' rfl
    have hux : VarId.user x ≠ .user y := fun e => by cases e; exact hxy rfl
    have hxn : (w.only ρ (ρ x)).vars (.user x) = none := (GoodMix.only_var w rfl).trans h1
    have hc := shows_on (K := D.K) (hs (ρ x)) hg (c := .constructC x o.index ((D.cv (ρ y) (ρ x)).value j o.index v))
      (by simp [Cmd.names]) (by simp [Cmd.valid, h1, hk]) rfl
    refine shows_from (use := convertConstruct (D.K (ρ x)) (.user x)) (conv := xConvert (D.K (ρ x)) (.user x) .other) (cv := D.cv (ρ y) (ρ x)) hyo rfl ho ?_ hc ?_
    · refine shows_lent hg hyo hne hk (framed_convertConstruct hqx _) (framed_convertConstruct (Q := fun z => z = .user y) hux _) (X1 := xConvert (D.K (ρ x)) (.user x) (if o.param.rv then .rvalue else .lvalue) o.index v) ?_
        (ref_take (hg.joined_inv hyo hne hk) ((upd_ne _ _ hux).trans hxn) (GoodMix.joined_owns hk) _) ?_
      · have hxn' : (w.lone ρ (ρ x) id o.index v).vars (.user x) = none := hxn
        cases o.param.rv with
        | true => exact ref_convertR (hg.lone_inv hyo hne) hxn' hk (List.mem_singleton.mpr rfl) (upd_same _ _ _) true
        | false => exact ref_convertL (hg.lone_inv hyo hne) hxn' hk (upd_same _ _ _) true
      · exact .ite (.moveConstruct (.inl rfl) (.inr rfl)) (.copyConstruct (.inl rfl) (.inr rfl))
    · have hE := C01_statement_several_types_partial (K := D.K) (hs (ρ x)) hg (c := .constructC x o.index ((D.cv (ρ y) (ρ x)).value j o.index v))
        (by simp [Cmd.names]) (by simp [Cmd.valid, h1, hk]) rfl
      have hym : y ∉ (Cmd.constructC x o.index ((D.cv (ρ y) (ρ x)).value j o.index v)).names := by simp [Cmd.names, hxy.symm]
      rcases hE with ⟨a, w', e1, e2, e3⟩ | ⟨e, w', e1, e2, e3, -⟩
      · exact .inl ⟨a, w', e1, e2, e3 y hym⟩
      · exact .inr ⟨e, w', e1, e2, e3 y hym⟩
  | assignFrom rv const x y =>
    simp only [MixCmd.valid, Bool.and_eq_true, decide_eq_true_eq] at hv
    obtain ⟨⟨⟨⟨⟨h1, h2⟩, hne⟩, -⟩, h3⟩, h4⟩ := hv
    obtain ⟨s, id, j, v, hyo⟩ := hg.alive_owns h2
    obtain ⟨sx, ix, kx, vx, hxo⟩ := hg.alive_owns h1
    obtain ⟨o, ho⟩ := hg.overload_of_valid hD hyo.holds' h3 h4
    have hk := hD.index_lt ho
    have hxy : x ≠ y := fun e => hne (by rw [e])
    have hux : VarId.user x ≠ .user y := fun e => by cases e; exact hxy rfl
    have hxs : (w.only ρ (ρ x)).vars (.user x) = some sx := (GoodMix.only_var w rfl).trans hxo.var
    obtain ⟨i1, k1, v1, o1⟩ := (hg.lone_inv (vt := ρ x) (k := o.index) hyo hne).rep (.user x) sx hxs
    obtain ⟨i2, k2, v2, o2⟩ := (hg.joined_inv (vt := ρ x) (k := o.index) hyo hne hk).rep (.user x) sx ((upd_ne _ _ hux).trans hxs)
    have hc := shows_on (K := D.K) (hs (ρ x)) hg (c := .assignC x o.index ((D.cv (ρ y) (ρ x)).value j o.index v))
      (by simp [Cmd.names]) (by simp [Cmd.valid, h1, hk]) rfl
    have htj : (w.joined ρ (ρ x) y id o.index v).vars (.tmp 0) = none :=
      (upd_ne (w.only ρ (ρ x)).vars (some ⟨(o.index : Int), .obj id⟩) (show VarId.tmp 0 ≠ .user y by simp)).trans (hg.noTmp 0)
    have hgoal : ∀ {X}, Shows ((MixCmd.assignFrom rv const x y : MixCmd V).code D ρ) X w → X = (MixCmd.assignFrom rv const x y : MixCmd V).exact D ρ →
        Shows ((MixCmd.assignFrom rv const x y : MixCmd V).code D ρ) ((MixCmd.assignFrom rv const x y : MixCmd V).exact D ρ) w := fun h e => e ▸ h
    refine hgoal (shows_from (lent := fun rv => do
        xTake (D.K (ρ x)) (.tmp 0) (.user y) rv
        xWithLocal (.tmp 0) (xMoveAssign (D.K (ρ x)) (.user x) (.tmp 0))) (use := assignValue (D.K (ρ x)) (.user x)) (conv := xAssignValue (D.K (ρ x)) (.user x) .other false) (cv := D.cv (ρ y) (ρ x)) hyo rfl ho ?_ hc ?_) rfl
    · refine shows_lent hg hyo hne hk (framed_assignValue (htn _) _ _) (framed_assignValue (fun n h => by cases h) _ _)
        (X1 := xAssignValue (D.K (ρ x)) (.user x) (if o.param.rv then .rvalue else .lvalue) (!true) o.index v) ?_
        (ref_assignTake (hs _) (hg.joined_inv hyo hne hk) o2 (GoodMix.joined_owns hk) (by simp) hux
          htj _) ?_
      · cases o.param.rv with
        | true => exact ref_assignR (hs _) (hg.lone_inv hyo hne) o1 (by simp) (hg.noTmp 0) hk (List.mem_singleton.mpr rfl) (upd_same _ _ _) true
        | false => exact ref_assignL (hs _) (hg.lone_inv hyo hne) o1 (by simp) (hg.noTmp 0) hk (upd_same _ _ _) true
      · exact .bind (.ite (.moveConstruct (.inl trivial) (.inr rfl)) (.copyConstruct (.inl trivial) (.inr rfl))) fun _ =>
          .withLocal (.inl trivial) (.moveAssign (.inl rfl) (.inl trivial))
    · have hE := C01_statement_several_types_partial (K := D.K) (hs (ρ x)) hg (c := .assignC x o.index ((D.cv (ρ y) (ρ x)).value j o.index v))
        (by simp [Cmd.names]) (by simp [Cmd.valid, h1, hk]) rfl
      have hym : y ∉ (Cmd.assignC x o.index ((D.cv (ρ y) (ρ x)).value j o.index v)).names := by simp [Cmd.names, hxy.symm]
      rcases hE with ⟨a, w', e1, e2, e3⟩ | ⟨e, w', e1, e2, e3, -⟩
      · exact .inl ⟨a, w', e1, e2, e3 y hym⟩
      · exact .inr ⟨e, w', e1, e2, e3 y hym⟩

/-- The specification and the model agree on which statements are valid. -/
theorem valid_view_mix (hg : GoodMix D.K ρ w) (c : MixCmd V) : c.exactValid D ρ w.view = c.valid D ρ w := by
  have h : ∀ x, w.tagged (.user x) = none ↔ w.vars (.user x) = none := by
    intro x
    constructor
    · intro h
      cases hs : w.vars (.user x) with
      | none => rfl
      | some s =>
        obtain ⟨i, k, v, ho⟩ := hg.owns hs
        rw [ho.tagged] at h
        cases h
    · exact tagged_none
  have h1 : ∀ x, (w.view.vars (.user x)).isSome = (w.vars (.user x)).isSome := fun x => by
    have : w.view.vars (.user x) = none ↔ _ := h x
    cases h2 : w.view.vars (.user x) <;> cases h3 : w.vars (.user x) <;> simp_all
  have h2 : ∀ x, (w.view.vars (.user x)).isNone = (w.vars (.user x)).isNone := fun x => by
    have : w.view.vars (.user x) = none ↔ _ := h x
    cases h2 : w.view.vars (.user x) <;> cases h3 : w.vars (.user x) <;> simp_all
  cases c with
  | on vt c =>
    simp only [MixCmd.exactValid, MixCmd.valid]
    congr 1
    cases c <;> simp only [Cmd.exactValid, Cmd.valid, h1, h2]
  | _ => simp only [MixCmd.exactValid, MixCmd.valid, h1, h2]

/-- They agree on which statements finding F1 concerns. -/
theorem hazard_view_mix (hg : GoodMix D.K ρ w) (c : MixCmd V) (hv : c.valid D ρ w = true) : c.exactHazard w.view = c.readsBackup w := by
  cases c with
  | on vt c =>
    simp only [MixCmd.valid, Bool.and_eq_true, List.all_eq_true, beq_iff_eq] at hv
    have h1 := hazard_view (hg.only vt) c
    rw [hg.readsBackup_only c hv.1] at h1
    simp only [MixCmd.exactHazard, MixCmd.readsBackup]
    rw [← h1]
    have hn := hv.1
    have ht : ∀ z, ρ z = vt → w.view.vars (.user z) = (w.only ρ vt).view.vars (.user z) := fun z hz => (hg.only_tagged (.user z) hz).symm
    cases c <;> simp only [Cmd.names, List.mem_cons, List.not_mem_nil, or_false, forall_eq_or_imp, forall_eq] at hn <;>
      simp only [Cmd.exactHazard] <;> simp only [ht _ hn.1, ht _ hn.2]
  | _ => rfl

theorem exactRunConv_run (hs : ∀ vt, Sane (D.K vt)) (hD : D.Fits) (p : List (MixCmd V)) (hg : GoodMix D.K ρ w) :
    match exactRunConv D ρ p w.view with
    | some (σ, es) => avoidsBackupReadsConv D ρ p w = true ∧ thrownConv D ρ p w = es ∧ ∃ w', runConv D ρ p w = some w' ∧ w'.view = σ
    | none => avoidsBackupReadsConv D ρ p w = false := by
  induction p generalizing w with
  | nil => exact ⟨rfl, rfl, w, rfl, rfl⟩
  | cons c p ih =>
    simp only [exactRunConv, avoidsBackupReadsConv, thrownConv, runConv, valid_view_mix hg]
    cases hv : c.valid D ρ w with
    | false =>
      simp only [Bool.false_eq_true, if_false]
      have := ih hg
      revert this
      cases exactRunConv D ρ p w.view with
      | none => exact fun h => h
      | some q => exact fun ⟨h1, h2, h3⟩ => ⟨h1, by rw [h2], h3⟩
    | true =>
      rw [hazard_view_mix hg c hv]
      cases hz : c.readsBackup w with
      | true => simp only [if_true, Bool.not_true, Bool.false_and]
      | false =>
        simp only [if_true, Bool.false_eq_true, if_false, Bool.not_false, Bool.true_and]
        have h1 := C76_statement hs hD hg c hv hz
        rcases C01_statement_with_conversions_partial hs hD hg c hv hz with ⟨a, w', hm, hg', _⟩ | ⟨e, w', hm, hg', _⟩
        · rw [hm] at h1
          simp only [hm, h1]
          have := ih hg'
          revert this
          cases exactRunConv D ρ p w'.view with
          | none => exact fun h => h
          | some q => exact fun ⟨h1, h2, h3⟩ => ⟨h1, by rw [h2], h3⟩
        · rw [hm] at h1
          simp only [hm, h1]
          have := ih hg'
          revert this
          cases exactRunConv D ρ p w'.view with
          | none => exact fun h => h
          | some q => exact fun ⟨h1, h2, h3⟩ => ⟨h1, by rw [h2], h3⟩

/-- C76: any program with variables of any number of variant types and conversions between them does exactly what the specification says, statement by
statement, unless it meets finding F1, which the specification predicts too. -/
theorem C76_program (hs : ∀ vt, Sane (D.K vt)) (hD : D.Fits) (p : List (MixCmd V)) :
    match exactRunConv D ρ p (XSt.init V) with
    | some (σ, es) => avoidsBackupReadsConv D ρ p (World.init V) = true ∧ thrownConv D ρ p (World.init V) = es ∧
        ∃ w', runConv D ρ p (World.init V) = some w' ∧ w'.view = σ
    | none => avoidsBackupReadsConv D ρ p (World.init V) = false := by
  rw [← view_init]
  exact exactRunConv_run hs hD p goodMix_init

end

/-! ### Non-vacuity -/

/-- What is seen of a run: what the statements threw, and the variables, operations and allocations at the end. -/
structure CSeen where
  excs : List (Option Exc)
  rows : List (Option (TyIx × Nat × Bool))
  tick : Nat
  allocs : Nat
  deriving DecidableEq

/-- What the specification says about `exConvProg`. -/
def exConvSays : Option CSeen :=
  (exactRunConv exDecls exMixR exConvProg (XSt.init Nat)).map fun p =>
    ⟨p.2, [0, 1, 2, 3, 4].map fun x => (p.1.vars (.user x)).map fun t => (t.ty, t.val, t.backed), p.1.tick, p.1.allocs⟩

/-- C76: variable 0 is moved out of its heap backup into variable 4, of the other type; the conversion of variable 1 to variable 3 throws from the move
constructor of the type it is converted to, and variable 3 holds the fallback type; and so on. -/
example : thrownConv exDecls exMixR exConvProg (World.init Nat) =
      [none, none, some ⟨.copyCtor 1, 6⟩, none, none, some ⟨.copyCtor 1, 11⟩, none, none, some ⟨.moveCtor 2, 15⟩, none, none, none] ∧
    ∃ w, runConv exDecls exMixR exConvProg (World.init Nat) = some w ∧
      [0, 1, 2, 3, 4].map (fun x => (w.tagged (.user x)).map fun t => (t.ty, t.val, t.backed)) =
        [some (0, 0, true), some (1, 7, false), some (2, 7, false), some (0, 999, false), some (1, 0, false)] ∧ w.tick = 21 ∧ w.allocs = 1 := by
  have h := C76_program (ρ := exMixR) exConvK_sane exDecls_fits exConvProg
  have he : exConvSays = some ⟨[none, none, some ⟨.copyCtor 1, 6⟩, none, none, some ⟨.copyCtor 1, 11⟩, none, none, some ⟨.moveCtor 2, 15⟩, none, none, none],
    [some (0, 0, true), some (1, 7, false), some (2, 7, false), some (0, 999, false), some (1, 0, false)], 21, 1⟩ := by decide +kernel
  unfold exConvSays at he
  revert h he
  cases exactRunConv exDecls exMixR exConvProg (XSt.init Nat) with
  | none => intro _ he; cases he
  | some q =>
    rintro ⟨-, h2, w, h3, h4⟩ he
    simp only [Option.map_some, Option.some.injEq, CSeen.mk.injEq] at he
    rw [← h4] at he
    exact ⟨by rw [h2]; exact he.1, w, h3, he.2.1, he.2.2⟩

/-- C76 for the statement that fails, and for the one that moves out of the heap backup. -/
example := C76_statement exConvK_sane exDecls_fits (exConv_good 8 (by decide +kernel)) (.assignFrom false true 3 1) (by decide +kernel) (by decide +kernel)
example := C76_statement exConvK_sane exDecls_fits (exConv_good 7 (by decide +kernel)) (.constructFrom true false 4 0) (by decide +kernel) (by decide +kernel)

end BVariant
