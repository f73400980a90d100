/-
C40 and C01 for programs: conversions between variables of different variant types, in any program.
-/
import Verif.Lemmas.MixedConvert

namespace BVariant

section
variable {V : Type} {D : Decls V} {ρ : Nat → Nat} {w : World V} {x y : Nat} {rv const : Bool} {j kx : TyIx} {v vx : V} {o : Overload}

theorem Decls.Fits.index_lt (hD : D.Fits) (ho : (D.between ρ rv const x y).overload j = some o) : o.index < (D.K (ρ x)).n := by
  obtain ⟨e, -, hr⟩ := overload_spec ho
  obtain ⟨e', h1, -⟩ := mem_initializerOverloads.mp (List.mem_filter.mp (List.mem_of_find?_eq_some hr)).1
  rw [hD (ρ x)]
  exact (List.getElem?_eq_some_iff.mp h1).1

theorem Owns.holds' {C : Cfg V} {s : VarSt} {id : ObjId} (h : Owns C w (.user x) s id j v) : w.holds x j v := by
  rw [World.holds, content_of h.var h.rep.contentId, h.obj]

/-- C40 in programs, construction: constructing `x` from a variable `y` of another variant type, whatever other variables of whatever
types there are. If it returns, `x` holds, in its own storage, an object of the bounded type selected for the content of `y`, with the
value that construction from that content has. If it throws, `x` is not alive, and the exception is one of an operation
of the elements. In both cases `y` is where it was and as moved from at most; all other variables are exactly as they were; no
memory is allocated; and the invariant of all variables holds. -/
theorem C40_in_programs_construction (hD : D.Fits) (hg : GoodMix D.K ρ w) (hy : w.holds y j v)
    (ho : (D.between ρ rv const x y).overload j = some o) (hx : w.vars (.user x) = none) :
    Ends ((MixCmd.constructFrom rv const x y).code D ρ) w
      (fun _ w' => GoodMix D.K ρ w' ∧ Rest w w' [x, y] ∧ w'.allocs = w.allocs ∧
        BuiltInPlace w w' x o.index
          (((D.between ρ rv const x y).asElement j o).built (D.K (ρ x)) o.index ((D.between ρ rv const x y).asValue (D.cv (ρ y) (ρ x)) j o v)) ∧
        w'.vars (.user y) = w.vars (.user y) ∧
        ∃ q, w'.holds y j q ∧ (D.between ρ rv const x y).Left (D.K (ρ x)) (D.cv (ρ y) (ρ x)) j o v none q)
      (fun e w' => GoodMix D.K ρ w' ∧ Rest w w' [x, y] ∧ w'.allocs = w.allocs ∧ w'.vars (.user x) = none ∧ Thrown (D.K (ρ x)) w w' e ∧
        w'.vars (.user y) = w.vars (.user y) ∧
        ∃ q, w'.holds y j q ∧ (D.between ρ rv const x y).Left (D.K (ρ x)) (D.cv (ρ y) (ρ x)) j o v (some e) q) := by
  obtain ⟨sy, id, hyo⟩ := hg.holds hy
  have hyx : y ≠ x := fun e => by rw [← e, hyo.var] at hx; cases hx
  have hlt := hg.toFresh.lt hyo.obj
  refine wp_elim (wp_mono (wp_constructFrom hg.toFresh hyo ho (hD.index_lt ho)) ?_ ?_)
  · rintro _ w' ⟨q, id', hq, hid', ha, hc⟩
    have hvars : ∀ z, z ≠ x → w'.vars (.user z) = w.vars (.user z) := fun z hz => by rw [hc.vars]; simp [hz]
    refine ⟨hc.goodMix hg hx (SameTypes.setAt hyo.obj q), fun z hz => ?_, ha,
      ⟨id', hg.fresh id' hid', by rw [World.inPlace, hc.vars, if_pos rfl], hc.obj⟩, hvars y hyx, q, ?_, hq⟩
    · simp only [List.mem_cons, List.not_mem_nil, or_false, not_or] at hz
      refine ⟨hvars z hz.1, fun s i hs hi => ?_⟩
      rw [hc.keep i (hg.lt_next hs hi), hg.unchanged_upd hyo hz.2 hs hi]
    · rw [World.holds, content_of ((hvars y hyx).trans hyo.var) hyo.rep.contentId, hc.keep id hlt, upd_same]
  · rintro e w' ⟨q, hq, hth, hv, hs, ha, hn, hob⟩
    refine ⟨hg.revalue (SameTypes.setAt hyo.obj q) hv hob hn hs, fun z hz => ?_, ha, by rw [hv]; exact hx, hth, by rw [hv], q, ?_, hq⟩
    · simp only [List.mem_cons, List.not_mem_nil, or_false, not_or] at hz
      refine ⟨by rw [hv], fun s i hs hi => ?_⟩
      rw [hob, hg.unchanged_upd hyo hz.2 hs hi]
    · rw [World.holds, content_of (by rw [hv]; exact hyo.var) hyo.rep.contentId, hob, upd_same]

/-- C40 in programs, assignment: assigning a variable `y` of another variant type to `x`. A value `b` is built from the content of `y` as in
construction. If the assignment returns, then `x` holds the bounded type selected for the content of `y`: if `x` held that type in its own
storage, in the object it held before, with the value that move assignment of `b` gives; else in a new object in its own
storage with a value built from `b`. If it throws, `x` holds what it held, or the fallback, or what a move assignment that threw leaves.
In both cases `y` is where it was and as moved from at most; all other variables are exactly as they were; and the invariant
of all variables holds. -/
theorem C40_in_programs_assignment (hs : Sane (D.K (ρ x))) (hD : D.Fits) (hg : GoodMix D.K ρ w) (hy : w.holds y j v) (hx : w.holds x kx vx)
    (hyx : y ≠ x) (ho : (D.between ρ rv const x y).overload j = some o) {b : V}
    (hb : b = ((D.between ρ rv const x y).asContent j o).built (D.K (ρ x)) o.index ((D.between ρ rv const x y).asValue (D.cv (ρ y) (ρ x)) j o v)) :
    Ends ((MixCmd.assignFrom rv const x y).code D ρ) w
      (fun _ w' => GoodMix D.K ρ w' ∧ Rest w w' [x, y] ∧
        (kx = o.index → w.backedUp x = false →
          w'.vars (.user x) = w.vars (.user x) ∧ w'.holds x o.index ((D.K (ρ x)).ops.moveAssign o.index vx b)) ∧
        (kx ≠ o.index ∨ w.backedUp x = true → BuiltInPlace w w' x o.index (moveAssignVal (D.K (ρ x)) o.index b)) ∧
        w'.vars (.user y) = w.vars (.user y) ∧
        ∃ q, w'.holds y j q ∧ (D.between ρ rv const x y).Left (D.K (ρ x)) (D.cv (ρ y) (ρ x)) j o v none q)
      (fun e w' => GoodMix D.K ρ w' ∧ Rest w w' [x, y] ∧ Thrown (D.K (ρ x)) w w' e ∧
        (∃ k' v', w'.holds x k' v' ∧ ((k' = kx ∧ Restored (D.K (ρ x)) kx vx v') ∨
          (k' = kx ∧ kx = o.index ∧ w.backedUp x = false ∧ v' = (D.K (ρ x)).ops.moveAssignFail kx vx b) ∨
          ((D.K (ρ x)).fallback = some k' ∧ v' = (D.K (ρ x)).ops.defaultInit k'))) ∧
        w'.vars (.user y) = w.vars (.user y) ∧
        ∃ q, w'.holds y j q ∧ (D.between ρ rv const x y).Left (D.K (ρ x)) (D.cv (ρ y) (ρ x)) j o v (some e) q) := by
  obtain ⟨sy, id, hyo⟩ := hg.holds hy
  obtain ⟨sx, ix, hxo⟩ := hg.holds hx
  have hne := hg.apart hxo hyo hyx
  have hlt := hg.toFresh.lt hyo.obj
  have hb' : ((D.between ρ rv const x y).asElement j o).built (D.K (ρ x)) o.index ((D.between ρ rv const x y).asValue (D.cv (ρ y) (ρ x)) j o v) = b := by
    rw [hb]
    simp only [Foreign.asElement, Foreign.asContent]
    split
    · split <;> rfl
    · rfl
  have hwhich : sx.which_ = (o.index : Int) ↔ kx = o.index ∧ w.backedUp x = false := by
    rw [World.backedUp, hxo.var]
    have := hxo.rep
    cases this with
    | inPlace =>
      simp only [decide_eq_false_iff_not]
      omega
    | inBackup =>
      simp only [decide_eq_false_iff_not]
      omega
  have hrest : ∀ {w' : World V} {q : V} {s' : VarSt} {id' k' : Nat} {v' : V},
      Replace (D.K (ρ x)) w w' (upd w.objs id (some (j, q))) (.user x) ix s' id' k' v' →
      Rest w w' [x, y] ∧ w'.vars (.user y) = w.vars (.user y) ∧ w'.holds y j q ∧ w'.holds x k' v' := by
    intro w' q s' id' k' v' hr
    have hvars : ∀ z, z ≠ x → w'.vars (.user z) = w.vars (.user z) := fun z hz => by rw [hr.vars]; simp [hz]
    refine ⟨fun z hz => ?_, hvars y hyx, ?_, ?_⟩
    · simp only [List.mem_cons, List.not_mem_nil, or_false, not_or] at hz
      refine ⟨hvars z hz.1, fun s i hs hi => ?_⟩
      have hi' : i ≠ ix := fun e => hz.1 (hg.inj z x s sx i hs hxo.var hi (e ▸ hxo.rep.contentId))
      rw [hr.keep i (hg.lt_next hs hi) hi', hg.unchanged_upd hyo hz.2 hs hi]
    · rw [World.holds, content_of ((hvars y hyx).trans hyo.var) hyo.rep.contentId, hr.keep id hlt hne, upd_same]
    · rw [World.holds, content_of (by rw [hr.vars, if_pos rfl]) hr.rep.contentId, hr.obj]
  refine wp_elim (wp_mono (wp_assignFrom hs hg.toFresh hyo hxo hne ho (hD.index_lt ho) (by simp) (hg.noTmp 0)) ?_ ?_)
  · rintro _ w' ⟨q, s', id', v', hq, hr, hres⟩
    rw [hb'] at hres
    obtain ⟨h1, h2, h3, h4⟩ := hrest hr
    refine ⟨hr.goodMix hg hxo (SameTypes.setAt hyo.obj q), h1, fun e hbk => ?_, fun h => ?_, h2, q, h3, hq⟩
    · rcases hres with ⟨hw, -, rfl, rfl, rfl⟩ | ⟨hw, -⟩
      · exact ⟨by rw [hr.vars, if_pos rfl, hxo.var], h4⟩
      · exact absurd (hwhich.mpr ⟨e, hbk⟩) hw
    · rcases hres with ⟨hw, -⟩ | ⟨hw, rfl, hid', rfl⟩
      · obtain ⟨e, hbk⟩ := hwhich.mp hw
        rcases h with h | h
        · exact absurd e h
        · rw [hbk] at h; cases h
      · exact ⟨id', hg.fresh id' hid', by rw [World.inPlace, hr.vars, if_pos rfl], hr.obj⟩
  · rintro e w' ⟨q, s', id', k', v', hq, hth, hr, hres⟩
    rw [hb'] at hres
    obtain ⟨h1, h2, h3, h4⟩ := hrest hr
    refine ⟨hr.goodMix hg hxo (SameTypes.setAt hyo.obj q), h1, hth, ⟨k', v', h4, ?_⟩, h2, q, h3, hq⟩
    rcases hres with ⟨hw, -, -, rfl, rfl⟩ | ⟨hl, -⟩
    · obtain ⟨e, hbk⟩ := hwhich.mp hw
      exact .inr (.inl ⟨rfl, e, hbk, rfl⟩)
    · cases hl with
      | same => exact .inl ⟨rfl, .inl rfl⟩
      | restored => exact .inl ⟨rfl, .inr (.inl rfl)⟩
      | backup => exact .inl ⟨rfl, .inr (.inr rfl)⟩
      | fallback fb _ _ h => exact .inr (.inr ⟨h, rfl⟩)

/-- For every content of `y` the conversion has an overload, if the statement compiles. -/
theorem GoodMix.overload_of_valid (hD : D.Fits) (hg : GoodMix D.K ρ w) (hy : w.holds y j v)
    (hf : (D.between ρ rv const x y).isForeign = true) (hw : (D.between ρ rv const x y).wellFormed = true) :
    ∃ o, (D.between ρ rv const x y).overload j = some o := by
  rw [Foreign.wellFormed, hf, if_pos rfl, Bool.and_eq_true, List.all_eq_true] at hw
  obtain ⟨s, i, ho⟩ := hg.holds hy
  have h1 := ho.rep.lt
  rw [hD (ρ y)] at h1
  exact Option.isSome_iff_exists.mp (hw.2 j (List.mem_range.mpr h1))

/-- C01, C13 and C14 for programs with conversions: every statement returns or throws, outside the findings; it keeps the
invariant of all the variables, and changes none that it does not name. -/
theorem C01_statement_with_conversions_partial (hs : ∀ vt, Sane (D.K vt)) (hD : D.Fits) (hg : GoodMix D.K ρ w) (c : MixCmd V)
    (hv : c.valid D ρ w = true) (hz : c.readsBackup w = false) :
    Ends (c.code D ρ) w (fun _ w' => GoodMix D.K ρ w' ∧ Rest w w' c.names) (fun _ w' => GoodMix D.K ρ w' ∧ Rest w w' c.names) := by
  cases c with
  | on vt c =>
    simp only [MixCmd.valid, Bool.and_eq_true, List.all_eq_true, beq_iff_eq] at hv
    rcases C01_statement_several_types_partial (hs vt) hg hv.1 hv.2 hz with ⟨a, w', h1, h2, h3⟩ | ⟨e, w', h1, h2, h3, -⟩
    · exact .inl ⟨a, w', h1, h2, h3⟩
    · exact .inr ⟨e, w', h1, h2, h3⟩
  | constructFrom rv const x y =>
    simp only [MixCmd.valid, Bool.and_eq_true, Option.isNone_iff_eq_none] at hv
    obtain ⟨⟨⟨⟨⟨h1, h2⟩, -⟩, -⟩, h3⟩, h4⟩ := hv
    obtain ⟨s, id, j, v, hyo⟩ := hg.alive_owns h2
    obtain ⟨o, ho⟩ := hg.overload_of_valid hD hyo.holds' h3 h4
    rcases C40_in_programs_construction hD hg hyo.holds' ho h1 with ⟨a, w', e1, e2, e3, -⟩ | ⟨e, w', e1, e2, e3, -⟩
    · exact .inl ⟨a, w', e1, e2, e3⟩
    · exact .inr ⟨e, w', e1, e2, e3⟩
  | assignFrom rv const x y =>
    simp only [MixCmd.valid, Bool.and_eq_true, decide_eq_true_eq] at hv
    obtain ⟨⟨⟨⟨⟨h1, h2⟩, hne⟩, -⟩, h3⟩, h4⟩ := hv
    obtain ⟨s, id, j, v, hyo⟩ := hg.alive_owns h2
    obtain ⟨sx, ix, kx, vx, hxo⟩ := hg.alive_owns h1
    obtain ⟨o, ho⟩ := hg.overload_of_valid hD hyo.holds' h3 h4
    rcases C40_in_programs_assignment (hs _) hD hg hyo.holds' hxo.holds' (fun e => hne (by rw [e])) ho rfl with
      ⟨a, w', e1, e2, e3, -⟩ | ⟨e, w', e1, e2, e3, -⟩
    · exact .inl ⟨a, w', e1, e2, e3⟩
    · exact .inr ⟨e, w', e1, e2, e3⟩

theorem runConv_good (hs : ∀ vt, Sane (D.K vt)) (hD : D.Fits) (cs : List (MixCmd V)) (w : World V) (hg : GoodMix D.K ρ w)
    (ha : avoidsBackupReadsConv D ρ cs w = true) : ∃ w', runConv D ρ cs w = some w' ∧ GoodMix D.K ρ w' := by
  induction cs generalizing w with
  | nil => exact ⟨w, rfl, hg⟩
  | cons c cs ih =>
    simp only [runConv]
    simp only [avoidsBackupReadsConv] at ha
    by_cases hv : c.valid D ρ w = true
    · rw [if_pos hv] at ha ⊢
      simp only [Bool.and_eq_true, Bool.not_eq_true'] at ha
      rcases C01_statement_with_conversions_partial hs hD hg c hv ha.1 with ⟨a, w', hm, hg', _⟩ | ⟨e, w', hm, hg', _⟩
      · rw [hm] at ha ⊢; exact ih w' hg' ha.2
      · rw [hm] at ha ⊢; exact ih w' hg' ha.2
    · rw [if_neg hv] at ha ⊢; exact ih w hg ha

/-- C01 and C13 (scope as there): every program with variables of any number of variant types, and conversions between them, runs to its
end, outside the findings, and then every variable is non-empty for its type, and the live objects are exactly the contents
of the variables, none shared. -/
theorem C01_with_conversions_partial (hs : ∀ vt, Sane (D.K vt)) (hD : D.Fits) (cs : List (MixCmd V))
    (ha : avoidsBackupReadsConv D ρ cs (World.init V) = true) :
    ∃ w, runConv D ρ cs (World.init V) = some w ∧ Owned w ∧ ∀ x, w.vars (.user x) ≠ none → NonEmpty (D.K (ρ x)) w (.user x) := by
  obtain ⟨w, hw, hg⟩ := runConv_good hs hD cs (World.init V) goodMix_init ha
  exact ⟨w, hw, hg.owned, fun x hx => hg.nonEmpty hx⟩

end

/-! ### Examples -/

/-- The two variant types of `exMixK`, where the operation number 15 throws, too. -/
def exConvK (vt : Nat) : Cfg Nat := exCfg (if vt = 0 then [tThrowing, tThrowing] else [tInt, tThrowing, tThrowing]) [6, 11, 15]

theorem exConvK_sane (vt : Nat) : Sane (exConvK vt) := by
  have h := exMixK_sane vt
  exact ⟨h.blank, h.copyMove, h.fallback⟩

/-- They are `variant<class 3, recursive_wrapper<class 4> >` and `variant<class 5, class 3, recursive_wrapper<class 4> >`. -/
def exDecls : Decls Nat where
  K := exConvK
  L := exLang
  cls vt := if vt = 0 then ⟨20, [.val (tyN 3), .wrapped (tyN 4)]⟩ else ⟨21, [.val (tyN 5), .val (tyN 3), .wrapped (tyN 4)]⟩
  cv _ _ := exConv

theorem exDecls_fits : exDecls.Fits := by
  intro vt
  unfold exDecls exConvK
  by_cases h : vt = 0 <;> simp only [h, if_true, if_false] <;> rfl

/-- After `exMixProg` (variable 0, of the first type, is in a heap backup; variable 2, of the second, holds the fallback): variable 4
is constructed from variable 0, which is moved from; variable 3 is assigned variable 1, which fails; variable 2 is assigned
variable 1. A conversion to the first type does not compile. Variable 4 is assigned variable 0, of the type it holds. -/
def exConvProg : List (MixCmd Nat) :=
  exMixProg.map (fun c => .on c.1 c.2) ++
    [.constructFrom true false 4 0, .assignFrom false true 3 1, .assignFrom false false 2 1, .assignFrom false true 1 2,
     .assignFrom false false 4 0]

/-- The state after the first `n` statements. -/
def exConvAfter (n : Nat) : World Nat := (runConv exDecls exMixR (exConvProg.take n) (World.init Nat)).getD (World.init Nat)

theorem exConv_good (n : Nat) (h : avoidsBackupReadsConv exDecls exMixR (exConvProg.take n) (World.init Nat) = true) :
    GoodMix exDecls.K exMixR (exConvAfter n) := by
  obtain ⟨w, hw, hg⟩ := runConv_good exConvK_sane exDecls_fits (exConvProg.take n) (World.init Nat) (goodMix_init (ρ := exMixR)) h
  unfold exConvAfter
  rw [hw]
  exact hg

/-- What the conversions do: the move out of the heap backup; the assignment that fails and leaves variable 3 with the fallback; the one
that succeeds; the one that does not compile; the one to a variable that holds the type. -/
example : (exConvAfter 8).content (.user 4) = some (1, 5) ∧ (exConvAfter 8).content (.user 0) = some (0, 0) ∧
    (exConvAfter 8).backedUp 0 = true ∧
    (exConvAfter 8).content (.user 3) = some (1, 4) ∧ (exConvAfter 9).content (.user 3) = some (0, 999) ∧
    (exConvAfter 10).content (.user 2) = some (2, 7) ∧ (exConvAfter 11).content (.user 1) = some (1, 7) ∧
    (exConvAfter 12).content (.user 4) = some (1, 0) ∧ (exConvAfter 12).objOf 4 = (exConvAfter 8).objOf 4 := by decide +kernel

theorem exConvO : (exDecls.between exMixR true false 4 0).overload 0 = some ⟨⟨true, tyN 3⟩, 1⟩ ∧
    (exDecls.between exMixR false true 3 1).overload 1 = some ⟨⟨false, (tyN 4).addConst⟩, 2⟩ ∧
    (exDecls.between exMixR false false 4 0).overload 0 = some ⟨⟨false, (tyN 3).addConst⟩, 1⟩ := by decide +kernel

/-- Construction, from the heap backup. -/
example := C40_in_programs_construction (x := 4) (y := 0) (j := 0) (v := 5) exDecls_fits (exConv_good 7 (by decide +kernel))
  (by unfold World.holds; decide +kernel) exConvO.1 (by decide +kernel)

/-- Assignment that fails, and one that returns. -/
example := C40_in_programs_assignment (x := 3) (y := 1) (j := 1) (v := 7) (kx := 1) (vx := 4) (exConvK_sane 1) exDecls_fits
  (exConv_good 8 (by decide +kernel)) (by unfold World.holds; decide +kernel) (by unfold World.holds; decide +kernel) (by decide)
  exConvO.2.1 rfl
example := C40_in_programs_assignment (x := 4) (y := 0) (j := 0) (v := 0) (kx := 1) (vx := 5) (exConvK_sane 1) exDecls_fits
  (exConv_good 11 (by decide +kernel)) (by unfold World.holds; decide +kernel) (by unfold World.holds; decide +kernel) (by decide)
  exConvO.2.2 rfl

/-- One statement, and the whole program. -/
example := C01_statement_with_conversions_partial exConvK_sane exDecls_fits (exConv_good 8 (by decide +kernel)) (.assignFrom false true 3 1)
  (by decide +kernel) (by decide +kernel)
example := C01_with_conversions_partial (D := exDecls) (ρ := exMixR) exConvK_sane exDecls_fits exConvProg (by decide +kernel)

end BVariant
