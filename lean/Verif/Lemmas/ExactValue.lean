/-
What construction from a value, assignment of a value and `swap` do to the variables, without objects and addresses.
-/
import Verif.Lemmas.ExactOps

set_option linter.unusedSimpArgs false

namespace BVariant

section
variable {V : Type} {C : Cfg V} {w w' : World V} {T : List (ObjId × TyIx)} {x y l r : VarId} {s sl sr : VarSt} {id idl idr : ObjId} {k kl kr : TyIx}
  {v vl vr : V}

/-! ### What the specification leaves alone -/

/-- The code keeps `p` of variable `z`. -/
def XKeep {α : Type} (z : VarId) (p : Option (Tag V) → Prop) (X : Eff (XSt V) α) : Prop :=
  ∀ σ, p (σ.vars z) → match X σ with
    | .ok _ σ' => p (σ'.vars z)
    | .exc _ σ' => p (σ'.vars z)
    | .fault _ => True

section
variable {z : VarId} {p : Option (Tag V) → Prop}

theorem XKeep.bind {α β : Type} {X : Eff (XSt V) α} {Y : α → Eff (XSt V) β} (h : XKeep z p X) (hY : ∀ a, XKeep z p (Y a)) : XKeep z p (X >>= Y) := by
  intro σ hσ
  have h1 := h σ hσ
  simp only [Bind.bind, Eff.bind]
  cases hX : X σ with
  | ok a σ' => rw [hX] at h1; exact hY a σ' h1
  | exc e σ' => rw [hX] at h1; exact h1
  | fault => trivial

theorem XKeep.onExc {α : Type} {X : Eff (XSt V) α} {Y : Eff (XSt V) Unit} (h : XKeep z p X) (hY : XKeep z p Y) : XKeep z p (Eff.onExc X Y) := by
  intro σ hσ
  have h1 := h σ hσ
  simp only [Eff.onExc]
  cases hX : X σ with
  | ok a σ' => rw [hX] at h1; exact h1
  | exc e σ' =>
    rw [hX] at h1
    have h2 := hY σ' h1
    simp only
    cases hh : Y σ' with
    | ok _ _ => rw [hh] at h2; exact h2
    | exc _ _ => trivial
    | fault _ => trivial
  | fault => trivial

theorem XKeep.get (y : VarId) : XKeep z p (xGet (V := V) y) := by
  intro σ hσ
  simp only [xGet]
  cases σ.vars y with
  | some t => exact hσ
  | none => trivial

theorem XKeep.may (b : Bool) (k : ExcKind) : XKeep z p (xMay C b k) := by
  intro σ hσ
  simp only [xMay]
  by_cases h : b = false ∧ C.throws σ.tick = true
  · rw [if_pos h]; exact hσ
  · rw [if_neg h]; exact hσ

theorem XKeep.put {t : Option (Tag V)} (h : z = l → p t) : XKeep z p (xPut l t) := by
  intro σ hσ
  simp only [xPut, Eff.modify]
  by_cases hz : z = l
  · subst hz; rw [upd_same]; exact h rfl
  · rw [upd_ne _ _ hz]; exact hσ

theorem XKeep.new : XKeep z p (xNew C) := by
  refine .bind ?_ fun _ => .may _ _
  intro σ hσ
  exact hσ

theorem XKeep.ite {α : Type} {b : Prop} [Decidable b] {X Y : Eff (XSt V) α} (h1 : XKeep z p X) (h2 : XKeep z p Y) : XKeep z p (if b then X else Y) := by
  split
  · exact h1
  · exact h2

theorem XKeep.guardedCopy (a : Tag V) (h : z = l → ∀ t, p (some t)) : XKeep z p (xGuardedCopy C l a k v) :=
  .ite (.bind (.may _ _) fun _ => .put fun e => h e _)
    (.ite (.bind (.may _ _) fun _ => .bind (.onExc (.may _ _) (.bind (.may _ _) fun _ => .put fun e => h e _)) fun _ => .put fun e => h e _)
      (.bind .new fun _ => .bind (.may _ _) fun _ => .bind (.onExc (.may _ _) (.put fun e => h e _)) fun _ => .put fun e => h e _))

theorem XKeep.fallback {fb : TyIx} (h : z = l → ∀ t, p (some t)) : XKeep z p (xFallback C l fb) := .bind (.may _ _) fun _ => .put fun e => h e _

theorem XKeep.move (b : Tag V) (h : z = r → ∀ t, p (some t)) : XKeep z p (xMove C r b) :=
  .bind (.onExc (.may _ _) (.put fun e => h e _)) fun _ => .put fun e => h e _

theorem XKeep.moveAssign (hl : z = l → ∀ t, p (some t)) (hr : z = r → ∀ t, p (some t)) : XKeep z p (xMoveAssign C l r) := by
  refine .bind (.get _) fun a => .bind (.get _) fun b => .ite ?_ ?_
  · exact .ite (.bind (.onExc (.may _ _) (.put fun e => hl e _)) fun _ => .put fun e => hl e _)
      (.bind (.onExc (.may _ _) (.bind (.put fun e => hr e _) fun _ => .put fun e => hl e _)) fun _ => .bind (.put fun e => hr e _) fun _ => .put fun e => hl e _)
  · refine .ite (.bind (.move _ hr) fun _ => .put fun e => hl e _) (.ite (.bind (.may _ _) fun _ => .put fun e => hl e _) ?_)
    split
    · exact .bind (.onExc (.move _ hr) (.fallback hl)) fun _ => .put fun e => hl e _
    · exact .guardedCopy _ hl

end

/-! ### A local object of the program -/

theorem addElem_tagged (hw : Inv C T w) (k : TyIx) (v : V) : (addElem k v w).tagged = w.tagged := by
  funext y
  refine hw.tagged_same rfl fun s i k' v' ho => ?_
  have := hw.fresh.lt ho.obj
  exact upd_ne _ _ (by omega)

theorem Inv.addElem (hw : Inv C [] w) (k : TyIx) (v : V) : Inv C [(w.next, k)] (addElem k v w) := by
  have old : ∀ i p, w.objs i = some p → (BVariant.addElem k v w).objs i = some p := by
    intro i p hi
    have := hw.fresh.lt hi
    rw [← hi]
    exact upd_ne _ _ (by omega)
  constructor
  · intro x s hx
    obtain ⟨i, k', v', ho⟩ := hw.rep x s hx
    exact ⟨i, k', v', hx, ho.rep, old _ _ ho.obj⟩
  · exact hw.inj
  · exact hw.fresh.addElem k v
  · intro p hp
    simp only [List.mem_singleton] at hp
    subst hp
    refine ⟨⟨v, upd_same _ _ _⟩, fun x s hx hc => ?_⟩
    obtain ⟨i, k', v', ho⟩ := hw.rep x s hx
    rw [ho.rep.contentId] at hc
    cases hc
    have := hw.fresh.lt ho.obj
    omega

/-- A statement with an object of the program as operand. -/
theorem Conforms.withElem {α : Type} {f : ObjId → M V α} {X : Eff (XSt V) α} (hw : Inv C [] w)
    (h : Conforms C [(w.next, k)] (f w.next) X (addElem k v w)) : Conforms C [] (withElem k v f) X w := by
  have hview : (addElem k v w).view = w.view := by
    simp only [World.view, addElem_tagged hw]
    rfl
  have drop : ∀ w' : World V, Inv C [(w.next, k)] w' → ∀ {Q : Unit → World V → Prop} {E : Exc → World V → Prop},
      (∀ w'', w''.view = w'.view → Inv C [] w'' → Q () w'') → wp (destroyObj k w.next) Q E w' := by
    intro w' hi Q E hq
    obtain ⟨⟨u, hu⟩, hn⟩ := hi.loose _ (List.mem_singleton.mpr rfl)
    rw [wpx_destroyObj hi.fresh.flat, hu]
    simp only [if_true]
    have hne : ∀ y s i k v, Owns C w' y s i k v → i ≠ w.next := by
      rintro y s i k v ho rfl
      exact hn y s ho.var ho.rep.contentId
    refine hq _ ?_ ?_
    · have : World.tagged { w' with objs := upd w'.objs w.next none } = w'.tagged := by
        funext y
        exact hi.tagged_same rfl fun s i k' v' ho => upd_ne _ _ (hne _ _ _ _ _ ho)
      simp only [World.view, this]
    · constructor
      · intro y s hy
        obtain ⟨i, k', v', ho⟩ := hi.rep y s hy
        exact ⟨i, k', v', hy, ho.rep, by rw [← ho.obj]; exact upd_ne _ _ (hne _ _ _ _ _ ho)⟩
      · exact hi.inj
      · refine ⟨fun i hi' => ?_, hi.fresh.flat⟩
        have := hi.fresh.fresh i hi'
        simp only [upd]
        split
        · rfl
        · exact this
      · intro p hp; cases hp
  unfold Conforms at h ⊢
  rw [wp_withElem]
  rw [hview] at h
  refine wp_mono h ?_ ?_
  · rintro a w' ⟨h1, h2⟩
    exact drop w' h2 fun w'' hv hi => ⟨by rw [hv]; exact h1, hi⟩
  · rintro a w' ⟨h1, h2⟩
    exact drop w' h2 fun w'' hv hi => ⟨by rw [hv]; exact h1, hi⟩

/-- A local variable of the library. -/
theorem Conforms.withVar {m : M V Unit} {X : Eff (XSt V) Unit} {t : VarId} {tt : Tag V} (ht : w.tagged t = some tt) (h : Conforms C T m X w)
    (hk : XKeep t (fun o => o.isSome = true) X) : Conforms C T (M.withLocal m (destroyVar C t)) (xWithLocal t X) w := by
  have hk := hk w.view (by simp only [World.view, ht, Option.isSome_some])
  unfold Conforms at h ⊢
  rw [wp_withLocal]
  refine wp_mono h ?_ ?_
  · rintro _ w' ⟨h1, h2⟩
    rw [h1] at hk
    obtain ⟨t', ht'⟩ := Option.isSome_iff_exists.mp hk
    obtain ⟨s, i, ho, -⟩ := h2.owns ht'
    refine wp_mono (ref_destroyVar h2 ho) ?_ ?_
    · rintro _ w'' ⟨h3, h4⟩
      refine ⟨?_, h4⟩
      simp only [xWithLocal, Bind.bind, Eff.bind, Eff.onExc, h1]
      exact h3
    · rintro e w'' ⟨h3, h4⟩
      cases h3
  · rintro e w' ⟨h1, h2⟩
    rw [h1] at hk
    obtain ⟨t', ht'⟩ := Option.isSome_iff_exists.mp hk
    obtain ⟨s, i, ho, -⟩ := h2.owns ht'
    refine wp_mono (ref_destroyVar h2 ho) ?_ ?_
    · rintro _ w'' ⟨h3, h4⟩
      refine ⟨?_, h4⟩
      simp only [xWithLocal, Bind.bind, Eff.bind, Eff.onExc, h1]
      rw [h3]
    · rintro e w'' ⟨h3, h4⟩
      cases h3

/-! ### Construction from a value -/

/-- `variant x(t)` with `t` any object. -/
theorem ref_convertL (hw : Inv C T w) (hx : w.vars x = none) (hk : k < C.n) {t : ObjId} (ht : w.objs t = some (k, v)) (f : Bool) :
    Conforms C T (convertConstruct C x (.lref k t f)) (xConvert C x .lvalue k v) w := by
  have hlt := hw.fresh.lt ht
  have hfr := hw.fresh.fresh
  unfold Conforms
  simp only [convertConstruct, initializeFrom, wp_bind, wpx_copyCtor, ht, if_true, wp_pure, wp_beginVar, indicateWhich]
  split
  · rename_i hth
    refine did_revalue_exc hw (SameTypes.refl _) .refl ?_ ?_
    · exact ⟨rfl, rfl, rfl, rfl⟩
    exact_simp [xConvert, hth, and_self, if_true]
  · rename_i hth
    refine did_create_ok (s' := ⟨(k : Int), .obj w.next⟩) (id' := w.next) (k' := k) (v' := C.ops.copy k v) hw hx
      (SameTypes.refl _) .refl ?_ ?_
    · frame_tac
    exact_simp [xConvert, hth, if_false, inPlace_backed]

/-- `variant x(std::move(t))` with `t` an object of the program. -/
theorem ref_convertR (hw : Inv C T w) (hx : w.vars x = none) (hk : k < C.n) {t : ObjId} (hT : (t, k) ∈ T) (ht : w.objs t = some (k, v)) (f : Bool) :
    Conforms C T (convertConstruct C x (.rref k t f)) (xConvert C x .rvalue k v) w := by
  have hlt := hw.fresh.lt ht
  have hfr := hw.fresh.fresh
  unfold Conforms
  simp only [convertConstruct, initializeFrom, wp_bind, wpx_moveCtor, ht, if_true, wp_pure, wp_beginVar, indicateWhich]
  split
  · rename_i hth
    refine did_revalue_exc hw (SameTypes.upd _ _ ht) (.loose hw hT (some (k, C.ops.moveFailSrc k v))) ?_ ?_
    · exact ⟨rfl, rfl, rfl, rfl⟩
    exact_simp [xConvert, hth, and_self, if_true]
  · rename_i hth
    refine did_create_ok (s' := ⟨(k : Int), .obj w.next⟩) (id' := w.next) (k' := k) (v' := C.ops.move k v) hw hx
      (SameTypes.upd _ _ ht) (.loose hw hT (some (k, C.ops.movedFrom k v))) ?_ ?_
    · frame_tac
    exact_simp [xConvert, hth, if_false, inPlace_backed]

/-- `variant x(s)` with `s` of another type. -/
theorem ref_convertC (hw : Inv C T w) (hx : w.vars x = none) (hk : k < C.n) :
    Conforms C T (convertConstruct C x (.conv k v)) (xConvert C x .other k v) w := by
  have hfr := hw.fresh.fresh
  have hfl := hw.fresh.flat
  have n1 : w.next ≠ w.next + 1 := by omega
  unfold Conforms
  simp only [convertConstruct, initializeFrom, wp_bind, wp_mayThrow, wp_newObj, wp_withLocal, wpx_moveCtor, upd_same, if_true, wp_pure, wp_beginVar,
    indicateWhich, id, true_and]
  split
  · rename_i hth
    refine did_revalue_exc hw (SameTypes.refl _) .refl ?_ ?_
    · exact ⟨rfl, rfl, rfl, rfl⟩
    exact_simp [xConvert, hth, and_self, if_true]
  · rename_i hth
    split
    · rename_i hth2
      simp only [wpx_destroyObj, hfl, implies_true, upd_same, if_true, upd_upd_same]
      have hself : upd w.objs w.next none = w.objs := upd_self _ _ _ (hfr _ (Nat.le_refl _))
      refine ⟨?_, ?_⟩
      · have ht : World.tagged { w with objs := upd w.objs w.next none, next := w.next + 1, tick := w.tick + 1 + 1 } = w.tagged := by
          funext y
          refine hw.tagged_same rfl fun s i k' v' ho => ?_
          have := hw.fresh.lt ho.obj
          exact upd_ne _ _ (by omega)
        rw [view_eq ht]
        exact_simp [xConvert, hth, hth2, and_self, and_false, Bool.false_eq_true, if_true, if_false]
      · rw [hself]
        constructor
        · intro x s hx
          obtain ⟨i, k', v', ho⟩ := hw.rep x s hx
          exact ⟨i, k', v', ho.var, ho.rep, ho.obj⟩
        · exact hw.inj
        · exact ⟨fun i hi => hfr i (Nat.le_trans (Nat.le_succ _) hi), hfl⟩
        · exact hw.loose
    · rename_i hth2
      simp only [wpx_destroyObj, hfl, implies_true, upd_ne _ _ n1, upd_same, if_true, upd_upd_same]
      refine did_create_ok (s' := ⟨(k : Int), .obj (w.next + 1)⟩) (id' := w.next + 1) (k' := k) (v' := C.ops.move k v) hw hx
        (SameTypes.refl _) .refl ?_ ?_
      · frame_tac
      exact_simp [xConvert, hth, hth2, and_self, and_false, Bool.false_eq_true, if_true, if_false, inPlace_backed]

/-! ### Assignment of a value -/

theorem NoHazard.of_notBacked (h : sr.backed = false) : NoHazard sl sr := by
  refine .inr ?_
  simp only [VarSt.backed, decide_eq_false_iff_not] at h
  omega

/-- Assignment through a temporary variant. -/
theorem ref_viaTmp (hs : Sane C) {src : Src V} {X : Eff (XSt V) Unit} (hc : Conforms C T (convertConstruct C (.tmp 0) src) X w)
    (hX : ∀ σ', X w.view = .ok () σ' → (∃ a, σ'.vars l = some a) ∧ ∃ t, σ'.vars (.tmp 0) = some t ∧ t.backed = false) :
    Conforms C T (do convertConstruct C (.tmp 0) src; M.withLocal (variantMoveAssign C l (.tmp 0)) (destroyVar C (.tmp 0)))
      (do X; xWithLocal (.tmp 0) (xMoveAssign C l (.tmp 0))) w := by
  refine Conforms.bind hc fun _ w' h1 hi => ?_
  obtain ⟨⟨a, ha⟩, t, ht, hb⟩ := hX _ h1
  obtain ⟨sl, il, hl, -⟩ := hi.owns ha
  obtain ⟨st, it, htt, hbt⟩ := hi.owns ht
  refine Conforms.withVar ht (ref_variantMoveAssign hs hi hl htt (.of_notBacked (by rw [hbt, hb]))) ?_
  exact .moveAssign (fun _ _ => rfl) (fun _ _ => rfl)

/-- What a successful construction of a temporary does. -/
theorem xConvert_ok {m : XMode} {σ σ' : XSt V} (hne : l ≠ .tmp 0) {a : Tag V} (ha : σ.vars l = some a) (h : xConvert C (.tmp 0) m k v σ = .ok () σ') :
    (∃ a, σ'.vars l = some a) ∧ ∃ t, σ'.vars (.tmp 0) = some t ∧ t.backed = false := by
  cases m with
  | lvalue =>
    simp only [xConvert, xCopy, xMay, xPut, Bind.bind, Eff.bind, Eff.modify] at h
    by_cases hc : (C.tr k).nothrowCopy = false ∧ C.throws σ.tick = true
    · rw [if_pos hc] at h; cases h
    · rw [if_neg hc] at h
      cases h
      exact ⟨⟨a, by simp only [upd_ne _ _ hne, ha]⟩, ⟨k, C.ops.copy k v, false⟩, by simp only [upd_same], rfl⟩
  | rvalue =>
    simp only [xConvert, xMoveLocal, xMay, xPut, Bind.bind, Eff.bind, Eff.modify] at h
    by_cases hc : (C.tr k).nothrowMove = false ∧ C.throws σ.tick = true
    · rw [if_pos hc] at h; cases h
    · rw [if_neg hc] at h
      cases h
      exact ⟨⟨a, by simp only [upd_ne _ _ hne, ha]⟩, ⟨k, C.ops.move k v, false⟩, by simp only [upd_same], rfl⟩
  | other =>
    simp only [xConvert, xMoveLocal, xMay, xPut, Bind.bind, Eff.bind, Eff.modify, true_and] at h
    by_cases hc : C.throws σ.tick = true
    · rw [if_pos hc] at h; cases h
    · rw [if_neg hc] at h
      by_cases hc2 : (C.tr k).nothrowMove = false ∧ C.throws (σ.tick + 1) = true
      · simp only at h; rw [if_pos hc2] at h; cases h
      · simp only at h; rw [if_neg hc2] at h
        cases h
        exact ⟨⟨a, by simp only [upd_ne _ _ hne, ha]⟩, ⟨k, C.ops.move k v, false⟩, by simp only [upd_same], rfl⟩

/-- The same code in a state where what it reads is known. -/
theorem Conforms.of_eq {α : Type} {m : M V α} {X Y : Eff (XSt V) α} (he : X w.view = Y w.view) (h : Conforms C T m Y w) : Conforms C T m X w := by
  unfold Conforms at h ⊢
  rw [he]
  exact h

theorem xAssignValue_eq {m : XMode} {d : Bool} (hl : Owns C w l sl idl kl vl) : xAssignValue C l m d k v w.view =
    (if d = true ∧ kl = k then
      (match m with
      | .lvalue => xAssignElem C l ⟨kl, vl, sl.backed⟩ v
      | _ => xMoveAssignElem C l ⟨kl, vl, sl.backed⟩ v)
    else do
      xConvert C (.tmp 0) m k v
      xWithLocal (.tmp 0) (xMoveAssign C l (.tmp 0))) w.view := by
  simp only [xAssignValue, xGet, Bind.bind, Eff.bind, World.view, hl.tagged]
  rfl

/-- `x = t` with `t` an object of the program, or the content `t` of a variant of another type. -/
theorem ref_assignL (hs : Sane C) (hw : Inv C T w) (hl : Owns C w l sl idl kl vl) (hne : l ≠ .tmp 0) (htn : w.vars (.tmp 0) = none) (hk : k < C.n)
    {t : ObjId} (ht : w.objs t = some (k, v)) (f : Bool) :
    Conforms C T (assignValue C l (.lref k t f)) (xAssignValue C l .lvalue (!f) k v) w := by
  refine .of_eq (xAssignValue_eq hl) ?_
  unfold Conforms
  simp only [assignValue, wp_bind, directAssign]
  rw [wp_applyVisitor C hl.var hl.rep hl.obj]
  by_cases h : (!f) = true ∧ kl = k
  · obtain ⟨hf, rfl⟩ := h
    simp only [Bool.not_eq_true'] at hf
    simp only [hf, Bool.not_false, and_self, if_true, wp_bind, wp_pure]
    exact ref_assignObj hw hl ht
  · have h' : ¬ (f = false ∧ kl = k) := by simpa using h
    simp only [h, h', if_false, wp_pure, Bool.false_eq_true]
    exact ref_viaTmp hs (ref_convertL hw htn hk ht f) fun σ' => xConvert_ok hne hl.tagged

@[inherit_doc ref_assignL]
theorem ref_assignR (hs : Sane C) (hw : Inv C T w) (hl : Owns C w l sl idl kl vl) (hne : l ≠ .tmp 0) (htn : w.vars (.tmp 0) = none) (hk : k < C.n)
    {t : ObjId} (hT : (t, k) ∈ T) (ht : w.objs t = some (k, v)) (f : Bool) :
    Conforms C T (assignValue C l (.rref k t f)) (xAssignValue C l .rvalue (!f) k v) w := by
  refine .of_eq (xAssignValue_eq hl) ?_
  unfold Conforms
  simp only [assignValue, wp_bind, directAssign]
  rw [wp_applyVisitor C hl.var hl.rep hl.obj]
  by_cases h : (!f) = true ∧ kl = k
  · obtain ⟨hf, rfl⟩ := h
    simp only [Bool.not_eq_true'] at hf
    simp only [hf, Bool.not_false, and_self, if_true, wp_bind, wp_pure]
    exact ref_moveAssignLoose hw hl hT ht
  · have h' : ¬ (f = false ∧ kl = k) := by simpa using h
    simp only [h, h', if_false, wp_pure, Bool.false_eq_true]
    exact ref_viaTmp hs (ref_convertR hw htn hk hT ht f) fun σ' => xConvert_ok hne hl.tagged

/-- `x = s` with `s` of another type. -/
theorem ref_assignC (hs : Sane C) (hw : Inv C T w) (hl : Owns C w l sl idl kl vl) (hne : l ≠ .tmp 0) (htn : w.vars (.tmp 0) = none) (hk : k < C.n) :
    Conforms C T (assignValue C l (.conv k v)) (xAssignValue C l .other false k v) w := by
  refine .of_eq (xAssignValue_eq hl) ?_
  unfold Conforms
  simp only [assignValue, wp_bind, directAssign]
  rw [wp_applyVisitor C hl.var hl.rep hl.obj]
  simp only [wp_pure, Bool.false_eq_true, false_and, if_false]
  exact ref_viaTmp hs (ref_convertC hw htn hk) fun σ' => xConvert_ok hne hl.tagged

/-! ### References into the content -/

theorem ref_constructGet (hw : Inv C T w) (hx : w.vars x = none) (hy : Owns C w y s id k v) (rv : Bool) :
    Conforms C T (applyVisitor C y fun k i => convertConstruct C x (refSrc rv k i)) (if rv then xMoveConstruct C x y else xCopyConstruct C x y) w := by
  have hlt := hw.fresh.lt hy.obj
  have hfr := hw.fresh.fresh
  have hk := Rep.lt C hy.rep
  have ht := hy.obj
  unfold Conforms
  rw [wp_applyVisitor C hy.var hy.rep hy.obj]
  cases rv with
  | false =>
    simp only [refSrc, Bool.false_eq_true, if_false, convertConstruct, initializeFrom, wp_bind, wpx_copyCtor, ht, if_true, wp_pure, wp_beginVar, indicateWhich]
    split
    · rename_i hth
      refine did_revalue_exc hw (SameTypes.refl _) .refl ?_ ?_
      · exact ⟨rfl, rfl, rfl, rfl⟩
      exact_simp [xCopyConstruct, hy.tagged, hth, and_self, if_true]
    · rename_i hth
      refine did_create_ok (s' := ⟨(k : Int), .obj w.next⟩) (id' := w.next) (k' := k) (v' := C.ops.copy k v) hw hx
        (SameTypes.refl _) .refl ?_ ?_
      · frame_tac
      exact_simp [xCopyConstruct, hy.tagged, hth, if_false, inPlace_backed]
  | true =>
    simp only [refSrc, if_true, convertConstruct, initializeFrom, wp_bind, wpx_moveCtor, ht, wp_pure, wp_beginVar, indicateWhich]
    split
    · rename_i hth
      refine did_revalue_exc hw (SameTypes.upd _ _ ht) (.var hy (C.ops.moveFailSrc k v)) ?_ ?_
      · exact ⟨rfl, rfl, rfl, rfl⟩
      exact_simp [xMoveConstruct, hy.tagged, hth, and_self, if_true]
    · rename_i hth
      refine did_create_ok (s' := ⟨(k : Int), .obj w.next⟩) (id' := w.next) (k' := k) (v' := C.ops.move k v) hw hx
        (SameTypes.upd _ _ ht) (.var hy (C.ops.movedFrom k v)) ?_ ?_
      · frame_tac
      exact_simp [xMoveConstruct, hy.tagged, hth, if_false, inPlace_backed]

theorem xCopyConstruct_ok {σ σ' : XSt V} (hne : l ≠ .tmp 0) {a b : Tag V} (ha : σ.vars l = some a) (hb : σ.vars r = some b)
    (h : xCopyConstruct C (.tmp 0) r σ = .ok () σ') : (∃ a, σ'.vars l = some a) ∧ ∃ t, σ'.vars (.tmp 0) = some t ∧ t.backed = false := by
  simp only [xCopyConstruct, xGet, xCopy, xMay, xPut, Bind.bind, Eff.bind, Eff.modify, hb] at h
  by_cases hc : (C.tr b.ty).nothrowCopy = false ∧ C.throws σ.tick = true
  · rw [if_pos hc] at h; cases h
  · rw [if_neg hc] at h
    cases h
    exact ⟨⟨a, by simp only [upd_ne _ _ hne, ha]⟩, ⟨b.ty, C.ops.copy b.ty b.val, false⟩, by simp only [upd_same], rfl⟩

theorem xMoveConstruct_ok {σ σ' : XSt V} (hne : l ≠ .tmp 0) (hlr : l ≠ r) {a b : Tag V} (ha : σ.vars l = some a) (hb : σ.vars r = some b)
    (h : xMoveConstruct C (.tmp 0) r σ = .ok () σ') :
    σ'.vars = upd (upd σ.vars r (some { b with val := C.ops.movedFrom b.ty b.val })) (.tmp 0) (some ⟨b.ty, C.ops.move b.ty b.val, false⟩) ∧
      (∃ a, σ'.vars l = some a) ∧ ∃ t, σ'.vars (.tmp 0) = some t ∧ t.backed = false := by
  simp only [xMoveConstruct, xGet, xMove, xMay, xPut, Bind.bind, Eff.bind, Eff.onExc, Eff.modify, hb] at h
  by_cases hc : (C.tr b.ty).nothrowMove = false ∧ C.throws σ.tick = true
  · rw [if_pos hc] at h; cases h
  · rw [if_neg hc] at h
    cases h
    exact ⟨rfl, ⟨a, by simp only [upd_ne _ _ hne, upd_ne _ _ hlr, ha]⟩, ⟨b.ty, C.ops.move b.ty b.val, false⟩, by simp only [upd_same], rfl⟩

theorem ref_assignGet (hs : Sane C) (hw : Inv C T w) (hl : Owns C w l sl idl kl vl) (hr : Owns C w r sr idr kr vr) (hne : l ≠ .tmp 0)
    (htn : w.vars (.tmp 0) = none) (rv : Bool) :
    Conforms C T (applyVisitor C r fun k i => assignValue C l (refSrc rv k i)) (xAssignGet C rv l r) w := by
  have he : xAssignGet C rv l r w.view = (if kl = kr then
      (if rv then xMoveAssignElems C l r ⟨kl, vl, sl.backed⟩ ⟨kr, vr, sr.backed⟩ else xAssignElem C l ⟨kl, vl, sl.backed⟩ vr)
      else do
        if rv then xMoveConstruct C (.tmp 0) r else xCopyConstruct C (.tmp 0) r
        xWithLocal (.tmp 0) (xMoveAssign C l (.tmp 0))) w.view := by
    simp only [xAssignGet, xGet, Bind.bind, Eff.bind, World.view, hl.tagged, hr.tagged]
  refine .of_eq he ?_
  have hcg := ref_constructGet (x := .tmp 0) hw htn hr rv
  unfold Conforms at hcg ⊢
  rw [wp_applyVisitor C hr.var hr.rep hr.obj] at hcg ⊢
  simp only [assignValue, wp_bind, directAssign]
  rw [wp_applyVisitor C hl.var hl.rep hl.obj]
  by_cases h : kl = kr
  · subst h
    rw [if_pos rfl]
    cases rv with
    | false =>
      simp only [refSrc, Bool.false_eq_true, if_false, true_and, if_true, wp_bind, wp_pure, and_self]
      exact ref_assignObj hw hl hr.obj
    | true =>
      simp only [refSrc, Bool.false_eq_true, if_false, true_and, if_true, wp_bind, wp_pure, and_self]
      exact ref_moveAssignObj hw hl hr
  · rw [if_neg h]
    have hlr : l ≠ r := by
      rintro rfl
      have h1 := hl.tagged
      rw [hr.tagged] at h1
      simp only [Option.some.injEq, Tag.mk.injEq] at h1
      exact h h1.1.symm
    cases rv with
    | false =>
      simp only [refSrc, Bool.false_eq_true, if_false, true_and, h, wp_pure] at hcg ⊢
      exact ref_viaTmp hs hcg fun σ' hσ => xCopyConstruct_ok hne hl.tagged hr.tagged hσ
    | true =>
      simp only [refSrc, if_true, true_and, h, if_false, wp_pure, Bool.false_eq_true] at hcg ⊢
      exact ref_viaTmp hs hcg fun σ' hσ => (xMoveConstruct_ok hne hlr hl.tagged hr.tagged hσ).2

/-! ### swap and stores -/

theorem ref_swap (hs : Sane C) (hw : Inv C T w) (hl : Owns C w l sl idl kl vl) (hr : Owns C w r sr idr kr vr) (hlt : l ≠ .tmp 0) (hrt : r ≠ .tmp 0)
    (htn : w.vars (.tmp 0) = none) (hz : kl = kr ∨ sl.backed = false) : Conforms C T (swap C l r) (xSwap C l r) w := by
  have he : xSwap C l r w.view = (if kl = kr then
    (if l = r then do
      Eff.onExc (xMay C false (.swap kl)) (xPut l (some ⟨kl, C.ops.selfSwapFail kl vl, sl.backed⟩))
      xPut l (some ⟨kl, C.ops.selfSwap kl vl, sl.backed⟩)
    else do
      Eff.onExc (xMay C false (.swap kl)) do
        xPut r (some ⟨kr, C.ops.swapFailR kl vl vr, sr.backed⟩)
        xPut l (some ⟨kl, C.ops.swapFailL kl vl vr, sl.backed⟩)
      xPut r (some ⟨kr, C.ops.swapR kl vl vr, sr.backed⟩)
      xPut l (some ⟨kl, C.ops.swapL kl vl vr, sl.backed⟩))
    else do
      xMoveConstruct C (.tmp 0) r
      xWithLocal (.tmp 0) do
        xMoveAssign C r l
        xMoveAssign C l (.tmp 0)) w.view := by
    simp only [xSwap, xGet, Bind.bind, Eff.bind, World.view, hl.tagged, hr.tagged]
  refine .of_eq he ?_
  have hlt1 := hw.fresh.lt hl.obj
  have hlt2 := hw.fresh.lt hr.obj
  have hfr := hw.fresh.fresh
  by_cases hk : kl = kr
  · subst hk
    rw [if_pos rfl]
    unfold Conforms
    simp only [swap, wp_bind, wpx_which, hl.var, hr.var, Rep.which C hl.rep, Rep.which C hr.rep, if_true]
    rw [wp_applyVisitor C hl.var hl.rep hl.obj]
    simp only [swapWith, wp_bind]
    rw [wp_applyVisitor C hr.var hr.rep hr.obj]
    simp only [knownGet, if_true, wp_pure]
    have hor := hr.obj
    have hl' := hl
    obtain ⟨hxl, hrl, hol⟩ := hl
    by_cases hlr : l = r
    · subst hlr
      have hss : sl = sr := by have := hr.var; rw [hxl] at this; cases this; rfl
      subst hss
      have hi : idl = idr := by have h1 := hrl.contentId; have h2 := hr.rep.contentId; rw [h1] at h2; cases h2; rfl
      subst hi
      rw [wpx_swapObj_self C kl hol]
      split
      · rename_i hth
        refine did_replace_exc (s' := sl) (id' := idl) (k' := kl) (v' := C.ops.selfSwapFail kl vl) hw hl' (SameTypes.refl _) .refl ?_ ?_
        · frame_tac
        · exact_simp [hth, and_self, if_true]
      · rename_i hth
        refine did_replace_ok (s' := sl) (id' := idl) (k' := kl) (v' := C.ops.selfSwap kl vl) hw hl' (SameTypes.refl _) .refl ?_ ?_
        · frame_tac
        · exact_simp [hth, and_false, Bool.false_eq_true, if_true, if_false]
    · have hid := hw.distinct hl' hr hlr
      rw [wpx_swapObj C kl hid hol hor]
      split
      · rename_i hth
        refine did_replace_exc (s' := sl) (id' := idl) (k' := kl) (v' := C.ops.swapFailL kl vl vr) hw hl' (SameTypes.upd _ _ hor)
          (.var hr (C.ops.swapFailR kl vl vr)) ?_ ?_
        · frame_tac
        · exact_simp [hth, and_self, if_true, hlr, if_false]
      · rename_i hth
        refine did_replace_ok (s' := sl) (id' := idl) (k' := kl) (v' := C.ops.swapL kl vl vr) hw hl' (SameTypes.upd _ _ hor)
          (.var hr (C.ops.swapR kl vl vr)) ?_ ?_
        · frame_tac
        · exact_simp [hth, hlr, and_false, Bool.false_eq_true, if_false]
  · rw [if_neg hk]
    have hki : ¬ ((kl : Int) = (kr : Int)) := by omega
    have hlr : l ≠ r := by
      rintro rfl
      have h1 := hl.tagged
      rw [hr.tagged] at h1
      simp only [Option.some.injEq, Tag.mk.injEq] at h1
      exact hk h1.1.symm
    have hbl := hz.resolve_left hk
    have hmain : Conforms C T (do
        moveConstruct C (.tmp 0) r
        M.withLocal (do
          moveAssign C r l
          moveAssign C l (.tmp 0)) (destroyVar C (.tmp 0))) (do
        xMoveConstruct C (.tmp 0) r
        xWithLocal (.tmp 0) do
          xMoveAssign C r l
          xMoveAssign C l (.tmp 0)) w := by
      refine Conforms.bind (ref_moveConstruct hw htn hr) fun _ w1 h1 hi1 => ?_
      obtain ⟨hv1, -, t, ht, htb⟩ := xMoveConstruct_ok hlt hlr hl.tagged hr.tagged h1
      have hl1 : w1.tagged l = some ⟨kl, vl, sl.backed⟩ := by
        show w1.view.vars l = _
        rw [hv1, upd_ne _ _ hlt, upd_ne _ _ hlr]
        exact hl.tagged
      have hr1 : w1.tagged r = some ⟨kr, C.ops.movedFrom kr vr, sr.backed⟩ := by
        show w1.view.vars r = _
        rw [hv1, upd_ne _ _ hrt, upd_same]
      refine Conforms.withVar ht ?_ (.bind (.moveAssign (fun _ _ => rfl) (fun _ _ => rfl)) fun _ => .moveAssign (fun _ _ => rfl) (fun _ _ => rfl))
      obtain ⟨sl1, il1, hol1, hb1⟩ := hi1.owns hl1
      obtain ⟨sr1, ir1, hor1, -⟩ := hi1.owns hr1
      refine Conforms.bind (ref_moveAssign hs hi1 hor1 hol1 (.of_notBacked (by rw [hb1]; exact hbl))) fun _ w2 h2 hi2 => ?_
      have kl2 := XKeep.moveAssign (C := C) (l := r) (r := l) (z := l) (p := fun o => o.isSome = true) (fun _ _ => rfl) (fun _ _ => rfl) w1.view
        (by show (w1.tagged l).isSome = true; rw [hl1]; rfl)
      have kt2 := XKeep.moveAssign (C := C) (l := r) (r := l) (z := .tmp 0) (p := fun o => o = some t) (fun e => absurd e.symm hrt) (fun e => absurd e.symm hlt)
        w1.view ht
      rw [h2] at kl2 kt2
      obtain ⟨a2, ha2⟩ := Option.isSome_iff_exists.mp kl2
      obtain ⟨sl2, il2, hol2, -⟩ := hi2.owns ha2
      obtain ⟨st2, it2, hot2, hbt2⟩ := hi2.owns kt2
      exact ref_moveAssign hs hi2 hol2 hot2 (.of_notBacked (by rw [hbt2, htb]))
    unfold Conforms at hmain ⊢
    simp only [swap, wp_bind, wpx_which, hl.var, hr.var, Rep.which C hl.rep, Rep.which C hr.rep, hki, if_false] at hmain ⊢
    exact hmain

theorem ref_mutate (hw : Inv C T w) (hx : Owns C w x s id k v) (u : V) :
    Conforms C T (applyVisitor C x fun ty i => M.modify (setVal ty i u)) (xStore x u) w := by
  have hlt := hw.fresh.lt hx.obj
  have hfr := hw.fresh.fresh
  unfold Conforms
  rw [wp_applyVisitor C hx.var hx.rep hx.obj]
  simp only [wp_modify, setVal]
  have hx' := hx
  obtain ⟨hxl, hrl, hol⟩ := hx
  refine did_replace_ok (s' := s) (id' := id) (k' := k) (v' := u) hw hx' (SameTypes.refl _) .refl ?_ ?_
  · frame_tac
  · exact_simp [xStore, hx'.tagged]

end

end BVariant
