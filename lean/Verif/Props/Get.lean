/-
C28 get, C29 strict_get's static check, C30 polymorphic_get, C34 visitor_ptr, C49 polymorphic_strict_get's static check.
-/
import Verif.Spec.Get
import Verif.Props.Observe

namespace BVariant

/-! ### Overload resolution -/

theorem SeenAs.lvalue (c : Bool) (e : Elem) : SeenAs c e (e.lvalue c) := by
  cases e with
  | ref t => exact .ref t
  | val t =>
    obtain ⟨b, k, v⟩ := t
    cases c <;> simp only [Elem.lvalue, CvTy.addConst, if_true, if_false, Bool.false_eq_true]
    · exact (by simpa using SeenAs.val (constVariant := false) b k v)
    · exact (by simpa using SeenAs.val (constVariant := true) b k v)
  | wrapped t =>
    obtain ⟨b, k, v⟩ := t
    cases c <;> simp only [Elem.lvalue, CvTy.addConst, if_true, if_false, Bool.false_eq_true]
    · exact (by simpa using SeenAs.wrapped (constVariant := false) b k v)
    · exact (by simpa using SeenAs.wrapped (constVariant := true) b k v)

theorem SeenAs.eq {c : Bool} {e : Elem} {t : CvTy} (h : SeenAs c e t) : t = e.lvalue c := by
  cases h <;> simp only [Elem.lvalue, CvTy.addConst] <;> (try cases c) <;> simp

theorem SeenAs.notVolatile {c : Bool} {e : Elem} {t : CvTy} (h : SeenAs c e t) (he : e.NotVolatile) : t.volatile = false := by
  cases h <;> exact he

/-- Which overload is chosen, with all qualifiers. -/
theorem picksNonTemplate_iff (cl : Classes) (rv : Bool) (a r : CvTy) : cl.picksNonTemplate rv a r = true ↔
    r.base = a.base ∧ (a.const = true → r.const = true) ∧ (a.volatile = true → r.volatile = true) ∧
      ¬ (r.const = true ∧ r.volatile = true ∧ a.volatile = false) ∧ (rv = true → r.const = true ∧ r.volatile = false) := by
  obtain ⟨ab, ac, av⟩ := a
  obtain ⟨rb, rc, rvv⟩ := r
  simp only [Classes.picksNonTemplate, Classes.binds, CvTy.cvGe, CvTy.addConst]
  by_cases h : rb = ab
  · subst h
    cases ac <;> cases av <;> cases rc <;> cases rvv <;> cases rv <;> simp
  · simp [h]

theorem askedFor_eq (o : Operand) (u : GetArg) : (if o.isConst then u.addConst else u).ty = AskedFor o u := by
  obtain ⟨⟨b, c, v⟩, r⟩ := u
  cases o <;> cases r <;> simp [Operand.isConst, GetArg.addConst, AskedFor, CvTy.addConst]

theorem addConst_twice (o : Operand) (u : GetArg) :
    (if o.isConst then (if o.isConst then u.addConst else u).addConst else (if o.isConst then u.addConst else u)) =
      if o.isConst then u.addConst else u := by
  obtain ⟨⟨b, c, v⟩, r⟩ := u
  cases o <;> cases r <;> simp [Operand.isConst, GetArg.addConst, CvTy.addConst]

section
variable {V α : Type} {C : Cfg V} {D : Decl} {w : World V} {x : Nat} {k : TyIx} {v : V} {id : ObjId}

theorem relaxedGetPtr_eq (o : Operand) (u : GetArg) (hg : Good C w) (hx : w.holds x k v) (hi : w.objOf x = some id) :
    relaxedGetPtr C D o u (some (.user x)) w =
      .ok (if D.classes.picksNonTemplate false ((D.elem k).lvalue o.isConst) (AskedFor o u) then some id else none) w := by
  obtain ⟨s, p, ho⟩ := hg.holds hx
  obtain rfl : p = id := by rw [ho.objOf] at hi; exact Option.some.inj hi
  simp only [relaxedGetPtr, M.noexceptIf, ho.apply, getVisitor, pure, M.pure, askedFor_eq]

theorem relaxedGet_eq (o : Operand) (u : GetArg) (hg : Good C w) (hx : w.holds x k v) (hi : w.objOf x = some id) :
    relaxedGet C D o u (.user x) w =
      if D.classes.picksNonTemplate false ((D.elem k).lvalue o.isConst) (AskedFor o u) then .ok id w
      else .exc ⟨.badGet, w.tick⟩ w := by
  have h := relaxedGetPtr_eq (D := D) o (if o.isConst then u.addConst else u) hg hx hi
  rw [← askedFor_eq, addConst_twice, askedFor_eq] at h
  simp only [relaxedGet, bind, M.bind, h]
  split <;> rfl

/-! ### C28 -/

/-- C28: `get<U>(&x)` returns a pointer to the content of `x` itself exactly when the content's type is `U`, up to added
const, and null otherwise; the reference form refers to the same object, or throws `bad_get` exactly when the pointer
form returns null. For all classes and derivations: a base class never matches. (No volatile types; see
`C28_get_volatile`.) -/
theorem C28_get (o : Operand) (u : GetArg) (hg : Good C w) (hx : w.holds x k v) (hi : w.objOf x = some id)
    {t : CvTy} (ht : SeenAs (decide (o = .const)) (D.elem k) t) (hv : t.volatile = false) (hu : u.ty.volatile = false) :
    (UpToConst t (AskedFor o u) ∧ relaxedGetPtr C D o u (some (.user x)) w = .ok (some id) w ∧
      relaxedGet C D o u (.user x) w = .ok id w) ∨
    (¬ UpToConst t (AskedFor o u) ∧ relaxedGetPtr C D o u (some (.user x)) w = .ok none w ∧
      ∃ e, e.kind = .badGet ∧ relaxedGet C D o u (.user x) w = .exc e w) := by
  rw [relaxedGetPtr_eq o u hg hx hi, relaxedGet_eq o u hg hx hi]
  have hc : o.isConst = decide (o = .const) := by cases o <;> rfl
  rw [hc, ← ht.eq]
  have hiff := picksNonTemplate_iff D.classes false t (AskedFor o u)
  have hau : (AskedFor o u).volatile = false := hu
  simp only [hv, hau, Bool.false_eq_true, false_implies, and_true, and_false, not_false_eq_true] at hiff
  by_cases h : D.classes.picksNonTemplate false t (AskedFor o u) = true
  · exact Or.inl ⟨hiff.mp h, by simp [h], by simp [h]⟩
  · refine Or.inr ⟨fun h' => h (hiff.mpr h'), by simp [h], _, ?_, by simp [h]; rfl⟩
    rfl

/-- C28: a null operand gives a null result. -/
theorem C28_get_null (o : Operand) (u : GetArg) (w : World V) : relaxedGetPtr C D o u none w = .ok none w := rfl

/-- C28 with volatile types: the exact condition. `U` may add qualifiers, except that a `const volatile U` is never found
in non-volatile content. -/
theorem C28_get_volatile (o : Operand) (u : GetArg) (hg : Good C w) (hx : w.holds x k v) (hi : w.objOf x = some id)
    {t : CvTy} (ht : SeenAs (decide (o = .const)) (D.elem k) t) :
    ∃ r, relaxedGetPtr C D o u (some (.user x)) w = .ok r w ∧ (r = none ∨ r = some id) ∧
      (r = some id ↔ UpToConst t (AskedFor o u) ∧ (t.volatile = true → u.ty.volatile = true) ∧
        ¬ ((AskedFor o u).const = true ∧ u.ty.volatile = true ∧ t.volatile = false)) := by
  rw [relaxedGetPtr_eq o u hg hx hi]
  have hc : o.isConst = decide (o = .const) := by cases o <;> rfl
  rw [hc, ← ht.eq]
  have hiff := picksNonTemplate_iff D.classes false t (AskedFor o u)
  refine ⟨_, rfl, ?_, ?_⟩
  · split <;> simp
  · simp only [Bool.false_eq_true, false_implies, and_true] at hiff
    rw [show (AskedFor o u).volatile = u.ty.volatile from rfl] at hiff
    by_cases h : D.classes.picksNonTemplate false t (AskedFor o u) = true
    · obtain ⟨h1, h2, h3, h4⟩ := hiff.mp h
      simp only [h, if_true, true_iff]
      exact ⟨⟨h1, h2⟩, h3, h4⟩
    · simp only [h, if_false, reduceCtorEq, false_iff]
      rintro ⟨⟨h1, h2⟩, h3, h4⟩
      exact h (hiff.mpr ⟨h1, h2, h3, h4⟩)

/-- C28 for `get` as programs call it, with or without `BOOST_VARIANT_USE_RELAXED_GET_BY_DEFAULT`, for all types: the pointer and the reference form compile
alike, with the macro always. Where they compile, a null operand gives null; the pointer form finds the content under the exact condition of
`C28_get_volatile`; the reference form refers to the object that the pointer form points to, and throws `bad_get` exactly when that is null. -/
theorem C28_get_default (relaxed : Bool) (o : Operand) (u : GetArg) :
    ((getByPtr C D relaxed o u).isSome ↔ (getByRef C D relaxed o u).isSome) ∧ (relaxed = true → (getByPtr C D relaxed o u).isSome) ∧
    ∀ f g, getByPtr C D relaxed o u = some f → getByRef C D relaxed o u = some g → (∀ w, f none w = .ok none w) ∧
      ∀ {w x k v id}, Good C w → w.holds x k v → w.objOf x = some id → ∀ {t}, SeenAs (decide (o = .const)) (D.elem k) t →
      ∃ r, f (some (.user x)) w = .ok r w ∧
        (r = some id ∧ g (.user x) w = .ok id w ∨ r = none ∧ ∃ e, e.kind = .badGet ∧ g (.user x) w = .exc e w) ∧
        (r = some id ↔ UpToConst t (AskedFor o u) ∧ (t.volatile = true → u.ty.volatile = true) ∧
          ¬ ((AskedFor o u).const = true ∧ u.ty.volatile = true ∧ t.volatile = false)) := by
  refine ⟨?_, ?_, fun f g hf hg => ?_⟩
  · unfold getByPtr getByRef
    cases relaxed <;> cases strictGetAllowed D o u <;> simp
  · rintro rfl
    simp [getByPtr]
  · obtain rfl : f = relaxedGetPtr C D o u := by
      unfold getByPtr at hf; grind
    obtain rfl : g = relaxedGet C D o u := by
      unfold getByRef at hg; grind
    refine ⟨fun w => C28_get_null o u w, fun {w x k v id} hgood hx hi {t} ht => ?_⟩
    obtain ⟨r, h1, -, h3⟩ := C28_get_volatile o u hgood hx hi ht
    refine ⟨r, h1, ?_, h3⟩
    rw [relaxedGetPtr_eq o u hgood hx hi] at h1
    rw [relaxedGet_eq o u hgood hx hi]
    cases h1
    by_cases h : D.classes.picksNonTemplate false ((D.elem k).lvalue o.isConst) (AskedFor o u) = true
    · exact .inl ⟨by simp [h], by simp [h]⟩
    · exact .inr ⟨by simp [h], _, rfl, by simp only [h]; rfl⟩

/-! ### C30 -/

theorem polymorphicTag_iff (cl : Classes) (b u : CvTy) (hb : b.volatile = false) (hu : u.volatile = false) :
    polymorphicTag cl b u = true ↔ BaseUpToConst cl u b := by
  obtain ⟨bb, bc, bv⟩ := b
  obtain ⟨ub, uc, uv⟩ := u
  simp only at hb hu
  subst hb; subst hu
  simp only [polymorphicTag, Classes.isBaseOf, BaseUpToConst, CvTy.removeCv, CvTy.mk.injEq]
  by_cases h : bb = ub
  · subst h
    cases bc <;> cases uc <;> simp
  · cases bc <;> cases uc <;> simp [h, and_assoc]

theorem polymorphicRelaxedGetPtr_eq (o : Operand) (u : GetArg) (hg : Good C w) (hx : w.holds x k v)
    (hi : w.objOf x = some id) : polymorphicRelaxedGetPtr C D o u (some (.user x)) w =
      .ok (if polymorphicTag D.classes (AskedFor o u) ((D.elem k).lvalue o.isConst) then some id else none) w := by
  obtain ⟨s, p, ho⟩ := hg.holds hx
  obtain rfl : p = id := by rw [ho.objOf] at hi; exact Option.some.inj hi
  simp only [polymorphicRelaxedGetPtr, M.noexceptIf, ho.apply, polymorphicVisitor, pure, M.pure, askedFor_eq]

theorem polymorphicRelaxedGet_eq (o : Operand) (u : GetArg) (hg : Good C w) (hx : w.holds x k v) (hi : w.objOf x = some id) :
    polymorphicRelaxedGet C D o u (.user x) w =
      if polymorphicTag D.classes (AskedFor o u) ((D.elem k).lvalue o.isConst) then .ok id w
      else .exc ⟨.badPolymorphicGet, w.tick⟩ w := by
  have h := polymorphicRelaxedGetPtr_eq (D := D) o (if o.isConst then u.addConst else u) hg hx hi
  rw [← askedFor_eq, addConst_twice, askedFor_eq] at h
  simp only [polymorphicRelaxedGet, bind, M.bind, h]
  split <;> rfl

/-- C30: `polymorphic_get<U>(&x)` returns a pointer to the content of `x` itself exactly when the content's type is `U` or
derives from it and no const would be dropped, and null otherwise; the reference form throws `bad_polymorphic_get`
exactly when the pointer form returns null. Here neither the content's type nor `U` is volatile. What is missing is false, see
`C30_counterexample_volatile`. -/
theorem C30_polymorphic_get_partial (o : Operand) (u : GetArg) (hg : Good C w) (hx : w.holds x k v) (hi : w.objOf x = some id)
    {t : CvTy} (ht : SeenAs (decide (o = .const)) (D.elem k) t) (hv : t.volatile = false) (hu : u.ty.volatile = false) :
    (BaseUpToConst D.classes t (AskedFor o u) ∧ polymorphicRelaxedGetPtr C D o u (some (.user x)) w = .ok (some id) w ∧
      polymorphicRelaxedGet C D o u (.user x) w = .ok id w) ∨
    (¬ BaseUpToConst D.classes t (AskedFor o u) ∧ polymorphicRelaxedGetPtr C D o u (some (.user x)) w = .ok none w ∧
      ∃ e, e.kind = .badPolymorphicGet ∧ polymorphicRelaxedGet C D o u (.user x) w = .exc e w) := by
  rw [polymorphicRelaxedGetPtr_eq o u hg hx hi, polymorphicRelaxedGet_eq o u hg hx hi]
  have hc : o.isConst = decide (o = .const) := by cases o <;> rfl
  rw [hc, ← ht.eq]
  have hiff := polymorphicTag_iff D.classes (AskedFor o u) t hu hv
  by_cases h : polymorphicTag D.classes (AskedFor o u) t = true
  · exact Or.inl ⟨hiff.mp h, by simp [h], by simp [h]⟩
  · refine Or.inr ⟨fun h' => h (hiff.mpr h'), by simp [h], _, ?_, by simp [h]; rfl⟩
    rfl

/-- C30: whenever `get<U>` finds the content, `polymorphic_get<U>` finds the same object. -/
theorem C30_polymorphic_get_extends_get (o : Operand) (u : GetArg) (hg : Good C w) (hx : w.alive x)
    (hD : ∀ k, (D.elem k).NotVolatile) (hu : u.ty.volatile = false) {id : ObjId}
    (h : relaxedGetPtr C D o u (some (.user x)) w = .ok (some id) w) :
    polymorphicRelaxedGetPtr C D o u (some (.user x)) w = .ok (some id) w := by
  obtain ⟨s, i, k, v, ho⟩ := hg.owns hx
  have ht := SeenAs.lvalue (decide (o = .const)) (D.elem k)
  rcases C28_get (D := D) o u hg ho.holds ho.objOf ht (ht.notVolatile (hD k)) hu with ⟨⟨h1, h2⟩, h3, -⟩ | ⟨-, h3, -⟩
  · rw [h3] at h; cases h
    rcases C30_polymorphic_get_partial (D := D) o u hg ho.holds ho.objOf ht (ht.notVolatile (hD k)) hu with ⟨-, h4, -⟩ | ⟨h4, -⟩
    · exact h4
    · exact absurd ⟨Or.inl h1, h2⟩ h4
  · rw [h3] at h; cases h

/-- C30 for `polymorphic_get` as programs call it, with or without `BOOST_VARIANT_USE_RELAXED_GET_BY_DEFAULT`, whatever the qualifiers and references among the
bounded types: the pointer and the reference form compile alike, with the macro always. Where they compile, they do as in `C30_polymorphic_get_partial`, and a
null operand gives null. Missing as there. -/
theorem C30_polymorphic_get_default_partial (relaxed : Bool) (o : Operand) (u : GetArg) :
    ((polymorphicGetPtr C D relaxed o u).isSome ↔ (polymorphicGetRef C D relaxed o u).isSome) ∧
    (relaxed = true → (polymorphicGetPtr C D relaxed o u).isSome) ∧
    ∀ f g, polymorphicGetPtr C D relaxed o u = some f → polymorphicGetRef C D relaxed o u = some g → (∀ w, f none w = .ok none w) ∧
      ∀ {w x k v id}, Good C w → w.holds x k v → w.objOf x = some id → ∀ {t}, SeenAs (decide (o = .const)) (D.elem k) t → t.volatile = false →
      u.ty.volatile = false →
      (BaseUpToConst D.classes t (AskedFor o u) ∧ f (some (.user x)) w = .ok (some id) w ∧ g (.user x) w = .ok id w) ∨
      (¬ BaseUpToConst D.classes t (AskedFor o u) ∧ f (some (.user x)) w = .ok none w ∧
        ∃ e, e.kind = .badPolymorphicGet ∧ g (.user x) w = .exc e w) := by
  refine ⟨?_, ?_, fun f g hf hg => ?_⟩
  · unfold polymorphicGetPtr polymorphicGetRef
    cases relaxed <;> cases polymorphicStrictGetAllowed D u <;> simp
  · rintro rfl
    simp [polymorphicGetPtr]
  · obtain rfl : f = polymorphicRelaxedGetPtr C D o u := by
      unfold polymorphicGetPtr at hf; grind
    obtain rfl : g = polymorphicRelaxedGet C D o u := by
      unfold polymorphicGetRef at hg; grind
    exact ⟨fun w => rfl, fun {w x k v id} hgood hx hi {t} ht hv hu => C30_polymorphic_get_partial o u hgood hx hi ht hv hu⟩

/-! ### C29 and C49 -/

/-- The world with one variable, 0, that holds the value `v` of type `k` in place. -/
def oneVariant (k : TyIx) (v : V) : World V where
  objs := upd (fun _ => none) 0 (some (k, v))
  next := 1
  vars := upd (fun _ => none) (.user 0) (some ⟨(k : Int), .obj 0⟩)
  tick := 0
  allocs := 0
  sub := fun _ => []

theorem oneVariant_owns (hk : k < C.n) : Owns C (oneVariant k v) (.user 0) ⟨(k : Int), .obj 0⟩ 0 k v :=
  ⟨by simp [oneVariant], .inPlace _ _ hk, by simp [oneVariant]⟩

theorem oneVariant_good (hk : k < C.n) : Good C (oneVariant k v) where
  wf := {
    rep := by
      intro x s h
      by_cases hx : x = .user 0
      · subst hx
        have := (oneVariant_owns (C := C) (v := v) hk)
        rw [this.var] at h; cases h
        exact ⟨0, k, v, this.rep, this.obj⟩
      · simp [oneVariant, hx] at h
    inj := by
      intro x y sx sy id hx hy _ _
      by_cases h1 : x = .user 0
      · by_cases h2 : y = .user 0
        · rw [h1, h2]
        · simp [oneVariant, h2] at hy
      · simp [oneVariant, h1] at hx
    noLeak := by
      intro id h
      by_cases hi : id = 0
      · subst hi; exact ⟨.user 0, _, (oneVariant_owns (C := C) (v := v) hk).var, rfl⟩
      · simp [oneVariant, hi] at h
    fresh := by
      intro id h
      have h' : 1 ≤ id := h
      have : id ≠ 0 := by omega
      simp [oneVariant, this]
    flat := fun _ => rfl }
  noTmp := by intro n; simp [oneVariant]

/-- Can `relaxed_get<U>` succeed on some live variant in some state? -/
def GetCanSucceed (C : Cfg V) (D : Decl) (o : Operand) (u : GetArg) : Prop :=
  ∃ w x id, Good C w ∧ World.alive w x ∧ relaxedGetPtr C D o u (some (.user x)) w = .ok (some id) w

/-- Can `polymorphic_relaxed_get<U>` succeed on some live variant in some state? -/
def PolymorphicGetCanSucceed (C : Cfg V) (D : Decl) (o : Operand) (u : GetArg) : Prop :=
  ∃ w x id, Good C w ∧ World.alive w x ∧ polymorphicRelaxedGetPtr C D o u (some (.user x)) w = .ok (some id) w

theorem elem_mem (D : Decl) (hk : k < D.elems.length) : D.elem k ∈ D.elems := by
  simp [Decl.elem, List.getD, hk]

theorem exists_elem {e : Elem} (h : e ∈ D.elems) : ∃ k, k < D.elems.length ∧ D.elem k = e := by
  obtain ⟨k, hk, rfl⟩ := List.getElem_of_mem h
  exact ⟨k, hk, by simp [Decl.elem, List.getD, hk]⟩

theorem getCanSucceed_iff (hn : C.n = D.elems.length) (v : V) (o : Operand) (u : GetArg) : GetCanSucceed C D o u ↔
    ∃ e, e ∈ D.elems ∧ D.classes.picksNonTemplate false (e.lvalue o.isConst) (AskedFor o u) = true := by
  constructor
  · rintro ⟨w, x, id, hg, hx, h⟩
    obtain ⟨s, i, k, v, ho⟩ := hg.owns hx
    rw [relaxedGetPtr_eq o u hg ho.holds ho.objOf] at h
    refine ⟨D.elem k, elem_mem D (by rw [← hn]; exact ho.rep.lt), ?_⟩
    split at h
    · assumption
    · cases h
  · rintro ⟨e, he, h⟩
    obtain ⟨k, hk, rfl⟩ := exists_elem he
    rw [← hn] at hk
    have ho := oneVariant_owns (C := C) (v := v) hk
    refine ⟨_, 0, 0, oneVariant_good (v := v) hk, by simp [World.alive, oneVariant], ?_⟩
    rw [relaxedGetPtr_eq o u (oneVariant_good hk) ho.holds ho.objOf, h]
    rfl

theorem polymorphicGetCanSucceed_iff (hn : C.n = D.elems.length) (v : V) (o : Operand) (u : GetArg) :
    PolymorphicGetCanSucceed C D o u ↔
      ∃ e, e ∈ D.elems ∧ polymorphicTag D.classes (AskedFor o u) (e.lvalue o.isConst) = true := by
  constructor
  · rintro ⟨w, x, id, hg, hx, h⟩
    obtain ⟨s, i, k, v, ho⟩ := hg.owns hx
    rw [polymorphicRelaxedGetPtr_eq o u hg ho.holds ho.objOf] at h
    refine ⟨D.elem k, elem_mem D (by rw [← hn]; exact ho.rep.lt), ?_⟩
    split at h
    · assumption
    · cases h
  · rintro ⟨e, he, h⟩
    obtain ⟨k, hk, rfl⟩ := exists_elem he
    rw [← hn] at hk
    have ho := oneVariant_owns (C := C) (v := v) hk
    refine ⟨_, 0, 0, oneVariant_good (v := v) hk, by simp [World.alive, oneVariant], ?_⟩
    rw [polymorphicRelaxedGetPtr_eq o u (oneVariant_good hk) ho.holds ho.objOf, h]
    rfl

theorem holdsElement_iff (D : Decl) (u : GetArg) :
    holdsElement D u = true ↔ ∃ e, e ∈ D.elems ∧ elementPred u.ty e.unwrap = true := by
  simp [holdsElement, List.any_map]

theorem elementPred_iff (u : CvTy) (e : Elem) :
    elementPred u e.unwrap = true ↔
      (e = .val u ∨ e = .wrapped u ∨ e = .ref u) ∨ e = .val u.removeCv ∨ e = .wrapped u.removeCv ∨ e = .ref u.removeCv := by
  cases e <;> simp [elementPred, variantElementFunctor, Elem.unwrap]

/-- C29: `strict_get<U>` compiles exactly if `relaxed_get<U>` can succeed in some state of the variant; except that with a
reference type `U` it never compiles for an rvalue variant, on purpose (get.hpp 289-292). Here no volatile types are involved, and
the variant is not const if `U` is a reference type. What is missing (and false, see the counterexamples): volatile types, and
`U` a reference type for a const variant. -/
theorem C29_strict_get_check_partial (hn : C.n = D.elems.length) (v : V) (o : Operand) (u : GetArg)
    (hD : D.NotVolatile) (hu : u.ty.volatile = false) (hr : u.isRef = true → o ≠ .const) :
    strictGetAllowed D o u = true ↔ GetCanSucceed C D o u ∧ ¬ (u.isRef = true ∧ o = .rvalue) := by
  by_cases hrr : u.isRef = true ∧ o = .rvalue
  · simp [strictGetAllowed, hrr.1, hrr.2]
  rw [getCanSucceed_iff hn v, and_iff_left hrr]
  have key : strictGetAllowed D o u = true ↔ ∃ e, e ∈ D.elems ∧ elementPred (AskedFor o u) e.unwrap = true := by
    obtain ⟨⟨b, c, vo⟩, r⟩ := u
    cases o with
    | nonconst => simp [strictGetAllowed, holdsElement_iff, AskedFor]
    | const =>
      cases r with
      | false => simp [strictGetAllowed, holdsElement_iff, AskedFor, GetArg.addConst, CvTy.addConst]
      | true => exact absurd rfl (hr rfl)
    | rvalue =>
      cases r with
      | false => simp [strictGetAllowed, holdsElement_iff, AskedFor]
      | true => exact absurd ⟨rfl, rfl⟩ hrr
  rw [key]
  have hco : o = .const → (AskedFor o u).const = true := by
    rintro rfl
    obtain ⟨⟨b, c, vo⟩, r⟩ := u
    cases r with
    | false => simp [AskedFor]
    | true => exact absurd rfl (hr rfl)
  constructor
  · rintro ⟨e, he, h⟩
    refine ⟨e, he, ?_⟩
    rw [picksNonTemplate_iff]
    rw [elementPred_iff] at h
    have h0 : (AskedFor o u).volatile = false := hu
    revert h hco h0
    generalize AskedFor o u = a
    intro hco h h0
    obtain ⟨ab, ac, av⟩ := a
    simp only at h0; subst h0
    rcases h with (rfl | rfl | rfl) | rfl | rfl | rfl <;> cases o <;> simp_all [Elem.lvalue, Operand.isConst, CvTy.removeCv,
      CvTy.addConst]
  · rintro ⟨e, he, h⟩
    refine ⟨e, he, ?_⟩
    rw [picksNonTemplate_iff] at h
    rw [elementPred_iff]
    have h0 : (AskedFor o u).volatile = false := hu
    have hv := hD e he
    revert h hco h0
    generalize AskedFor o u = a
    intro hco h h0
    obtain ⟨ab, ac, av⟩ := a
    simp only at h0; subst h0
    cases e with
    | val t =>
      obtain ⟨tb, tc, tv⟩ := t
      simp only [Elem.NotVolatile] at hv; subst hv
      cases o <;> cases ac <;> cases tc <;> simp_all [Elem.lvalue, Operand.isConst, CvTy.removeCv, CvTy.addConst]
    | wrapped t =>
      obtain ⟨tb, tc, tv⟩ := t
      simp only [Elem.NotVolatile] at hv; subst hv
      cases o <;> cases ac <;> cases tc <;> simp_all [Elem.lvalue, Operand.isConst, CvTy.removeCv, CvTy.addConst]
    | ref t =>
      obtain ⟨tb, tc, tv⟩ := t
      simp only [Elem.NotVolatile] at hv; subst hv
      cases o <;> cases ac <;> cases tc <;> simp_all [Elem.lvalue, CvTy.removeCv]

/-- C49: `polymorphic_strict_get<U>` compiles exactly if `polymorphic_relaxed_get<U>` can succeed in some state of the
variant. Here no bounded type is const, volatile or a reference, and `U` is not volatile, and not a reference type if the
variant is const. What is missing is false, see the counterexamples. -/
theorem C49_polymorphic_strict_get_check_partial (hn : C.n = D.elems.length) (v : V) (o : Operand) (u : GetArg)
    (hD : D.NotVolatile) (hP : ∀ e, e ∈ D.elems → e.Plain) (hu : u.ty.volatile = false)
    (hr : u.isRef = true → o ≠ .const) :
    polymorphicStrictGetAllowed D u = true ↔ PolymorphicGetCanSucceed C D o u := by
  rw [polymorphicGetCanSucceed_iff hn v]
  have key : polymorphicStrictGetAllowed D u = true ↔ ∃ e, e ∈ D.elems ∧ elementPolymorphicPred D.classes u.ty e.unwrap = true := by
    simp [polymorphicStrictGetAllowed, holdsElementPolymorphic, List.any_map]
  rw [key]
  refine exists_congr fun e => and_congr_right fun he => ?_
  have hv := hD e he
  have hp := hP e he
  rw [polymorphicTag_iff _ (AskedFor o u) (e.lvalue o.isConst) hu ((SeenAs.lvalue _ e).notVolatile hv)]
  obtain ⟨⟨b, c, vo⟩, r⟩ := u
  simp only at hu; subst hu
  cases e with
  | ref t => cases hp
  | val t =>
    obtain ⟨tb, tc, tv⟩ := t
    simp only [Elem.NotVolatile] at hv; subst hv
    simp only [Elem.Plain] at hp; subst hp
    by_cases hb : b = tb
    · subst hb
      cases o <;> cases c <;> cases r <;> simp_all [elementPolymorphicPred, variantElementFunctor, isBaseOfElem,
        Classes.isBaseOf, BaseUpToConst, AskedFor, Elem.lvalue, Operand.isConst, CvTy.addConst, CvTy.removeCv, Elem.unwrap]
    · cases o <;> cases c <;> cases r <;> simp_all [elementPolymorphicPred, variantElementFunctor, isBaseOfElem,
        Classes.isBaseOf, BaseUpToConst, AskedFor, Elem.lvalue, Operand.isConst, CvTy.addConst, CvTy.removeCv, Elem.unwrap,
        and_assoc, Ne.symm hb]
  | wrapped t =>
    obtain ⟨tb, tc, tv⟩ := t
    simp only [Elem.NotVolatile] at hv; subst hv
    simp only [Elem.Plain] at hp; subst hp
    by_cases hb : b = tb
    · subst hb
      cases o <;> cases c <;> cases r <;> simp_all [elementPolymorphicPred, variantElementFunctor, isBaseOfElem,
        Classes.isBaseOf, BaseUpToConst, AskedFor, Elem.lvalue, Operand.isConst, CvTy.addConst, CvTy.removeCv, Elem.unwrap]
    · cases o <;> cases c <;> cases r <;> simp_all [elementPolymorphicPred, variantElementFunctor, isBaseOfElem,
        Classes.isBaseOf, BaseUpToConst, AskedFor, Elem.lvalue, Operand.isConst, CvTy.addConst, CvTy.removeCv, Elem.unwrap,
        and_assoc, Ne.symm hb]

/-- C29, `get`: with `BOOST_VARIANT_USE_RELAXED_GET_BY_DEFAULT` it always compiles; without it, exactly if it can succeed in some state of the
variant (except a reference type on an rvalue). Wherever it compiles, it finds the content if its type is the one asked for, up to added const, and
otherwise returns null or throws `bad_get`. Missing as in `C29_strict_get_check_partial`. -/
theorem C29_get_partial (hn : C.n = D.elems.length) (d : V) (relaxed : Bool) (o : Operand) (u : GetArg)
    (hD : D.NotVolatile) (hu : u.ty.volatile = false) (hr : u.isRef = true → o ≠ .const) :
    ((getByPtr C D relaxed o u).isSome ↔ relaxed = true ∨ GetCanSucceed C D o u ∧ ¬ (u.isRef = true ∧ o = .rvalue)) ∧
    ((getByRef C D relaxed o u).isSome ↔ relaxed = true ∨ GetCanSucceed C D o u ∧ ¬ (u.isRef = true ∧ o = .rvalue)) ∧
    ∀ f g, getByPtr C D relaxed o u = some f → getByRef C D relaxed o u = some g → ∀ {w x k v id}, Good C w → w.holds x k v →
      w.objOf x = some id → ∀ {t}, SeenAs (decide (o = .const)) (D.elem k) t → t.volatile = false →
      (UpToConst t (AskedFor o u) ∧ f (some (.user x)) w = .ok (some id) w ∧ g (.user x) w = .ok id w) ∨
      (¬ UpToConst t (AskedFor o u) ∧ f (some (.user x)) w = .ok none w ∧ ∃ e, e.kind = .badGet ∧ g (.user x) w = .exc e w) := by
  have hc := C29_strict_get_check_partial hn d o u hD hu hr
  refine ⟨?_, ?_, ?_⟩
  · unfold getByPtr
    cases relaxed
    · rw [← hc]; cases strictGetAllowed D o u <;> simp
    · simp
  · unfold getByRef
    cases relaxed
    · rw [← hc]; cases strictGetAllowed D o u <;> simp
    · simp
  · intro f g hf hg w x k v id hgood hx hi t ht hv
    obtain rfl : f = relaxedGetPtr C D o u := by
      unfold getByPtr at hf; grind
    obtain rfl : g = relaxedGet C D o u := by
      unfold getByRef at hg; grind
    exact C28_get o u hgood hx hi ht hv hu

/-- C49, `polymorphic_get`: with `BOOST_VARIANT_USE_RELAXED_GET_BY_DEFAULT` it always compiles; without it, exactly if it can succeed in some state
of the variant. Wherever it compiles, it finds the content if `U` is its type or a base of it and no const would be dropped, and otherwise returns null
or throws `bad_polymorphic_get`. Missing as in
`C49_polymorphic_strict_get_check_partial`. -/
theorem C49_polymorphic_get_partial (hn : C.n = D.elems.length) (d : V) (relaxed : Bool) (o : Operand) (u : GetArg)
    (hD : D.NotVolatile) (hP : ∀ e, e ∈ D.elems → e.Plain) (hu : u.ty.volatile = false) (hr : u.isRef = true → o ≠ .const) :
    ((polymorphicGetPtr C D relaxed o u).isSome ↔ relaxed = true ∨ PolymorphicGetCanSucceed C D o u) ∧
    ((polymorphicGetRef C D relaxed o u).isSome ↔ relaxed = true ∨ PolymorphicGetCanSucceed C D o u) ∧
    ∀ f g, polymorphicGetPtr C D relaxed o u = some f → polymorphicGetRef C D relaxed o u = some g → ∀ {w x k v id}, Good C w →
      w.holds x k v → w.objOf x = some id → ∀ {t}, SeenAs (decide (o = .const)) (D.elem k) t → t.volatile = false →
      (BaseUpToConst D.classes t (AskedFor o u) ∧ f (some (.user x)) w = .ok (some id) w ∧ g (.user x) w = .ok id w) ∨
      (¬ BaseUpToConst D.classes t (AskedFor o u) ∧ f (some (.user x)) w = .ok none w ∧
        ∃ e, e.kind = .badPolymorphicGet ∧ g (.user x) w = .exc e w) := by
  have hc := C49_polymorphic_strict_get_check_partial hn d o u hD hP hu hr
  refine ⟨?_, ?_, ?_⟩
  · unfold polymorphicGetPtr
    cases relaxed
    · rw [← hc]; cases polymorphicStrictGetAllowed D u <;> simp
    · simp
  · unfold polymorphicGetRef
    cases relaxed
    · rw [← hc]; cases polymorphicStrictGetAllowed D u <;> simp
    · simp
  · intro f g hf hg w x k v id hgood hx hi t ht hv
    obtain rfl : f = polymorphicRelaxedGetPtr C D o u := by unfold polymorphicGetPtr at hf; grind
    obtain rfl : g = polymorphicRelaxedGet C D o u := by unfold polymorphicGetRef at hg; grind
    exact C30_polymorphic_get_partial o u hgood hx hi ht hv hu

/-! ### C34 -/

/-- C34: a visitor made from a function on `T` calls it, on the content itself and exactly once, if the content's type is
`T`; otherwise, and only then, it throws `bad_visit`. The function is arbitrary code. -/
theorem C34_visitor_ptr (o : Operand) (p : ParamTy) (fn : ObjId → M V α) (hg : Good C w) (hx : w.holds x k v)
    (hi : w.objOf x = some id) {t : CvTy} (ht : SeenAs (decide (o = .const)) (D.elem k) t) (hv : t.volatile = false)
    (hp : p.ty.volatile = false) :
    (Accepts (decide (o = .rvalue)) p t ∧ applyVisitor C (.user x) (visitorPtr D o p fn) w = fn id w) ∨
    (¬ Accepts (decide (o = .rvalue)) p t ∧
      ∃ e, e.kind = .badVisit ∧ applyVisitor C (.user x) (visitorPtr D o p fn) w = .exc e w) := by
  obtain ⟨s, q, ho⟩ := hg.holds hx
  obtain rfl : q = id := by rw [ho.objOf] at hi; exact Option.some.inj hi
  rw [ho.apply]
  have hc : o.isConst = decide (o = .const) := by cases o <;> rfl
  have hrv : o.isRvalue = decide (o = .rvalue) := by cases o <;> rfl
  simp only [visitorPtr, hc, ← ht.eq, hrv]
  have hiff := picksNonTemplate_iff D.classes (decide (o = .rvalue)) t p.fwd
  have hacc : D.classes.picksNonTemplate (decide (o = .rvalue)) t p.fwd = true ↔ Accepts (decide (o = .rvalue)) p t := by
    rw [hiff]
    obtain ⟨⟨pb, pc, pv⟩, pr⟩ := p
    simp only at hp; subst hp
    cases pr <;> cases o <;> simp [ParamTy.fwd, CvTy.addConst, Accepts, hv]
  by_cases h : D.classes.picksNonTemplate (decide (o = .rvalue)) t p.fwd = true
  · exact Or.inl ⟨hacc.mp h, by simp [h]⟩
  · refine Or.inr ⟨fun h' => h (hacc.mpr h'), _, ?_, by simp [h, throwKind]; rfl⟩
    rfl

end

/-! ### Counterexamples -/

/-- A variant with one type. -/
def oneType : Cfg Nat := exCfg [tThrowing] []

/-- No classes. -/
def noClasses : Classes := ⟨fun _ => false, fun _ _ => false⟩

/-- Types 1 and 2 are classes and 1 is a base of 2. -/
def twoClasses : Classes := ⟨fun t => t == 1 || t == 2, fun b d => b == 1 && d == 2⟩

/-- C29 is false for volatile types, first direction (finding F11): `strict_get<const volatile int>` compiles for
`variant<int>`, but cannot succeed. -/
theorem C29_counterexample_const_volatile :
    strictGetAllowed ⟨[.val ⟨7, false, false⟩], noClasses⟩ .nonconst ⟨⟨7, true, true⟩, false⟩ = true ∧
    ¬ GetCanSucceed oneType ⟨[.val ⟨7, false, false⟩], noClasses⟩ .nonconst ⟨⟨7, true, true⟩, false⟩ := by
  refine ⟨by decide, ?_⟩
  rw [getCanSucceed_iff rfl 0]
  simp; decide

/-- C29 is false for volatile types, second direction (finding F11): `strict_get<volatile int>` does not compile for a
`const variant<volatile int>`, but `relaxed_get` would succeed. -/
theorem C29_counterexample_volatile_element :
    strictGetAllowed ⟨[.val ⟨7, false, true⟩], noClasses⟩ .const ⟨⟨7, false, true⟩, false⟩ = false ∧
    GetCanSucceed oneType ⟨[.val ⟨7, false, true⟩], noClasses⟩ .const ⟨⟨7, false, true⟩, false⟩ := by
  refine ⟨by decide, ?_⟩
  rw [getCanSucceed_iff rfl 0]
  exact ⟨_, List.mem_singleton.mpr rfl, by decide⟩

/-- C29 is false for references (finding F12): `strict_get<int&>` compiles for a `const variant<int>`, but cannot
succeed. -/
theorem C29_counterexample_reference :
    strictGetAllowed ⟨[.val ⟨7, false, false⟩], noClasses⟩ .const ⟨⟨7, false, false⟩, true⟩ = true ∧
    ¬ GetCanSucceed oneType ⟨[.val ⟨7, false, false⟩], noClasses⟩ .const ⟨⟨7, false, false⟩, true⟩ := by
  refine ⟨by decide, ?_⟩
  rw [getCanSucceed_iff rfl 0]
  simp; decide

/-- C30's second part is false for volatile types (finding F11): `relaxed_get<const volatile int>` finds a
`volatile int`, `polymorphic_relaxed_get` does not. -/
theorem C30_counterexample_volatile :
    GetCanSucceed oneType ⟨[.val ⟨7, false, true⟩], noClasses⟩ .nonconst ⟨⟨7, true, true⟩, false⟩ ∧
    ¬ PolymorphicGetCanSucceed oneType ⟨[.val ⟨7, false, true⟩], noClasses⟩ .nonconst ⟨⟨7, true, true⟩, false⟩ := by
  rw [getCanSucceed_iff rfl 0, polymorphicGetCanSucceed_iff rfl 0]
  exact ⟨⟨_, List.mem_singleton.mpr rfl, by decide⟩, by simp; decide⟩

/-- C49 is false for reference elements (finding F13): `polymorphic_get<Base>` does not compile for `variant<Derived&>`,
but `polymorphic_relaxed_get` would succeed. -/
theorem C49_counterexample_reference_element :
    polymorphicStrictGetAllowed ⟨[.ref ⟨2, false, false⟩], twoClasses⟩ ⟨⟨1, false, false⟩, false⟩ = false ∧
    PolymorphicGetCanSucceed oneType ⟨[.ref ⟨2, false, false⟩], twoClasses⟩ .nonconst ⟨⟨1, false, false⟩, false⟩ := by
  refine ⟨by decide, ?_⟩
  rw [polymorphicGetCanSucceed_iff rfl 0]
  exact ⟨_, List.mem_singleton.mpr rfl, by decide⟩

/-- C49 is false for const elements (finding F13): `polymorphic_get<Base>` compiles for `variant<const Derived>`, but
cannot succeed. -/
theorem C49_counterexample_const_class :
    polymorphicStrictGetAllowed ⟨[.val ⟨2, true, false⟩], twoClasses⟩ ⟨⟨1, false, false⟩, false⟩ = true ∧
    ¬ PolymorphicGetCanSucceed oneType ⟨[.val ⟨2, true, false⟩], twoClasses⟩ .nonconst ⟨⟨1, false, false⟩, false⟩ := by
  refine ⟨by decide, ?_⟩
  rw [polymorphicGetCanSucceed_iff rfl 0]
  simp; decide

/-- C49 is false for const elements (finding F13): `polymorphic_get<int>` does not compile for a
`const variant<const int>`, but `polymorphic_relaxed_get` would succeed. -/
theorem C49_counterexample_const_scalar :
    polymorphicStrictGetAllowed ⟨[.val ⟨7, true, false⟩], noClasses⟩ ⟨⟨7, false, false⟩, false⟩ = false ∧
    PolymorphicGetCanSucceed oneType ⟨[.val ⟨7, true, false⟩], noClasses⟩ .const ⟨⟨7, false, false⟩, false⟩ := by
  refine ⟨by decide, ?_⟩
  rw [polymorphicGetCanSucceed_iff rfl 0]
  exact ⟨_, List.mem_singleton.mpr rfl, by decide⟩

/-! ### Non-vacuity -/

/-- `variant<Derived, recursive_wrapper<int>>`. -/
def exDecl : Decl := ⟨[.val ⟨2, false, false⟩, .wrapped ⟨7, false, false⟩], twoClasses⟩

/-- C28, C30, C34 in the heap-backup state: `get<Base>` is null, `get<const Derived>` is not, `polymorphic_get<Base>` is
not, a function on `Derived` is called, one on `Base&` is not. -/
example (id : ObjId) (hi : exBackup.objOf 0 = some id) :
    relaxedGetPtr exTwo exDecl .nonconst ⟨⟨1, false, false⟩, false⟩ (some (.user 0)) exBackup = .ok none exBackup ∧
    relaxedGetPtr exTwo exDecl .nonconst ⟨⟨2, true, false⟩, false⟩ (some (.user 0)) exBackup = .ok (some id) exBackup ∧
    polymorphicRelaxedGetPtr exTwo exDecl .nonconst ⟨⟨1, false, false⟩, false⟩ (some (.user 0)) exBackup =
      .ok (some id) exBackup ∧
    applyVisitor exTwo (.user 0) (visitorPtr exDecl .const ⟨⟨2, false, false⟩, false⟩ fun i => pure i) exBackup =
      .ok id exBackup ∧
    ∃ e, e.kind = .badVisit ∧
      applyVisitor exTwo (.user 0) (visitorPtr exDecl .nonconst ⟨⟨1, false, false⟩, true⟩ fun i => pure i) exBackup =
        .exc e exBackup := by
  have hs : SeenAs (decide (Operand.nonconst = .const)) (exDecl.elem 0) ⟨2, false, false⟩ := SeenAs.lvalue _ _
  have hc : SeenAs (decide (Operand.const = .const)) (exDecl.elem 0) ⟨2, true, false⟩ := SeenAs.lvalue _ _
  refine ⟨?_, ?_, ?_, ?_, ?_⟩
  · rcases C28_get (D := exDecl) .nonconst ⟨⟨1, false, false⟩, false⟩ exBackup_good exBackup_facts.2.1 hi hs rfl rfl with h | h
    · exact absurd h.1.1 (by decide)
    · exact h.2.1
  · rcases C28_get (D := exDecl) .nonconst ⟨⟨2, true, false⟩, false⟩ exBackup_good exBackup_facts.2.1 hi hs rfl rfl with h | h
    · exact h.2.1
    · exact absurd ⟨rfl, fun _ => rfl⟩ h.1
  · rcases C30_polymorphic_get_partial (D := exDecl) .nonconst ⟨⟨1, false, false⟩, false⟩ exBackup_good exBackup_facts.2.1 hi hs rfl rfl
      with h | h
    · exact h.2.1
    · exact absurd ⟨Or.inr (by decide), by decide⟩ h.1
  · rcases C34_visitor_ptr (D := exDecl) .const ⟨⟨2, false, false⟩, false⟩ (fun i => pure i) exBackup_good exBackup_facts.2.1 hi
      hc rfl rfl with h | h
    · exact h.2
    · exact absurd ⟨rfl, by decide⟩ h.1
  · rcases C34_visitor_ptr (D := exDecl) .nonconst ⟨⟨1, false, false⟩, true⟩ (fun i => pure i) exBackup_good exBackup_facts.2.1 hi
      hs rfl rfl with h | h
    · exact absurd h.1.1 (by decide)
    · exact h.2

/-- C29 and C49 apply to `exDecl`. -/
example := C29_strict_get_check_partial (C := exTwo) (D := exDecl) rfl 0 .const ⟨⟨7, false, false⟩, false⟩
  (by unfold Decl.NotVolatile; intro e he; simp [exDecl] at he; rcases he with rfl | rfl <;> rfl) rfl (by decide)
example : strictGetAllowed exDecl .rvalue ⟨⟨7, false, false⟩, true⟩ = false ∧ strictGetAllowed exDecl .rvalue ⟨⟨7, false, false⟩, false⟩ = true := by
  decide
example := C29_get_partial (C := exTwo) (D := exDecl) rfl 0 false .const ⟨⟨7, false, false⟩, false⟩
  (by unfold Decl.NotVolatile; intro e he; simp [exDecl] at he; rcases he with rfl | rfl <;> rfl) rfl (by decide)
example := C49_polymorphic_get_partial (C := exTwo) (D := exDecl) rfl 0 false .const ⟨⟨1, false, false⟩, false⟩
  (by unfold Decl.NotVolatile; intro e he; simp [exDecl] at he; rcases he with rfl | rfl <;> rfl)
  (by intro e he; simp [exDecl] at he; rcases he with rfl | rfl <;> rfl) rfl (by decide)
example := C49_polymorphic_strict_get_check_partial (C := exTwo) (D := exDecl) rfl 0 .const ⟨⟨1, false, false⟩, false⟩
  (by unfold Decl.NotVolatile; intro e he; simp [exDecl] at he; rcases he with rfl | rfl <;> rfl)
  (by intro e he; simp [exDecl] at he; rcases he with rfl | rfl <;> rfl) rfl (by decide)

/-- C28 of a null pointer, and for a `volatile` bounded type. -/
example : relaxedGetPtr exTwo exDecl .const ⟨⟨2, false, false⟩, false⟩ none exBackup = .ok none exBackup :=
  C28_get_null _ _ _
example : ∃ id, relaxedGetPtr exTwo ⟨[.val ⟨2, false, true⟩, .val ⟨7, false, false⟩], twoClasses⟩ .const ⟨⟨2, false, true⟩, false⟩
      (some (.user 0)) exBackup = .ok (some id) exBackup ∧
    relaxedGetPtr exTwo ⟨[.val ⟨2, false, true⟩, .val ⟨7, false, false⟩], twoClasses⟩ .const ⟨⟨2, false, false⟩, false⟩
      (some (.user 0)) exBackup = .ok none exBackup := by
  obtain ⟨id, hi⟩ : ∃ i, exBackup.objOf 0 = some i := Option.isSome_iff_exists.mp (by decide +kernel)
  have hs : SeenAs (decide (Operand.const = .const))
      (Decl.elem ⟨[.val ⟨2, false, true⟩, .val ⟨7, false, false⟩], twoClasses⟩ 0) ⟨2, true, true⟩ := SeenAs.lvalue _ _
  refine ⟨id, ?_, ?_⟩
  · obtain ⟨r, h, -, h'⟩ := C28_get_volatile .const ⟨⟨2, false, true⟩, false⟩ exBackup_good exBackup_facts.2.1 hi hs
    rw [h, h'.mpr ⟨⟨rfl, fun _ => rfl⟩, fun _ => rfl, by decide⟩]
  · obtain ⟨r, h, h1, h'⟩ := C28_get_volatile .const ⟨⟨2, false, false⟩, false⟩ exBackup_good exBackup_facts.2.1 hi hs
    rcases h1 with rfl | rfl
    · exact h
    · exact absurd ((h'.mp rfl).2.1 rfl) (by decide)

/-- C28: `get<U>(x)` of those volatile contents, with the macro. -/
example : ∃ f g id, getByPtr exTwo ⟨[.val ⟨2, false, true⟩, .val ⟨7, false, false⟩], twoClasses⟩ true .const ⟨⟨2, false, true⟩, false⟩ = some f ∧
    getByRef exTwo ⟨[.val ⟨2, false, true⟩, .val ⟨7, false, false⟩], twoClasses⟩ true .const ⟨⟨2, false, true⟩, false⟩ = some g ∧
    f (some (.user 0)) exBackup = .ok (some id) exBackup ∧ g (.user 0) exBackup = .ok id exBackup := by
  obtain ⟨id, hi⟩ : ∃ i, exBackup.objOf 0 = some i := Option.isSome_iff_exists.mp (by decide +kernel)
  have hs : SeenAs (decide (Operand.const = .const))
      (Decl.elem ⟨[.val ⟨2, false, true⟩, .val ⟨7, false, false⟩], twoClasses⟩ 0) ⟨2, true, true⟩ := SeenAs.lvalue _ _
  obtain ⟨h1, h2, h3⟩ := C28_get_default (C := exTwo) (D := ⟨[.val ⟨2, false, true⟩, .val ⟨7, false, false⟩], twoClasses⟩) true .const ⟨⟨2, false, true⟩, false⟩
  obtain ⟨f, hf⟩ := Option.isSome_iff_exists.mp (h2 rfl)
  obtain ⟨g, hg⟩ := Option.isSome_iff_exists.mp (h1.mp (h2 rfl))
  obtain ⟨r, k1, k2, k3⟩ := (h3 f g hf hg).2 exBackup_good exBackup_facts.2.1 hi hs
  obtain rfl := k3.mpr ⟨⟨rfl, fun _ => rfl⟩, fun _ => rfl, by decide⟩
  rcases k2 with ⟨-, k4⟩ | ⟨k4, -⟩
  · exact ⟨f, g, id, hf, hg, k1, k4⟩
  · cases k4

/-- C30: `polymorphic_get<Base>(x)` of a `Derived` in a heap backup, without the macro. -/
example : ∃ f g id, polymorphicGetPtr exTwo exDecl false .nonconst ⟨⟨1, false, false⟩, false⟩ = some f ∧
    polymorphicGetRef exTwo exDecl false .nonconst ⟨⟨1, false, false⟩, false⟩ = some g ∧
    f (some (.user 0)) exBackup = .ok (some id) exBackup ∧ g (.user 0) exBackup = .ok id exBackup := by
  obtain ⟨id, hi⟩ : ∃ i, exBackup.objOf 0 = some i := Option.isSome_iff_exists.mp (by decide +kernel)
  have hs : SeenAs (decide (Operand.nonconst = .const)) (exDecl.elem 0) ⟨2, false, false⟩ := SeenAs.lvalue _ _
  obtain ⟨-, -, h3⟩ := C30_polymorphic_get_default_partial (C := exTwo) (D := exDecl) false .nonconst ⟨⟨1, false, false⟩, false⟩
  refine ⟨_, _, id, rfl, rfl, ?_⟩
  rcases (h3 _ _ rfl rfl).2 exBackup_good exBackup_facts.2.1 hi hs rfl rfl with h | h
  · exact h.2
  · exact absurd ⟨.inr (by decide), by decide⟩ h.1

end BVariant
