/-
C77: exactly for which requests and bounded types the static checks of `get` and `polymorphic_get` are right, and what they find.
-/
import Verif.Spec.GetExact
import Verif.Props.Get

namespace BVariant

section
variable {V : Type} {C : Cfg V} {D : Decl}

theorem strictGetAllowed_iff (o : Operand) (u : GetArg) (h : ¬ (u.isRef = true ∧ o = .rvalue)) :
    strictGetAllowed D o u = true ↔ D.Lists (AskedFor o u) ∨ D.Lists u.ty.plain := by
  have key : ∀ a : GetArg, holdsElement D a = true ↔ D.Lists a.ty ∨ D.Lists a.ty.plain := by
    intro a
    rw [holdsElement_iff]
    constructor
    · rintro ⟨e, he, h⟩
      rw [elementPred_iff] at h
      rcases h with (rfl | rfl | rfl) | rfl | rfl | rfl
      · exact .inl (.inl he)
      · exact .inl (.inr (.inl he))
      · exact .inl (.inr (.inr he))
      · exact .inr (.inl he)
      · exact .inr (.inr (.inl he))
      · exact .inr (.inr (.inr he))
    · rintro ((h | h | h) | h | h | h)
      all_goals exact ⟨_, h, (elementPred_iff _ _).mpr (by simp [CvTy.plain, CvTy.removeCv])⟩
  obtain ⟨⟨b, c, v⟩, r⟩ := u
  cases o with
  | nonconst => simp [strictGetAllowed, key, AskedFor]
  | const => cases r <;> simp [strictGetAllowed, key, AskedFor, GetArg.addConst, CvTy.addConst, CvTy.plain]
  | rvalue => cases r <;> simp_all [strictGetAllowed, AskedFor]

theorem found_iff (hn : C.n = D.elems.length) (v : V) (o : Operand) (u : GetArg) : GetCanSucceed C D o u ↔
    ∃ e ∈ D.elems, ∃ t, SeenAs (decide (o = .const)) e t ∧ t.base = u.ty.base ∧ (t.const = true → (AskedFor o u).const = true) ∧
      (t.volatile = true → u.ty.volatile = true) ∧ ¬ ((AskedFor o u).const = true ∧ u.ty.volatile = true ∧ t.volatile = false) := by
  have hc : o.isConst = decide (o = .const) := by cases o <;> rfl
  rw [getCanSucceed_iff hn v]
  refine exists_congr fun e => and_congr_right fun _ => ?_
  rw [picksNonTemplate_iff]
  constructor
  · rintro ⟨h1, h2, h3, h4, -⟩
    refine ⟨_, SeenAs.lvalue _ e, ?_⟩
    rw [← hc]
    exact ⟨h1.symm, h2, h3, h4⟩
  · rintro ⟨t, ht, h1, h2, h3, h4⟩
    rw [ht.eq, ← hc] at *
    exact ⟨h1.symm, h2, h3, h4, nofun⟩

/-- C77: what a request can find, by what is listed. -/
theorem C77_get_can_succeed_iff (hn : C.n = D.elems.length) (v : V) (o : Operand) (u : GetArg) : GetCanSucceed C D o u ↔
    match u.ty.volatile, (AskedFor o u).const with
    | true, true => D.Lists ⟨u.ty.base, false, true⟩ ∨ D.Lists ⟨u.ty.base, true, true⟩
    | false, true => D.Lists ⟨u.ty.base, false, false⟩ ∨ D.Lists ⟨u.ty.base, true, false⟩
    | vol, false => if o = .const then .ref ⟨u.ty.base, false, vol⟩ ∈ D.elems ∨ .ref u.ty.plain ∈ D.elems
        else D.Lists ⟨u.ty.base, false, vol⟩ ∨ D.Lists u.ty.plain := by
  rw [found_iff hn v]
  obtain ⟨⟨b, c, vo⟩, r⟩ := u
  constructor
  · rintro ⟨e, he, t, ht, h1, h2, h3, h4⟩
    revert h2 h3 h4 h1
    generalize hr : (AskedFor o ⟨⟨b, c, vo⟩, r⟩).const = ac
    cases ht with
    | val b' c' v' | wrapped b' c' v' =>
      rintro rfl h2 h3 h4
      cases vo <;> cases ac <;> cases v' <;> cases c' <;> cases o <;> simp_all [Decl.Lists, CvTy.plain]
    | ref t =>
      obtain ⟨b', c', v'⟩ := t
      rintro rfl h2 h3 h4
      cases vo <;> cases ac <;> cases v' <;> cases c' <;> cases o <;> simp_all [Decl.Lists, CvTy.plain]
  · generalize hr : (AskedFor o ⟨⟨b, c, vo⟩, r⟩).const = ac
    have val : ∀ {c' v'}, .val ⟨b, c', v'⟩ ∈ D.elems → ((c' || decide (o = .const)) = true → ac = true) → (v' = true → vo = true) →
        ¬ (ac = true ∧ vo = true ∧ v' = false) → ∃ e ∈ D.elems, ∃ t, SeenAs (decide (o = .const)) e t ∧ t.base = b ∧ (t.const = true → ac = true) ∧
          (t.volatile = true → vo = true) ∧ ¬ (ac = true ∧ vo = true ∧ t.volatile = false) :=
      fun he h1 h2 h3 => ⟨_, he, _, .val _ _ _, rfl, h1, h2, h3⟩
    have wrapped : ∀ {c' v'}, .wrapped ⟨b, c', v'⟩ ∈ D.elems → ((c' || decide (o = .const)) = true → ac = true) → (v' = true → vo = true) →
        ¬ (ac = true ∧ vo = true ∧ v' = false) → ∃ e ∈ D.elems, ∃ t, SeenAs (decide (o = .const)) e t ∧ t.base = b ∧ (t.const = true → ac = true) ∧
          (t.volatile = true → vo = true) ∧ ¬ (ac = true ∧ vo = true ∧ t.volatile = false) :=
      fun he h1 h2 h3 => ⟨_, he, _, .wrapped _ _ _, rfl, h1, h2, h3⟩
    have ref : ∀ {c' v'}, .ref ⟨b, c', v'⟩ ∈ D.elems → (c' = true → ac = true) → (v' = true → vo = true) →
        ¬ (ac = true ∧ vo = true ∧ v' = false) → ∃ e ∈ D.elems, ∃ t, SeenAs (decide (o = .const)) e t ∧ t.base = b ∧ (t.const = true → ac = true) ∧
          (t.volatile = true → vo = true) ∧ ¬ (ac = true ∧ vo = true ∧ t.volatile = false) :=
      fun he h1 h2 h3 => ⟨_, he, _, .ref _, rfl, h1, h2, h3⟩
    have lists : ∀ {c' v'}, D.Lists ⟨b, c', v'⟩ → ((c' || decide (o = .const)) = true → ac = true) → (v' = true → vo = true) →
        ¬ (ac = true ∧ vo = true ∧ v' = false) → ∃ e ∈ D.elems, ∃ t, SeenAs (decide (o = .const)) e t ∧ t.base = b ∧ (t.const = true → ac = true) ∧
          (t.volatile = true → vo = true) ∧ ¬ (ac = true ∧ vo = true ∧ t.volatile = false) := by
      rintro c' v' (h | h | h) h1 h2 h3
      · exact val h h1 h2 h3
      · exact wrapped h h1 h2 h3
      · exact ref h (fun hc => h1 (by simp [hc])) h2 h3
    cases vo <;> cases ac <;> dsimp only
    · split
      · rintro (h | h)
        · exact ref h (by simp) (by simp) (by simp)
        · exact ref h (by simp) (by simp) (by simp)
      · rename_i ho
        rintro (h | h)
        · exact lists h (by simp [ho]) (by simp) (by simp)
        · exact lists h (by simp [ho]) (by simp) (by simp)
    · rintro (h | h)
      · exact lists h (by simp) (by simp) (by simp)
      · exact lists h (by simp) (by simp) (by simp)
    · split
      · rintro (h | h)
        · exact ref h (by simp) (by simp) (by simp)
        · exact ref h (by simp) (by simp) (by simp)
      · rename_i ho
        rintro (h | h)
        · exact lists h (by simp [ho]) (by simp) (by simp)
        · exact lists h (by simp [ho]) (by simp) (by simp)
    · rintro (h | h)
      · exact lists h (by simp) (by simp) (by simp)
      · exact lists h (by simp) (by simp) (by simp)

theorem askedFor_eq_iff (o : Operand) (u : GetArg) : AskedFor o u = ⟨u.ty.base, true, true⟩ ↔ (AskedFor o u).const = true ∧ u.ty.volatile = true := by
  obtain ⟨⟨b, c, v⟩, r⟩ := u
  simp [AskedFor]

/-- C77: exactly when `strict_get<U>` compiles although it can never succeed. -/
theorem C77_strict_get_useless_iff (hn : C.n = D.elems.length) (v : V) (o : Operand) (u : GetArg) (h : ¬ (u.isRef = true ∧ o = .rvalue)) :
    (strictGetAllowed D o u = true ∧ ¬ GetCanSucceed C D o u) ↔ UselessGet D o u := by
  rw [strictGetAllowed_iff o u h, C77_get_can_succeed_iff hn v]
  obtain ⟨⟨b, c, vo⟩, r⟩ := u
  cases o <;> cases r <;> cases c <;> cases vo <;> simp_all [AskedFor, UselessGet, CvTy.plain, Decl.Lists] <;> grind

/-- C77: exactly when `strict_get<U>` is rejected although it could succeed. -/
theorem C77_strict_get_missed_iff (hn : C.n = D.elems.length) (v : V) (o : Operand) (u : GetArg) (h : ¬ (u.isRef = true ∧ o = .rvalue)) :
    (strictGetAllowed D o u = false ∧ GetCanSucceed C D o u) ↔ MissedGet D o u := by
  rw [← Bool.not_eq_true, strictGetAllowed_iff o u h, C77_get_can_succeed_iff hn v]
  obtain ⟨⟨b, c, vo⟩, r⟩ := u
  cases o <;> cases r <;> cases c <;> cases vo <;> simp_all [AskedFor, MissedGet, CvTy.plain, Decl.Lists] <;> grind

/-- C77: `strict_get<U>` compiles exactly if it can succeed, or is on purpose rejected (a reference on an rvalue), unless the request is one of the
two kinds. -/
theorem C77_strict_get_exact_iff (hn : C.n = D.elems.length) (v : V) (o : Operand) (u : GetArg) :
    (strictGetAllowed D o u = true ↔ GetCanSucceed C D o u ∧ ¬ (u.isRef = true ∧ o = .rvalue)) ↔
      (u.isRef = true ∧ o = .rvalue) ∨ (¬ UselessGet D o u ∧ ¬ MissedGet D o u) := by
  by_cases h : u.isRef = true ∧ o = .rvalue
  · simp [strictGetAllowed, h.1, h.2]
  · rw [← C77_strict_get_useless_iff hn v o u h, ← C77_strict_get_missed_iff hn v o u h]
    cases strictGetAllowed D o u <;> by_cases hg : GetCanSucceed C D o u <;> simp [h, hg]

/-! ### polymorphic_get -/

theorem Elem.named_unwrap (e : Elem) : e.unwrap.named = e.named := by cases e <;> rfl

theorem polymorphicStrictGetAllowed_iff (hD : D.NotVolatile) (u : GetArg) (hu : u.ty.volatile = false) :
    polymorphicStrictGetAllowed D u = true ↔
      ∃ e ∈ D.elems, (e.Stored ∧ ClassOf D u e) ∨ (u.ty.base = e.named.base ∧ (e.named.const = true → u.ty.const = true)) := by
  have key : polymorphicStrictGetAllowed D u = true ↔ ∃ e, e ∈ D.elems ∧ elementPolymorphicPred D.classes u.ty e.unwrap = true := by
    simp [polymorphicStrictGetAllowed, holdsElementPolymorphic, List.any_map]
  rw [key]
  refine exists_congr fun e => and_congr_right fun he => ?_
  have hv := hD e he
  obtain ⟨⟨b, c, vo⟩, r⟩ := u
  simp only at hu; subst hu
  cases e with
  | val t | wrapped t =>
    obtain ⟨tb, tc, tv⟩ := t
    simp only [Elem.NotVolatile] at hv; subst hv
    simp only [elementPolymorphicPred, variantElementFunctor, Elem.unwrap, isBaseOfElem, Classes.isBaseOf, Elem.Stored, ClassOf, Elem.named, CvTy.removeCv]
    cases c <;> cases tc <;> simp <;> grind
  | ref t =>
    obtain ⟨tb, tc, tv⟩ := t
    simp only [Elem.NotVolatile] at hv; subst hv
    simp only [elementPolymorphicPred, variantElementFunctor, Elem.unwrap, isBaseOfElem, Elem.Stored, Elem.named, CvTy.removeCv]
    cases c <;> cases tc <;> simp <;> grind

theorem polymorphicGetCanSucceed_related (hn : C.n = D.elems.length) (v : V) (hD : D.NotVolatile) (o : Operand) (u : GetArg) (hu : u.ty.volatile = false) :
    PolymorphicGetCanSucceed C D o u ↔ ∃ e ∈ D.elems, Related D u e ∧ (SeenConst o e → (AskedFor o u).const = true) := by
  rw [polymorphicGetCanSucceed_iff hn v]
  refine exists_congr fun e => and_congr_right fun he => ?_
  have hv := hD e he
  rw [polymorphicTag_iff _ (AskedFor o u) (e.lvalue o.isConst) hu ((SeenAs.lvalue _ e).notVolatile hv)]
  have hc : (e.lvalue o.isConst).const = true ↔ SeenConst o e := by
    cases e <;> cases o <;> simp [Elem.lvalue, Operand.isConst, SeenConst, Elem.Stored, Elem.named, CvTy.addConst]
  have hb : (e.lvalue o.isConst).base = e.named.base := by
    cases e <;> cases o <;> simp [Elem.lvalue, Operand.isConst, Elem.named, CvTy.addConst]
  have ha : (AskedFor o u).base = u.ty.base := rfl
  simp only [BaseUpToConst, hc, hb, ha, Related, ClassOf]
  grind

/-- C77: exactly when `polymorphic_strict_get<U>` compiles although it can never succeed. (No volatile types.) -/
theorem C77_polymorphic_useless_iff (hn : C.n = D.elems.length) (v : V) (hD : D.NotVolatile) (o : Operand) (u : GetArg) (hu : u.ty.volatile = false) :
    (polymorphicStrictGetAllowed D u = true ∧ ¬ PolymorphicGetCanSucceed C D o u) ↔ UselessPolymorphicGet D o u := by
  rw [polymorphicStrictGetAllowed_iff hD u hu, polymorphicGetCanSucceed_related hn v hD o u hu]
  constructor
  · rintro ⟨⟨e, he, h⟩, hf⟩
    have hall : ∀ e ∈ D.elems, Related D u e → SeenConst o e ∧ (AskedFor o u).const = false := by
      intro e he hr
      have : ¬ (SeenConst o e → (AskedFor o u).const = true) := fun h => hf ⟨e, he, hr, h⟩
      grind
    have hrel : Related D u e := h.elim (fun h => .inr h.2) fun h => .inl h.1
    have hac := (hall e he hrel).2
    refine ⟨hac, ⟨e, he, ?_⟩, fun e he hr => (hall e he hr).1⟩
    rcases h with h | h
    · exact ⟨h.1, .inl h.2⟩
    · have huc : u.ty.const = false := by simp only [AskedFor, Bool.or_eq_false_iff] at hac; exact hac.1
      have hec : e.named.const = false := by rw [← Bool.not_eq_true]; intro hh; rw [h.2 hh] at huc; cases huc
      have hs := (hall e he hrel).1
      have hst : e.Stored := by
        rcases hs with hs | hs
        · rw [hec] at hs; cases hs
        · exact hs.2
      refine ⟨hst, .inr ?_⟩
      have hev : e.named.volatile = false := by have := hD e he; cases e <;> exact this
      cases hn : e.named
      rw [hn] at hec hev h
      obtain ⟨⟨b, c, vo⟩, r⟩ := u
      simp_all
  · rintro ⟨hac, ⟨e, he, hs, hc⟩, hall⟩
    refine ⟨⟨e, he, ?_⟩, ?_⟩
    · rcases hc with hc | hc
      · exact .inl ⟨hs, hc⟩
      · exact .inr (by rw [hc]; exact ⟨rfl, id⟩)
    · rintro ⟨e, he, hr, h⟩
      rw [h (hall e he hr)] at hac
      cases hac

/-- C77: exactly when `polymorphic_strict_get<U>` is rejected although it could succeed. (No volatile types.) -/
theorem C77_polymorphic_missed_iff (hn : C.n = D.elems.length) (v : V) (hD : D.NotVolatile) (o : Operand) (u : GetArg) (hu : u.ty.volatile = false) :
    (polymorphicStrictGetAllowed D u = false ∧ PolymorphicGetCanSucceed C D o u) ↔ MissedPolymorphicGet D o u := by
  rw [← Bool.not_eq_true, polymorphicStrictGetAllowed_iff hD u hu, polymorphicGetCanSucceed_related hn v hD o u hu, and_comm]
  refine and_congr_right fun _ => ?_
  constructor
  · intro h e he
    refine ⟨fun hc hs => h ⟨e, he, .inl ⟨hs, hc⟩⟩, fun hb => ?_⟩
    have : ¬ (e.named.const = true → u.ty.const = true) := fun hh => h ⟨e, he, .inr ⟨hb, hh⟩⟩
    grind
  · rintro h ⟨e, he, ⟨h1, h2⟩ | ⟨h1, h2⟩⟩
    · exact (h e he).1 h2 h1
    · have := (h e he).2 h1
      rw [h2 this.1] at this
      cases this.2

/-- C77: `polymorphic_strict_get<U>` compiles exactly if it can succeed, unless the request is one of the two kinds. (No volatile types.) -/
theorem C77_polymorphic_exact_iff (hn : C.n = D.elems.length) (v : V) (hD : D.NotVolatile) (o : Operand) (u : GetArg) (hu : u.ty.volatile = false) :
    (polymorphicStrictGetAllowed D u = true ↔ PolymorphicGetCanSucceed C D o u) ↔ ¬ UselessPolymorphicGet D o u ∧ ¬ MissedPolymorphicGet D o u := by
  rw [← C77_polymorphic_useless_iff hn v hD o u hu, ← C77_polymorphic_missed_iff hn v hD o u hu]
  cases polymorphicStrictGetAllowed D u <;> by_cases hg : PolymorphicGetCanSucceed C D o u <;> simp [hg]

/-! ### Volatile types and polymorphic_get -/

/-- C77: exactly when `polymorphic_get<U>` does not compile because `get_polymorphic_visitor` binds a volatile object to a reference to non-volatile: `U` is a
class, not volatile, and some bounded type is volatile and about `U` or a class derived from it; unless it is const, and the type asked for is not. -/
theorem C77_polymorphic_volatile_compiles_iff (o : Operand) (u : GetArg) :
    polymorphicVisitorCompiles D o u = false ↔ u.ty.volatile = false ∧
      ∃ e ∈ D.elems, e.named.volatile = true ∧ ClassOf D u e ∧ (SeenConst o e → (AskedFor o u).const = true) := by
  have : polymorphicVisitorCompiles D o u = false ↔ ∃ e ∈ D.elems, polymorphicTag D.classes (AskedFor o u) (e.lvalue o.isConst) = true ∧
      (AskedFor o u).cvGe (e.lvalue o.isConst) = false := by
    simp [polymorphicVisitorCompiles, askedFor_eq]
  rw [this]
  constructor
  · rintro ⟨e, he, ht, hc⟩
    have hcc : (e.lvalue o.isConst).const = true ↔ SeenConst o e := by
      cases e <;> cases o <;> simp [Elem.lvalue, Operand.isConst, SeenConst, Elem.Stored, Elem.named, CvTy.addConst]
    have hvv : (e.lvalue o.isConst).volatile = e.named.volatile := by
      cases e <;> cases o <;> simp [Elem.lvalue, Operand.isConst, Elem.named, CvTy.addConst]
    have hb : (e.lvalue o.isConst).base = e.named.base := by
      cases e <;> cases o <;> simp [Elem.lvalue, Operand.isConst, Elem.named, CvTy.addConst]
    have ha : (AskedFor o u).base = u.ty.base := rfl
    have hav : (AskedFor o u).volatile = u.ty.volatile := rfl
    simp only [polymorphicTag, Classes.isBaseOf, CvTy.cvGe, ha, hav, hb, hvv, Bool.or_eq_true, Bool.and_eq_true, decide_eq_true_eq] at ht hc
    rcases ht with (⟨h1, h2⟩ | h1) | h1
    · have : u.ty.volatile = false ∧ e.named.volatile = true := by
        cases hx : (AskedFor o u).const <;> cases hy : (e.lvalue o.isConst).const <;> simp_all
      refine ⟨this.1, e, he, this.2, ⟨h1.1.1, h1.1.2, h1.2⟩, ?_⟩
      rw [← hcc]
      cases hx : (AskedFor o u).const <;> cases hy : (e.lvalue o.isConst).const <;> simp_all
    · rw [← h1, ] at hc hvv
      rw [← hvv, hav] at hc
      revert hc
      cases (AskedFor o u).const <;> cases u.ty.volatile <;> simp
    · rw [← h1] at hc hvv
      rw [← hvv] at hc
      simp [CvTy.removeCv] at hc
  · rintro ⟨hu, e, he, hev, hcl, hs⟩
    have hcc : (e.lvalue o.isConst).const = true ↔ SeenConst o e := by
      cases e <;> cases o <;> simp [Elem.lvalue, Operand.isConst, SeenConst, Elem.Stored, Elem.named, CvTy.addConst]
    have hvv : (e.lvalue o.isConst).volatile = e.named.volatile := by
      cases e <;> cases o <;> simp [Elem.lvalue, Operand.isConst, Elem.named, CvTy.addConst]
    have hb : (e.lvalue o.isConst).base = e.named.base := by
      cases e <;> cases o <;> simp [Elem.lvalue, Operand.isConst, Elem.named, CvTy.addConst]
    have ha : (AskedFor o u).base = u.ty.base := rfl
    have hav : (AskedFor o u).volatile = u.ty.volatile := rfl
    refine ⟨e, he, ?_, ?_⟩
    · rw [← hcc] at hs
      simp only [polymorphicTag, Classes.isBaseOf, ha, hb, hcl.1, hcl.2.1, Bool.true_and, Bool.or_eq_true, Bool.and_eq_true, decide_eq_true_eq]
      refine .inl (.inl ⟨hcl.2.2, ?_⟩)
      cases hx : (AskedFor o u).const <;> cases hy : (e.lvalue o.isConst).const <;> simp_all
    · simp [CvTy.cvGe, hvv, hav, hev, hu]

/-- C77, C30 with volatile types: if the request compiles, it finds the content exactly if the content is of a class derived from `U` or `U` itself and no
const would be dropped; or (`U` not a class) if the content is of the type asked for, or of that type without qualifiers. -/
theorem C77_polymorphic_get_volatile (o : Operand) (u : GetArg) {w : World V} {x : Nat} {k : TyIx} {v : V} {id : ObjId} (hg : Good C w)
    (hx : w.holds x k v) (hi : w.objOf x = some id) {t : CvTy} (ht : SeenAs (decide (o = .const)) (D.elem k) t) :
    ∃ r, polymorphicRelaxedGetPtr C D o u (some (.user x)) w = .ok r w ∧ (r = none ∨ r = some id) ∧
      (r = some id ↔ if D.classes.isClass u.ty.base then ClassOf D u (D.elem k) ∧ (t.const = true → (AskedFor o u).const = true)
        else t = AskedFor o u ∨ t = u.ty.plain) := by
  have hc : o.isConst = decide (o = .const) := by cases o <;> rfl
  have htb : t.base = (D.elem k).named.base := by
    revert ht; generalize D.elem k = e; rintro (_ | _ | _) <;> rfl
  rw [polymorphicRelaxedGetPtr_eq o u hg hx hi, hc, ← ht.eq]
  refine ⟨_, rfl, by split <;> simp, ?_⟩
  have hau : (AskedFor o u).base = u.ty.base := rfl
  have htag : polymorphicTag D.classes (AskedFor o u) t = true ↔
      if D.classes.isClass u.ty.base then ClassOf D u (D.elem k) ∧ (t.const = true → (AskedFor o u).const = true)
        else t = AskedFor o u ∨ t = u.ty.plain := by
    simp only [polymorphicTag, Classes.isBaseOf, hau, Bool.or_eq_true, Bool.and_eq_true, decide_eq_true_eq, ClassOf, ← htb]
    have e1 : (AskedFor o u).removeCv = u.ty.plain := rfl
    rw [e1]
    split
    · rename_i hcl
      simp only [hcl, true_and]
      constructor
      · rintro ((⟨⟨h1, h2⟩, h3⟩ | h) | h)
        · refine ⟨⟨h1, h2⟩, fun h => ?_⟩
          rw [h] at h3; simpa using h3
        · rw [← h]; exact ⟨⟨hcl, .inl rfl⟩, fun h => h⟩
        · rw [← h]; exact ⟨⟨hcl, .inl rfl⟩, nofun⟩
      · rintro ⟨⟨h1, h2⟩, h3⟩
        refine .inl (.inl ⟨⟨h1, h2⟩, ?_⟩)
        cases hx : t.const
        · exact .inr rfl
        · exact .inl (h3 hx)
    · rename_i hcl
      simp only [hcl, false_and, false_or, Bool.false_eq_true]
      exact or_congr eq_comm eq_comm
  split
  · rename_i h; exact ⟨fun _ => htag.mp h, fun _ => rfl⟩
  · rename_i h; exact ⟨nofun, fun h' => absurd (htag.mpr h') h⟩

/-- C77: exactly when `get<U>` finds the content and `polymorphic_get<U>` does not: `U` is not a class, the content is seen as `volatile T`, and
`const volatile T` is asked for. -/
theorem C77_get_but_not_polymorphic_iff (o : Operand) (u : GetArg) {w : World V} {x : Nat} {k : TyIx} {v : V} {id : ObjId} (hg : Good C w)
    (hx : w.holds x k v) (hi : w.objOf x = some id) {t : CvTy} (ht : SeenAs (decide (o = .const)) (D.elem k) t) :
    (relaxedGetPtr C D o u (some (.user x)) w = .ok (some id) w ∧ polymorphicRelaxedGetPtr C D o u (some (.user x)) w = .ok none w) ↔
      D.classes.isClass u.ty.base = false ∧ t = ⟨u.ty.base, false, true⟩ ∧ AskedFor o u = ⟨u.ty.base, true, true⟩ := by
  obtain ⟨r, hr, -, hri⟩ := C28_get_volatile (D := D) o u hg hx hi ht
  obtain ⟨r', hr', hr0', hri'⟩ := C77_polymorphic_get_volatile (D := D) o u hg hx hi ht
  have htb : t.base = (D.elem k).named.base := by
    revert ht; generalize D.elem k = e; rintro (_ | _ | _) <;> rfl
  have e1 : relaxedGetPtr C D o u (some (.user x)) w = .ok (some id) w ↔ r = some id := by
    rw [hr]; simp
  have e2 : polymorphicRelaxedGetPtr C D o u (some (.user x)) w = .ok none w ↔ ¬ r' = some id := by
    rw [hr']
    rcases hr0' with rfl | rfl <;> simp
  rw [e1, e2, hri, hri']
  obtain ⟨⟨b, c, vo⟩, rf⟩ := u
  obtain ⟨tb, tc, tv⟩ := t
  have ha : AskedFor o ⟨⟨b, c, vo⟩, rf⟩ = ⟨b, (AskedFor o ⟨⟨b, c, vo⟩, rf⟩).const, vo⟩ := rfl
  revert ha
  generalize AskedFor o ⟨⟨b, c, vo⟩, rf⟩ = a
  intro ha
  obtain ⟨ab, ac, av⟩ := a
  simp only at ha
  cases ha
  simp only [UpToConst, CvTy.plain, ClassOf, ← htb]
  by_cases hb : b = tb
  · subst hb
    cases hcl : D.classes.isClass b <;> cases tc <;> cases tv <;> cases ac <;> cases vo <;> simp_all
  · simp [hb]
    intro h1 h2
    exact absurd h2.symm hb

end

/-! The kinds of requests for which the checks are wrong, and one for which they are right. -/

/-- `variant<int>`, `const volatile int`: compiles in vain. -/
example : UselessGet ⟨[.val ⟨7, false, false⟩], noClasses⟩ .nonconst ⟨⟨7, true, true⟩, false⟩ := by
  simp [UselessGet, AskedFor, Decl.Lists, CvTy.plain]
/-- `const variant<int>`, `int&`: compiles in vain. With `int&` among the bounded types it does not. -/
example : UselessGet ⟨[.wrapped ⟨7, false, false⟩], noClasses⟩ .const ⟨⟨7, false, false⟩, true⟩ ∧
    ¬ UselessGet ⟨[.wrapped ⟨7, false, false⟩, .ref ⟨7, false, false⟩], noClasses⟩ .const ⟨⟨7, false, false⟩, true⟩ := by
  simp [UselessGet, AskedFor, Decl.Lists, CvTy.plain]
/-- `const variant<volatile int>`, `volatile int`: rejected. -/
example : MissedGet ⟨[.val ⟨7, false, true⟩], noClasses⟩ .const ⟨⟨7, false, true⟩, false⟩ := by
  simp [MissedGet, AskedFor, Decl.Lists, CvTy.plain]
/-- `variant<volatile int, int>`, `volatile int`: right. -/
example : strictGetAllowed ⟨[.val ⟨7, false, true⟩, .val ⟨7, false, false⟩], noClasses⟩ .nonconst ⟨⟨7, false, true⟩, false⟩ = true ↔
    GetCanSucceed exTwo ⟨[.val ⟨7, false, true⟩, .val ⟨7, false, false⟩], noClasses⟩ .nonconst ⟨⟨7, false, true⟩, false⟩ := by
  have := (C77_strict_get_exact_iff (C := exTwo) (D := ⟨[.val ⟨7, false, true⟩, .val ⟨7, false, false⟩], noClasses⟩) rfl 0 .nonconst
    ⟨⟨7, false, true⟩, false⟩).mpr (.inr (by simp [UselessGet, MissedGet, AskedFor]))
  simpa using this
/-- `variant<const Derived>`, `Base`: compiles in vain. -/
example : UselessPolymorphicGet ⟨[.val ⟨2, true, false⟩], twoClasses⟩ .nonconst ⟨⟨1, false, false⟩, false⟩ := by
  simp [UselessPolymorphicGet, AskedFor, Elem.Stored, ClassOf, Related, SeenConst, Elem.named, twoClasses]
/-- `variant<Derived&>`, `Base`: rejected. -/
example : MissedPolymorphicGet ⟨[.ref ⟨2, false, false⟩], twoClasses⟩ .nonconst ⟨⟨1, false, false⟩, false⟩ := by
  simp [MissedPolymorphicGet, AskedFor, Elem.Stored, ClassOf, Related, SeenConst, Elem.named, twoClasses]
/-- `const variant<Derived, const int, Base&>`, `Base` and `const int`: right. -/
example : ∀ u ∈ [(⟨⟨1, false, false⟩, false⟩ : GetArg), ⟨⟨7, true, false⟩, true⟩],
    ¬ UselessPolymorphicGet ⟨[.val ⟨2, false, false⟩, .val ⟨7, true, false⟩, .ref ⟨1, false, false⟩], twoClasses⟩ .const u ∧
    ¬ MissedPolymorphicGet ⟨[.val ⟨2, false, false⟩, .val ⟨7, true, false⟩, .ref ⟨1, false, false⟩], twoClasses⟩ .const u := by
  simp [MissedPolymorphicGet, UselessPolymorphicGet, AskedFor, Elem.Stored, ClassOf, Related, Elem.named, twoClasses]
/-- `variant<volatile Derived>`, `Base`: does not compile; `volatile Base` does. -/
example : polymorphicVisitorCompiles ⟨[.val ⟨2, false, true⟩], twoClasses⟩ .nonconst ⟨⟨1, false, false⟩, false⟩ = false ∧
    polymorphicVisitorCompiles ⟨[.val ⟨2, false, true⟩], twoClasses⟩ .nonconst ⟨⟨1, false, true⟩, false⟩ = true := by decide

/-! ### Instances -/

example := C77_polymorphic_volatile_compiles_iff (D := ⟨[.val ⟨2, false, true⟩], twoClasses⟩) .nonconst ⟨⟨1, false, false⟩, false⟩
example := C77_get_can_succeed_iff (C := exCfg [tInt, tThrowing] []) (D := ⟨[.val ⟨7, false, true⟩, .val ⟨7, false, false⟩], noClasses⟩) rfl 0 .const
  ⟨⟨7, false, true⟩, false⟩

/-- C77: `variant<volatile T, …>` in its backup, `const volatile T` asked for: `get` finds the content and `polymorphic_get` does not. -/
example : ∃ id, relaxedGetPtr exTwo ⟨[.val ⟨7, false, true⟩, .val ⟨8, false, false⟩], noClasses⟩ .nonconst ⟨⟨7, true, true⟩, false⟩
      (some (.user 0)) exBackup = .ok (some id) exBackup ∧
    polymorphicRelaxedGetPtr exTwo ⟨[.val ⟨7, false, true⟩, .val ⟨8, false, false⟩], noClasses⟩ .nonconst ⟨⟨7, true, true⟩, false⟩
      (some (.user 0)) exBackup = .ok none exBackup := by
  obtain ⟨id, hi⟩ : ∃ i, exBackup.objOf 0 = some i := Option.isSome_iff_exists.mp (by decide +kernel)
  have hs : SeenAs (decide (Operand.nonconst = .const))
      (Decl.elem ⟨[.val ⟨7, false, true⟩, .val ⟨8, false, false⟩], noClasses⟩ 0) ⟨7, false, true⟩ := SeenAs.lvalue _ _
  exact ⟨id, (C77_get_but_not_polymorphic_iff .nonconst ⟨⟨7, true, true⟩, false⟩ exBackup_good exBackup_facts.2.1 hi hs).mpr ⟨rfl, rfl, rfl⟩⟩

/-- C77: `volatile T` is found by `polymorphic_get`. -/
example : ∃ id, polymorphicRelaxedGetPtr exTwo ⟨[.val ⟨7, false, true⟩, .val ⟨8, false, false⟩], noClasses⟩ .nonconst ⟨⟨7, false, true⟩, false⟩
      (some (.user 0)) exBackup = .ok (some id) exBackup := by
  obtain ⟨id, hi⟩ : ∃ i, exBackup.objOf 0 = some i := Option.isSome_iff_exists.mp (by decide +kernel)
  have hs : SeenAs (decide (Operand.nonconst = .const))
      (Decl.elem ⟨[.val ⟨7, false, true⟩, .val ⟨8, false, false⟩], noClasses⟩ 0) ⟨7, false, true⟩ := SeenAs.lvalue _ _
  obtain ⟨r, h, -, h'⟩ := C77_polymorphic_get_volatile .nonconst ⟨⟨7, false, true⟩, false⟩ exBackup_good exBackup_facts.2.1 hi hs
  exact ⟨id, by rw [h, h'.mpr (.inl rfl)]⟩

end BVariant
