/-
C39: converting construction picks the overload-resolution winner.
-/
import Verif.Spec.Initializer
import Verif.Props.Identity

namespace BVariant

section
variable {a : InitArg} {es : List Elem} {i j : Nat} {o : Overload}

/-! ### The overload set -/

theorem Elem.param_eq (e : Elem) : e.param = ⟨false, e.referent⟩ := by cases e <;> rfl

theorem Elem.param2_eq {e : Elem} {p : Param} (h : e.param2 = some p) : p.rv = true ∧ p.ty.addConst = e.referent := by
  cases e <;> simp only [Elem.param2, Option.some.injEq, reduceCtorEq] at h <;> subst h <;> exact ⟨rfl, rfl⟩

/-- The overload with the given parameter belongs to the bounded type. -/
theorem Elem.mem_params {e : Elem} {p : Param} : p ∈ e.params ↔ p = e.param ∨ e.param2 = some p := by
  simp [Elem.params, eq_comm]

theorem Elem.params_referent {e : Elem} {p : Param} (h : p ∈ e.params) :
    e.referent = if p.rv then p.ty.addConst else p.ty := by
  rcases Elem.mem_params.mp h with rfl | h
  · rw [e.param_eq]; rfl
  · obtain ⟨h1, h2⟩ := Elem.param2_eq h; rw [h1, h2]; rfl

theorem foldl_node_snd (es : List Elem) (b : List Overload × Nat) : (es.foldl initializerNode b).2 = b.2 + es.length := by
  induction es generalizing b with
  | nil => rfl
  | cons e es ih => rw [List.foldl_cons, ih]; simp only [initializerNode, List.length_cons]; omega

theorem mem_foldl_node (es : List Elem) (b : List Overload × Nat) (o : Overload) :
    o ∈ (es.foldl initializerNode b).1 ↔
      (o ∈ b.1 ∧ ∀ e ∈ es, o.param ∉ e.params) ∨
      ∃ (j : Nat) (e : Elem), es[j]? = some e ∧ o.param ∈ e.params ∧ o.index = b.2 + j ∧
        ∀ (l : Nat) (e' : Elem), j < l → es[l]? = some e' → o.param ∉ e'.params := by
  induction es generalizing b with
  | nil => simp
  | cons e es ih =>
    rw [List.foldl_cons, ih]
    have h1 : o ∈ (initializerNode b e).1 ↔ (o ∈ b.1 ∧ o.param ∉ e.params) ∨ (o.param ∈ e.params ∧ o.index = b.2) := by
      simp only [initializerNode, List.mem_append, List.mem_filter, List.mem_map, Bool.not_eq_true',
        List.contains_eq_mem, decide_eq_false_iff_not]
      constructor
      · rintro (h | ⟨p, hp, rfl⟩)
        · exact Or.inl h
        · exact Or.inr ⟨hp, rfl⟩
      · rintro (h | ⟨hp, hi⟩)
        · exact Or.inl h
        · exact Or.inr ⟨o.param, hp, by cases o; simp only at hi; rw [hi]⟩
    have h2 : (initializerNode b e).2 = b.2 + 1 := rfl
    rw [h1, h2]
    constructor
    · rintro (⟨⟨hm, hn⟩ | ⟨hp, hi⟩, hall⟩ | ⟨j, e', hj, hp, hi, hl⟩)
      · exact Or.inl ⟨hm, by
          intro e' he'
          rcases List.mem_cons.mp he' with rfl | h
          · exact hn
          · exact hall _ h⟩
      · refine Or.inr ⟨0, e, rfl, hp, hi, fun l e' hlt he' => ?_⟩
        obtain ⟨l, rfl⟩ : ∃ l', l = l' + 1 := ⟨l - 1, by omega⟩
        exact hall _ (List.mem_of_getElem? he')
      · refine Or.inr ⟨j + 1, e', hj, hp, by omega, fun l e'' hlt he'' => ?_⟩
        obtain ⟨l, rfl⟩ : ∃ l', l = l' + 1 := ⟨l - 1, by omega⟩
        exact hl _ _ (by omega) he''
    · rintro (⟨hm, hall⟩ | ⟨j, e', hj, hp, hi, hl⟩)
      · exact Or.inl ⟨Or.inl ⟨hm, hall _ List.mem_cons_self⟩, fun e' he' => hall _ (List.mem_cons_of_mem _ he')⟩
      · cases j with
        | zero =>
          simp only [List.getElem?_cons_zero, Option.some.injEq] at hj
          subst hj
          refine Or.inl ⟨Or.inr ⟨hp, hi⟩, fun e' he' => ?_⟩
          obtain ⟨l, hlt, rfl⟩ := List.getElem_of_mem he'
          exact hl (l + 1) _ (by omega) (by rw [List.getElem?_cons_succ]; exact List.getElem?_eq_getElem hlt)
        | succ j =>
          exact Or.inr ⟨j, e', hj, hp, by omega, fun l e'' hlt he'' => hl (l + 1) _ (by omega) he''⟩

/-- Which overloads are visible: those of the last bounded type with the parameter in question. -/
theorem mem_initializerOverloads : o ∈ initializerOverloads es ↔
    ∃ e, es[o.index]? = some e ∧ o.param ∈ e.params ∧
      ∀ (l : Nat) (e' : Elem), o.index < l → es[l]? = some e' → o.param ∉ e'.params := by
  rw [initializerOverloads, mem_foldl_node]
  constructor
  · rintro (⟨h, -⟩ | ⟨j, e, hj, hp, hi, hl⟩)
    · cases h
    · simp only [Nat.zero_add] at hi; subst hi; exact ⟨e, hj, hp, hl⟩
  · rintro ⟨e, hj, hp, hl⟩
    exact Or.inr ⟨_, e, hj, hp, by simp, hl⟩

/-- If the bounded types are different, all overloads are visible. -/
theorem mem_overloads_separate (hs : Separate es) : o ∈ initializerOverloads es ↔
    ∃ e, es[o.index]? = some e ∧ o.param ∈ e.params := by
  rw [mem_initializerOverloads]
  constructor
  · rintro ⟨e, h1, h2, -⟩; exact ⟨e, h1, h2⟩
  · rintro ⟨e, h1, h2⟩
    refine ⟨e, h1, h2, fun l e' hl he' hp => ?_⟩
    have := hs _ _ e e' h1 he' (by rw [Elem.params_referent h2, Elem.params_referent hp])
    omega

/-! ### Overload resolution -/

theorem InitArg.rankOf_eq (a : InitArg) (e : Elem) : a.rankOf e = a.rank e.referent := by cases e <;> rfl

theorem InitArg.seq_param (a : InitArg) (e : Elem) : a.seq e.param = a.rankOf e := by
  rw [e.param_eq, a.rankOf_eq]; rfl

/-- The sequence to any parameter of a bounded type, if there is one, is that to the bounded type. -/
theorem InitArg.seq_mem {e : Elem} {p : Param} {r : a.R} (hp : p ∈ e.params) (h : a.seq p = some r) :
    a.rankOf e = some r ∧ (p.rv = true → a.rvalueTo e = true) := by
  rcases Elem.mem_params.mp hp with rfl | hp
  · rw [a.seq_param] at h; exact ⟨h, by rw [e.param_eq]; intro h; cases h⟩
  · cases e <;> simp only [Elem.param2, Option.some.injEq, reduceCtorEq] at hp
    all_goals
      subst hp
      simp only [InitArg.seq, if_true] at h
      split at h
      · rename_i h'; exact ⟨h, fun _ => h'⟩
      · cases h

/-- The rvalue overload of a bounded type is viable if the type has a conversion and an rvalue is made. -/
theorem InitArg.seq_rvalue {e : Elem} (h : a.rvalueTo e = true) :
    ∃ p, p ∈ e.params ∧ p.rv = true ∧ a.seq p = a.rankOf e := by
  cases e with
  | ref _ => cases h
  | val t => exact ⟨⟨true, t⟩, Elem.mem_params.mpr (Or.inr rfl), rfl, by simp only [InitArg.seq, if_true, InitArg.rankOf]; exact if_pos h⟩
  | wrapped t => exact ⟨⟨true, t⟩, Elem.mem_params.mpr (Or.inr rfl), rfl, by simp only [InitArg.seq, if_true, InitArg.rankOf]; exact if_pos h⟩

/-- Both parameters of a bounded type: the same, or one is the rvalue overload. -/
theorem Elem.params_rv {e : Elem} {p q : Param} (hp : p ∈ e.params) (hq : q ∈ e.params) (h : p.rv = q.rv) : p = q := by
  rcases Elem.mem_params.mp hp with rfl | hp <;> rcases Elem.mem_params.mp hq with rfl | hq
  · rfl
  · rw [(Elem.param2_eq hq).1, e.param_eq] at h; cases h
  · rw [(Elem.param2_eq hp).1, e.param_eq] at h; cases h
  · rw [hp] at hq; exact Option.some.inj hq

theorem InitArg.beats_iff {p q : Param} {r s : a.R} (hp : a.seq p = some r) (hq : a.seq q = some s) :
    a.beats p q = true ↔ a.better r s = true ∨ (a.better s r = false ∧ p.rv = true ∧ q.rv = false) := by
  simp only [InitArg.beats, hp, hq, Bool.or_eq_true, Bool.and_eq_true, Bool.not_eq_true']
  constructor
  · rintro (h | ⟨⟨h1, h2⟩, h3⟩)
    · exact Or.inl h
    · exact Or.inr ⟨h1, h2, h3⟩
  · rintro (h | ⟨h1, h2, h3⟩)
    · exact Or.inl h
    · exact Or.inr ⟨⟨h1, h2⟩, h3⟩

/-- The meaning of `resolve`, given that there are no two equally good overloads. -/
theorem InitArg.resolve_iff (ha : ∀ r s, a.better r s = true → a.better s r = false) (os : List Overload) :
    a.resolve os = some o ↔ o ∈ os ∧ (a.seq o.param).isSome = true ∧
      ∀ o' ∈ os, o' ≠ o → (a.seq o'.param).isSome = true → a.beats o.param o'.param = true := by
  have hall : ∀ o : Overload, (os.all fun o' => o' = o || (a.seq o'.param).isNone || a.beats o.param o'.param) = true ↔
      ∀ o' ∈ os, o' ≠ o → (a.seq o'.param).isSome = true → a.beats o.param o'.param = true := by
    intro o
    rw [List.all_eq_true]
    refine forall_congr' fun o' => forall_congr' fun _ => ?_
    by_cases h1 : o' = o
    · simp [h1]
    · cases h2 : a.seq o'.param <;> simp [h1]
  constructor
  · intro h
    have h1 := List.find?_some h
    have h2 := List.mem_of_find?_eq_some h
    rw [List.mem_filter] at h2
    exact ⟨h2.1, h2.2, (hall o).mp h1⟩
  · rintro ⟨h1, h2, h3⟩
    have hex : (a.resolve os).isSome = true := by
      rw [InitArg.resolve, List.find?_isSome]
      exact ⟨o, List.mem_filter.mpr ⟨h1, h2⟩, (hall o).mpr h3⟩
    obtain ⟨o', ho'⟩ := Option.isSome_iff_exists.mp hex
    have g1 := List.find?_some ho'
    have g2 := List.mem_filter.mp (List.mem_of_find?_eq_some ho')
    have g3 := (hall o').mp g1
    by_cases he : o' = o
    · rw [← he]; exact ho'
    · have b1 := h3 _ g2.1 he g2.2
      have b2 := g3 _ h1 (fun h => he h.symm) h2
      obtain ⟨r, hr⟩ := Option.isSome_iff_exists.mp h2
      obtain ⟨s, hs⟩ := Option.isSome_iff_exists.mp g2.2
      rw [InitArg.beats_iff hr hs] at b1
      rw [InitArg.beats_iff hs hr] at b2
      rcases b1 with b1 | ⟨b1, c1, d1⟩ <;> rcases b2 with b2 | ⟨b2, c2, d2⟩
      · rw [ha _ _ b1] at b2; cases b2
      · rw [b1] at b2; cases b2
      · rw [b1] at b2; cases b2
      · rw [c1] at d2; cases d2

theorem mem_of_get {e : Elem} (h : es[i]? = some e) : e ∈ es := List.mem_of_getElem? h

/-- C39: among the overloads of `initialize`, overload resolution chooses one that returns `i` iff the `i`-th bounded type is
the one that overload resolution over the bounded types selects. -/
theorem C39_selects_the_winner (hl : a.Lawful es) (hs : Separate es) :
    (∃ p, a.resolve (initializerOverloads es) = some ⟨p, i⟩) ↔ Winner a es i := by
  simp only [InitArg.resolve_iff hl.asymm]
  constructor
  · rintro ⟨p, hm, hv, hb⟩
    rw [mem_overloads_separate hs] at hm
    obtain ⟨e, hi, hp⟩ := hm
    obtain ⟨r, hr⟩ := Option.isSome_iff_exists.mp hv
    have he := InitArg.seq_mem hp hr
    refine ⟨e, r, hi, he.1, fun j e' r' hj hj' hr' => ?_⟩
    -- some viable overload of `e'` that is not beaten by the binding alone
    have key : ∀ q, q ∈ e'.params → a.seq q = some r' → a.beats p q = true := by
      intro q hq hqs
      refine hb ⟨q, j⟩ ((mem_overloads_separate hs).mpr ⟨e', hj', hq⟩) ?_ (by simp [hqs])
      intro h; exact hj (congrArg Overload.index h)
    have hpar : e'.param ∈ e'.params := Elem.mem_params.mpr (Or.inl rfl)
    have hb1 := key _ hpar (by rw [a.seq_param, hr'])
    rw [InitArg.beats_iff hr (by rw [a.seq_param]; exact hr')] at hb1
    rcases hb1 with hb1 | ⟨hn, hrv, -⟩
    · exact hb1
    · cases hrv' : a.rvalueTo e' with
      | true =>
        obtain ⟨q, hq, hqr, hqs⟩ := InitArg.seq_rvalue hrv'
        have hqs' : a.seq q = some r' := hqs.trans hr'
        have hb2 := key q hq hqs'
        rw [InitArg.beats_iff hr hqs'] at hb2
        rcases hb2 with hb2 | ⟨-, -, h⟩
        · exact hb2
        · rw [hqr] at h; cases h
      | false =>
        rcases hl.decides e (mem_of_get hi) e' (mem_of_get hj') (fun h => hj (hs _ _ _ _ hi hj' h).symm) r r' he.1 hr'
          (he.2 hrv) hrv' with h | h
        · exact h
        · rw [hn] at h; cases h
  · rintro ⟨e, r, hi, hr, hw⟩
    -- the rvalue overload if there is one
    obtain ⟨p, hp, hpr, hps⟩ : ∃ p, p ∈ e.params ∧ p.rv = a.rvalueTo e ∧ a.seq p = some r := by
      cases h : a.rvalueTo e with
      | true => obtain ⟨p, h1, h2, h3⟩ := InitArg.seq_rvalue h; exact ⟨p, h1, h2, h3.trans hr⟩
      | false => exact ⟨e.param, Elem.mem_params.mpr (Or.inl rfl), by rw [e.param_eq], by rw [a.seq_param]; exact hr⟩
    refine ⟨p, (mem_overloads_separate hs).mpr ⟨e, hi, hp⟩, by simp [hps], ?_⟩
    rintro ⟨q, j⟩ hm hne hv
    rw [mem_overloads_separate hs] at hm
    obtain ⟨e', hj, hq⟩ := hm
    obtain ⟨r', hr'⟩ := Option.isSome_iff_exists.mp hv
    have he' := InitArg.seq_mem hq hr'
    rw [InitArg.beats_iff hps hr']
    simp only at hj hq
    by_cases hij : j = i
    · subst hij
      rw [hi] at hj; cases hj
      have hrr : r' = r := by rw [hr] at he'; exact (Option.some.inj he'.1).symm
      subst hrr
      have hirr : a.better r' r' = false := by
        cases h : a.better r' r' with
        | false => rfl
        | true => rw [hl.asymm _ _ h] at h; cases h
      refine Or.inr ⟨hirr, ?_, ?_⟩
      · cases h : p.rv with
        | true => rfl
        | false =>
          cases h' : q.rv with
          | false => exact absurd (by rw [Elem.params_rv hp hq (h.trans h'.symm)]) hne
          | true => rw [← hpr, h] at he'; exact absurd (he'.2 h') (by simp)
      · cases h' : q.rv with
        | false => rfl
        | true => exact absurd (by rw [Elem.params_rv hp hq (by rw [hpr, he'.2 h', h'])]) hne
    · exact Or.inl (hw j e' r' hij hj he'.1)

/-- C39: there is at most one winner. -/
theorem C39_winner_unique (hl : a.Lawful es) (hi : Winner a es i) (hj : Winner a es j) : i = j := by
  obtain ⟨e, r, h1, h2, h3⟩ := hi
  obtain ⟨e', r', g1, g2, g3⟩ := hj
  by_cases h : i = j
  · exact h
  · have b1 := h3 j e' r' (fun h' => h h'.symm) g1 g2
    have b2 := g3 i e r h h1 h2
    rw [hl.asymm _ _ b1] at b2; cases b2

/-- C39: construction is well-formed exactly if the constructor takes part and there is a unique best bounded type; and then
that is what `which()` is set to. -/
theorem C39_constructs (hl : a.Lawful es) (hs : Separate es) :
    (∃ p, a.construct es = some ⟨p, i⟩) ↔ a.isVariantConstructibleFrom es = true ∧ Winner a es i := by
  rw [← C39_selects_the_winner hl hs]
  simp only [InitArg.construct]
  split
  · rename_i h; simp [h]
  · rename_i h; simp [h]

/-- C39: ill-formed exactly when there is no unique best. Missing: if the best type is a `recursive_wrapper<T>`, this needs the
argument to be a `T`, or another bounded type that can be constructed from it (`C39_wrapped_rejected`). -/
theorem C39_ill_formed_iff_partial (hl : a.Lawful es) (hs : Separate es)
    (hw : ∀ (i : Nat) (t : CvTy), Winner a es i → es[i]? = some (.wrapped t) → a.ty.removeCv = t.removeCv ∧ a.ty.volatile = t.volatile ∧
      (a.ty.const = true ∨ t.const = false)) :
    a.construct es = none ↔ ¬ ∃ i, Winner a es i := by
  constructor
  · rintro h ⟨i, hi⟩
    have hen : a.isVariantConstructibleFrom es = true := by
      obtain ⟨e, r, h1, h2, -⟩ := id hi
      rw [InitArg.isVariantConstructibleFrom, List.any_eq_true]
      refine ⟨e, mem_of_get h1, ?_⟩
      cases e with
      | wrapped t =>
        obtain ⟨g1, g2, g3⟩ := hw i t hi h1
        simp only [InitArg.isConstructibleExt, decide_eq_true_eq]
        rcases a with ⟨_, _, _, _, _, ⟨b, c, v⟩⟩
        rcases t with ⟨b', c', v'⟩
        simp only [CvTy.removeCv, CvTy.mk.injEq] at g1 g2 g3
        simp only [CvTy.addConst, CvTy.mk.injEq]
        obtain ⟨rfl, -⟩ := g1
        subst g2
        cases c <;> cases c' <;> simp at g3 ⊢
      | val t => exact hl.ctor _ (mem_of_get h1) (by simp) (by simp [h2])
      | ref t => exact hl.ctor _ (mem_of_get h1) (by simp) (by simp [h2])
    obtain ⟨p, hp⟩ := (C39_constructs hl hs).mpr ⟨hen, hi⟩
    rw [h] at hp; cases hp
  · intro h
    cases hc : a.construct es with
    | none => rfl
    | some o => exact absurd ⟨o.index, ((C39_constructs hl hs).mp ⟨o.param, hc⟩).2⟩ h

/-- C39: the constructors' condition does not fit `recursive_wrapper<T>`: from an argument that is not a `T` but converts to it,
the construction is ill-formed although there is a unique best type. -/
theorem C39_wrapped_rejected (t : CvTy) (h : (a.rank t.addConst).isSome = true) (h1 : a.ty ≠ t) (h2 : a.ty ≠ t.addConst) :
    Winner a [.wrapped t] 0 ∧ a.construct [.wrapped t] = none := by
  obtain ⟨r, hr⟩ := Option.isSome_iff_exists.mp h
  refine ⟨⟨.wrapped t, r, rfl, hr, fun j e' r' hj hj' _ => ?_⟩, ?_⟩
  · obtain ⟨j, rfl⟩ : ∃ j', j = j' + 1 := ⟨j - 1, by omega⟩
    simp at hj'
  · simp [InitArg.construct, InitArg.isVariantConstructibleFrom, InitArg.isConstructibleExt, h1, h2]

/-- C39: if the type of the argument is a bounded type, up to const and `recursive_wrapper`, and no other bounded type consists of
or refers to that type, then it is selected, and the construction is well-formed. -/
theorem C39_same_type {t : CvTy} (hl : a.Lawful es) (hs : Separate es) (hid : a.HasIdentity)
    (hi : es[i]? = some (.val t) ∨ es[i]? = some (.wrapped t)) (ht : a.ty = t ∨ a.ty = t.addConst)
    (ho : ∀ (j : Nat) (e : Elem), j ≠ i → es[j]? = some e → e.base ≠ t.base) :
    Winner a es i ∧ ∃ p, a.construct es = some ⟨p, i⟩ := by
  have hc : t.addConst = { a.ty with const := true } := by rcases ht with h | h <;> rw [h] <;> rfl
  have hb : a.ty.base = t.base := by rcases ht with h | h <;> rw [h] <;> rfl
  obtain ⟨r, hr⟩ := Option.isSome_iff_exists.mp hid.self
  obtain ⟨e, hie, her, hek⟩ : ∃ e, es[i]? = some e ∧ a.rankOf e = some r ∧ (e = .val t ∨ e = .wrapped t) := by
    rcases hi with h | h
    · exact ⟨_, h, by rw [InitArg.rankOf, hc]; exact hr, Or.inl rfl⟩
    · exact ⟨_, h, by rw [InitArg.rankOf, hc]; exact hr, Or.inr rfl⟩
  have hw : Winner a es i := by
    refine ⟨e, r, hie, her, fun j e' r' hj hj' hr' => hid.best e'.referent r r' hr ?_ ?_⟩
    · rw [hb]
      have := ho j e' hj hj'
      cases e' <;> exact this
    · rw [← a.rankOf_eq]; exact hr'
  refine ⟨hw, (C39_constructs hl hs).mpr ⟨?_, hw⟩⟩
  rw [InitArg.isVariantConstructibleFrom, List.any_eq_true]
  refine ⟨e, mem_of_get hie, ?_⟩
  rcases hek with rfl | rfl
  · exact hl.ctor _ (mem_of_get hie) (by simp) (by simp [her])
  · simp only [InitArg.isConstructibleExt, decide_eq_true_eq]; exact ht

/-- C39, C42: the content is moved or converted into place (overload `T&&`) iff an rvalue of the selected type can be bound;
otherwise it is copied, or a reference is stored. -/
theorem C39_overload_form {p : Param} {e : Elem} (hl : a.Lawful es) (hs : Separate es)
    (h : a.resolve (initializerOverloads es) = some ⟨p, i⟩) (hi : es[i]? = some e) : p.rv = a.rvalueTo e := by
  obtain ⟨hm, hv, hb⟩ := (InitArg.resolve_iff hl.asymm _).mp h
  obtain ⟨e', hi', hp⟩ := (mem_overloads_separate hs).mp hm
  simp only at hi' hp
  rw [hi] at hi'; cases hi'
  obtain ⟨r, hr⟩ := Option.isSome_iff_exists.mp hv
  have he := InitArg.seq_mem hp hr
  cases hrv : a.rvalueTo e with
  | false =>
    cases h' : p.rv with
    | false => rfl
    | true => rw [he.2 h'] at hrv; cases hrv
  | true =>
    cases h' : p.rv with
    | true => rfl
    | false =>
      obtain ⟨q, hq, hqr, hqs⟩ := InitArg.seq_rvalue hrv
      have hqs' : a.seq q = some r := hqs.trans he.1
      have := hb ⟨q, i⟩ ((mem_overloads_separate hs).mpr ⟨e, hi, hq⟩)
        (by intro hh; have hh' : q = p := congrArg Overload.param hh; rw [← hh', hqr] at h'; cases h') (by simp [hqs'])
      rw [InitArg.beats_iff hr hqs'] at this
      rcases this with h1 | ⟨-, h2, -⟩
      · have := hl.asymm _ _ h1; rw [h1] at this; cases this
      · rw [h'] at h2; cases h2

/-- C39: if the constructors' condition holds, it does not matter that `T` is written as `recursive_wrapper<T>`: the overloads
are the same. -/
theorem C39_wrapper_irrelevant : initializerOverloads (es.map Elem.unwrap) = initializerOverloads es := by
  have : ∀ (es : List Elem) b, (es.map Elem.unwrap).foldl initializerNode b = es.foldl initializerNode b := by
    intro es
    induction es with
    | nil => intro b; rfl
    | cons e es ih => intro b; rw [List.map_cons, List.foldl_cons, List.foldl_cons, ih]; cases e <;> rfl
  rw [initializerOverloads, this]; rfl

/-- Without the hypothesis `Separate`: of `T` and `const T&`, the later one hides the overload of the earlier one that takes a
`const T&`; a const `T` is then stored as the later one, with no ambiguity being reported. -/
theorem C39_hidden_overload (t : CvTy) (ha : ∀ r s, a.better r s = true → a.better s r = false)
    (h : (a.rank t.addConst).isSome = true) (hr : a.rvOk t = false) :
    a.resolve (initializerOverloads [.val t, .ref t.addConst]) = some ⟨⟨false, t.addConst⟩, 1⟩ ∧
    a.resolve (initializerOverloads [.ref t.addConst, .val t]) = some ⟨⟨false, t.addConst⟩, 1⟩ := by
  constructor <;>
  · rw [InitArg.resolve_iff ha]
    refine ⟨?_, by simpa [InitArg.seq] using h, ?_⟩
    · simp [initializerOverloads, initializerNode, Elem.params, Elem.param, Elem.param2]
    · intro o' ho' hne hv
      simp [initializerOverloads, initializerNode, Elem.params, Elem.param, Elem.param2] at ho'
      rcases ho' with rfl | rfl <;> simp [InitArg.seq, hr] at hv hne

/-- C39, C42: the effect. If `construct` chooses `o`, then constructing the variant `x`, in whatever way the content is made
from the argument, ends with `which()` being the winner and the content in place, or with what the element threw. -/
theorem C39_effect {V : Type} {C : Cfg V} {w : World V} {x : Nat} {v : V} (hn : C.n = es.length) (hl : a.Lawful es)
    (hs : Separate es) (hc : a.construct es = some o) (hg : Good C w) (m : Mode) (hx : w.vars (.user x) = none) :
    Winner a es o.index ∧
    Ends (valueConstruct m (.user x) o.index v C) w
      (fun _ w' => (∃ b, BuiltFrom C m o.index v b ∧ BuiltInPlace w w' x o.index b) ∧ WhichIs w' x o.index ∧ Good C w')
      (fun e w' => m.excKind o.index e.kind ∧ w'.vars = w.vars ∧ w'.objs = w.objs) := by
  have hw := ((C39_constructs (i := o.index) hl hs).mp ⟨o.param, hc⟩).2
  refine ⟨hw, ?_⟩
  obtain ⟨e, r, hi, -⟩ := hw
  have hk : o.index < C.n := by rw [hn]; exact (List.getElem?_eq_some_iff.mp hi).1
  rcases C42_converting_construction (v := v) hg m hk hx with ⟨u, w', h1, h2⟩ | ⟨u, w', h1, h2⟩
  · exact Or.inl ⟨u, w', h1, h2.1, h2.2.1, h2.2.2.2⟩
  · exact Or.inr ⟨u, w', h1, h2.1, h2.2.2⟩

end

/-! ### Non-vacuity -/

/-- An argument of the given type; conversions are ranked by numbers, less is better. -/
def natArg (ty : CvTy) (rank : CvTy → Option Nat) (rvOk : CvTy → Bool) : InitArg where
  R := Nat
  rank := rank
  better r s := decide (r < s)
  rvOk := rvOk
  ctor
    | .val t | .wrapped t => (rank t.addConst).isSome
    | .ref t => (rank t).isSome
  ty := ty

/-- An rvalue of type 1 (`int`); it converts to type 2 (`double`) by a standard conversion, to class 3 by a user-defined one. -/
def exArg : InitArg := natArg ⟨1, false, false⟩
  (fun t => if t.const && decide (1 ≤ t.base) && decide (t.base ≤ 3) then some (t.base - 1) else none) (fun _ => true)

/-- An lvalue of class 1, derived from class 2; class 3 has a constructor taking a class 1. -/
def exArgL : InitArg := natArg ⟨1, false, false⟩
  (fun t => if decide (1 ≤ t.base) && decide (t.base ≤ 3) && (t.const || decide (t.base ≤ 2)) then
    some (2 * (t.base - 1) + if t.const then 1 else 0) else none) (fun t => t.base = 3)

def natLawful (rank : CvTy → Option Nat) (rvOk : CvTy → Bool) (es : List Elem) : Bool :=
  es.all fun e => es.all fun e' => decide (e.referent = e'.referent) || rank e.referent != rank e'.referent ||
    !(match e with | .val t | .wrapped t => rvOk t | .ref _ => false) || (match e' with | .val t | .wrapped t => rvOk t | .ref _ => false)

theorem natArg_lawful {ty : CvTy} {rank : CvTy → Option Nat} {rvOk : CvTy → Bool} {es : List Elem} (h : natLawful rank rvOk es = true) :
    (natArg ty rank rvOk).Lawful es where
  asymm := by
    intro (r : Nat) (s : Nat) h
    have h' : r < s := of_decide_eq_true h
    exact decide_eq_false (by omega)
  decides := by
    intro e he e' he' hne (r : Nat) (r' : Nat) hr hr' h1 h2
    rw [natLawful, List.all_eq_true] at h
    have h3 := List.all_eq_true.mp (h e he) e' he'
    rw [InitArg.rankOf_eq] at hr hr'
    change rank _ = _ at hr hr'
    rw [hr, hr'] at h3
    have hd : r < r' ∨ r' < r := by
      have : r ≠ r' := by
        rintro rfl
        cases e <;> cases e' <;> simp_all [InitArg.rvalueTo, natArg]
      omega
    rcases hd with h | h
    · exact Or.inl (decide_eq_true h)
    · exact Or.inr (decide_eq_true h)
  ctor := by
    intro e _ hw h
    cases e with
    | wrapped t => exact absurd rfl (hw t)
    | val t => exact h
    | ref t => exact h

theorem separate_of {es : List Elem} (h : (es.map Elem.referent).Nodup) : Separate es := by
  intro i j e e' hi hj he
  obtain ⟨hi', rfl⟩ := List.getElem?_eq_some_iff.mp hi
  obtain ⟨hj', rfl⟩ := List.getElem?_eq_some_iff.mp hj
  exact (List.getElem_inj (h₀ := by simpa using hi') (h₁ := by simpa using hj') h).mp (by simpa using he)

def tyN (n : Nat) : CvTy := ⟨n, false, false⟩

/-- `variant<double, recursive_wrapper<class 3>, int>` from an `int`. -/
def exEs : List Elem := [.val (tyN 2), .wrapped (tyN 3), .val (tyN 1)]

example : exArg.construct exEs = some ⟨⟨true, tyN 1⟩, 2⟩ := by decide +kernel
example : Winner exArg exEs 2 :=
  (C39_selects_the_winner (natArg_lawful (by decide +kernel)) (separate_of (by decide +kernel))).mp ⟨⟨true, tyN 1⟩, by decide +kernel⟩
example := C39_same_type (a := exArg) (es := exEs) (i := 2) (t := tyN 1) (natArg_lawful (by decide +kernel))
  (separate_of (by decide +kernel))
  ⟨by decide +kernel, by
    intro t (r : Nat) (r' : Nat) h1 h2 h3
    have h1' : some 0 = some r := h1
    cases h1'
    simp only [exArg, natArg] at h3
    split at h3
    · rename_i h
      simp only [Bool.and_eq_true, decide_eq_true_eq] at h
      cases h3
      have : t.base ≠ 1 := h2
      exact decide_eq_true (by omega)
    · cases h3⟩
  (Or.inl rfl) (Or.inl rfl) (by
    intro j e hj he
    match j, hj, he with
    | 0, _, he => cases he; decide
    | 1, _, he => cases he; decide
    | 2, hj, _ => exact absurd rfl hj)
example := C39_ill_formed_iff_partial (a := exArg) (es := exEs) (natArg_lawful (by decide +kernel))
  (separate_of (by decide +kernel)) (by
    intro i t hw hi
    have := C39_winner_unique (natArg_lawful (by decide +kernel)) hw
      ((C39_selects_the_winner (a := exArg) (es := exEs) (i := 2) (natArg_lawful (by decide +kernel))
        (separate_of (by decide +kernel))).mp ⟨⟨true, tyN 1⟩, by decide +kernel⟩)
    subst this
    cases hi)

/-- `variant<class 3, class 2, class 1&>` from an lvalue of class 1: the reference; without it, the base class. -/
example : exArgL.construct [.val (tyN 3), .val (tyN 2), .ref (tyN 1)] = some ⟨⟨false, tyN 1⟩, 2⟩ := by decide +kernel
example : Winner exArgL [.val (tyN 3), .val (tyN 2)] 1 :=
  (C39_selects_the_winner (natArg_lawful (by decide +kernel)) (separate_of (by decide +kernel))).mp
    ⟨⟨false, (tyN 2).addConst⟩, by decide +kernel⟩
example := C39_constructs (a := exArgL) (es := [.val (tyN 3), .val (tyN 2), .ref (tyN 1)]) (i := 2)
  (natArg_lawful (by decide +kernel)) (separate_of (by decide +kernel))
example := C39_overload_form (a := exArgL) (es := [.val (tyN 3), .val (tyN 2), .ref (tyN 1)]) (i := 2) (p := ⟨false, tyN 1⟩)
  (natArg_lawful (by decide +kernel)) (separate_of (by decide +kernel)) (by decide +kernel) rfl

/-- Ambiguous: two equally good conversions. -/
example : (natArg (tyN 1) (fun t => if t.const && t.base != 1 then some 7 else none) fun _ => true).construct
    [.val (tyN 2), .val (tyN 3)] = none := by decide +kernel

/-- `int` into `variant<recursive_wrapper<double>>`. -/
example : Winner exArg [.wrapped (tyN 2)] 0 ∧ exArg.construct [.wrapped (tyN 2)] = none :=
  C39_wrapped_rejected (a := exArg) (tyN 2) (by decide +kernel) (by decide) (by decide)

example := C39_hidden_overload (a := exArgL) (tyN 1) (natArg_lawful (es := []) (by decide +kernel)).asymm (by decide +kernel)
  (by decide +kernel)

example := C39_effect (C := exTwo) (a := exArg) (es := [.val (tyN 2), .val (tyN 1)]) (o := ⟨⟨true, tyN 1⟩, 1⟩) (v := 3)
  (by decide +kernel) (natArg_lawful (by decide +kernel)) (separate_of (by decide +kernel)) (by decide +kernel) exBackup_good .R
  exBackup_facts.1

example : initializerOverloads [.val (tyN 2), .val (tyN 3), .val (tyN 1)] = initializerOverloads exEs :=
  C39_wrapper_irrelevant (es := exEs)

end BVariant
