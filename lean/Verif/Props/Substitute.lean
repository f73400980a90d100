/-
C38: `make_recursive_variant` substitutes the variant for `recursive_variant_`.
-/
import Verif.Spec.Substitute

namespace BVariant

/-- Are the arguments of a type substituted in, and if so, are they what a pointer without qualifiers points to? -/
def descends (fp : Bool) (q : Cv) : TyHead → Option Bool
  | .ptr => some (q = {})
  | .fn other => if fp && !other then some false else none
  | .lref => some false
  | .tmpl _ | .wrapper | .variant .seq | .variant .plain => if q = {} then some false else none
  | _ => none

theorem subst_eq (D : CTy) (fp : Bool) (q : Cv) (h : TyHead) (as : CTys) (hne : h ≠ .tag ∨ as ≠ .nil) :
    CTy.subst D fp (.mk q h as) =
      match descends fp q h with
      | some fp' => .mk q h (CTys.subst D fp' as)
      | none => .mk q h as := by
  cases h with
  | tag => cases as with
    | nil => rcases hne with h | h <;> exact absurd rfl h
    | cons _ _ => rfl
  | variant f =>
    cases f
    · simp only [CTy.subst, descends]; split <;> rfl
    · rfl
    · simp only [CTy.subst, descends]
      split
      · split
        · rename_i h; dsimp only; rw [← h]
        · rfl
      · rfl
  | fn o => simp only [CTy.subst, descends]; split <;> rfl
  | tmpl f => simp only [CTy.subst, descends]; split <;> rfl
  | wrapper => simp only [CTy.subst, descends]; split <;> rfl
  | _ => rfl

theorem CTys.get_subst (D : CTy) (fp : Bool) : ∀ (as : CTys) (i : Nat), (CTys.subst D fp as).get i = (as.get i).map (CTy.subst D fp)
  | .nil, _ => rfl
  | .cons _ _, 0 => rfl
  | .cons _ ts, i + 1 => CTys.get_subst D fp ts i

theorem CTys.length_subst (D : CTy) (fp : Bool) : ∀ as : CTys, (CTys.subst D fp as).length = as.length
  | .nil => rfl
  | .cons _ ts => by simp only [CTys.subst, CTys.length, CTys.length_subst D fp ts]

/-- `Reached`, computed along `descends`. -/
def RF (fp : Bool) : CTy → List Nat → Prop
  | _, [] => True
  | .mk q h as, i :: p => ∃ fp' a, descends fp q h = some fp' ∧ as.get i = some a ∧ RF fp' a p

theorem RF_iff : ∀ (p : List Nat) (fp : Bool) (t : CTy), RF fp t p ↔ Reached t p ∨
    (fp = true ∧ ∃ r bs j b p', t = .mk r (.fn false) bs ∧ p = j :: p' ∧ bs.get j = some b ∧ Reached b p')
  | [], fp, t => by simp only [RF, Reached.here, true_or]
  | i :: p, fp, .mk q h as => by
    simp only [RF]
    constructor
    · rintro ⟨fp', a, hd, ha, hr⟩
      rw [RF_iff p fp' a] at hr
      cases h with
      | ptr =>
        simp only [descends, Option.some.injEq] at hd
        subst hd
        rcases hr with hr | ⟨hq, r, bs, j, b, p', rfl, rfl, hb, hr⟩
        · exact .inl (.pointee ha hr)
        · have : q = .none := of_decide_eq_true hq
          subst this
          exact .inl (.signature ha hb hr)
      | fn o =>
        simp only [descends] at hd
        split at hd
        · rename_i hfo
          cases hd
          simp only [Bool.and_eq_true, Bool.not_eq_true'] at hfo
          obtain ⟨rfl, rfl⟩ := hfo
          rcases hr with hr | ⟨h, _⟩
          · exact .inr ⟨rfl, q, as, i, a, p, rfl, rfl, ha, hr⟩
          · cases h
        · cases hd
      | lref =>
        cases hd
        rcases hr with hr | ⟨h, _⟩
        · exact .inl (.referee ha hr)
        · cases h
      | tmpl f =>
        simp only [descends] at hd
        split at hd
        · rename_i hq
          cases hd
          rcases hr with hr | ⟨h, _⟩
          · rw [hq]; exact .inl (.templateArg ha hr)
          · cases h
        · cases hd
      | wrapper =>
        simp only [descends] at hd
        split at hd
        · rename_i hq
          cases hd
          rcases hr with hr | ⟨h, _⟩
          · rw [hq]; exact .inl (.wrapped ha hr)
          · cases h
        · cases hd
      | variant f =>
        cases f with
        | flag => cases hd
        | _ =>
          simp only [descends] at hd
          split at hd
          · rename_i hq
            cases hd
            rcases hr with hr | ⟨h, _⟩
            · rw [hq]; exact .inl (.alternative nofun ha hr)
            · cases h
          · cases hd
      | _ => cases hd
    · rintro (hr | ⟨rfl, r, bs, j, b, p', ht, hp, hb, hr⟩)
      · cases hr with
        | pointee ha hr => exact ⟨_, _, rfl, ha, (RF_iff p _ _).mpr (.inl hr)⟩
        | signature ha hb hr =>
          exact ⟨true, _, rfl, ha, (RF_iff _ _ _).mpr (.inr ⟨rfl, _, _, _, _, _, rfl, rfl, hb, hr⟩)⟩
        | referee ha hr => exact ⟨_, _, rfl, ha, (RF_iff p _ _).mpr (.inl hr)⟩
        | templateArg ha hr => exact ⟨false, _, rfl, ha, (RF_iff p _ _).mpr (.inl hr)⟩
        | wrapped ha hr => exact ⟨false, _, rfl, ha, (RF_iff p _ _).mpr (.inl hr)⟩
        | alternative hf ha hr =>
          refine ⟨false, _, ?_, ha, (RF_iff p _ _).mpr (.inl hr)⟩
          rename_i f _
          cases f
          · rfl
          · exact absurd rfl hf
          · rfl
      · cases ht; cases hp
        exact ⟨false, b, rfl, hb, (RF_iff p _ _).mpr (.inl hr)⟩

theorem RF_false (t : CTy) (p : List Nat) : RF false t p ↔ Reached t p := by
  rw [RF_iff]; simp

/-- What becomes of the type at a position. -/
theorem subst_at (D : CTy) : ∀ (p : List Nat) (fp : Bool) (t : CTy) (q : Cv) (h : TyHead) (as : CTys), t.at p = some (.mk q h as) →
    (RF fp t p → h = .tag → as = .nil → (CTy.subst D fp t).at p = some (D.addCv q)) ∧
    (¬ (RF fp t p ∧ h = .tag ∧ as = .nil) → ∃ as', (CTy.subst D fp t).at p = some (.mk q h as') ∧ as'.length = as.length) ∧
    (¬ RF fp t p → (CTy.subst D fp t).at p = some (.mk q h as)) ∧
    (h = .variant .flag → (CTy.subst D fp t).at p = some (.mk q h as))
  | [], fp, t, q, h, as, ht => by
    cases ht
    refine ⟨fun _ ht ha => ?_, fun hne => ?_, fun hn => absurd trivial hn, ?_⟩
    · subst ht ha; rfl
    · have : h ≠ .tag ∨ as ≠ .nil := by
        by_cases h1 : h = .tag
        · exact .inr fun h2 => hne ⟨trivial, h1, h2⟩
        · exact .inl h1
      rw [subst_eq D fp q h as this]
      cases descends fp q h with
      | none => exact ⟨as, rfl, rfl⟩
      | some fp' => exact ⟨_, rfl, CTys.length_subst D fp' as⟩
    · rintro rfl; rfl
  | i :: p, fp, .mk q0 h0 as0, q, h, as, ht => by
    simp only [CTy.at] at ht
    cases hg : as0.get i with
    | none => rw [hg] at ht; cases ht
    | some a =>
      rw [hg] at ht
      have hne : h0 ≠ .tag ∨ as0 ≠ .nil := .inr fun h => by rw [h] at hg; cases hg
      rw [subst_eq D fp q0 h0 as0 hne]
      cases hd : descends fp q0 h0 with
      | none =>
        have hno : ¬ RF fp (.mk q0 h0 as0) (i :: p) := by
          simp only [RF, hd]; rintro ⟨_, _, h, _⟩; cases h
        have hsame : (CTy.mk q0 h0 as0).at (i :: p) = some (.mk q h as) := by simp only [CTy.at, hg]; exact ht
        exact ⟨fun h => absurd h hno, fun _ => ⟨as, hsame, rfl⟩, fun _ => hsame, fun _ => hsame⟩
      | some fp' =>
        have hrf : RF fp (.mk q0 h0 as0) (i :: p) ↔ RF fp' a p := by
          simp only [RF, hd, hg]
          constructor
          · rintro ⟨_, _, h1, h2, h3⟩; cases h1; cases h2; exact h3
          · exact fun h => ⟨fp', a, rfl, rfl, h⟩
        have hat : (CTy.mk q0 h0 (CTys.subst D fp' as0)).at (i :: p) = (CTy.subst D fp' a).at p := by
          simp only [CTy.at, CTys.get_subst, hg, Option.map_some]
        show _ ∧ _
        simp only [hrf, hat]
        exact subst_at D p fp' a q h as ht

/-- **C38**: at every position that is reached, `recursive_variant_` is replaced by the variant, with the same qualifiers. -/
theorem C38_replaced (D t : CTy) (p : List Nat) (q : Cv) (hr : Reached t p) (ht : t.at p = some (.recursiveVariant_ q)) :
    ∃ u, (CTy.substitute D t).at p = some u ∧ Qualified q D u := by
  refine ⟨_, (subst_at D p false t q .tag .nil ht).1 ((RF_false t p).mpr hr) rfl rfl, ?_⟩
  obtain ⟨⟨dc, dv⟩, h, as⟩ := D
  exact .both

/-- **C38**: nothing else changes: at every other position there is a type made in the same way, with the same qualifiers and
the same number of arguments; and at a position that is not reached it is the same type altogether. -/
theorem C38_rest_unchanged (D t : CTy) (p : List Nat) (q : Cv) (h : TyHead) (as : CTys) (ht : t.at p = some (.mk q h as)) :
    (¬ (Reached t p ∧ h = .tag ∧ as = .nil) →
      ∃ as', (CTy.substitute D t).at p = some (.mk q h as') ∧ as'.length = as.length) ∧
    (¬ Reached t p → (CTy.substitute D t).at p = some (.mk q h as)) := by
  have := subst_at D p false t q h as ht
  rw [RF_false] at this
  exact ⟨this.2.1, this.2.2.1⟩

/-- **C38**: recursive variants inside the type are left alone. -/
theorem C38_nested_recursive_variants (D t : CTy) (p : List Nat) (q : Cv) (as : CTys)
    (ht : t.at p = some (.mk q (.variant .flag) as)) : (CTy.substitute D t).at p = some (.mk q (.variant .flag) as) :=
  (subst_at D p false t q _ as ht).2.2.2 rfl

mutual
/-- Types are equal if they agree at all positions. -/
theorem CTy.ext_at : ∀ (t u : CTy), (∀ p q h as, t.at p = some (.mk q h as) →
    ∃ as', u.at p = some (.mk q h as') ∧ as'.length = as.length) → t = u
  | .mk q h as, .mk q' h' as', hp => by
    obtain ⟨as'', h1, h2⟩ := hp [] q h as rfl
    cases h1
    rw [CTys.ext_at as as' h2.symm fun i a ha p r k bs hb => ?_]
    obtain ⟨bs', h3, h4⟩ := hp (i :: p) r k bs (by simp only [CTy.at, ha]; exact hb)
    simp only [CTy.at] at h3
    cases hg : as'.get i with
    | none => rw [hg] at h3; cases h3
    | some b => rw [hg] at h3; exact ⟨b, rfl, bs', h3, h4⟩
theorem CTys.ext_at : ∀ (as bs : CTys), as.length = bs.length → (∀ i a, as.get i = some a → ∀ p q h cs, a.at p = some (.mk q h cs) →
    ∃ b, bs.get i = some b ∧ ∃ cs', b.at p = some (.mk q h cs') ∧ cs'.length = cs.length) → as = bs
  | .nil, .nil, _, _ => rfl
  | .nil, .cons _ _, h, _ => by simp [CTys.length] at h
  | .cons _ _, .nil, h, _ => by simp [CTys.length] at h
  | .cons a as, .cons b bs, h, hp => by
    rw [CTy.ext_at a b fun p q h cs hc => ?_, CTys.ext_at as bs (by simpa [CTys.length] using h) fun i a' ha => hp (i + 1) a' ha]
    obtain ⟨b', h1, h2⟩ := hp 0 a rfl p q h cs hc
    cases h1; exact h2
end

/-- **C38**: a type in which no position that is reached has the tag is unchanged; and no other type is. -/
theorem C38_changed_iff (D t : CTy) (hD : D.head ≠ .tag) : CTy.substitute D t ≠ t ↔ t.Mentions := by
  constructor
  · intro hne
    apply Classical.byContradiction
    intro hno
    apply hne
    symm
    refine CTy.ext_at _ _ fun p q h as ht => (C38_rest_unchanged D t p q h as ht).1 ?_
    rintro ⟨hr, rfl, rfl⟩
    exact hno ⟨p, q, hr, ht⟩
  · rintro ⟨p, q, hr, ht⟩ heq
    obtain ⟨u, h1, h2⟩ := C38_replaced D t p q hr ht
    rw [heq, ht] at h1
    cases h1
    generalize hu : CTy.recursiveVariant_ q = u at h2
    cases h2
    exact hD (congrArg CTy.head hu).symm

theorem isPtrRef_iff (t : CTy) : (t.isPointer || t.isReference) = true ↔ t.PointerOrReference := by
  obtain ⟨q, h, as⟩ := t
  constructor
  · intro hp
    simp only [CTy.isPointer, CTy.isReference, CTy.head, Bool.or_eq_true] at hp
    rcases hp with hp | hp | hp
    · rw [of_decide_eq_true hp]; exact .pointer
    · rw [of_decide_eq_true hp]; exact .lvalueReference
    · rw [of_decide_eq_true hp]; exact .rvalueReference
  · intro hp
    cases hp <;> rfl

/-- **C38**: `enable_recursive` gives the substituted type, in a `recursive_wrapper` exactly if the substitution changed
something and the type is neither a pointer nor a reference. -/
theorem C38_wraps_iff (D t : CTy) (hD : ∃ q f as, D = .mk q (.variant f) as) :
    (t.Mentions ∧ ¬ t.PointerOrReference → CTy.enableRecursive D false t = (CTy.substitute D t).wrapperOf) ∧
    (¬ (t.Mentions ∧ ¬ t.PointerOrReference) → CTy.enableRecursive D false t = CTy.substitute D t) ∧
    CTy.enableRecursive D true t = CTy.substitute D t := by
  obtain ⟨dq, df, das, rfl⟩ := hD
  have hch := C38_changed_iff (.mk dq (.variant df) das) t nofun
  have hhead : ∀ h', (h' = .ptr ∨ h' = .lref ∨ h' = .rref) →
      ((CTy.substitute (.mk dq (.variant df) das) t).head = h' ↔ t.head = h') := by
    intro h' hh'
    obtain ⟨q, h, as⟩ := t
    by_cases hne : h ≠ .tag ∨ as ≠ .nil
    · have : (CTy.substitute (.mk dq (.variant df) das) (.mk q h as)).head = h := by
        rw [CTy.substitute, subst_eq _ _ q h as hne]
        cases descends false q h <;> rfl
      rw [this]; rfl
    · have : h = .tag ∧ as = .nil := by
        constructor
        · apply Classical.byContradiction; intro h1; exact hne (.inl h1)
        · apply Classical.byContradiction; intro h1; exact hne (.inr h1)
      obtain ⟨rfl, rfl⟩ := this
      rcases hh' with rfl | rfl | rfl <;> (constructor <;> intro h <;> cases h)
  have hptr : (CTy.substitute (.mk dq (.variant df) das) t).isPointer = t.isPointer := by
    simp only [CTy.isPointer, hhead .ptr (.inl rfl)]
  have href : (CTy.substitute (.mk dq (.variant df) das) t).isReference = t.isReference := by
    simp only [CTy.isReference, hhead .lref (.inr (.inl rfl)), hhead .rref (.inr (.inr rfl))]
  refine ⟨fun ⟨hm, hpr⟩ => ?_, fun hn => ?_, rfl⟩
  · rw [← isPtrRef_iff, Bool.or_eq_true, not_or, Bool.not_eq_true, Bool.not_eq_true] at hpr
    obtain ⟨hp, hr⟩ := hpr
    show _ = (CTy.substitute _ t).wrap
    simp only [CTy.enableRecursive, hptr, href, hp, hr, Bool.or_false, Bool.false_eq_true, if_false, decide_eq_true_eq]
    rw [if_neg (hch.mpr hm)]
  · simp only [CTy.enableRecursive, hptr, href, Bool.false_eq_true, if_false]
    rw [if_pos]
    by_cases hm : t.Mentions
    · cases hp : t.isPointer
      · cases hr : t.isReference
        · exact absurd ⟨hm, fun h => by rw [← isPtrRef_iff, hp, hr] at h; cases h⟩ hn
        · simp
      · simp
    · have : CTy.substitute (.mk dq (.variant df) das) t = t := by
        apply Classical.byContradiction; intro h; exact hm (hch.mp h)
      simp [this]

theorem toList_get : ∀ (as : CTys) (i : Nat), as.toList[i]? = as.get i
  | .nil, _ => rfl
  | .cons _ _, 0 => rfl
  | .cons _ ts, i + 1 => by simp only [CTys.toList, CTys.get, List.getElem?_cons_succ]; exact toList_get ts i

/-- **C38**: the bounded types of `make_recursive_variant<T0, TN...>::type`. The `i`-th is `T_i` with the variant type
substituted; it is stored in a `recursive_wrapper` exactly if `T_i` mentions the tag and is neither a pointer nor a reference.
(`hw`: the alternative is not itself written as a `recursive_wrapper`; for those see `C38_double_wrapping`.) -/
theorem C38_bounded_types (ts : CTys) (i : Nat) (t : CTy) (ht : ts.get i = some t) (hw : t.head ≠ .wrapper) :
    (makeRecursiveVariant ts).types[i]? = some (CTy.substitute (makeRecursiveVariant ts) t) ∧
    (t.Mentions ∧ ¬ t.PointerOrReference →
      (makeRecursiveVariant ts).enabledTypes[i]? = some (CTy.substitute (makeRecursiveVariant ts) t).wrapperOf) ∧
    (¬ (t.Mentions ∧ ¬ t.PointerOrReference) →
      (makeRecursiveVariant ts).enabledTypes[i]? = some (CTy.substitute (makeRecursiveVariant ts) t)) := by
  have hen : (makeRecursiveVariant ts).enabledTypes[i]? = some (CTy.enableRecursive (makeRecursiveVariant ts) false t) := by
    have : (makeRecursiveVariant ts).enabledTypes = ts.toList.map (CTy.enableRecursive (makeRecursiveVariant ts) false) := rfl
    rw [this, List.getElem?_map, toList_get, ht]; rfl
  obtain ⟨h1, h2, _⟩ := C38_wraps_iff (makeRecursiveVariant ts) t ⟨_, _, _, rfl⟩
  refine ⟨?_, fun h => by rw [hen, h1 h], fun h => by rw [hen, h2 h]⟩
  rw [CTy.types, List.getElem?_map, hen, Option.map_some]
  by_cases hc : t.Mentions ∧ ¬ t.PointerOrReference
  · rw [h1 hc]; rfl
  · rw [h2 hc]
    clear h1 h2 hc hen ht
    have hhead : (CTy.substitute (makeRecursiveVariant ts) t).head ≠ .wrapper := by
      obtain ⟨q, h, as⟩ := t
      by_cases hne : h ≠ .tag ∨ as ≠ .nil
      · rw [CTy.substitute, subst_eq _ _ q h as hne]
        cases descends false q h <;> exact hw
      · have : h = .tag ∧ as = .nil := by
          constructor
          · apply Classical.byContradiction; intro h1; exact hne (.inl h1)
          · apply Classical.byContradiction; intro h1; exact hne (.inr h1)
        obtain ⟨rfl, rfl⟩ := this
        nofun
    generalize CTy.substitute (makeRecursiveVariant ts) t = u at hhead
    unfold CTy.unwrap
    split
    · exact absurd rfl hhead
    · rfl

/-- An alternative that is written as `recursive_wrapper<T>` with the tag in `T` is wrapped once more, and the bounded type
is the wrapper, not `T` (finding F14). -/
theorem C38_double_wrapping (ts : CTys) (i : Nat) (t : CTy) (ht : ts.get i = some t.wrapperOf) (hm : t.Mentions) :
    (makeRecursiveVariant ts).enabledTypes[i]? = some (CTy.substitute (makeRecursiveVariant ts) t).wrapperOf.wrapperOf ∧
    (makeRecursiveVariant ts).types[i]? = some (CTy.substitute (makeRecursiveVariant ts) t).wrapperOf := by
  have hen : (makeRecursiveVariant ts).enabledTypes[i]? = some (CTy.enableRecursive (makeRecursiveVariant ts) false t.wrapperOf) := by
    have : (makeRecursiveVariant ts).enabledTypes = ts.toList.map (CTy.enableRecursive (makeRecursiveVariant ts) false) := rfl
    rw [this, List.getElem?_map, toList_get, ht]; rfl
  have hmw : t.wrapperOf.Mentions := by
    obtain ⟨p, q, h1, h2⟩ := hm
    exact ⟨0 :: p, q, .wrapped rfl h1, h2⟩
  rw [(C38_wraps_iff (makeRecursiveVariant ts) t.wrapperOf ⟨_, _, _, rfl⟩).1 ⟨hmw, nofun⟩] at hen
  refine ⟨hen, ?_⟩
  rw [CTy.types, List.getElem?_map, hen]
  rfl

/-- The positions the library does not reach (finding F8): in arrays, behind rvalue references, in template arguments of
qualified types or of templates that have other than type parameters, in pointers to members, and in functions unless
behind a pointer without qualifiers. There everything is left as it is. -/
theorem C38_not_reached (D : CTy) (q : Cv) (as : CTys) (r : Cv) (n : Nat) (vals : List Nat) :
    CTy.substitute D (.mk q (.arr n) as) = .mk q (.arr n) as ∧
    CTy.substitute D (.mk q .rref as) = .mk q .rref as ∧
    CTy.substitute D (.mk q (.memptr n) as) = .mk q (.memptr n) as ∧
    CTy.substitute D (.mk q (.tmplN n vals) as) = .mk q (.tmplN n vals) as ∧
    (∀ o, CTy.substitute D (.mk q (.fn o) as) = .mk q (.fn o) as) ∧
    (∀ o, CTy.substitute D (.mk q .lref (.cons (.mk r (.fn o) as) .nil)) = .mk q .lref (.cons (.mk r (.fn o) as) .nil)) ∧
    CTy.substitute D (.mk q .ptr (.cons (.mk r (.fn true) as) .nil)) = .mk q .ptr (.cons (.mk r (.fn true) as) .nil) ∧
    (q ≠ .none →
      (∀ o, CTy.substitute D (.mk q .ptr (.cons (.mk r (.fn o) as) .nil)) = .mk q .ptr (.cons (.mk r (.fn o) as) .nil)) ∧
      CTy.substitute D (.mk q (.tmpl n) as) = .mk q (.tmpl n) as ∧
      ∀ f, CTy.substitute D (.mk q (.variant f) as) = .mk q (.variant f) as) := by
  refine ⟨rfl, rfl, rfl, rfl, fun _ => rfl, fun o => ?_, ?_, fun hq => ⟨fun o => ?_, ?_, fun f => ?_⟩⟩
  · simp [CTy.substitute, CTy.subst, CTys.subst]
  · simp [CTy.substitute, CTy.subst, CTys.subst]
  · have : decide (q = ({} : Cv)) = false := decide_eq_false hq
    simp only [CTy.substitute, CTy.subst, CTys.subst, this]
    rfl
  · have : ¬ q = ({} : Cv) := hq
    simp only [CTy.substitute, CTy.subst, this, if_false]
  · have : ¬ q = ({} : Cv) := hq
    cases f <;> simp only [CTy.substitute, CTy.subst, this, if_false]

theorem copyOnto_nil : ∀ ts : CTys, CTys.copyOnto .nil ts = ts
  | .nil => rfl
  | .cons t ts => by rw [CTys.copyOnto, copyOnto_nil ts]

theorem subst_get (D : CTy) : ∀ (ts : CTys) (i : Nat), (CTys.subst D false ts).get i = (ts.get i).map (CTy.substitute D)
  | .nil, _ => rfl
  | .cons _ _, 0 => rfl
  | .cons _ ts, i + 1 => subst_get D ts i

/-- **C38**: `make_variant_over<Types>` has the elements of `Types` in their order as its bounded types, like the variant with these as its arguments, but is another
type. The elements are not changed: the tag stands for nothing in it. -/
theorem C38_over (ts : CTys) :
    (makeVariantOver ts).enabledTypes = ts.toList ∧ (makeVariantOver ts).types = (makeVariant ts).types ∧
    (∀ i, (makeVariantOver ts).types[i]? = (ts.get i).map CTy.unwrap) ∧ makeVariantOver ts ≠ makeVariant ts := by
  have he : (makeVariantOver ts).enabledTypes = ts.toList := by
    show (CTys.copyOnto .nil ts).toList = ts.toList
    rw [copyOnto_nil]
  have ht : (makeVariantOver ts).types = (makeVariant ts).types := by
    show (makeVariantOver ts).enabledTypes.map _ = ts.toList.map _
    rw [he]
  refine ⟨he, ht, fun i => ?_, fun h => by cases h⟩
  rw [ht]
  show (ts.toList.map CTy.unwrap)[i]? = _
  rw [List.getElem?_map, toList_get]

/-- **C38**: a `make_variant_over` inside a recursive variant becomes the `make_variant_over` of the sequence with the tag replaced in each element, and the variant
is the same type as before exactly if no element is changed. -/
theorem C38_over_nested (D : CTy) (ts : CTys) :
    ∃ us : CTys, CTy.substitute D (makeVariantOver ts) = makeVariantOver us ∧ (∀ i, us.get i = (ts.get i).map (CTy.substitute D)) ∧
      (CTy.substitute D (makeVariantOver ts) = makeVariantOver ts ↔ ∀ i t, ts.get i = some t → CTy.substitute D t = t) := by
  have ext : ∀ as bs : CTys, (∀ i, as.get i = bs.get i) → as = bs := by
    intro as
    induction as using CTys.rec (motive_1 := fun _ => True) with
    | mk => trivial
    | nil =>
      intro bs h
      cases bs with
      | nil => rfl
      | cons => cases h 0
    | cons t ts _ ih =>
      intro bs h
      cases bs with
      | nil => cases h 0
      | cons b bs =>
        obtain rfl := Option.some.inj (h 0)
        rw [ih bs fun i => h (i + 1)]
  have heq : CTy.substitute D (makeVariantOver ts) = makeVariantOver (CTys.subst D false ts) := by
    unfold makeVariantOver
    rw [copyOnto_nil, copyOnto_nil]
    simp only [CTy.substitute, CTy.subst, if_true]
    split
    · rename_i h; rw [← h]
    · rfl
  refine ⟨_, heq, subst_get D ts, ?_⟩
  rw [heq]
  unfold makeVariantOver
  rw [copyOnto_nil, copyOnto_nil]
  constructor
  · intro h i t ht
    have h2 : CTys.subst D false ts = ts := by injection h
    have h3 := subst_get D ts i
    rw [h2, ht] at h3
    exact (Option.some.inj h3).symm
  · intro h
    rw [ext (CTys.subst D false ts) ts fun i => by
      rw [subst_get]
      cases ht : ts.get i with
      | none => rfl
      | some t => exact congrArg some (h i t ht)]

/-! ### Non-vacuity -/

/-- `int`, the tag, pointers and so on, for examples -/
def cInt : CTy := .mk {} (.base 0) .nil
def cTag (q : Cv := {}) : CTy := .mk q .tag .nil
def cPtr (t : CTy) (q : Cv := {}) : CTy := .mk q .ptr (.cons t .nil)
def cRef (t : CTy) : CTy := .mk {} .lref (.cons t .nil)
def cTmpl (f : Nat) (ts : List CTy) (q : Cv := {}) : CTy := .mk q (.tmpl f) (CTys.ofList ts)
def cFn (ts : List CTy) : CTy := .mk {} (.fn false) (CTys.ofList ts)

/-- `make_recursive_variant<int, std::pair<const tag*, tag(*)(int, tag&)>, variant<int, vector<tag>>, tag*, const vector<tag>>` -/
def exRec : CTy := makeRecursiveVariant (CTys.ofList [cInt,
  cTmpl 1 [cPtr (cTag ⟨true, false⟩), cPtr (cFn [cTag, cInt, cRef cTag])],
  .mk {} (.variant .plain) (CTys.ofList [cInt, cTmpl 2 [cTag]]),
  cPtr cTag,
  cTmpl 2 [cTag] ⟨true, false⟩])

/-- The bounded types: the tag is replaced, and those that are neither unchanged nor pointers are wrapped. -/
example : exRec.enabledTypes = [cInt,
      (cTmpl 1 [cPtr (exRec.addCv ⟨true, false⟩), cPtr (cFn [exRec, cInt, cRef exRec])]).wrap,
      (CTy.mk {} (.variant .plain) (CTys.ofList [cInt, cTmpl 2 [exRec]])).wrap,
      cPtr exRec,
      cTmpl 2 [cTag] ⟨true, false⟩] ∧
    exRec.types[1]? = some (cTmpl 1 [cPtr (exRec.addCv ⟨true, false⟩), cPtr (cFn [exRec, cInt, cRef exRec])]) := by
  decide +kernel

/-- A position in a signature inside a template argument: reached, and with the tag. -/
example : Reached (cTmpl 1 [cPtr (cTag ⟨true, false⟩), cPtr (cFn [cTag, cInt, cRef cTag])]) [1, 0, 2, 0] ∧
    (cTmpl 1 [cPtr (cTag ⟨true, false⟩), cPtr (cFn [cTag, cInt, cRef cTag])]).at [1, 0, 2, 0] = some (.recursiveVariant_ {}) :=
  ⟨.templateArg rfl (.signature rfl rfl (.referee rfl .here)), rfl⟩

/-- A variant with a recursive variant in it, which is left alone, tag and all. -/
example : CTy.substitute exRec (cTmpl 1 [cTag, makeRecursiveVariant (CTys.ofList [cInt, cPtr cTag])]) =
    cTmpl 1 [exRec, makeRecursiveVariant (CTys.ofList [cInt, cPtr cTag])] := by decide +kernel

/-- `std::function<void(tag)>` and `std::array<tag, 3>` are not changed. -/
example : CTy.substitute exRec (cTmpl 3 [cFn [cInt, cTag]]) = cTmpl 3 [cFn [cInt, cTag]] ∧
    CTy.substitute exRec (.mk {} (.tmplN 4 [3]) (.cons cTag .nil)) = .mk {} (.tmplN 4 [3]) (.cons cTag .nil) := by
  decide +kernel

/-- A wrapper around something that mentions the tag. -/
example : (cTmpl 2 [cTag]).Mentions := ⟨[0], {}, .templateArg rfl .here, rfl⟩

/-- The tag in that signature is replaced; the parts around it keep their form; a `std::array<tag, 3>` in a template is not
reached, and the tag inside a nested recursive variant belongs to that one. -/
example : (CTy.substitute exRec (cTmpl 1 [cPtr (cTag ⟨true, false⟩), cPtr (cFn [cTag, cInt, cRef cTag])])).at [1, 0, 2, 0] =
    some exRec := by
  obtain ⟨u, h1, h2⟩ := C38_replaced exRec (cTmpl 1 [cPtr (cTag ⟨true, false⟩), cPtr (cFn [cTag, cInt, cRef cTag])]) [1, 0, 2, 0] {}
    (.templateArg rfl (.signature rfl rfl (.referee rfl .here))) rfl
  rw [h1]
  generalize hd : exRec = d at h2
  cases h2
  simp only [Bool.or_false]
example := C38_rest_unchanged exRec (cTmpl 1 [cPtr (cTag ⟨true, false⟩), cPtr (cFn [cTag, cInt, cRef cTag])]) [1, 0] {} (.fn false)
  (CTys.ofList [cTag, cInt, cRef cTag]) rfl
example := C38_nested_recursive_variants exRec (cTmpl 1 [cTag, makeRecursiveVariant (CTys.ofList [cInt, cPtr cTag])]) [1] {}
  (CTys.ofList [cInt, cPtr cTag]) rfl
example : CTy.substitute exRec (cTmpl 2 [cTag]) ≠ cTmpl 2 [cTag] :=
  (C38_changed_iff exRec _ (by decide)).mpr ⟨[0], {}, .templateArg rfl .here, rfl⟩
example : CTy.enableRecursive exRec false (cTmpl 2 [cTag]) = (CTy.substitute exRec (cTmpl 2 [cTag])).wrap :=
  (C38_wraps_iff exRec (cTmpl 2 [cTag]) ⟨_, _, _, rfl⟩).1 ⟨⟨[0], {}, .templateArg rfl .here, rfl⟩, nofun⟩
example := C38_bounded_types (CTys.ofList [cInt, cTmpl 2 [cTag], cPtr cTag]) 1 (cTmpl 2 [cTag]) rfl (by decide)
example := C38_bounded_types (CTys.ofList [cInt, cTmpl 2 [cTag], cPtr cTag]) 2 (cPtr cTag) rfl (by decide)
example := C38_double_wrapping (CTys.ofList [cInt, (cTmpl 2 [cTag]).wrap]) 1 (cTmpl 2 [cTag]) rfl
  ⟨[0], {}, .templateArg rfl .here, rfl⟩

/-! ### Instances -/

/-- With `int` (say) as the argument of each of the forms that are not reached. -/
example := C38_not_reached (.mk .none (.base 5) .nil) .none (.cons (.mk .none (.base 0) .nil) .nil) .none 3 [7]

/-- `make_variant_over` of a list of three types, two of which mention the tag, by itself and inside a recursive variant. -/
example : (makeVariantOver (CTys.ofList [cInt, (cTmpl 2 [cTag]).wrap, cPtr cTag])).types = [cInt, cTmpl 2 [cTag], cPtr cTag] := by
  rw [(C38_over _).2.1]; rfl
example : ∃ us, CTy.substitute exRec (makeVariantOver (CTys.ofList [cInt, cTmpl 2 [cTag], cPtr cTag])) = makeVariantOver us ∧
    us.get 1 = some (cTmpl 2 [exRec]) := by
  obtain ⟨us, h1, h2, -⟩ := C38_over_nested exRec (CTys.ofList [cInt, cTmpl 2 [cTag], cPtr cTag])
  exact ⟨us, h1, (h2 1).trans (by decide +kernel)⟩

end BVariant
