import Verif.Spec.InternalVisit

/-
C84: which overload of `internal_visit` is called, and what the visitors work on.
-/

namespace BVariant

theorem SeesThrough.unique {R : Tmpl → Prop} {a b b' : LTy} (h : SeesThrough R a b) (h' : SeesThrough R a b') : b' = b := by
  induction h with
  | stop a h0 =>
    cases h' with
    | stop => rfl
    | into hR _ => exact absurd (h0 _ _ _ _ rfl hR) (by simp)
  | into hR _ ih =>
    cases h' with
    | stop _ h0 => exact absurd (h0 _ _ _ _ rfl hR) (by simp)
    | into _ h' => exact ih h'

/-- Visitors that unwrap: which overload is called. -/
structure Unwraps (os : List VOverload) : Prop where
  user : ∀ n c v, resolve os ⟨c, v, .user n⟩ = some ⟨.any, false, .here⟩
  spec : ∀ t tc tv s c, ∃ o, resolve os ⟨c, false, .spec t tc tv s⟩ = some o ∧ o.act = .again
  specV : ∀ t tc tv s c, resolve os ⟨c, true, .spec t tc tv s⟩ = some ⟨.any, false, .here⟩
  derived : ∀ n t tc tv s c, resolve os ⟨c, false, .derived n t tc tv s⟩ = none
  derivedV : ∀ n t tc tv s c, resolve os ⟨c, true, .derived n t tc tv s⟩ = some ⟨.any, false, .here⟩

theorem invokeVisitor_unwraps : Unwraps invokeVisitorOverloads where
  user n c v := by cases c <;> cases v <;> rfl
  spec t tc tv s c := by cases t <;> cases c <;> exact ⟨_, rfl, rfl⟩
  specV t tc tv s c := by cases t <;> cases c <;> rfl
  derived n t tc tv s c := by cases t <;> cases c <;> rfl
  derivedV n t tc tv s c := by cases t <;> cases c <;> rfl

theorem convertCopyInto_unwraps : Unwraps convertCopyIntoOverloads where
  user n c v := by cases c <;> cases v <;> rfl
  spec t tc tv s c := by cases t <;> cases c <;> exact ⟨_, rfl, rfl⟩
  specV t tc tv s c := by cases t <;> cases c <;> rfl
  derived n t tc tv s c := by cases t <;> cases c <;> rfl
  derivedV n t tc tv s c := by cases t <;> cases c <;> rfl

theorem convertMoveInto_unwraps : Unwraps convertMoveIntoOverloads where
  user n c v := by cases c <;> cases v <;> rfl
  spec t tc tv s c := by cases t <;> cases c <;> exact ⟨_, rfl, rfl⟩
  specV t tc tv s c := by cases t <;> cases c <;> rfl
  derived n t tc tv s c := by cases t <;> cases c <;> rfl
  derivedV n t tc tv s c := by cases t <;> cases c <;> rfl

theorem Tmpl.got_eq (t : Tmpl) (k c v : Bool) (s : STy) : t.got k c v s = ⟨c || (k && t ≠ .referenceContent), v, s⟩ := by
  cases t <;> simp [Tmpl.got]

theorem Unwraps.visit {os : List VOverload} (h : Unwraps os) : ∀ (s : STy) (c v : Bool),
    ∃ b, SeesThrough (fun _ => True) ⟨c, v, s⟩ b ∧
      ((internalVisit os s c v = some b ∧ ¬ b.IsDerived fun _ => True) ∨ (internalVisit os s c v = none ∧ b.IsDerived fun _ => True))
  | .user n, c, v => by
    refine ⟨_, .stop _ nofun, .inl ⟨?_, ?_⟩⟩
    · simp only [internalVisit, h.user]; rfl
    · rintro ⟨-, n, t, c, v, s, h, -⟩; cases h
  | .spec t tc tv s, c, false => by
    obtain ⟨o, h1, h2⟩ := h.spec t tc tv s c
    obtain ⟨b, g1, g2⟩ := Unwraps.visit h s (t.got c tc tv s).const (t.got c tc tv s).volatile
    have e : (⟨(t.got c tc tv s).const, (t.got c tc tv s).volatile, s⟩ : LTy) = ⟨tc || (c && t ≠ .referenceContent), tv, s⟩ := by
      rw [Tmpl.got_eq]
    rw [e] at g1
    refine ⟨b, .into trivial g1, ?_⟩
    simp only [internalVisit, h1, h2]
    exact g2
  | .spec t tc tv s, c, true => by
    refine ⟨_, .stop _ (fun _ _ _ _ _ _ => rfl), .inl ⟨?_, ?_⟩⟩
    · simp only [internalVisit, h.specV]; rfl
    · rintro ⟨h, -⟩; cases h
  | .derived n t tc tv s, c, false => by
    refine ⟨_, .stop _ nofun, .inr ⟨?_, rfl, n, t, tc, tv, s, rfl, trivial⟩⟩
    simp only [internalVisit, h.derived]
  | .derived n t tc tv s, c, true => by
    refine ⟨_, .stop _ nofun, .inl ⟨?_, ?_⟩⟩
    · simp only [internalVisit, h.derivedV]; rfl
    · rintro ⟨h, -⟩; cases h

theorem Unwraps.visit_iff {os : List VOverload} (h : Unwraps os) (a : LTy) :
    (∀ b, a.visit os = some b ↔ SeesThrough (fun _ => True) a b ∧ ¬ b.IsDerived fun _ => True) ∧
    (a.visit os = none ↔ ∃ b, SeesThrough (fun _ => True) a b ∧ b.IsDerived fun _ => True) := by
  obtain ⟨b, h1, h2⟩ := h.visit a.ty a.const a.volatile
  have e : a.visit os = internalVisit os a.ty a.const a.volatile := rfl
  rw [e]
  refine ⟨fun b' => ⟨fun g => ?_, fun g => ?_⟩, fun g => ?_, fun ⟨b', g1, g2⟩ => ?_⟩
  · rcases h2 with ⟨h2, h3⟩ | ⟨h2, -⟩
    · rw [h2] at g; cases g; exact ⟨h1, h3⟩
    · rw [h2] at g; cases g
  · have := h1.unique g.1
    subst this
    rcases h2 with ⟨h2, -⟩ | ⟨-, h3⟩
    · exact h2
    · exact absurd h3 g.2
  · rcases h2 with ⟨h2, -⟩ | ⟨-, h3⟩
    · rw [h2] at g; cases g
    · exact ⟨b, h1, h3⟩
  · have := h1.unique g1
    subst this
    rcases h2 with ⟨-, h3⟩ | ⟨h2, -⟩
    · exact absurd g2 h3
    · exact h2

/-- **C84.** A visitor of the user's is called with the object that one comes to by going into heap backups, recursive wrappers and reference contents, as deep
as they are nested, and with that object's qualifiers; the call does not compile exactly if one comes to a class that the user derived from one of
the three templates. -/
theorem C84_user_visitors (a : LTy) :
    (∀ b, a.visit invokeVisitorOverloads = some b ↔ SeesThrough (fun _ => True) a b ∧ ¬ b.IsDerived fun _ => True) ∧
    (a.visit invokeVisitorOverloads = none ↔ ∃ b, SeesThrough (fun _ => True) a b ∧ b.IsDerived fun _ => True) :=
  invokeVisitor_unwraps.visit_iff a

/-- **C84.** Conversions between variant types, copying or moving, begin with that very object. -/
theorem C84_conversions (a : LTy) :
    a.visit convertCopyIntoOverloads = a.visit invokeVisitorOverloads ∧ a.visit convertMoveIntoOverloads = a.visit invokeVisitorOverloads := by
  have key : ∀ {os}, Unwraps os → a.visit os = a.visit invokeVisitorOverloads := fun {os} h => by
    cases e : a.visit invokeVisitorOverloads with
    | none => exact (h.visit_iff a).2.mpr ((C84_user_visitors a).2.mp e)
    | some b => exact ((h.visit_iff a).1 b).mpr (((C84_user_visitors a).1 b).mp e)
  exact ⟨key convertCopyInto_unwraps, key convertMoveInto_unwraps⟩

/-- **C84.** Whether the content is in a heap backup or not, the visitor's operand has the same type, or the call does not compile in both cases; for
content of any type, in const and other variants. -/
theorem C84_same_in_backup (k : Bool) (a : LTy) :
    (a.inStorage k true).visit invokeVisitorOverloads = (a.inStorage k false).visit invokeVisitorOverloads := by
  have h : ∀ b, SeesThrough (fun _ => True) (a.inStorage k true) b ↔ SeesThrough (fun _ => True) (a.inStorage k false) b := fun b => by
    have e : (⟨a.const || (k && Tmpl.backupHolder ≠ .referenceContent), a.volatile, a.ty⟩ : LTy) = a.inStorage k false := by
      simp [LTy.inStorage]
    constructor
    · intro g
      simp only [LTy.inStorage, if_true] at g
      cases g with
      | stop _ h0 => exact absurd (h0 _ _ _ _ rfl trivial) (by simp)
      | into _ g => rw [e] at g; exact g
    · intro g
      rw [← e] at g
      exact .into trivial g
  cases e : (a.inStorage k false).visit invokeVisitorOverloads with
  | none =>
    obtain ⟨b, h1, h2⟩ := (C84_user_visitors _).2.mp e
    exact (C84_user_visitors _).2.mpr ⟨b, (h b).mpr h1, h2⟩
  | some b =>
    obtain ⟨h1, h2⟩ := ((C84_user_visitors _).1 b).mp e
    exact ((C84_user_visitors _).1 b).mpr ⟨(h b).mpr h1, h2⟩

/-- **C84.** For bounded types `T`, `recursive_wrapper<T>` and `T&`, where `T` is a type of the user's, possibly qualified, the visitor gets an lvalue of type
`T`; const also if the variant is const, except for `T&`. -/
theorem C84_bounded_types (k b : Bool) (e : Elem) :
    (e.stored.inStorage k b).visit invokeVisitorOverloads = some (e.lvalue k).toL := by
  have h : (e.stored.inStorage k false).visit invokeVisitorOverloads = some (e.lvalue k).toL := by
    rw [(C84_user_visitors _).1]
    refine ⟨?_, ?_⟩
    · cases e with
      | val t =>
        have : LTy.inStorage k false (Elem.stored (.val t)) = (Elem.lvalue k (.val t)).toL := by
          cases k <;> simp [LTy.inStorage, Elem.stored, Elem.lvalue, CvTy.toL, CvTy.addConst]
        rw [this]
        exact .stop _ nofun
      | wrapped t =>
        refine .into trivial ?_
        have : (⟨t.const || (k && Tmpl.recursiveWrapper ≠ .referenceContent), t.volatile, .user t.base⟩ : LTy) = (Elem.lvalue k (.wrapped t)).toL := by
          cases k <;> simp [Elem.lvalue, CvTy.toL, CvTy.addConst]
        show SeesThrough _ ⟨t.const || (k && Tmpl.recursiveWrapper ≠ .referenceContent), t.volatile, .user t.base⟩ _
        rw [this]
        exact .stop _ nofun
      | ref t =>
        refine .into trivial ?_
        have : ∀ k : Bool, (⟨t.const || (k && Tmpl.referenceContent ≠ .referenceContent), t.volatile, .user t.base⟩ : LTy) =
            (Elem.lvalue k (.ref t)).toL := fun k => by simp [Elem.lvalue, CvTy.toL]
        show SeesThrough _ ⟨t.const || (k && Tmpl.referenceContent ≠ .referenceContent), t.volatile, .user t.base⟩ _
        rw [this]
        exact .stop _ nofun
    · rintro ⟨-, n, t, c, v, s, h, -⟩; cases h
  cases b with
  | false => exact h
  | true => rw [C84_same_in_backup]; exact h

/-- **C84.** Copying and moving into new storage, and assignment between variants of the same type, work on the content of a heap backup, of whatever
type; everything else that is no backup (nor of a class derived from one) is worked on as it is, `recursive_wrapper` included. -/
theorem C84_through_backups (k v : Bool) (s : STy) :
    (∀ c v, let a : LTy := ⟨k, false, .spec .backupHolder c v s⟩
      a.visit copyIntoOverloads = some ⟨c || k, v, s⟩ ∧ a.visit assignStorageOverloads = some ⟨c || k, v, s⟩ ∧
      a.visit moveStorageOverloads = some ⟨c || k, v, s⟩ ∧
      (k = false → a.visit moveIntoOverloads = some ⟨c, v, s⟩ ∧ a.visit (backupAssignImplOverloads false) = some ⟨c, v, s⟩)) ∧
    ((∀ d, s.asTmpl ≠ some (.backupHolder, d)) →
      let a : LTy := ⟨k, v, s⟩
      a.visit copyIntoOverloads = some ⟨true, v, s⟩ ∧ a.visit assignStorageOverloads = some a ∧ a.visit moveStorageOverloads = some a ∧
      a.visit moveIntoOverloads = some a ∧ ∀ nothrowMove, a.visit (backupAssignImplOverloads nothrowMove) = some a) := by
  refine ⟨fun c v => ?_, fun h => ?_⟩
  · cases k
    · exact ⟨rfl, rfl, rfl, fun _ => ⟨by cases c <;> rfl, by cases c <;> rfl⟩⟩
    · exact ⟨rfl, rfl, rfl, nofun⟩
  · cases s with
    | user n => cases k <;> cases v <;> exact ⟨rfl, rfl, rfl, rfl, fun b => by cases b <;> rfl⟩
    | spec t c' v' s =>
      cases t with
      | backupHolder => exact absurd rfl (h false)
      | recursiveWrapper => cases k <;> cases v <;> exact ⟨rfl, rfl, rfl, rfl, fun b => by cases b <;> rfl⟩
      | referenceContent => cases k <;> cases v <;> exact ⟨rfl, rfl, rfl, rfl, fun b => by cases b <;> rfl⟩
    | derived n t c' v' s =>
      cases t with
      | backupHolder => exact absurd rfl (h true)
      | recursiveWrapper => cases k <;> cases v <;> exact ⟨rfl, rfl, rfl, rfl, fun b => by cases b <;> rfl⟩
      | referenceContent => cases k <;> cases v <;> exact ⟨rfl, rfl, rfl, rfl, fun b => by cases b <;> rfl⟩

/-- **C84.** The destructor works on whatever is in the storage. So do `assigner` and `move_assigner`, which are called when the types or the
states of the two variants differ: if the right side is in a heap backup they take the holder for the content. (This is finding F1; compare the previous theorem.) -/
theorem C84_not_through_backups (a : LTy) :
    a.visit destroyerOverloads = some a ∧ a.visit backupAssignerOverloads = some a ∧
    a.visit assignerOverloads = some { a with const := true } ∧ a.visit moveAssignerOverloads = some a := by
  obtain ⟨k, v, s⟩ := a
  cases s <;> cases k <;> cases v <;> exact ⟨rfl, rfl, rfl, rfl⟩

/-- **C84.** A `recursive_wrapper` in a `recursive_wrapper`, which finding F14 makes, is seen through twice, while `types` lists the inner one. So what a
visitor gets is not of a type in `types`, for a type of the user's. -/
theorem C84_nested_wrappers (k b : Bool) (t : CvTy) :
    let a : LTy := ⟨false, false, .spec .recursiveWrapper false false (.spec .recursiveWrapper t.const t.volatile (.user t.base))⟩
    (a.inStorage k b).visit invokeVisitorOverloads = some (if k then t.addConst else t).toL ∧
      ∀ t' : LTy, t'.ty = .spec .recursiveWrapper t.const t.volatile (.user t.base) → (a.inStorage k b).visit invokeVisitorOverloads ≠ some t' := by
  intro a
  have h : (a.inStorage k b).visit invokeVisitorOverloads = some (if k then t.addConst else t).toL := by
    have h0 : (a.inStorage k false).visit invokeVisitorOverloads = some (if k then t.addConst else t).toL := by
      rw [(C84_user_visitors _).1]
      refine ⟨.into trivial (.into trivial ?_), ?_⟩
      · have : (⟨t.const || ((false || ((false || k) && Tmpl.recursiveWrapper ≠ .referenceContent)) && Tmpl.recursiveWrapper ≠ .referenceContent), t.volatile,
            .user t.base⟩ : LTy) = (if k then t.addConst else t).toL := by
          cases k <;> simp [CvTy.toL, CvTy.addConst]
        rw [this]
        exact .stop _ (by cases k <;> exact nofun)
      · rintro ⟨-, n, t', c, v, s, h, -⟩
        cases k <;> cases h
    cases b with
    | false => exact h0
    | true => rw [C84_same_in_backup]; exact h0
  refine ⟨h, fun t' ht e => ?_⟩
  rw [h] at e
  cases e
  cases k <;> cases ht

/-! ### Concrete cases -/

/-- A const variant with a `recursive_wrapper<volatile T>` in a heap backup: the visitor gets a `const volatile T`. -/
example : ((Elem.wrapped ⟨7, false, true⟩).stored.inStorage true true).visit invokeVisitorOverloads = some ⟨true, true, .user 7⟩ := by decide
example := C84_bounded_types true true (.wrapped ⟨7, false, true⟩)

/-- A const variant with a `T&`: not const. -/
example : ((Elem.ref ⟨7, false, false⟩).stored.inStorage true false).visit convertMoveIntoOverloads = some ⟨false, false, .user 7⟩ := by decide
example := C84_conversions ((Elem.ref ⟨7, false, false⟩).stored.inStorage true false)

/-- A class derived from `recursive_wrapper<T>`: visitation does not compile, copying and destruction do. Volatile it can be visited. -/
example : let a : LTy := ⟨false, false, .derived 3 .recursiveWrapper false false (.user 7)⟩
    a.visit invokeVisitorOverloads = none ∧ a.visit copyIntoOverloads = some ⟨true, false, a.ty⟩ ∧ a.visit destroyerOverloads = some a ∧
    LTy.visit invokeVisitorOverloads ⟨false, true, a.ty⟩ = some ⟨false, true, a.ty⟩ := by decide
example : ∃ b, SeesThrough (fun _ => True) ⟨false, false, .derived 3 .recursiveWrapper false false (.user 7)⟩ b ∧ b.IsDerived fun _ => True :=
  (C84_user_visitors _).2.mp (by decide)
example := C84_same_in_backup true ⟨false, false, .derived 3 .recursiveWrapper false false (.user 7)⟩

/-- A `recursive_wrapper<T>` in a heap backup is copied as a whole; `assigner` takes the holder. -/
example : let a : LTy := ⟨true, false, .spec .backupHolder false false (.spec .recursiveWrapper false false (.user 7))⟩
    a.visit copyIntoOverloads = some ⟨true, false, .spec .recursiveWrapper false false (.user 7)⟩ ∧ a.visit assignerOverloads = some a := by decide
example := (C84_through_backups true false (.spec .recursiveWrapper false false (.user 7))).2 nofun
example := C84_not_through_backups ⟨true, false, .spec .backupHolder false false (.spec .recursiveWrapper false false (.user 7))⟩
example := C84_nested_wrappers true true ⟨7, false, false⟩

end BVariant
