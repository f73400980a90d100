import Verif.Meta.ClassValues
import Verif.Spec.ClassValues
import Verif.Props.Pointers

/-
C54 for visitors without `result_type` whose overloads return objects of different classes.
-/

namespace BVariant

section
variable {cl : Classes} {user : Nat → Nat → Bool}

/-- A type returned by value. -/
def byValue (b : Nat) : RetTy := .val ⟨b, false, false⟩

theorem class_converts_iff {a b : Nat} : cl.convertsTo user a b = true ↔ Converts cl user a b := by
  simp only [Classes.convertsTo, Converts, Bool.or_eq_true]

theorem prTy_plain {b : Nat} : cl.prTy ⟨b, false, false⟩ = ⟨b, false, false⟩ := by
  unfold Classes.prTy
  split <;> rfl

theorem Classes.Mixed.tail {t : Nat} {ts : List Nat} (h : cl.Mixed (t :: ts)) : cl.Mixed ts :=
  fun a ha b hb => h a (List.mem_cons_of_mem _ ha) b (List.mem_cons_of_mem _ hb)

theorem Classes.Mixed.or {ts : List Nat} (h : cl.Mixed ts) {a b : Nat} (ha : a ∈ ts) (hb : b ∈ ts) (hab : a ≠ b) :
    (cl.isClass a || cl.isClass b) = true := by
  rw [Bool.or_eq_true]
  exact h a ha b hb hab

theorem ConvertsBySteps.snoc {ts : List Nat} {a b c : Nat} (h : ConvertsBySteps cl user ts a b) (hc : c ∈ ts) (hbc : Converts cl user b c) :
    ConvertsBySteps cl user ts a c := by
  induction h with
  | refl a => exact .step hc hbc (.refl _)
  | step hb hab _ ih => exact .step hb hab (ih hbc)

theorem ConvertsBySteps.mono {ts ts' : List Nat} (hts : ∀ t ∈ ts, t ∈ ts') {a b : Nat} (h : ConvertsBySteps cl user ts a b) :
    ConvertsBySteps cl user ts' a b := by
  induction h with
  | refl a => exact .refl _
  | step hb hab _ ih => exact .step (hts _ hb) hab ih

theorem deduceImpl_classes_bool {t : Nat} {ts : List Nat} (hcl : cl.Mixed (t :: ts)) (R : RetTy) :
    deduceImpl cl (classCond cl user) (((t :: ts).map byValue).map some) = some R ↔
      ((ts = [] ∧ R = byValue t) ∨
        ∃ b, deduceImpl cl (classCond cl user) ((ts.map byValue).map some) = some (byValue b) ∧
          ((t = b ∧ R = byValue b) ∨
           (t ≠ b ∧ cl.convertsTo user t b = true ∧ cl.convertsTo user b t = false ∧ R = byValue b) ∨
           (t ≠ b ∧ cl.convertsTo user b t = true ∧ cl.convertsTo user t b = false ∧ R = byValue t))) := by
  have hform : ∀ (t : Nat) (ts : List Nat) (R : RetTy), cl.Mixed (t :: ts) →
      deduceImpl cl (classCond cl user) (((t :: ts).map byValue).map some) = some R → ∃ b ∈ t :: ts, R = byValue b := by
    intro t ts
    induction ts generalizing t with
    | nil =>
      intro R hcl h
      simp only [List.map_cons, List.map_nil, deduceImpl, Option.map_some, byValue, RetTy.call, Expr.decltype, prTy_plain,
        Option.some.injEq] at h
      exact ⟨t, by simp, h.symm⟩
    | cons s ts ih =>
      intro R hcl h
      have ih := ih s
      simp only [List.map_cons, deduceImpl, bind, Option.bind, pure] at h ih
      cases hr : deduceImpl cl (classCond cl user) (some (byValue s) :: List.map some (List.map byValue ts)) with
      | none => rw [hr] at h; cases h
      | some R' =>
        obtain ⟨b, hb, rfl⟩ := ih R' hcl.tail hr
        rw [hr] at h
        simp only [byValue, RetTy.call, RetTy.declval, prTy_plain, condOp] at h
        split at h
        · cases h
        · rename_i e he
          cases h
          split at he
          · rename_i e'
            cases e'
            simp only [reduceCtorEq, false_and, if_false, Option.some.injEq] at he
            subst he
            exact ⟨t, by simp, rfl⟩
          · rename_i e'
            have htb : t ≠ b := fun h => e' (by rw [h])
            simp only [classCond, hcl.or (a := t) (b := b) (by simp) (List.mem_cons_of_mem _ hb) htb, if_true] at he
            split at he
            · cases he; exact ⟨b, List.mem_cons_of_mem _ hb, rfl⟩
            · split at he
              · cases he; exact ⟨t, by simp, rfl⟩
              · cases he
  cases ts with
  | nil =>
    simp only [List.map_cons, List.map_nil, deduceImpl, Option.map_some, byValue, RetTy.call, Expr.decltype, prTy_plain,
      Option.some.injEq, reduceCtorEq, false_and, exists_false, or_false, true_and]
    exact ⟨Eq.symm, Eq.symm⟩
  | cons s ts =>
    have hform := hform s ts
    simp only [List.map_cons, deduceImpl, bind, Option.bind, pure, reduceCtorEq, false_and, false_or] at hform ⊢
    cases hr : deduceImpl cl (classCond cl user) (some (byValue s) :: List.map some (List.map byValue ts)) with
    | none => simp
    | some R' =>
      obtain ⟨b, hb, rfl⟩ := hform R' hcl.tail hr
      have hb' : ∀ b' : Nat, some (byValue b) = some (byValue b') ↔ b = b' := fun b' => by simp [byValue]
      simp only [hb', exists_eq_left']
      simp only [byValue, RetTy.call, RetTy.declval, prTy_plain, condOp]
      by_cases htb : t = b
      · subst htb
        simp only [reduceCtorEq, false_and, if_false, if_true, Expr.decltype, Option.some.injEq, true_and, ne_eq, not_true_eq_false, or_false]
        exact ⟨Eq.symm, Eq.symm⟩
      · have : (⟨t, false, false⟩ : CvTy) ≠ ⟨b, false, false⟩ := fun h => htb (by cases h; rfl)
        simp only [this, if_false, classCond, hcl.or (b := b) (by simp) (List.mem_cons_of_mem _ hb) htb, if_true, htb, false_and, false_or, ne_eq, not_false_eq_true, true_and]
        cases h1 : cl.convertsTo user t b <;> cases h2 : cl.convertsTo user b t <;>
          simp [Expr.decltype, eq_comm]

theorem deduceImpl_ne_nil {R : RetTy} {ts : List Nat} (h : deduceImpl cl (classCond cl user) ((ts.map byValue).map some) = some R) : ts ≠ [] := by
  rintro rfl; cases h

theorem deduceImpl_classes {t : Nat} {ts : List Nat} (hcl : cl.Mixed (t :: ts)) (R : RetTy) :
    deduceImpl cl (classCond cl user) (((t :: ts).map byValue).map some) = some R ↔
      ((ts = [] ∧ R = byValue t) ∨
        ∃ b, deduceImpl cl (classCond cl user) ((ts.map byValue).map some) = some (byValue b) ∧
          ((t = b ∧ R = byValue b) ∨
           (t ≠ b ∧ Converts cl user t b ∧ ¬ Converts cl user b t ∧ R = byValue b) ∨
           (t ≠ b ∧ Converts cl user b t ∧ ¬ Converts cl user t b ∧ R = byValue t))) := by
  simpa only [← class_converts_iff, Bool.not_eq_true] using deduceImpl_classes_bool hcl R

theorem deduceImpl_chain (ts : List Nat) (hcl : cl.Mixed ts) (R : RetTy)
    (h : deduceImpl cl (classCond cl user) ((ts.map byValue).map some) = some R) :
    ∃ b ∈ ts, R = byValue b ∧ ∀ t ∈ ts, ConvertsBySteps cl user ts t b := by
  induction ts generalizing R with
  | nil => cases h
  | cons t ts ih =>
    rcases (deduceImpl_classes hcl R).mp h with ⟨rfl, rfl⟩ | ⟨b, hb, hcase⟩
    · exact ⟨t, by simp, rfl, fun x hx => by simp only [List.mem_singleton] at hx; subst hx; exact .refl _⟩
    · obtain ⟨b', hm, e, hch⟩ := ih hcl.tail _ hb
      obtain rfl : b = b' := by simpa [byValue] using e
      have hch' : ∀ x ∈ ts, ConvertsBySteps cl user (t :: ts) x b := fun x hx => (hch x hx).mono fun _ h => List.mem_cons_of_mem _ h
      rcases hcase with ⟨rfl, rfl⟩ | ⟨-, h1, -, rfl⟩ | ⟨-, h1, -, rfl⟩
      · refine ⟨t, by simp, rfl, fun x hx => ?_⟩
        rcases List.mem_cons.mp hx with rfl | hx
        · exact .refl _
        · exact hch' x hx
      · refine ⟨b, List.mem_cons_of_mem _ hm, rfl, fun x hx => ?_⟩
        rcases List.mem_cons.mp hx with rfl | hx
        · exact .step (List.mem_cons_of_mem _ hm) h1 (.refl _)
        · exact hch' x hx
      · refine ⟨t, by simp, rfl, fun x hx => ?_⟩
        rcases List.mem_cons.mp hx with rfl | hx
        · exact .refl _
        · exact (hch' x hx).snoc (by simp) h1

theorem deduceImpl_ordered (ho : cl.Ordered user) (ts : List Nat) (hne : ts ≠ []) (hcl : cl.Mixed ts) (R : RetTy) :
    deduceImpl cl (classCond cl user) ((ts.map byValue).map some) = some R ↔
      (∃ b, R = byValue b ∧ cl.Target user b ts) ∧ ∀ us, us <:+ ts → us ≠ [] → ∃ b, cl.Target user b us := by
  induction ts generalizing R with
  | nil => exact absurd rfl hne
  | cons t ts ih =>
    rw [deduceImpl_classes hcl R]
    have hself : cl.Target user t [t] := ⟨by simp, fun x hx => .inl (by simpa using hx)⟩
    have htail : cl.Mixed ts := hcl.tail
    constructor
    · rintro (⟨rfl, rfl⟩ | ⟨b, hb, hcase⟩)
      · refine ⟨⟨t, rfl, hself⟩, fun us hus hne => ⟨t, ?_⟩⟩
        rcases List.suffix_cons_iff.mp hus with rfl | hus
        · exact hself
        · exact absurd (List.suffix_nil.mp hus) hne
      · have hts : ts ≠ [] := deduceImpl_ne_nil hb
        obtain ⟨⟨b', e, htop⟩, hsuf⟩ := (ih hts htail _).mp hb
        obtain rfl : b = b' := by simpa [byValue] using e
        have htop' : ∃ c, R = byValue c ∧ cl.Target user c (t :: ts) := by
          rcases hcase with ⟨rfl, rfl⟩ | ⟨-, h1, -, rfl⟩ | ⟨-, h1, -, rfl⟩
          · refine ⟨t, rfl, by simp, fun x hx => ?_⟩
            rcases List.mem_cons.mp hx with rfl | hx
            · exact .inl rfl
            · exact htop.2 x hx
          · refine ⟨b, rfl, List.mem_cons_of_mem _ htop.1, fun x hx => ?_⟩
            rcases List.mem_cons.mp hx with rfl | hx
            · exact .inr h1
            · exact htop.2 x hx
          · refine ⟨t, rfl, by simp, fun x hx => ?_⟩
            rcases List.mem_cons.mp hx with rfl | hx
            · exact .inl rfl
            · rcases htop.2 x hx with rfl | h2
              · exact .inr h1
              · exact .inr (ho.trans h2 h1)
        refine ⟨htop', fun us hus hne => ?_⟩
        rcases List.suffix_cons_iff.mp hus with rfl | hus
        · obtain ⟨c, -, h⟩ := htop'; exact ⟨c, h⟩
        · exact hsuf us hus hne
    · rintro ⟨⟨b, rfl, htop⟩, hsuf⟩
      by_cases hts : ts = []
      · subst hts
        have : b = t := by simpa using htop.1
        exact .inl ⟨rfl, by rw [this]⟩
      · obtain ⟨c, hc⟩ := hsuf ts (List.suffix_cons _ _) hts
        refine .inr ⟨c, (ih hts htail _).mpr ⟨⟨c, rfl, hc⟩, fun us h => hsuf us (h.trans (List.suffix_cons _ _))⟩, ?_⟩
        by_cases htc : t = c
        · subst htc
          rcases List.mem_cons.mp htop.1 with rfl | hm
          · exact .inl ⟨rfl, rfl⟩
          · rcases hc.2 b hm with rfl | h1
            · exact .inl ⟨rfl, rfl⟩
            · rcases htop.2 t (by simp) with rfl | h2
              · exact .inl ⟨rfl, rfl⟩
              · rw [ho.antisymm h1 h2]; exact .inl ⟨rfl, rfl⟩
        · have hne' : ∀ {x y : Nat}, x ≠ y → Converts cl user x y → ¬ Converts cl user y x := fun {x y} hxy h h' => hxy (ho.antisymm h h')
          rcases List.mem_cons.mp htop.1 with rfl | hm
          · rcases htop.2 c (List.mem_cons_of_mem _ hc.1) with h1 | h1
            · exact absurd h1.symm htc
            · exact .inr (.inr ⟨htc, h1, hne' (Ne.symm htc) h1, rfl⟩)
          · have hbc : b = c := by
              rcases hc.2 b hm with h | h1
              · exact h
              · rcases htop.2 c (List.mem_cons_of_mem _ hc.1) with h | h2
                · exact h.symm
                · exact ho.antisymm h1 h2
            subst hbc
            rcases htop.2 t (by simp) with h1 | h1
            · exact absurd h1 htc
            · exact .inr (.inl ⟨htc, h1, hne' htc h1, rfl⟩)

/-- C54, classes and at most one other type returned by value, whatever conversions there are: the deduced type is by value one of the types returned, and what every overload
returns gets to it by conversions between the types returned. The return statement of an overload compiles iff there is a single conversion. -/
theorem C54_class_values {visitor : Expr → Option RetTy} {p : Passed} {elems : List Elem} {ts : List Nat}
    (h : Returns visitor p elems (ts.map byValue)) (hcl : cl.Mixed ts) {R : RetTy}
    (hd : deduce cl (classCond cl user) visitor p elems = some R) :
    ∃ b ∈ ts, R = byValue b ∧ ∀ t ∈ ts, ConvertsBySteps cl user ts t b ∧
      returnFit cl (classFit cl user) R (byValue t) =
        if t = b then .same else if Converts cl user t b then .converted else .illFormed := by
  rw [h.deduce_eq] at hd
  obtain ⟨b, hb, rfl, hch⟩ := deduceImpl_chain ts hcl R hd
  refine ⟨b, hb, rfl, fun t ht => ⟨hch t ht, ?_⟩⟩
  simp only [returnFit, byValue, prTy_plain, CvTy.mk.injEq, and_self, and_true, classFit]
  by_cases e : b = t
  · simp [e]
  · simp [e, Ne.symm e, class_converts_iff]

/-- C54, classes and at most one other type returned by value, exactly, where conversions in two steps are conversions in one step (so for base classes alone): the deduction compiles iff for
each bounded type there is, among the types returned from that one on, one to which all the others are converted. The result then is, by value, the
one to which all are converted; every overload returns that very class, or its result is converted (for a derived class: sliced). -/
theorem C54_class_values_ordered (ho : cl.Ordered user) {visitor : Expr → Option RetTy} {p : Passed} {elems : List Elem} {ts : List Nat} (hne : ts ≠ [])
    (h : Returns visitor p elems (ts.map byValue)) (hcl : cl.Mixed ts) (R : RetTy) :
    (deduce cl (classCond cl user) visitor p elems = some R ↔
      (∃ b, R = byValue b ∧ cl.Target user b ts) ∧ ∀ us, us <:+ ts → us ≠ [] → ∃ b, cl.Target user b us) ∧
    (deduce cl (classCond cl user) visitor p elems = some R →
      ∀ t ∈ ts, returnFit cl (classFit cl user) R (byValue t) = if R = byValue t then .same else .converted) := by
  have hiff := deduceImpl_ordered ho ts hne hcl R
  rw [← h.deduce_eq] at hiff
  refine ⟨hiff, fun hd t ht => ?_⟩
  obtain ⟨⟨b, rfl, htop⟩, -⟩ := hiff.mp hd
  obtain ⟨b', -, e, hfit⟩ := C54_class_values h hcl hd
  obtain rfl : b = b' := by simpa [byValue] using e
  rw [(hfit t ht).2]
  by_cases e : t = b
  · simp [e]
  · rcases htop.2 t ht with h1 | h1
    · exact absurd h1 e
    · have : byValue b ≠ byValue t := fun h => e (by cases h; rfl)
      simp [e, h1, this]

end

/-! Class 3 is a base of the classes 4 and 5; a 6 is made of a 7 and a 7 of an 8, by constructors. -/
namespace ClassValueExample

def user (a b : Nat) : Bool := decide ((a = 7 ∧ b = 6) ∨ (a = 8 ∧ b = 7))

def visitor (l : List Nat) : Expr → Option RetTy
  | .of _ t => (l[t.base - 3]?).map byValue
  | .void => none

abbrev cl := PointerExample.cl
abbrev elems := ArithmeticExample.elems

theorem ordered : cl.Ordered fun _ _ => false :=
  ⟨fun {a b c} h1 h2 => by simp only [Converts, cl, PointerExample.cl, Bool.false_eq_true, or_false, decide_eq_true_eq] at *; omega,
   fun {a b} h1 h2 => by simp only [Converts, cl, PointerExample.cl, Bool.false_eq_true, or_false, decide_eq_true_eq] at *; omega⟩

/-- Two derived classes and, last, their base: what the overloads return is sliced. -/
example : ∀ t ∈ [4, 5, 3], returnFit cl (classFit cl fun _ _ => false) (byValue 3) (byValue t) = if byValue 3 = byValue t then .same else .converted :=
  (C54_class_values_ordered ordered (visitor := visitor [4, 5, 3]) (p := ⟨false, false⟩) (elems := elems) (by simp) ⟨.inl rfl, rfl⟩ (by decide) (byValue 3)).2
    (by decide)

/-- With the base first the deduction does not compile. -/
example : deduce cl (classCond cl fun _ _ => false) (visitor [3, 4, 5]) ⟨false, false⟩ elems = none := by decide

example : ∃ b ∈ [6, 7, 8], byValue 6 = byValue b ∧ ∀ t ∈ [6, 7, 8], ConvertsBySteps cl user [6, 7, 8] t b ∧
    returnFit cl (classFit cl user) (byValue 6) (byValue t) = if t = b then .same else if Converts cl user t b then .converted else .illFormed :=
  C54_class_values (visitor := visitor [6, 7, 8]) (p := ⟨false, false⟩) (elems := elems) ⟨.inl rfl, rfl⟩ (by decide) (by decide)

/-- A class that is converted to a type that is no class (20, say `int`), and one that is converted to the first class and to `int`. -/
def toInt (a b : Nat) : Bool := decide ((a = 7 ∧ b = 20) ∨ (a = 8 ∧ b = 7) ∨ (a = 8 ∧ b = 20))

theorem toInt_ordered : cl.Ordered fun a b => toInt a b :=
  ⟨fun {a b c} h1 h2 => by simp only [Converts, cl, PointerExample.cl, toInt, decide_eq_true_eq] at *; omega,
   fun {a b} h1 h2 => by simp only [Converts, cl, PointerExample.cl, toInt, decide_eq_true_eq] at *; omega⟩

example : cl.isClass 20 = false ∧ deduce cl (classCond cl toInt) (visitor [8, 20, 7]) ⟨false, false⟩ elems = some (byValue 20) ∧
    ∀ t ∈ [8, 20, 7], returnFit cl (classFit cl toInt) (byValue 20) (byValue t) = if byValue 20 = byValue t then .same else .converted := by
  refine ⟨by decide, by decide, ?_⟩
  exact (C54_class_values_ordered toInt_ordered (visitor := visitor [8, 20, 7]) (p := ⟨false, false⟩) (elems := elems) (by simp) ⟨.inl rfl, rfl⟩ (by decide)
    (byValue 20)).2 (by decide)

end ClassValueExample

/-- C54 is false for conversions that do not compose: with an 8, which is converted to a 7, which is converted to a 6, the deduction finds 6 in one order of the
bounded types and does not compile in another; and where it finds 6, the return statement for the 8 does not compile. -/
theorem C54_counterexample_conversions :
    ∃ (cl : Classes) (user : Nat → Nat → Bool) (visitor visitor' : Expr → Option RetTy) (p : Passed) (elems : List Elem) (ts ts' : List Nat),
      ts.Perm ts' ∧ (∀ b ∈ ts, cl.isClass b = true) ∧ Returns visitor p elems (ts.map byValue) ∧ Returns visitor' p elems (ts'.map byValue) ∧
      deduce cl (classCond cl user) visitor' p elems = none ∧
      ∃ R, deduce cl (classCond cl user) visitor p elems = some R ∧ ∃ t ∈ ts, returnFit cl (classFit cl user) R (byValue t) = .illFormed :=
  ⟨ClassValueExample.cl, ClassValueExample.user, ClassValueExample.visitor [6, 7, 8], ClassValueExample.visitor [8, 7, 6], ⟨false, false⟩,
    ClassValueExample.elems, [6, 7, 8], [8, 7, 6], by decide, by decide, ⟨.inl rfl, rfl⟩, ⟨.inl rfl, rfl⟩, by decide, byValue 6, by decide,
    8, by simp, by decide⟩

end BVariant
