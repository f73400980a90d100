/-
C54: the return type of `apply_visitor` for visitors without a `result_type`.
-/
import Verif.Meta.ResultType

namespace BVariant

section
variable {cl : Classes} {other : Cat × CvTy → Cat × CvTy → Option (Cat × CvTy)} {conv : RetTy → RetTy → Fit}

theorem prTy_idem (t : CvTy) : cl.prTy (cl.prTy t) = cl.prTy t := by
  cases h : cl.isClass t.base <;> simp [Classes.prTy, CvTy.removeCv, h]

/-- Specification: functions return objects of type `t` as they say: it is a class type, or not qualified. -/
def Classes.Plain (cl : Classes) (t : CvTy) : Prop := cl.isClass t.base = true ∨ (t.const = false ∧ t.volatile = false)

instance (cl : Classes) (t : CvTy) : Decidable (cl.Plain t) := by unfold Classes.Plain; infer_instance

theorem Classes.Plain.prTy_eq {t : CvTy} (h : cl.Plain t) : cl.prTy t = t := by
  obtain ⟨b, c, v⟩ := t
  rcases h with h | ⟨h1, h2⟩
  · simp only [] at h
    simp [Classes.prTy, h]
  · simp only [] at h1 h2
    subst h1 h2
    simp [Classes.prTy, CvTy.removeCv]

/-- Specification: `decltype` of a call of a function that returns `R` is `R'`: the same, but for `const` and `volatile` of a
type that is not a class. -/
def IsCallType (cl : Classes) (R R' : RetTy) : Prop :=
  (∀ t, R = .val t → cl.isClass t.base = false → R' = .val ⟨t.base, false, false⟩) ∧
    ((∀ t, R = .val t → cl.isClass t.base = true) → R' = R)

theorem isCallType (R : RetTy) : IsCallType cl R (R.call cl).decltype := by
  constructor
  · rintro t rfl h
    simp [RetTy.call, Expr.decltype, Classes.prTy, CvTy.removeCv, h]
  · intro h
    cases R with
    | val t => simp [RetTy.call, Expr.decltype, Classes.prTy, h t rfl]
    | _ => rfl

/-- Specification: the bounded type is a reference type. -/
def Elem.isRef : Elem → Bool
  | .ref _ => true
  | _ => false

/-- C54, first part, exactly: the overload looked up to deduce the type is the one called later, unless the bounded type is
a reference and the variant an rvalue. Then the type is deduced for an lvalue, but an rvalue is passed. -/
theorem C54_overload_called (p : Passed) (e : Elem) :
    p.deducedArg e = p.calledArg e ↔ ¬ (p.rvalue = true ∧ e.isRef = true) := by
  obtain ⟨rv, c⟩ := p
  cases e <;> cases rv <;> simp [Passed.deducedArg, Passed.calledArg, Elem.unwrap, Elem.lvalue, Elem.isRef]

theorem deduce_same (visitor : Expr → Option RetTy) (p : Passed) {elems : List Elem} (hne : elems ≠ []) {R : RetTy}
    (hp : p.rvalue = false ∨ ∀ e ∈ elems, e.isRef = false)
    (h : ∀ e ∈ elems, visitor (p.calledArg e) = some R) :
    deduce cl other visitor p elems = some (R.call cl).decltype ∧
      returnFit cl conv (R.call cl).decltype R = .same := by
  constructor
  · have h' : elems.map (fun e => visitor (p.deducedArg e)) = elems.map fun _ => some R := by
      refine List.map_congr_left fun e he => ?_
      rw [(C54_overload_called p e).mpr, h e he]
      rintro ⟨h1, h2⟩
      rcases hp with hp | hp
      · rw [hp] at h1; cases h1
      · rw [hp e he] at h2; cases h2
    rw [deduce, h']
    clear h h' hp
    induction elems with
    | nil => exact absurd rfl hne
    | cons e es ih =>
      cases es with
      | nil => simp [deduceImpl]
      | cons e' es =>
        have := ih (by simp)
        simp only [List.map_cons] at this ⊢
        simp only [deduceImpl, this, bind, Option.bind, pure]
        cases R with
        | void => rfl
        | val t => simp [RetTy.call, Expr.decltype, RetTy.declval, condOp, prTy_idem]
        | lref t => simp [RetTy.call, Expr.decltype, RetTy.declval, condOp]
        | rref t => simp [RetTy.call, Expr.decltype, RetTy.declval, condOp]
  · cases R <;> simp [RetTy.call, Expr.decltype, returnFit]

/-- C54: if all overloads have the same return type `R`, that is the return type of `apply_visitor` (as `decltype` of a
call gives it: `int` for `const int`), and what the overload returns is returned as it is. For every list of bounded types
without references, or with references if the variant is an lvalue. -/
theorem C54_same_type (visitor : Expr → Option RetTy) (p : Passed) {elems : List Elem} (hne : elems ≠ []) {R : RetTy}
    (hp : p.rvalue = false ∨ ∀ e ∈ elems, e.isRef = false)
    (h : ∀ e ∈ elems, visitor (p.calledArg e) = some R) :
    ∃ R', IsCallType cl R R' ∧ deduce cl other visitor p elems = some R' ∧ returnFit cl conv R' R = .same :=
  ⟨_, isCallType R, deduce_same visitor p hne hp h⟩

/-- Specification: `args` are arguments the visitor can be called with, one for each variant. -/
inductive ArgsFor : List (Passed × List Elem) → List Expr → Prop
  | nil : ArgsFor [] []
  | cons {p : Passed} {elems : List Elem} {e : Elem} {vs : List (Passed × List Elem)} {args : List Expr} :
      e ∈ elems → ArgsFor vs args → ArgsFor ((p, elems) :: vs) (p.calledArg e :: args)

/-- The same for any number of variants. (`hR`: `R` is not a qualified scalar type.) -/
theorem C54_same_type_nary (visitor : List Expr → Option RetTy) {vs : List (Passed × List Elem)}
    (hne : ∀ v ∈ vs, v.2 ≠ []) (hp : ∀ v ∈ vs, v.1.rvalue = false ∨ ∀ e ∈ v.2, e.isRef = false) {R : RetTy}
    (hR : ∀ t, R = .val t → cl.Plain t) (h : ∀ args, ArgsFor vs args → visitor args = some R) :
    deduceN cl other visitor vs [] = some R := by
  have hR : (R.call cl).decltype = R := by
    cases R with
    | val t => simp [RetTy.call, Expr.decltype, (hR t rfl).prTy_eq]
    | _ => rfl
  suffices hs : ∀ args, (∀ args', ArgsFor vs args' → visitor (args ++ args') = some R) →
      deduceN cl other visitor vs args = some R from hs [] h
  clear h
  induction vs with
  | nil => intro args h; have := h [] .nil; rw [List.append_nil] at this; exact this
  | cons v vs ih =>
    intro args h
    have := fun args => ih (fun v hv => hne v (List.mem_cons_of_mem _ hv)) (fun v hv => hp v (List.mem_cons_of_mem _ hv)) args
    have hv : ∀ e ∈ v.2, deduceN cl other visitor vs (args ++ [v.1.calledArg e]) = some R := by
      intro e he
      refine this _ fun args' ha => ?_
      rw [List.append_assoc]
      exact h _ (.cons he ha)
    rw [deduceN, (deduce_same (conv := fun _ _ => .same) (fun a => deduceN cl other visitor vs (args ++ [a])) v.1
      (hne v (List.mem_cons_self ..)) (hp v (List.mem_cons_self ..)) hv).1, hR]

/-! ### Overloads returning `T`, `T&` or `T&&` -/

/-- Specification: the return type is `T`, `T&` or `T&&`. -/
def RetTy.about (t : CvTy) (r : RetTy) : Prop := r = .val t ∨ r = .lref t ∨ r = .rref t

/-- One step of the deduction. -/
theorem deduceImpl_step {t : CvTy} (ht : cl.prTy t = t) {r R : RetTy} (hr : r.about t) (hR : R.about t)
    {x : Option RetTy} {xs : List (Option RetTy)} (h : deduceImpl cl other (x :: xs) = some R) :
    deduceImpl cl other (some r :: x :: xs) =
      some (if r = .lref t ∧ R = .lref t then .lref t else if r = .rref t ∧ R ≠ .lref t then .rref t else .val t) := by
  simp only [deduceImpl, h, bind, Option.bind, pure]
  rcases hr with rfl | rfl | rfl <;> rcases hR with rfl | rfl | rfl <;>
    simp [condOp, RetTy.call, Expr.decltype, RetTy.declval, ht]

/-- The type deduced from the overloads' types. -/
theorem deduceImpl_about {t : CvTy} (ht : cl.prTy t = t) (r0 : RetTy) (rs : List RetTy) (h : ∀ r ∈ r0 :: rs, r.about t) :
    deduceImpl cl other ((r0 :: rs).map some) =
      some (if ∀ r ∈ r0 :: rs, r = .lref t then .lref t
        else if r0 = .rref t ∧ (rs = [] ∨ ¬ ∀ r ∈ rs, r = .lref t) then .rref t else .val t) := by
  induction rs generalizing r0 with
  | nil =>
    rcases h r0 (by simp) with rfl | rfl | rfl <;> simp [deduceImpl, RetTy.call, Expr.decltype, ht]
  | cons r1 rs ih =>
    have h1 := ih r1 (fun r hr => h r (List.mem_cons_of_mem _ hr))
    have habout : RetTy.about t (if ∀ r ∈ r1 :: rs, r = .lref t then .lref t
        else if r1 = .rref t ∧ (rs = [] ∨ ¬ ∀ r ∈ rs, r = .lref t) then .rref t else .val t) := by
      split
      · exact Or.inr (Or.inl rfl)
      · split
        · exact Or.inr (Or.inr rfl)
        · exact Or.inl rfl
    have hR : (if ∀ r ∈ r1 :: rs, r = .lref t then .lref t
        else if r1 = .rref t ∧ (rs = [] ∨ ¬ ∀ r ∈ rs, r = .lref t) then .rref t else .val t) = RetTy.lref t ↔
        ∀ r ∈ r1 :: rs, r = .lref t := by
      split
      · rename_i hh; exact ⟨fun _ => hh, fun _ => rfl⟩
      · rename_i hh
        refine ⟨fun he => ?_, fun h => absurd h hh⟩
        split at he <;> cases he
    have hstep := deduceImpl_step (r := r0) ht (h r0 (by simp)) habout h1
    simp only [List.map_cons] at hstep ⊢
    rw [hstep]
    simp only [ne_eq, hR]
    congr 1
    have e1 : (∀ r ∈ r0 :: r1 :: rs, r = .lref t) ↔ r0 = .lref t ∧ ∀ r ∈ r1 :: rs, r = .lref t :=
      List.forall_mem_cons
    have e2 : (r0 = RetTy.rref t ∧ (r1 :: rs = [] ∨ ¬ ∀ r ∈ r1 :: rs, r = .lref t)) ↔
        r0 = .rref t ∧ ¬ ∀ r ∈ r1 :: rs, r = .lref t := by simp
    simp only [e1, e2]

/-- Specification: the overloads called for the bounded types return the types `rs`. -/
def Returns (visitor : Expr → Option RetTy) (p : Passed) (elems : List Elem) (rs : List RetTy) : Prop :=
  (p.rvalue = false ∨ ∀ e ∈ elems, e.isRef = false) ∧ elems.map (fun e => visitor (p.calledArg e)) = rs.map some

theorem Returns.deduce_eq {visitor : Expr → Option RetTy} {p : Passed} {elems : List Elem} {rs : List RetTy}
    (h : Returns visitor p elems rs) : deduce cl other visitor p elems = deduceImpl cl other (rs.map some) := by
  rw [deduce, ← h.2]
  congr 1
  refine List.map_congr_left fun e he => ?_
  rw [(C54_overload_called p e).mpr]
  rintro ⟨h1, h2⟩
  rcases h.1 with hp | hp
  · rw [hp] at h1; cases h1
  · rw [hp e he] at h2; cases h2

/-- C54: if the overloads return `T`, `T&` or `T&&` for one type `T` (a class or without qualifiers), the deduced type is
`T&` if all return `T&`; it is `T&&` if the overload for the *first* bounded type returns `T&&` and it is the only one or
one of the others does not return `T&`; and it is `T` otherwise. -/
theorem C54_deduced_type {visitor : Expr → Option RetTy} {p : Passed} {elems : List Elem} {t : CvTy}
    (ht : cl.Plain t) {r0 : RetTy} {rs : List RetTy} (h : Returns visitor p elems (r0 :: rs))
    (ha : ∀ r ∈ r0 :: rs, r.about t) :
    deduce cl other visitor p elems =
      some (if ∀ r ∈ r0 :: rs, r = .lref t then .lref t
        else if r0 = .rref t ∧ (rs = [] ∨ ¬ ∀ r ∈ rs, r = .lref t) then .rref t else .val t) := by
  rw [h.deduce_eq, deduceImpl_about ht.prTy_eq r0 rs ha]

/-- C54, the lifetime of the result, exactly: `apply_visitor` returns a reference to a destroyed temporary for some
bounded type iff the overload for the first bounded type returns `T&&` and that for another one returns `T` by value.
Missing for the full claim (nothing dangles): it is false, see the counterexample. -/
theorem C54_dangling_partial {visitor : Expr → Option RetTy} {p : Passed} {elems : List Elem} {t : CvTy}
    (ht : cl.Plain t) {r0 : RetTy} {rs : List RetTy} (h : Returns visitor p elems (r0 :: rs))
    (ha : ∀ r ∈ r0 :: rs, r.about t) :
    ∃ R, deduce cl other visitor p elems = some R ∧
      ((∃ r ∈ r0 :: rs, returnFit cl conv R r = .dangling) ↔ r0 = .rref t ∧ .val t ∈ rs) := by
  refine ⟨_, C54_deduced_type ht h ha, ?_⟩
  split
  · rename_i hl
    constructor
    · rintro ⟨r, hr, hd⟩
      rw [hl r hr] at hd
      simp [returnFit] at hd
    · rintro ⟨rfl, -⟩
      have := hl (.rref t) (by simp); cases this
  · split
    · rename_i hl hr0
      constructor
      · rintro ⟨r, hr, hd⟩
        refine ⟨hr0.1, ?_⟩
        rcases ha r hr with rfl | rfl | rfl
        · rcases List.mem_cons.mp hr with he | hr
          · rw [hr0.1] at he; cases he
          · exact hr
        · simp [returnFit] at hd
        · simp [returnFit] at hd
      · rintro ⟨-, hv⟩
        exact ⟨.val t, List.mem_cons_of_mem _ hv, by simp [returnFit]⟩
    · rename_i hl hr0
      constructor
      · rintro ⟨r, hr, hd⟩
        rcases ha r hr with rfl | rfl | rfl <;> simp [returnFit, ht.prTy_eq] at hd
      · rintro ⟨rfl, hv⟩
        refine absurd ⟨rfl, Or.inr fun hh => ?_⟩ hr0
        have := hh _ hv; cases this

/-- C54, whether it compiles, exactly: the call is rejected iff the overload for the first bounded type returns `T&&` and
among the others some, but not all, return `T&`. -/
theorem C54_rejected {visitor : Expr → Option RetTy} {p : Passed} {elems : List Elem} {t : CvTy}
    (ht : cl.Plain t) {r0 : RetTy} {rs : List RetTy} (h : Returns visitor p elems (r0 :: rs))
    (ha : ∀ r ∈ r0 :: rs, r.about t) :
    ∃ R, deduce cl other visitor p elems = some R ∧
      ((∃ r ∈ r0 :: rs, returnFit cl conv R r = .illFormed) ↔
        r0 = .rref t ∧ .lref t ∈ rs ∧ ¬ ∀ r ∈ rs, r = .lref t) := by
  refine ⟨_, C54_deduced_type ht h ha, ?_⟩
  split
  · rename_i hl
    constructor
    · rintro ⟨r, hr, hd⟩
      rw [hl r hr] at hd
      simp [returnFit] at hd
    · rintro ⟨rfl, -⟩
      have := hl (.rref t) (by simp); cases this
  · split
    · rename_i hl hr0
      constructor
      · rintro ⟨r, hr, hd⟩
        rcases ha r hr with rfl | rfl | rfl
        · simp [returnFit] at hd
        · have hm : RetTy.lref t ∈ rs := by
            rcases List.mem_cons.mp hr with he | hr
            · rw [hr0.1] at he; cases he
            · exact hr
          refine ⟨hr0.1, hm, ?_⟩
          rcases hr0.2 with he | he
          · rw [he] at hm; cases hm
          · exact he
        · simp [returnFit] at hd
      · rintro ⟨-, hv, -⟩
        exact ⟨.lref t, List.mem_cons_of_mem _ hv, by simp [returnFit]⟩
    · rename_i hl hr0
      constructor
      · rintro ⟨r, hr, hd⟩
        rcases ha r hr with rfl | rfl | rfl <;> simp [returnFit, ht.prTy_eq] at hd
      · rintro ⟨rfl, -, hv⟩
        exact absurd ⟨rfl, Or.inr hv⟩ hr0

/-- C54, order: if no overload returns `T&&`, the deduced type does not depend on the order of the bounded types, and each
result is returned as it is or as a copy. -/
theorem C54_order_partial {visitor visitor' : Expr → Option RetTy} {p p' : Passed} {elems elems' : List Elem} {t : CvTy}
    (ht : cl.Plain t) {rs rs' : List RetTy} (hperm : rs.Perm rs') (hne : rs ≠ [])
    (h : Returns visitor p elems rs) (h' : Returns visitor' p' elems' rs')
    (ha : ∀ r ∈ rs, r = .val t ∨ r = .lref t) :
    deduce cl other visitor p elems = deduce cl other visitor' p' elems' ∧
      ∃ R, deduce cl other visitor p elems = some R ∧
        ∀ r ∈ rs, returnFit cl conv R r = .same ∨ returnFit cl conv R r = .converted := by
  have key : ∀ {vis : Expr → Option RetTy} {q : Passed} {es : List Elem} {ts : List RetTy}, ts ≠ [] →
      Returns vis q es ts → (∀ r ∈ ts, r = .val t ∨ r = .lref t) →
      deduce cl other vis q es = some (if ∀ r ∈ ts, r = .lref t then .lref t else .val t) := by
    intro vis q es ts hts hr hall
    cases ts with
    | nil => exact absurd rfl hts
    | cons r0 ts =>
      rw [C54_deduced_type ht hr fun r hr => (hall r hr).elim Or.inl fun h => Or.inr (Or.inl h)]
      congr 1
      split
      · rfl
      · rw [if_neg]
        rintro ⟨he, -⟩
        rcases hall r0 (by simp) with h | h <;> rw [he] at h <;> cases h
  have hne' : rs' ≠ [] := fun he => hne (by rw [he] at hperm; exact hperm.eq_nil)
  have hiff : (∀ r ∈ rs, r = RetTy.lref t) ↔ ∀ r ∈ rs', r = .lref t :=
    ⟨fun hh r hr => hh r (hperm.mem_iff.mpr hr), fun hh r hr => hh r (hperm.mem_iff.mp hr)⟩
  have h1 := key hne h ha
  have h2 := key hne' h' fun r hr => ha r (hperm.mem_iff.mpr hr)
  refine ⟨?_, _, h1, ?_⟩
  · rw [h1, h2]
    congr 1
    by_cases hc : ∀ r ∈ rs, r = .lref t
    · rw [if_pos hc, if_pos (hiff.mp hc)]
    · rw [if_neg hc, if_neg fun h => hc (hiff.mpr h)]
  · intro r hr
    split
    · rename_i hl
      rw [hl r hr]; simp [returnFit]
    · rcases ha r hr with rfl | rfl <;> simp [returnFit, ht.prTy_eq]

/-- C54, references to classes: if the overload for the last bounded type returns `B&` and the others return references to
classes derived from `B` (or to `B`), not more qualified than `B`, then the result is a `B&` to the very objects
returned. -/
theorem C54_base_reference_last_partial {visitor : Expr → Option RetTy} {p : Passed} {elems : List Elem} {b : CvTy}
    {ds : List CvTy} (h : Returns visitor p elems ((ds ++ [b]).map .lref))
    (hd : ∀ d ∈ ds, d = b ∨ (cl.binds false d b = true ∧ cl.binds false b d = false)) :
    deduce cl (lvalueCond cl) visitor p elems = some (.lref b) ∧
      ∀ r ∈ (ds ++ [b]).map RetTy.lref, returnFit cl (lvalueConv cl) (.lref b) r = .same := by
  constructor
  · rw [h.deduce_eq]
    clear h
    induction ds with
    | nil => simp [deduceImpl, RetTy.call, Expr.decltype]
    | cons d ds ih =>
      have := ih fun d hd' => hd d (List.mem_cons_of_mem _ hd')
      have hne : ∃ x xs, ((ds ++ [b]).map RetTy.lref).map some = x :: xs := by
        cases ds with
        | nil => exact ⟨_, _, rfl⟩
        | cons _ _ => exact ⟨_, _, rfl⟩
      obtain ⟨x, xs, hx⟩ := hne
      rw [hx] at this
      simp only [List.cons_append, List.map_cons, hx, deduceImpl, this, bind, Option.bind, pure]
      rcases hd d (by simp) with rfl | ⟨h1, h2⟩
      · simp [condOp, RetTy.call, RetTy.declval, Expr.decltype]
      · have hdb : d ≠ b := by rintro rfl; rw [h1] at h2; cases h2
        simp [condOp, RetTy.call, RetTy.declval, Expr.decltype, hdb, lvalueCond, h1, h2]
  · intro r hr
    obtain ⟨d, hd', rfl⟩ := List.mem_map.mp hr
    rcases List.mem_append.mp hd' with h1 | h1
    · rcases hd d h1 with rfl | ⟨h2, -⟩
      · simp [returnFit]
      · simp only [returnFit, lvalueConv]
        split
        · rfl
        · simp
    · simp only [List.mem_singleton] at h1; subst h1; simp [returnFit]

end

/-! ### Examples and counterexamples -/

/-- Classes 10 (`B`), 11 and 12 (derived from it); other numbers are scalars. -/
def exHier : Classes where
  isClass n := decide (10 ≤ n ∧ n ≤ 12)
  baseOf b d := decide (b = 10 ∧ (d = 11 ∨ d = 12))

def exT : CvTy := ⟨11, false, false⟩

/-- A visitor for elements of types 0, 1 and 2, whatever the category and qualifiers of the argument. -/
def exVis (r : Nat → RetTy) : Expr → Option RetTy
  | .of _ t => some (r t.base)
  | .void => none

def exElems : List Elem := [.val ⟨0, false, false⟩, .wrapped ⟨1, false, false⟩, .val ⟨2, true, false⟩]

def noOther : Cat × CvTy → Cat × CvTy → Option (Cat × CvTy) := fun _ _ => none

/-- All overloads return the same type: by value, by reference, or nothing; `const int` becomes `int`. -/
example : ∀ R ∈ [RetTy.void, .val exT, .lref exT, .rref exT], ∀ p : Passed,
    deduce exHier noOther (exVis fun _ => R) p exElems = some R := by
  intro R hR p
  obtain ⟨R', h1, h2, -⟩ := C54_same_type (cl := exHier) (other := noOther) (conv := fun _ _ => .same) (exVis fun _ => R) p
    (elems := exElems) (by simp [exElems]) (R := R) (Or.inr (by decide)) (fun e _ => rfl)
  rw [h2, h1.2]
  rintro t rfl
  simp only [List.mem_cons, List.not_mem_nil, or_false, RetTy.val.injEq, reduceCtorEq, false_or] at hR
  rw [hR]; rfl

example : deduce exHier noOther (exVis fun _ => .val ⟨5, true, false⟩) ⟨false, false⟩ exElems =
    some (.val ⟨5, false, false⟩) := by decide

/-- Three variants, one of them an rvalue. -/
example : deduceN exHier noOther (fun _ => some (.lref exT))
    [(⟨false, true⟩, exElems), (⟨true, false⟩, exElems), (⟨false, false⟩, [.ref ⟨3, false, false⟩])] [] =
      some (.lref exT) :=
  C54_same_type_nary _ (by decide) (by decide) (fun _ h => by cases h) fun _ _ => rfl

/-- The deduced type for each of the three cases of the characterisation. -/
example : deduce exHier noOther (exVis fun _ => .lref exT) ⟨false, false⟩ exElems = some (.lref exT) ∧
    deduce exHier noOther (exVis fun n => if n = 1 then .val exT else .lref exT) ⟨false, false⟩ exElems =
      some (.val exT) ∧
    deduce exHier noOther (exVis fun n => if n = 2 then .val exT else .rref exT) ⟨false, false⟩ exElems =
      some (.rref exT) := by decide

/-- The hypotheses of the characterisation are met. -/
example : Returns (exVis fun n => if n = 2 then .val exT else .rref exT) ⟨true, false⟩ exElems
      [.rref exT, .rref exT, .val exT] ∧ exHier.prTy exT = exT ∧
    ∀ r ∈ [RetTy.rref exT, .rref exT, .val exT], r.about exT := by
  refine ⟨⟨Or.inr (by decide), rfl⟩, by decide, ?_⟩
  intro r hr
  simp only [List.mem_cons, List.not_mem_nil, or_false] at hr
  rcases hr with rfl | rfl | rfl
  · exact Or.inr (Or.inr rfl)
  · exact Or.inr (Or.inr rfl)
  · exact Or.inl rfl

/-- The hypotheses of the theorem on the order are met. -/
example : Returns (exVis fun n => if n = 2 then .val exT else .lref exT) ⟨false, true⟩ exElems
      [.lref exT, .lref exT, .val exT] ∧
    Returns (exVis fun n => if n = 2 then .val exT else .lref exT) ⟨false, true⟩ exElems.reverse
      [.val exT, .lref exT, .lref exT] ∧
    [RetTy.lref exT, .lref exT, .val exT].Perm [.val exT, .lref exT, .lref exT] :=
  ⟨⟨Or.inl rfl, rfl⟩, ⟨Or.inl rfl, rfl⟩, by decide⟩

/-- F21: the overload for the first type returns `T&&`, that for the second `T`. The deduced type is `T&&`, and
visiting content of the second type returns a reference to a destroyed temporary. With the types in the other order
the deduced type is `T`, and nothing dangles. -/
theorem C54_counterexample_dangling :
    let vis := exVis fun n => if n = 0 then RetTy.rref exT else .val exT
    let e0 : Elem := .val ⟨0, false, false⟩
    let e1 : Elem := .val ⟨1, false, false⟩
    deduce exHier noOther vis ⟨false, false⟩ [e0, e1] = some (.rref exT) ∧
      returnFit exHier (fun _ _ => .same) (.rref exT) (.val exT) = .dangling ∧
    deduce exHier noOther vis ⟨false, false⟩ [e1, e0] = some (.val exT) ∧
      returnFit exHier (fun _ _ => .same) (.val exT) (.rref exT) = .converted := by decide

/-- F22: an rvalue variant with a reference in it. The type is deduced from the overload for lvalues, but the one for
rvalues is called. Here the former returns `T&&` and the latter `T`, so that the result dangles. -/
theorem C54_counterexample_reference :
    let e : Elem := .ref ⟨3, false, false⟩
    let vis : Expr → Option RetTy := fun a => if a = .of .lvalue ⟨3, false, false⟩ then some (.rref exT) else some (.val exT)
    let p : Passed := ⟨true, false⟩
    p.deducedArg e = .of .lvalue ⟨3, false, false⟩ ∧ p.calledArg e = .of .xvalue ⟨3, false, false⟩ ∧
      deduce exHier noOther vis p [e] = some (.rref exT) ∧ vis (p.calledArg e) = some (.val exT) ∧
      returnFit exHier (fun _ _ => .same) (.rref exT) (.val exT) = .dangling := by decide

/-- References to derived classes: with the base class last, the type is deduced; with it first, the deduction does not
compile, because it starts with the two derived classes. -/
theorem C54_counterexample_order :
    let vis := exVis fun n => RetTy.lref ⟨10 + n, false, false⟩
    let e0 : Elem := .val ⟨0, false, false⟩
    let e1 : Elem := .val ⟨1, false, false⟩
    let e2 : Elem := .val ⟨2, false, false⟩
    deduce exHier (lvalueCond exHier) vis ⟨false, false⟩ [e1, e2, e0] = some (.lref ⟨10, false, false⟩) ∧
      deduce exHier (lvalueCond exHier) vis ⟨false, false⟩ [e0, e1, e2] = none := by decide

/-- The hypotheses of the theorem on base classes are met. -/
example : ∀ d ∈ [(⟨11, false, false⟩ : CvTy), ⟨12, false, false⟩, ⟨10, false, false⟩], d = ⟨10, false, false⟩ ∨
    (exHier.binds false d ⟨10, false, false⟩ = true ∧ exHier.binds false ⟨10, false, false⟩ d = false) := by decide

/-- For each element but a reference of an rvalue variant, the overload that is called is the one the type is deduced from. -/
example : (⟨true, false⟩ : Passed).deducedArg (.wrapped ⟨1, false, false⟩) = (⟨true, false⟩ : Passed).calledArg (.wrapped ⟨1, false, false⟩) ∧
    (⟨true, false⟩ : Passed).deducedArg (.ref ⟨1, false, false⟩) ≠ (⟨true, false⟩ : Passed).calledArg (.ref ⟨1, false, false⟩) :=
  ⟨(C54_overload_called _ _).mpr (by decide), fun h => (C54_overload_called _ _).mp h (by decide)⟩

theorem exReturns : Returns (exVis fun n => if n = 2 then .val exT else .rref exT) ⟨true, false⟩ exElems
    [.rref exT, .rref exT, .val exT] ∧ ∀ r ∈ [RetTy.rref exT, .rref exT, .val exT], r.about exT := by
  refine ⟨⟨Or.inr (by decide), rfl⟩, ?_⟩
  intro r hr
  simp only [List.mem_cons, List.not_mem_nil, or_false] at hr
  rcases hr with rfl | rfl | rfl
  · exact Or.inr (Or.inr rfl)
  · exact Or.inr (Or.inr rfl)
  · exact Or.inl rfl

example := C54_deduced_type (cl := exHier) (other := noOther) (by decide) exReturns.1 exReturns.2
example := C54_dangling_partial (cl := exHier) (other := noOther) (conv := fun _ _ => .same) (by decide) exReturns.1 exReturns.2
example := C54_rejected (cl := exHier) (other := noOther) (conv := fun _ _ => .same) (by decide) exReturns.1 exReturns.2
example := C54_order_partial (cl := exHier) (other := noOther) (conv := fun _ _ => .same)
  (visitor := exVis fun n => if n = 2 then .val exT else .lref exT) (visitor' := exVis fun n => if n = 2 then .val exT else .lref exT)
  (p := ⟨false, true⟩) (p' := ⟨false, true⟩) (elems := exElems) (elems' := exElems.reverse) (t := exT)
  (rs := [.lref exT, .lref exT, .val exT]) (rs' := [.val exT, .lref exT, .lref exT])
  (by decide) (by decide) (by decide) ⟨Or.inl rfl, rfl⟩ ⟨Or.inl rfl, rfl⟩ (by
    intro r hr
    simp only [List.mem_cons, List.not_mem_nil, or_false] at hr
    rcases hr with rfl | rfl | rfl
    · exact Or.inr rfl
    · exact Or.inr rfl
    · exact Or.inl rfl)

/-! ### References to classes -/

section
variable {cl : Classes}

/-- Specification: derivation of classes is a partial order. -/
structure Classes.Hierarchy (cl : Classes) : Prop where
  trans : ∀ {a b c}, cl.baseOf a b = true → cl.baseOf b c = true → cl.baseOf a c = true
  antisymm : ∀ {a b}, cl.baseOf a b = true → cl.baseOf b a = true → a = b

/-- Specification: lvalues of all the types bind to references to `b`, which is one of them. -/
def Classes.Top (cl : Classes) (b : CvTy) (ts : List CvTy) : Prop := b ∈ ts ∧ ∀ t ∈ ts, cl.binds false t b = true

theorem binds_refl (t : CvTy) : cl.binds false t t = true := by
  obtain ⟨b, c, v⟩ := t
  simp [Classes.binds, CvTy.cvGe]

theorem binds_trans (hc : cl.Hierarchy) {a b c : CvTy} (h1 : cl.binds false a b = true) (h2 : cl.binds false b c = true) :
    cl.binds false a c = true := by
  have := @hc.trans c.base b.base a.base
  obtain ⟨a, ac, av⟩ := a
  obtain ⟨b, bc, bv⟩ := b
  obtain ⟨c, cc, cv⟩ := c
  simp only [Classes.binds, CvTy.cvGe] at *
  grind

theorem binds_antisymm (hc : cl.Hierarchy) {a b : CvTy} (h1 : cl.binds false a b = true) (h2 : cl.binds false b a = true) :
    a = b := by
  have := @hc.antisymm a.base b.base
  obtain ⟨a, ac, av⟩ := a
  obtain ⟨b, bc, bv⟩ := b
  simp only [Classes.binds, CvTy.cvGe] at *
  grind

theorem lvalueCond_eq (hc : cl.Hierarchy) {t s : CvTy} (h : t ≠ s) :
    lvalueCond cl (.lvalue, t) (.lvalue, s) =
      if cl.binds false t s = true then some (.lvalue, s) else if cl.binds false s t = true then some (.lvalue, t) else none := by
  have h1 : ¬ (cl.binds false t s = true ∧ cl.binds false s t = true) := fun ⟨h1, h2⟩ => h (binds_antisymm hc h1 h2)
  simp only [lvalueCond]
  cases h2 : cl.binds false t s <;> cases h3 : cl.binds false s t <;> simp_all

theorem deduceImpl_lrefs (hc : cl.Hierarchy) (t : CvTy) (ts : List CvTy) (R : RetTy) :
    deduceImpl cl (lvalueCond cl) (((t :: ts).map RetTy.lref).map some) = some R ↔
      (∃ b, R = .lref b ∧ cl.Top b (t :: ts)) ∧ ∀ us, us <:+ t :: ts → us ≠ [] → ∃ b, cl.Top b us := by
  induction ts generalizing t R with
  | nil =>
    simp only [List.map_cons, List.map_nil, deduceImpl, RetTy.call, Expr.decltype, Option.map_some, Option.some.injEq]
    constructor
    · rintro rfl
      refine ⟨⟨t, rfl, by simp, by simpa using binds_refl t⟩, ?_⟩
      intro us hus hne
      obtain rfl : us = [t] := by
        rcases List.suffix_cons_iff.mp hus with h | h
        · exact h
        · exact absurd (List.suffix_nil.mp h) hne
      exact ⟨t, by simp, by simpa using binds_refl t⟩
    · rintro ⟨⟨b, rfl, hb, -⟩, -⟩
      simp at hb; rw [hb]
  | cons s ts ih =>
    have hstep : deduceImpl cl (lvalueCond cl) (((t :: s :: ts).map RetTy.lref).map some) = some R ↔
        ∃ b, deduceImpl cl (lvalueCond cl) (((s :: ts).map RetTy.lref).map some) = some (.lref b) ∧
          ((cl.binds false t b = true ∧ R = .lref b) ∨ (cl.binds false b t = true ∧ R = .lref t)) := by
      have hform : ∀ R', deduceImpl cl (lvalueCond cl) (((s :: ts).map RetTy.lref).map some) = some R' →
          ∃ b, R' = .lref b := fun R' h => by
        obtain ⟨⟨b, hb, -⟩, -⟩ := (ih s R').mp h
        exact ⟨b, hb⟩
      simp only [List.map_cons, deduceImpl, bind, Option.bind, pure]
      simp only [List.map_cons] at hform
      cases hr : deduceImpl cl (lvalueCond cl) (some (RetTy.lref s) :: List.map some (List.map RetTy.lref ts)) with
      | none => simp
      | some R' =>
        obtain ⟨b, rfl⟩ := hform R' hr
        simp only [RetTy.call, RetTy.declval, condOp, Option.some.injEq, RetTy.lref.injEq]
        by_cases htb : t = b
        · subst htb
          simp only [if_true, Expr.decltype, ne_eq, reduceCtorEq, not_false_eq_true, and_self, Option.some.injEq]
          constructor
          · rintro rfl; exact ⟨t, rfl, Or.inl ⟨binds_refl t, rfl⟩⟩
          · rintro ⟨_, rfl, ⟨-, rfl⟩ | ⟨-, rfl⟩⟩ <;> rfl
        · simp only [htb, if_false, lvalueCond_eq hc htb]
          have h1 : ¬ (cl.binds false t b = true ∧ cl.binds false b t = true) := fun ⟨h1, h2⟩ => htb (binds_antisymm hc h1 h2)
          constructor
          · intro h
            refine ⟨b, rfl, ?_⟩
            cases h2 : cl.binds false t b <;> cases h3 : cl.binds false b t <;>
              simp only [h2, h3, Bool.false_eq_true, if_true, if_false, Option.map_some, Option.map_none, Expr.decltype,
                reduceCtorEq, Option.some.injEq] at h
            · exact Or.inr ⟨rfl, h.symm⟩
            · exact Or.inl ⟨rfl, h.symm⟩
            · exact absurd ⟨h2, h3⟩ h1
          · rintro ⟨c, rfl, ⟨h2, rfl⟩ | ⟨h2, rfl⟩⟩
            · simp [h2, Expr.decltype]
            · have h3 : cl.binds false t b = false := by
                cases h3 : cl.binds false t b
                · rfl
                · exact absurd ⟨h3, h2⟩ h1
              simp [h2, h3, Expr.decltype]
    rw [hstep]
    constructor
    · rintro ⟨b, hb, hcase⟩
      obtain ⟨⟨b', hb', htop⟩, hsuf⟩ := (ih s _).mp hb
      cases hb'
      have htop' : ∃ b', R = .lref b' ∧ cl.Top b' (t :: s :: ts) := by
        rcases hcase with ⟨h1, rfl⟩ | ⟨h1, rfl⟩
        · refine ⟨b, rfl, List.mem_cons_of_mem _ htop.1, ?_⟩
          intro u hu
          rcases List.mem_cons.mp hu with rfl | hu
          · exact h1
          · exact htop.2 u hu
        · refine ⟨t, rfl, by simp, ?_⟩
          intro u hu
          rcases List.mem_cons.mp hu with rfl | hu
          · exact binds_refl _
          · exact binds_trans hc (htop.2 u hu) h1
      refine ⟨htop', ?_⟩
      intro us hus hne
      rcases List.suffix_cons_iff.mp hus with rfl | h
      · obtain ⟨b', -, h⟩ := htop'; exact ⟨b', h⟩
      · exact hsuf us h hne
    · rintro ⟨⟨b, rfl, htop⟩, hsuf⟩
      obtain ⟨c, hc'⟩ := hsuf (s :: ts) (List.suffix_cons _ _) (by simp)
      refine ⟨c, (ih s _).mpr ⟨⟨c, rfl, hc'⟩, fun us h => hsuf us (List.IsSuffix.trans h (List.suffix_cons _ _))⟩, ?_⟩
      rcases List.mem_cons.mp htop.1 with rfl | hm
      · exact Or.inr ⟨htop.2 c (List.mem_cons_of_mem _ hc'.1), rfl⟩
      · obtain rfl : b = c := binds_antisymm hc (hc'.2 b hm) (htop.2 c (List.mem_cons_of_mem _ hc'.1))
        exact Or.inl ⟨htop.2 t (by simp), rfl⟩

/-- C54, references to classes, exactly: if every overload returns an lvalue reference, the deduction compiles iff for each
bounded type there is, among the types referred to from that one on, one to which all of these can be bound. The result then is a
reference to the one to which all can be bound, and it refers to the very object the overload returned. -/
theorem C54_references (hc : cl.Hierarchy) {visitor : Expr → Option RetTy} {p : Passed} {elems : List Elem}
    {ts : List CvTy} (hne : ts ≠ []) (h : Returns visitor p elems (ts.map .lref)) (R : RetTy) :
    (deduce cl (lvalueCond cl) visitor p elems = some R ↔
      (∃ b, R = .lref b ∧ cl.Top b ts) ∧ ∀ us, us <:+ ts → us ≠ [] → ∃ b, cl.Top b us) ∧
    (deduce cl (lvalueCond cl) visitor p elems = some R →
      ∀ r ∈ ts.map RetTy.lref, returnFit cl (lvalueConv cl) R r = .same) := by
  have hiff : deduce cl (lvalueCond cl) visitor p elems = some R ↔
      (∃ b, R = .lref b ∧ cl.Top b ts) ∧ ∀ us, us <:+ ts → us ≠ [] → ∃ b, cl.Top b us := by
    rw [h.deduce_eq]
    cases ts with
    | nil => exact absurd rfl hne
    | cons t ts => exact deduceImpl_lrefs hc t ts R
  refine ⟨hiff, fun hd r hr => ?_⟩
  obtain ⟨⟨b, rfl, htop⟩, -⟩ := hiff.mp hd
  obtain ⟨t, ht, rfl⟩ := List.mem_map.mp hr
  simp only [returnFit, lvalueConv, htop.2 t ht, if_true, ite_self]
end

theorem exHier_hierarchy : exHier.Hierarchy :=
  ⟨fun {a b c} h1 h2 => by simp only [exHier, decide_eq_true_eq] at *; omega,
   fun {a b} h1 h2 => by simp only [exHier, decide_eq_true_eq] at *; omega⟩

/-- Two classes and their base, in the order in which it compiles: the hypotheses are met. -/
example : deduce exHier (lvalueCond exHier) (exVis fun n => .lref ⟨10 + n, false, false⟩) ⟨false, false⟩
      [.val ⟨1, false, false⟩, .val ⟨2, false, false⟩, .val ⟨0, false, false⟩] = some (.lref ⟨10, false, false⟩) ∧
    exHier.Top ⟨10, false, false⟩ [⟨11, false, false⟩, ⟨12, false, false⟩, ⟨10, false, false⟩] := by
  have h : deduce exHier (lvalueCond exHier) (exVis fun n => .lref ⟨10 + n, false, false⟩) ⟨false, false⟩
      [.val ⟨1, false, false⟩, .val ⟨2, false, false⟩, .val ⟨0, false, false⟩] = some (.lref ⟨10, false, false⟩) := by decide
  obtain ⟨⟨b, hb, ht⟩, -⟩ := (C54_references exHier_hierarchy (ts := [⟨11, false, false⟩, ⟨12, false, false⟩, ⟨10, false, false⟩])
    (by simp) ⟨Or.inl rfl, rfl⟩ _).1.mp h
  cases hb
  exact ⟨h, ht⟩

/-! ### Instances -/

/-- C54: overloads returning `D1&`, `D2&` and `B&`. -/
example := C54_base_reference_last_partial (cl := exHier) (visitor := exVis fun n => if n = 2 then .lref ⟨10, false, false⟩ else .lref ⟨11 + n, false, false⟩)
  (p := ⟨false, false⟩) (elems := [.val ⟨0, false, false⟩, .val ⟨1, false, false⟩, .val ⟨2, false, false⟩]) (b := ⟨10, false, false⟩)
  (ds := [⟨11, false, false⟩, ⟨12, false, false⟩]) ⟨.inl rfl, rfl⟩ (by decide)

end BVariant
