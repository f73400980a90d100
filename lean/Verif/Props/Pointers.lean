import Verif.Meta.Pointers
import Verif.Props.ResultType
import Verif.Props.Arithmetic

/-
C54 for visitors without `result_type` whose overloads return pointers.
-/

namespace BVariant

section
variable {cl : Classes} {P : Pointers}

/-- Specification: what a pointer can be converted to without a cast. -/
inductive PtrTy.Converts (cl : Classes) (P : Pointers) : PtrTy → PtrTy → Prop
  | null (p : PtrTy) : PtrTy.Converts cl P .null p
  | qualify {t s : CvTy} : s.cvGe t = true → s.base = t.base → PtrTy.Converts cl P (.to t) (.to s)
  | toVoid {t s : CvTy} : s.cvGe t = true → s.base = P.void → PtrTy.Converts cl P (.to t) (.to s)
  | toBase {t s : CvTy} : s.cvGe t = true → cl.isClass t.base = true → cl.isClass s.base = true → cl.baseOf s.base t.base = true →
      PtrTy.Converts cl P (.to t) (.to s)

/-- Specification: both are `nullptr_t`, or both point to the same type, up to qualifiers. -/
inductive PtrTy.SameTarget : PtrTy → PtrTy → Prop
  | null : PtrTy.SameTarget .null .null
  | to {t s : CvTy} : t.base = s.base → PtrTy.SameTarget (.to t) (.to s)

/-- Specification: `q` is the least to which all can be converted, and one of them points to what it points to. -/
structure PtrTy.Common (cl : Classes) (P : Pointers) (q : PtrTy) (ps : List PtrTy) : Prop where
  upper : ∀ p ∈ ps, p.Converts cl P q
  least : ∀ q', (∀ p ∈ ps, p.Converts cl P q') → q.Converts cl P q'
  target : ∃ p ∈ ps, p.SameTarget q

/-- Specification: neither `void` nor a pointer type is a class. -/
structure Pointers.Sound (cl : Classes) (P : Pointers) : Prop where
  void : cl.isClass P.void = false
  ptr : ∀ {b p}, P.ptr b = some p → cl.isClass b = false

theorem converts_iff {p q : PtrTy} : P.converts cl p q = true ↔ p.Converts cl P q := by
  cases p with
  | null => exact ⟨fun _ => .null _, fun _ => rfl⟩
  | to t =>
    cases q with
    | null => constructor <;> intro h <;> cases h
    | to s =>
      simp only [Pointers.converts, Bool.and_eq_true, Bool.or_eq_true, decide_eq_true_eq]
      constructor
      · rintro ⟨h, (h1 | h1) | ⟨⟨h1, h2⟩, h3⟩⟩
        · exact .qualify h h1
        · exact .toVoid h h1
        · exact .toBase h h1 h2 h3
      · intro h
        cases h with
        | qualify h h1 => exact ⟨h, .inl (.inl h1)⟩
        | toVoid h h1 => exact ⟨h, .inl (.inr h1)⟩
        | toBase h h1 h2 h3 => exact ⟨h, .inr ⟨⟨h1, h2⟩, h3⟩⟩

theorem ptr_refl (p : PtrTy) : P.converts cl p p = true := by
  cases p <;> simp [Pointers.converts, CvTy.cvGe]

theorem ptr_trans (hc : cl.Hierarchy) (hv : P.Sound cl) {a b c : PtrTy} (h1 : P.converts cl a b = true) (h2 : P.converts cl b c = true) :
    P.converts cl a c = true := by
  rcases a with _ | ⟨a, ac, av⟩ <;> rcases b with _ | ⟨b, bc, bv⟩ <;> rcases c with _ | ⟨c, cc, cv⟩ <;>
    simp only [Pointers.converts, CvTy.cvGe, Bool.false_eq_true] at *
  have := @hc.trans c b a
  have := hv.void
  grind

theorem ptr_antisymm (hc : cl.Hierarchy) (hv : P.Sound cl) {a b : PtrTy} (h1 : P.converts cl a b = true) (h2 : P.converts cl b a = true) : a = b := by
  rcases a with _ | ⟨a, ac, av⟩ <;> rcases b with _ | ⟨b, bc, bv⟩ <;>
    simp only [Pointers.converts, CvTy.cvGe, Bool.false_eq_true] at *
  have := @hc.antisymm a b
  have := hv.void
  grind

theorem composite_facts (hv : P.Sound cl) {p c b : PtrTy} (h : P.composite cl p c = some b) :
    P.converts cl p b = true ∧ P.converts cl c b = true ∧
    (∀ d, P.converts cl p d = true → P.converts cl c d = true → P.converts cl b d = true) ∧ (p.SameTarget b ∨ c.SameTarget b) := by
  have hvoid := hv.void
  rcases p with _ | ⟨p, pc, pv⟩
  · simp only [Pointers.composite, Option.some.injEq] at h
    subst h
    refine ⟨rfl, ptr_refl _, fun d _ h => h, .inr ?_⟩
    cases c
    · exact .null
    · exact .to rfl
  · rcases c with _ | ⟨c, cc, cv⟩
    · simp only [Pointers.composite, Option.some.injEq] at h
      subst h
      exact ⟨ptr_refl _, rfl, fun d h _ => h, .inl (.to rfl)⟩
    · simp only [Pointers.composite] at h
      split at h
      · cases h
        rename_i e
        subst e
        refine ⟨by cases pc <;> cases pv <;> cases cc <;> cases cv <;> simp_all [Pointers.converts, CvTy.cvGe], by cases pc <;> cases pv <;> cases cc <;> cases cv <;> simp_all [Pointers.converts, CvTy.cvGe], ?_, .inl (.to rfl)⟩
        rintro (_ | ⟨d, dc, dv⟩) h1 h2 <;> simp only [Pointers.converts, CvTy.cvGe, Bool.false_eq_true] at *
        grind
      · split at h
        · cases h
          rename_i e1 e2
          refine ⟨by cases pc <;> cases pv <;> cases cc <;> cases cv <;> simp_all [Pointers.converts, CvTy.cvGe], by cases pc <;> cases pv <;> cases cc <;> cases cv <;> simp_all [Pointers.converts, CvTy.cvGe], ?_, ?_⟩
          · rintro (_ | ⟨d, dc, dv⟩) h1 h2 <;> simp only [Pointers.converts, CvTy.cvGe, Bool.false_eq_true] at *
            grind
          · rcases e2 with e2 | e2
            · exact .inl (.to e2)
            · exact .inr (.to e2)
        · split at h
          · cases h
            refine ⟨by cases pc <;> cases pv <;> cases cc <;> cases cv <;> simp_all [Pointers.converts, CvTy.cvGe], by cases pc <;> cases pv <;> cases cc <;> cases cv <;> simp_all [Pointers.converts, CvTy.cvGe], ?_, .inr (.to rfl)⟩
            rintro (_ | ⟨d, dc, dv⟩) h1 h2 <;> simp only [Pointers.converts, CvTy.cvGe, Bool.false_eq_true] at *
            grind
          · split at h
            · cases h
              refine ⟨by cases pc <;> cases pv <;> cases cc <;> cases cv <;> simp_all [Pointers.converts, CvTy.cvGe], by cases pc <;> cases pv <;> cases cc <;> cases cv <;> simp_all [Pointers.converts, CvTy.cvGe], ?_, .inl (.to rfl)⟩
              rintro (_ | ⟨d, dc, dv⟩) h1 h2 <;> simp only [Pointers.converts, CvTy.cvGe, Bool.false_eq_true] at *
              grind
            · cases h

/-- If one points to what a common type points to, there is a composite pointer type. -/
theorem composite_exists {p c b : PtrTy} (h1 : P.converts cl p b = true) (h2 : P.converts cl c b = true)
    (h : p.SameTarget b ∨ c.SameTarget b) : ∃ d, P.composite cl p c = some d := by
  rcases p with _ | ⟨p, pc, pv⟩
  · exact ⟨_, rfl⟩
  · rcases c with _ | ⟨c, cc, cv⟩
    · exact ⟨_, rfl⟩
    · rcases b with _ | ⟨b, bc, bv⟩
      · simp [Pointers.converts] at h1
      · simp only [Pointers.converts, CvTy.cvGe] at h1 h2
        have h : p = b ∨ c = b := h.elim (fun h => by cases h; exact .inl ‹_›) (fun h => by cases h; exact .inr ‹_›)
        simp only [Pointers.composite]
        split
        · exact ⟨_, rfl⟩
        · split
          · exact ⟨_, rfl⟩
          · split
            · exact ⟨_, rfl⟩
            · split
              · exact ⟨_, rfl⟩
              · grind


theorem composite_self (p : PtrTy) : P.composite cl p p = some p := by
  rcases p with _ | ⟨b, c, v⟩ <;> simp [Pointers.composite]

theorem PtrTy.Common.unique (hc : cl.Hierarchy) (hv : P.Sound cl) {q q' : PtrTy} {ps ps' : List PtrTy} (hps : ∀ p, p ∈ ps ↔ p ∈ ps')
    (h : q.Common cl P ps) (h' : q'.Common cl P ps') : q = q' :=
  ptr_antisymm hc hv (converts_iff.mpr (h.least q' fun p hp => h'.upper p ((hps p).mp hp)))
    (converts_iff.mpr (h'.least q fun p hp => h.upper p ((hps p).mpr hp)))

theorem common_single (p : PtrTy) : p.Common cl P [p] where
  upper q hq := by simp only [List.mem_singleton] at hq; subst hq; exact converts_iff.mp (ptr_refl _)
  least q' h := h p (by simp)
  target := ⟨p, by simp, by cases p; exact .null; exact .to rfl⟩

theorem common_cons (hc : cl.Hierarchy) (hv : P.Sound cl) {p c : PtrTy} {ps : List PtrTy} (h : c.Common cl P ps) {b : PtrTy} :
    P.composite cl p c = some b ↔ b.Common cl P (p :: ps) := by
  have mp : ∀ {b}, P.composite cl p c = some b → b.Common cl P (p :: ps) := fun {b} hb => by
    obtain ⟨h1, h2, h3, h4⟩ := composite_facts hv hb
    refine ⟨fun x hx => ?_, fun q' hq' => ?_, ?_⟩
    · rcases List.mem_cons.mp hx with rfl | hx
      · exact converts_iff.mp h1
      · exact converts_iff.mp (ptr_trans hc hv (converts_iff.mpr (h.upper x hx)) h2)
    · exact converts_iff.mp (h3 q' (converts_iff.mpr (hq' p (by simp)))
        (converts_iff.mpr (h.least q' fun x hx => hq' x (List.mem_cons_of_mem _ hx))))
    · rcases h4 with h4 | h4
      · exact ⟨p, by simp, h4⟩
      · obtain ⟨x, hx, hxc⟩ := h.target
        refine ⟨x, List.mem_cons_of_mem _ hx, ?_⟩
        cases h4 with
        | null => exact hxc
        | to e => cases hxc with | to e' => exact .to (e'.trans e)
  refine ⟨mp, fun hb => ?_⟩
  have hcb : P.converts cl c b = true := converts_iff.mpr (h.least b fun x hx => hb.upper x (List.mem_cons_of_mem _ hx))
  have hpb : P.converts cl p b = true := converts_iff.mpr (hb.upper p (by simp))
  have ht : p.SameTarget b ∨ c.SameTarget b := by
    obtain ⟨x, hx, hxb⟩ := hb.target
    rcases List.mem_cons.mp hx with rfl | hx
    · exact .inl hxb
    · right
      have hxc := converts_iff.mpr (h.upper x hx)
      have := hv.void
      rcases x with _ | ⟨x, xc, xv⟩
      · cases hxb
        cases c with
        | null => exact .null
        | to c => simp [Pointers.converts] at hcb
      · rcases c with _ | ⟨c, cc, cv⟩
        · simp [Pointers.converts] at hxc
        · rcases b with _ | ⟨b, bc, bv⟩
          · cases hxb
          · cases hxb
            rename_i e
            refine .to ?_
            simp only [Pointers.converts, CvTy.cvGe] at *
            have := @hc.antisymm b c
            grind
  obtain ⟨d, hd⟩ := composite_exists hpb hcb ht
  rw [hd, (mp hd).unique hc hv (fun _ => .rfl) hb]

/-- The type of a pointer by value. -/
def Pointers.ret (P : Pointers) (q : PtrTy) : RetTy := .val ⟨P.name q, false, false⟩

theorem ret_inj {q q' : PtrTy} (h : P.ret q = P.ret q') : q = q' := by
  simp only [Pointers.ret, RetTy.val.injEq, CvTy.mk.injEq, and_self, and_true] at h
  have := P.ptr_name q
  rw [h, P.ptr_name q'] at this
  exact (Option.some.inj this).symm

theorem condOp_ptr (hv : P.Sound cl) {t : CvTy} {p c : PtrTy} (hp : P.ptr t.base = some p) :
    condOp cl (P.cond cl) ((RetTy.val t).call cl) (P.ret c).declval = (P.composite cl p c).map fun q => .of .prvalue ⟨P.name q, false, false⟩ := by
  have h1 : cl.prTy t = ⟨P.name p, false, false⟩ := by
    simp [Classes.prTy, hv.ptr hp, CvTy.removeCv, P.name_ptr hp]
  simp only [RetTy.call, Pointers.ret, RetTy.declval, condOp, h1]
  by_cases e : p = c
  · subst e
    simp [composite_self, Classes.prTy, CvTy.removeCv, hv.ptr (P.ptr_name p)]
  · have : (⟨P.name p, false, false⟩ : CvTy) ≠ ⟨P.name c, false, false⟩ := fun h => e (ret_inj (congrArg RetTy.val h))
    simp only [this, if_false, Pointers.cond, P.ptr_name]
    cases P.composite cl p c <;> rfl

theorem deduceImpl_ptrs (hc : cl.Hierarchy) (hv : P.Sound cl) (ts : List CvTy) (hne : ts ≠ []) (ps : List PtrTy)
    (h : ts.map (fun t => P.ptr t.base) = ps.map some) (R : RetTy) :
    deduceImpl cl (P.cond cl) ((ts.map RetTy.val).map some) = some R ↔
      (∃ q, R = P.ret q ∧ q.Common cl P ps) ∧ ∀ us, us <:+ ps → us ≠ [] → ∃ q, PtrTy.Common cl P q us := by
  induction ts generalizing ps R with
  | nil => exact absurd rfl hne
  | cons t ts ih =>
    cases ps with
    | nil => cases h
    | cons p ps =>
    simp only [List.map_cons, List.cons.injEq] at h
    obtain ⟨hp, h⟩ := h
    cases ts with
    | nil =>
      cases ps with
      | cons => cases h
      | nil =>
      have h1 : ((RetTy.val t).call cl).decltype = P.ret p := by
        simp [RetTy.call, Expr.decltype, Pointers.ret, Classes.prTy, hv.ptr hp, CvTy.removeCv, P.name_ptr hp]
      simp only [List.map_cons, List.map_nil, deduceImpl, Option.map_some, Option.some.injEq, h1]
      constructor
      · rintro rfl
        refine ⟨⟨p, rfl, common_single p⟩, fun us hus hne => ⟨p, ?_⟩⟩
        rcases List.suffix_cons_iff.mp hus with rfl | hus
        · exact common_single p
        · exact absurd (List.suffix_nil.mp hus) hne
      · rintro ⟨⟨q, rfl, hq⟩, -⟩
        rw [(common_single p).unique hc hv (fun _ => .rfl) hq]
    | cons s ts =>
      have ih := ih (by simp) ps h
      have hstep : deduceImpl cl (P.cond cl) (((t :: s :: ts).map RetTy.val).map some) = some R ↔
          ∃ c, deduceImpl cl (P.cond cl) (((s :: ts).map RetTy.val).map some) = some (P.ret c) ∧
            ∃ b, P.composite cl p c = some b ∧ R = P.ret b := by
        have hform : ∀ R', deduceImpl cl (P.cond cl) (((s :: ts).map RetTy.val).map some) = some R' → ∃ c, R' = P.ret c := fun R' h => by
          obtain ⟨⟨b, hb, -⟩, -⟩ := (ih R').mp h
          exact ⟨b, hb⟩
        simp only [List.map_cons, deduceImpl, bind, Option.bind, pure]
        simp only [List.map_cons] at hform
        cases hr : deduceImpl cl (P.cond cl) (some (RetTy.val s) :: List.map some (List.map RetTy.val ts)) with
        | none => simp
        | some R' =>
          obtain ⟨c, rfl⟩ := hform R' hr
          simp only [condOp_ptr hv hp]
          constructor
          · intro h
            refine ⟨c, rfl, ?_⟩
            cases hcomp : P.composite cl p c with
            | none => rw [hcomp] at h; cases h
            | some b => rw [hcomp] at h; exact ⟨b, rfl, (Option.some.inj h).symm⟩
          · rintro ⟨c', hc', b, hb, rfl⟩
            obtain rfl := ret_inj (Option.some.inj hc')
            rw [hb]; rfl
      rw [hstep]
      constructor
      · rintro ⟨c, hcd, b, hb, rfl⟩
        obtain ⟨⟨c', e, hcom⟩, hsuf⟩ := (ih _).mp hcd
        obtain rfl := ret_inj e
        have hcom' := (common_cons hc hv hcom).mp hb
        refine ⟨⟨b, rfl, hcom'⟩, fun us hus hne => ?_⟩
        rcases List.suffix_cons_iff.mp hus with rfl | hus
        · exact ⟨b, hcom'⟩
        · exact hsuf us hus hne
      · rintro ⟨⟨b, rfl, hcom⟩, hsuf⟩
        have hps : ps ≠ [] := by rintro rfl; cases h
        obtain ⟨c, hcc⟩ := hsuf ps (List.suffix_cons _ _) hps
        exact ⟨c, (ih _).mpr ⟨⟨c, rfl, hcc⟩, fun us h => hsuf us (h.trans (List.suffix_cons _ _))⟩, b, (common_cons hc hv hcc).mpr hcom, rfl⟩

/-- C54, pointers, exactly: if every overload returns a pointer by value, the deduction compiles iff for each bounded type there is a least pointer type to which
all the pointers returned from that one on can be converted, and one of them points to what it points to. The result then is, by value, the least one
to which all can be converted; it is the value that the overload returned, or converted from it, and never dangles. -/
theorem C54_pointers (hc : cl.Hierarchy) (hv : P.Sound cl) {visitor : Expr → Option RetTy} {p : Passed} {elems : List Elem}
    {ts : List CvTy} (hne : ts ≠ []) (h : Returns visitor p elems (ts.map .val)) {ps : List PtrTy}
    (hps : ts.map (fun t => P.ptr t.base) = ps.map some) (R : RetTy) :
    (deduce cl (P.cond cl) visitor p elems = some R ↔
      (∃ q, R = P.ret q ∧ q.Common cl P ps) ∧ ∀ us, us <:+ ps → us ≠ [] → ∃ q, PtrTy.Common cl P q us) ∧
    (deduce cl (P.cond cl) visitor p elems = some R →
      ∀ t ∈ ts, returnFit cl (P.fit cl) R (.val t) = if R = P.ret ((P.ptr t.base).getD .null) then .same else .converted) := by
  have hiff := deduceImpl_ptrs hc hv ts hne ps hps R
  rw [← h.deduce_eq] at hiff
  refine ⟨hiff, fun hd t ht => ?_⟩
  obtain ⟨⟨q, rfl, hq⟩, -⟩ := hiff.mp hd
  have hm : P.ptr t.base ∈ ps.map some := hps ▸ List.mem_map.mpr ⟨t, ht, rfl⟩
  obtain ⟨x, hx, hxt⟩ := List.mem_map.mp hm
  have h1 : cl.prTy t = ⟨P.name x, false, false⟩ := by
    simp [Classes.prTy, hv.ptr hxt.symm, CvTy.removeCv, P.name_ptr hxt.symm]
  simp only [returnFit, Pointers.ret, h1, ← hxt, Option.getD_some, RetTy.val.injEq]
  split
  · rfl
  · simp only [Pointers.fit, P.ptr_name, ← hxt, converts_iff.mpr (hq.upper x hx), if_true]

/-- C54, pointers: the order of the bounded types can decide whether the deduction compiles, but not what it finds. -/
theorem C54_pointers_order (hc : cl.Hierarchy) (hv : P.Sound cl) {visitor visitor' : Expr → Option RetTy} {p p' : Passed} {elems elems' : List Elem}
    {ts ts' : List CvTy} (hperm : ts.Perm ts') (hne : ts ≠ []) (h : Returns visitor p elems (ts.map .val)) (h' : Returns visitor' p' elems' (ts'.map .val))
    (hptr : ∀ t ∈ ts, (P.ptr t.base).isSome) {R R' : RetTy}
    (hd : deduce cl (P.cond cl) visitor p elems = some R) (hd' : deduce cl (P.cond cl) visitor' p' elems' = some R') : R = R' := by
  have key : ∀ l : List CvTy, (∀ t ∈ l, (P.ptr t.base).isSome) →
      l.map (fun t => P.ptr t.base) = (l.map fun t => (P.ptr t.base).getD .null).map some := fun l hl => by
    rw [List.map_map]
    refine List.map_congr_left fun t ht => ?_
    obtain ⟨x, hx⟩ := Option.isSome_iff_exists.mp (hl t ht)
    simp [hx]
  have hne' : ts' ≠ [] := by rintro rfl; exact hne hperm.eq_nil
  obtain ⟨⟨q, rfl, hq⟩, -⟩ := (C54_pointers hc hv hne h (key ts hptr) R).1.mp hd
  obtain ⟨⟨q', rfl, hq'⟩, -⟩ := (C54_pointers hc hv hne' h' (key ts' fun t ht => hptr t (hperm.mem_iff.mpr ht)) R').1.mp hd'
  rw [hq.unique hc hv (fun x => (hperm.map _).mem_iff) hq']

end

/-! The hypotheses hold: class 3 is the base of the classes 4 and 5, type 9 is `void`, type 10 is `nullptr_t`, and from 11 on there are the pointers. -/
namespace PointerExample

def cl : Classes where
  isClass n := decide (3 ≤ n ∧ n < 9)
  baseOf a b := decide (a = 3 ∧ (b = 4 ∨ b = 5))

def P : Pointers where
  void := 9
  ptr n := if n < 10 then none else if n = 10 then some .null
    else some (.to ⟨(n - 11) / 4, decide ((n - 11) / 2 % 2 = 1), decide ((n - 11) % 2 = 1)⟩)
  name
    | .null => 10
    | .to ⟨b, c, v⟩ => 11 + 4 * b + (if c then 2 else 0) + (if v then 1 else 0)
  ptr_name p := by
    rcases p with _ | ⟨b, _ | _, _ | _⟩ <;> dsimp only
    · rfl
    all_goals
      rw [if_neg (by simp; try omega), if_neg (by simp; try omega)]
      congr
      · simp; try omega
      · simp; try omega
      · simp; try omega
  name_ptr := by
    intro n p h
    by_cases h1 : n < 10
    · simp [h1] at h
    · by_cases h2 : n = 10
      · simp only [h2, Nat.lt_irrefl, if_true, if_false, Option.some.injEq] at h; subst h; exact h2.symm
      · simp only [h1, h2, if_false, Option.some.injEq] at h
        subst h
        dsimp only
        by_cases h3 : (n - 11) / 2 % 2 = 1 <;> by_cases h4 : (n - 11) % 2 = 1 <;> simp only [h3, h4, decide_true, decide_false, if_true, if_false,
          Bool.false_eq_true] <;> omega

theorem hc : cl.Hierarchy :=
  ⟨fun {a b c} h1 h2 => by simp only [cl, decide_eq_true_eq] at *; omega, fun {a b} h1 h2 => by simp only [cl, decide_eq_true_eq] at *; omega⟩

theorem hv : P.Sound cl :=
  ⟨rfl, fun {b p} h => by
    by_cases hb : b < 10
    · simp [P, hb] at h
    · simp only [cl, decide_eq_false_iff_not]; omega⟩

/-- `D1* const`, `const D2*` and `B*`, where the base comes last. -/
def ts : List CvTy := [⟨P.name (.to ⟨4, false, false⟩), true, false⟩, ⟨P.name (.to ⟨5, true, false⟩), false, false⟩, ⟨P.name (.to ⟨3, false, false⟩), false, false⟩]

def visitor (l : List CvTy) : Expr → Option RetTy
  | .of _ t => (l[t.base - 3]?).map .val
  | .void => none

/-- The deduced type is `const B*`. -/
example : deduce cl (P.cond cl) (visitor ts) ⟨false, false⟩ ArithmeticExample.elems = some (P.ret (.to ⟨3, true, false⟩)) := by decide

example : ∃ q, PtrTy.Common cl P q [.to ⟨4, false, false⟩, .to ⟨5, true, false⟩, .to ⟨3, false, false⟩] ∧
    ∀ t ∈ ts, returnFit cl (P.fit cl) (P.ret q) (.val t) = .converted := by
  have hd : deduce cl (P.cond cl) (visitor ts) ⟨false, false⟩ ArithmeticExample.elems = some (P.ret (.to ⟨3, true, false⟩)) := by decide
  have h := C54_pointers hc hv (visitor := visitor ts) (p := ⟨false, false⟩) (elems := ArithmeticExample.elems) (ts := ts) (by simp [ts]) ⟨.inl rfl, rfl⟩
    (ps := [.to ⟨4, false, false⟩, .to ⟨5, true, false⟩, .to ⟨3, false, false⟩]) (by decide) (P.ret (.to ⟨3, true, false⟩))
  obtain ⟨⟨q, hq, hcom⟩, -⟩ := h.1.mp hd
  obtain rfl := ret_inj hq
  refine ⟨_, hcom, fun t ht => ?_⟩
  rw [h.2 hd t ht]
  simp only [ts, List.mem_cons, List.not_mem_nil, or_false] at ht
  rcases ht with rfl | rfl | rfl <;> decide

/-- If the base comes first, the deduction does not compile; with `nullptr_t` first or in the middle it compiles as without. -/
example : deduce cl (P.cond cl) (visitor [ts[2], ts[0], ts[1]]) ⟨false, false⟩ ArithmeticExample.elems = none ∧
    deduce cl (P.cond cl) (visitor [⟨10, false, false⟩, ts[1], ts[2]]) ⟨false, false⟩ ArithmeticExample.elems = some (P.ret (.to ⟨3, true, false⟩)) ∧
    deduce cl (P.cond cl) (visitor [ts[2], ⟨10, false, false⟩, ts[1]]) ⟨false, false⟩ ArithmeticExample.elems = some (P.ret (.to ⟨3, true, false⟩)) ∧
    deduce cl (P.cond cl) (visitor [⟨P.name (.to ⟨9, false, true⟩), false, false⟩, ts[1], ts[2]]) ⟨false, false⟩ ArithmeticExample.elems =
      some (P.ret (.to ⟨9, true, true⟩)) := by
  refine ⟨?_, ?_, ?_, ?_⟩ <;> decide

/-- Of `D2*` and `D1*` together with `B*` in two orders. -/
example : P.ret (.to ⟨3, true, false⟩) = P.ret (.to ⟨3, true, false⟩) :=
  C54_pointers_order hc hv (ts := ts) (ts' := [ts[1], ts[0], ts[2]]) (List.Perm.swap _ _ _) (by simp [ts]) (visitor := visitor ts)
    (visitor' := visitor [ts[1], ts[0], ts[2]]) (p := ⟨false, false⟩) (p' := ⟨false, false⟩) (elems := ArithmeticExample.elems)
    (elems' := ArithmeticExample.elems) ⟨.inl rfl, rfl⟩ ⟨.inl rfl, rfl⟩ (by decide) (by decide) (by decide)

end PointerExample

end BVariant
