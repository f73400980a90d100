/-
C54 for visitors whose overloads return different arithmetic types.
-/
import Verif.Meta.Arithmetic
import Verif.Props.ResultType

namespace BVariant

section
variable {A : Platform} {cl : Classes}

/-- Specification: conversion of arithmetic types "upwards". A signed type goes to the unsigned ones that are not shorter, an unsigned type
to the signed ones that are longer and have all its values. -/
inductive Platform.Le (A : Platform) : PTy → PTy → Prop
  | same {u : Bool} {a b : Nat} : a ≤ b → A.Le (.int u a) (.int u b)
  | toUnsigned {a b : Nat} : a ≤ b → A.Le (.int false a) (.int true b)
  | toSigned {a b : Nat} : a < b → A.width a < A.width b → A.Le (.int true a) (.int false b)
  | toFloat {u : Bool} {a b : Nat} : A.Le (.int u a) (.float b)
  | float {a b : Nat} : a ≤ b → A.Le (.float a) (.float b)

/-- Specification: `q` is the common type: the least one to which all of `ps` go. -/
def Platform.Common (A : Platform) (q : PTy) (ps : List PTy) : Prop := (∀ p ∈ ps, A.Le p q) ∧ ∀ q', (∀ p ∈ ps, A.Le p q') → A.Le q q'

theorem Platform.Le.refl (p : PTy) : A.Le p p := by
  cases p
  · exact .same (Nat.le_refl _)
  · exact .float (Nat.le_refl _)

theorem Platform.Le.trans {p q r : PTy} (h1 : A.Le p q) (h2 : A.Le q r) : A.Le p r := by
  cases h1 with
  | same h =>
    cases h2 with
    | same h' => exact .same (by omega)
    | toUnsigned h' => exact .toUnsigned (by omega)
    | @toSigned a b h' hw => exact .toSigned (by omega) (Nat.lt_of_le_of_lt (A.width_mono _ _ h) hw)
    | toFloat => exact .toFloat
  | toUnsigned h =>
    cases h2 with
    | same h' => exact .toUnsigned (by omega)
    | toSigned h' hw => exact .same (by omega)
    | toFloat => exact .toFloat
  | toSigned h hw =>
    cases h2 with
    | same h' => exact .toSigned (by omega) (Nat.lt_of_lt_of_le hw (A.width_mono _ _ h'))
    | toUnsigned h' => exact .same (by omega)
    | toFloat => exact .toFloat
  | toFloat => cases h2; exact .toFloat
  | float h => cases h2 with | float h' => exact .float (by omega)

theorem Platform.Le.antisymm {p q : PTy} (h1 : A.Le p q) (h2 : A.Le q p) : p = q := by
  cases h1 with
  | same h => cases h2 with | same h' => rw [Nat.le_antisymm h h']
  | toUnsigned h => cases h2 with | toSigned h' hw => omega
  | toSigned h hw => cases h2 with | toUnsigned h' => omega
  | toFloat => cases h2
  | float h => cases h2 with | float h' => rw [Nat.le_antisymm h h']

theorem Platform.common_lub (p q r : PTy) : A.Le (A.common p q) r ↔ A.Le p r ∧ A.Le q r := by
  have hle1 : A.Le p (A.common p q) := by
    cases p with
    | float a => cases q with
      | float b => exact .float (Nat.le_max_left ..)
      | int v b => exact .refl _
    | int u a => cases q with
      | float b => exact .toFloat
      | int v b =>
        unfold Platform.common
        cases u <;> cases v <;> simp only [if_true, Bool.false_eq_true, Bool.true_eq_false, if_false]
        · exact .same (Nat.le_max_left ..)
        · split
          · exact .toUnsigned (by assumption)
          · split
            · exact .same (Nat.le_refl _)
            · exact .toUnsigned (Nat.le_refl _)
        · split
          · exact .same (Nat.le_refl _)
          · split
            · exact .toSigned (by omega) (by assumption)
            · exact .same (by omega)
        · exact .same (Nat.le_max_left ..)
  have hle2 : A.Le q (A.common p q) := by
    cases p with
    | float a => cases q with
      | float b => exact .float (Nat.le_max_right ..)
      | int v b => exact .toFloat
    | int u a => cases q with
      | float b => exact .refl _
      | int v b =>
        unfold Platform.common
        cases u <;> cases v <;> simp only [if_true, Bool.false_eq_true, Bool.true_eq_false, if_false]
        · exact .same (Nat.le_max_right ..)
        · split
          · exact .same (Nat.le_refl _)
          · split
            · exact .toSigned (by omega) (by assumption)
            · exact .same (by omega)
        · split
          · exact .toUnsigned (by assumption)
          · split
            · exact .same (Nat.le_refl _)
            · exact .toUnsigned (Nat.le_refl _)
        · exact .same (Nat.le_max_right ..)
  refine ⟨fun h => ⟨hle1.trans h, hle2.trans h⟩, ?_⟩
  rintro ⟨h1, h2⟩
  cases p with
  | float a =>
    cases h1 with
    | float h =>
      cases q with
      | float b => cases h2 with | float h' => exact .float (by omega)
      | int v b => exact .float h
  | int u a =>
    cases q with
    | float b => cases h2 with | float h' => exact .float h'
    | int v b =>
      unfold Platform.common
      cases h1 with
      | toFloat => cases u <;> cases v <;> simp only [if_true, Bool.false_eq_true, Bool.true_eq_false, if_false] <;> (repeat' split) <;> exact .toFloat
      | same h =>
        cases h2 with
        | same h' => simp only [if_true]; exact .same (by omega)
        | toUnsigned h' =>
          simp only [Bool.true_eq_false, if_false, if_true]
          repeat' split
          · exact .same h
          · exact .toUnsigned h'
          · exact .same h'
        | toSigned h' hw =>
          simp only [Bool.false_eq_true, if_false]
          repeat' split
          · exact .toSigned h' hw
          · exact .same h
          · rename_i hn hw'
            have hac : A.width a < A.width _ := Nat.lt_of_le_of_lt (by omega) hw
            refine .toSigned (Nat.lt_of_le_of_ne h fun e => ?_) hac
            rw [e] at hac
            omega
      | toUnsigned h =>
        cases h2 with
        | same h' =>
          simp only [Bool.false_eq_true, if_false]
          repeat' split
          · exact .same h'
          · exact .toUnsigned h
          · exact .same h
        | toUnsigned h' => simp only [if_true]; exact .toUnsigned (by omega)
      | toSigned h hw =>
        cases h2 with
        | same h' =>
          simp only [Bool.true_eq_false, if_false, if_true]
          repeat' split
          · exact .toSigned h hw
          · exact .same h'
          · rename_i hn hw'
            have hbc : A.width b < A.width _ := Nat.lt_of_le_of_lt (by omega) hw
            refine .toSigned (Nat.lt_of_le_of_ne h' fun e => ?_) hbc
            rw [e] at hbc
            omega
        | toSigned h' hw' =>
          simp only [if_true]
          refine .toSigned (by omega) ?_
          rcases Nat.le_total a b with hab | hab
          · rwa [Nat.max_eq_right hab]
          · rwa [Nat.max_eq_left hab]

theorem Platform.Common.unique {q q' : PTy} {ps : List PTy} (h : A.Common q ps) (h' : A.Common q' ps) : q = q' :=
  (h.2 _ h'.1).antisymm (h'.2 _ h.1)

theorem Platform.common_singleton (p : PTy) : A.Common p [p] :=
  ⟨fun _ h => by rw [List.mem_singleton] at h; rw [h]; exact .refl _, fun q' h => h p (by simp)⟩

theorem Platform.Common.cons {p q : PTy} {ps : List PTy} (h : A.Common q ps) : A.Common (A.common p q) (p :: ps) := by
  have hl := (A.common_lub p q _).mp (.refl _)
  refine ⟨fun x hx => ?_, fun q' hq => ?_⟩
  · rcases List.mem_cons.mp hx with rfl | hx
    · exact hl.1
    · exact (h.1 x hx).trans hl.2
  · exact (A.common_lub p q q').mpr ⟨hq p (by simp), h.2 q' fun x hx => hq x (List.mem_cons_of_mem _ hx)⟩

/-- There is a common type. -/
theorem Platform.common_exists (A : Platform) : ∀ {ps : List PTy}, ps ≠ [] → ∃ q, A.Common q ps
  | [], h => absurd rfl h
  | [p], _ => ⟨p, common_singleton p⟩
  | p :: p' :: ps, _ => by
    obtain ⟨q, hq⟩ := A.common_exists (ps := p' :: ps) (by simp)
    exact ⟨_, hq.cons⟩

/-! ### The deduced type -/

/-- Specification: the number of the type that is returned, without references and qualifiers. -/
def RetTy.base : RetTy → Nat
  | .void => 0
  | .val t | .lref t | .rref t => t.base

/-- Specification: the overload returns an arithmetic type that promotes to `p`: `T` or `T&` with any qualifiers, or `T&&` without. -/
def RetTy.Arith (A : Platform) (r : RetTy) (p : PTy) : Prop :=
  ((∃ t, r = .val t) ∨ (∃ t, r = .lref t) ∨ ∃ b, r = .rref ⟨b, false, false⟩) ∧ A.promote r.base = some p

/-- What is found for overloads about the type `b`. -/
def RetTy.Like (r : RetTy) (b : Nat) : Prop :=
  r = .val ⟨b, false, false⟩ ∨ (∃ t : CvTy, t.base = b ∧ r = .lref t) ∨ r = .rref ⟨b, false, false⟩

theorem RetTy.Like.base_eq {r : RetTy} {b : Nat} (h : r.Like b) : r.base = b := by
  rcases h with rfl | ⟨t, h, rfl⟩ | rfl
  · rfl
  · exact h
  · rfl

theorem cvTy_of_base {t : CvTy} {b : Nat} (h : t.base = b) : t.removeCv = ⟨b, false, false⟩ := by
  subst h; rfl

/-- The call of an arithmetic overload. -/
theorem RetTy.Arith.call {r : RetTy} {p : PTy} (hcl : ∀ b p, A.promote b = some p → cl.isClass b = false) (h : r.Arith A p) :
    ∃ t c, r.call cl = .of c t ∧ t.base = r.base ∧ (c = .lvalue ∨ t = ⟨r.base, false, false⟩) ∧ (c = .xvalue ↔ r = .rref ⟨r.base, false, false⟩) := by
  obtain ⟨⟨t, rfl⟩ | ⟨t, rfl⟩ | ⟨b, rfl⟩, hp⟩ := h
  · have := hcl _ _ hp
    simp only [RetTy.base] at this
    refine ⟨⟨t.base, false, false⟩, .prvalue, ?_, rfl, .inr rfl, by simp⟩
    simp [RetTy.call, Classes.prTy, this, CvTy.removeCv]
  · exact ⟨t, .lvalue, rfl, rfl, .inl rfl, by simp⟩
  · exact ⟨_, .xvalue, rfl, rfl, .inr rfl, by simp [RetTy.base]⟩

theorem RetTy.Like.declval {r : RetTy} {b : Nat} (h : r.Like b) :
    ∃ t c, r.declval = .of c t ∧ t.base = b ∧ (c = .lvalue ∨ (c = .xvalue ∧ t = ⟨b, false, false⟩)) := by
  rcases h with rfl | ⟨t, h, rfl⟩ | rfl
  · exact ⟨_, .xvalue, rfl, rfl, .inr ⟨rfl, rfl⟩⟩
  · exact ⟨t, .lvalue, rfl, h, .inl rfl⟩
  · exact ⟨_, .xvalue, rfl, rfl, .inr ⟨rfl, rfl⟩⟩

theorem cond_diff {r R : RetTy} {p p' : PTy} {b : Nat} (hcl : ∀ b p, A.promote b = some p → cl.isClass b = false) (hr : r.Arith A p) (hR : R.Like b)
    (hb : A.promote b = some p') (hne : r.base ≠ b) :
    (condOp cl A.cond (r.call cl) R.declval).map Expr.decltype = some (.val ⟨A.name (A.common p p'), false, false⟩) := by
  obtain ⟨t, c, h1, h2, -, -⟩ := hr.call hcl
  obtain ⟨t', c', h1', h2', -⟩ := hR.declval
  have hp := hr.2
  rw [← h2] at hp hne
  rw [← h2'] at hb hne
  have htt : t ≠ t' := fun e => hne (by rw [e])
  rw [h1, h1']
  simp [condOp, htt, Platform.cond, hp, hb, hne, Expr.decltype]

theorem cond_same {r R : RetTy} {p : PTy} (hcl : ∀ b p, A.promote b = some p → cl.isClass b = false) (hr : r.Arith A p) (hR : R.Like r.base) :
    ∃ R', (condOp cl A.cond (r.call cl) R.declval).map Expr.decltype = some R' ∧ R'.Like r.base := by
  obtain ⟨t, c, h1, h2, h3, -⟩ := hr.call hcl
  obtain ⟨t', c', h1', h2', h3'⟩ := hR.declval
  have hp := hr.2
  have hc : cl.isClass t.base = false := by rw [h2]; exact hcl _ _ hp
  rw [h1, h1', ← h2] at *
  by_cases htt : t = t'
  · subst htt
    simp only [condOp, if_true]
    split
    · refine ⟨_, rfl, ?_⟩
      rcases h3' with rfl | ⟨rfl, ht⟩
      · rename_i hcc; rw [hcc.1]; exact .inr (.inl ⟨t, rfl, rfl⟩)
      · rename_i hcc; rw [hcc.1, ht]; exact .inr (.inr rfl)
    · refine ⟨_, rfl, .inl ?_⟩
      simp [Expr.decltype, Classes.prTy, hc, CvTy.removeCv]
  · simp only [condOp, htt, if_false, Platform.cond, h2', hp, if_true]
    split
    · refine ⟨_, rfl, ?_⟩
      rename_i hcc
      rcases h3' with rfl | ⟨rfl, ht⟩
      · rw [hcc.1]; exact .inr (.inl ⟨t, rfl, rfl⟩)
      · rcases h3 with h3 | h3
        · rw [h3] at hcc; exact absurd hcc.1 (by simp)
        · exact absurd (h3.trans ht.symm) htt
    · split
      · refine ⟨_, rfl, ?_⟩
        rename_i hcc
        rcases h3' with rfl | ⟨rfl, ht⟩
        · rw [hcc.1]; exact .inr (.inl ⟨t', h2', rfl⟩)
        · rcases h3 with h3 | h3
          · rw [h3] at hcc; exact absurd hcc.1 (by simp)
          · exact absurd (h3.trans ht.symm) htt
      · exact ⟨_, rfl, .inl rfl⟩

theorem cond_rvalue {r R : RetTy} {p : PTy} (hcl : ∀ b p, A.promote b = some p → cl.isClass b = false) (hr : r.Arith A p)
    (hR : R = .val ⟨r.base, false, false⟩ ∨ R = .rref ⟨r.base, false, false⟩) :
    (r = .rref ⟨r.base, false, false⟩ → (condOp cl A.cond (r.call cl) R.declval).map Expr.decltype = some (.rref ⟨r.base, false, false⟩)) ∧
    (r ≠ .rref ⟨r.base, false, false⟩ → (condOp cl A.cond (r.call cl) R.declval).map Expr.decltype = some (.val ⟨r.base, false, false⟩)) := by
  obtain ⟨t, c, h1, h2, h3, h4⟩ := hr.call hcl
  have hp := hr.2
  have hc : cl.isClass r.base = false := hcl _ _ hp
  have hd : R.declval = .of .xvalue ⟨r.base, false, false⟩ := by rcases hR with rfl | rfl <;> rfl
  rw [h1, hd]
  constructor
  · intro hx
    have hx := h4.mpr hx
    subst hx
    rcases h3 with h3 | rfl
    · cases h3
    · simp [condOp, Expr.decltype]
  · intro hx
    have hx : c ≠ .xvalue := fun h => hx (h4.mp h)
    by_cases htt : t = ⟨r.base, false, false⟩
    · subst htt
      simp [condOp, hx, Expr.decltype, Classes.prTy, hc, CvTy.removeCv]
    · simp [condOp, htt, Platform.cond, h2, hp, hx, Expr.decltype, CvTy.removeCv]

/-- Specification: the overloads return different arithmetic types. -/
def Mixed (rs : List RetTy) : Prop := ∃ r ∈ rs, ∃ r' ∈ rs, r.base ≠ r'.base

theorem bind_decltype {e : Option Expr} : (do let e ← e; pure e.decltype) = e.map Expr.decltype := by cases e <;> rfl

theorem deduceImpl_arith (hcl : ∀ b p, A.promote b = some p → cl.isClass b = false) (r0 : RetTy) (rs : List RetTy) (ps : List PTy)
    (hps : (r0 :: rs).map (fun r => A.promote r.base) = ps.map some) (h : ∀ r ∈ r0 :: rs, ∃ p, r.Arith A p) :
    ((¬ Mixed (r0 :: rs)) → ∃ R, deduceImpl cl A.cond ((r0 :: rs).map some) = some R ∧ R.Like r0.base) ∧
    (Mixed (r0 :: rs) → ∀ q, A.Common q ps →
      ((r0 = .rref ⟨A.name q, false, false⟩ ∧ Mixed rs ∧ A.Common q ps.tail) →
        deduceImpl cl A.cond ((r0 :: rs).map some) = some (.rref ⟨A.name q, false, false⟩)) ∧
      (¬ (r0 = .rref ⟨A.name q, false, false⟩ ∧ Mixed rs ∧ A.Common q ps.tail) →
        deduceImpl cl A.cond ((r0 :: rs).map some) = some (.val ⟨A.name q, false, false⟩))) := by
  induction rs generalizing r0 ps with
  | nil =>
    constructor
    · intro _
      obtain ⟨p, hr⟩ := h r0 (by simp)
      refine ⟨_, rfl, ?_⟩
      obtain ⟨⟨t, rfl⟩ | ⟨t, rfl⟩ | ⟨b, rfl⟩, hp⟩ := hr
      · have := hcl _ _ hp
        simp only [RetTy.base] at this
        exact .inl (by simp [RetTy.call, Expr.decltype, Classes.prTy, this, CvTy.removeCv, RetTy.base])
      · exact .inr (.inl ⟨t, rfl, rfl⟩)
      · exact .inr (.inr rfl)
    · rintro ⟨r, hr, r', hr', hne⟩
      rw [List.mem_singleton] at hr hr'
      subst hr hr'
      exact absurd rfl hne
  | cons r1 rs ih =>
    cases ps with
    | nil => cases hps
    | cons p0 ps =>
      simp only [List.map_cons, List.cons.injEq] at hps
      obtain ⟨hp0, hps⟩ := hps
      obtain ⟨p0', hr0⟩ := h r0 (by simp)
      have : p0' = p0 := by have := hr0.2; rw [hp0] at this; cases this; rfl
      subst this
      obtain ⟨ih1, ih2⟩ := ih r1 ps (by simpa using hps) (fun r hr => h r (List.mem_cons_of_mem _ hr))
      have hstep : ∀ {R : RetTy}, deduceImpl cl A.cond ((r1 :: rs).map some) = some R →
          deduceImpl cl A.cond ((r0 :: r1 :: rs).map some) = (condOp cl A.cond (r0.call cl) R.declval).map Expr.decltype := by
        intro R hR
        simp only [List.map_cons] at hR ⊢
        rw [deduceImpl, hR]
        · show (do let e ← condOp cl A.cond (r0.call cl) R.declval; pure e.decltype) = _
          exact bind_decltype
        · simp
      by_cases hm : Mixed (r1 :: rs)
      · -- the rest is mixed
        refine ⟨fun hn => absurd ?_ hn, fun _ q hq => ?_⟩
        · obtain ⟨r, hr, r', hr', hne⟩ := hm
          exact ⟨r, List.mem_cons_of_mem _ hr, r', List.mem_cons_of_mem _ hr', hne⟩
        · have hne : ps ≠ [] := by rintro rfl; simp at hps
          obtain ⟨q', hq'⟩ := A.common_exists hne
          have hqq : q = A.common p0' q' := hq.unique hq'.cons
          have hR : ∃ R, deduceImpl cl A.cond ((r1 :: rs).map some) = some R ∧
              (R = .val ⟨A.name q', false, false⟩ ∨ R = .rref ⟨A.name q', false, false⟩) := by
            obtain ⟨i1, i2⟩ := ih2 hm q' hq'
            by_cases hc : r1 = .rref ⟨A.name q', false, false⟩ ∧ Mixed rs ∧ A.Common q' ps.tail
            · exact ⟨_, i1 hc, .inr rfl⟩
            · exact ⟨_, i2 hc, .inl rfl⟩
          obtain ⟨R, hR, hRv⟩ := hR
          rw [hstep hR]
          by_cases hb : r0.base = A.name q'
          · have hpq : p0' = q' := by
              have := hr0.2
              rw [hb, A.promote_name] at this
              cases this; rfl
            subst hpq
            have hq1 : q = p0' := by
              rw [hqq]
              exact (hq'.cons.2 p0' fun x hx => by
                rcases List.mem_cons.mp hx with rfl | hx
                · exact .refl _
                · exact hq'.1 x hx).antisymm (hq'.cons.1 p0' (by simp))
            clear hqq
            subst hq1
            rw [← hb] at hRv
            have := cond_rvalue hcl hr0 hRv
            rw [hb] at this
            refine ⟨fun hx => this.1 hx.1, fun hx => this.2 fun e => hx ⟨e, hm, hq'⟩⟩
          · have hlike : R.Like (A.name q') := hRv.elim .inl fun h => .inr (.inr h)
            have := cond_diff hcl hr0 hlike (A.promote_name q') hb
            rw [← hqq] at this
            refine ⟨fun hx => absurd ?_ hb, fun _ => this⟩
            rw [hx.1, hx.2.2.unique hq']
            rfl
      · -- the rest is about one type
        obtain ⟨R, hR, hl⟩ := ih1 hm
        have hall : ∀ r ∈ r1 :: rs, r.base = r1.base := fun r hr => Classical.byContradiction fun e => hm ⟨r, hr, r1, by simp, e⟩
        rw [hstep hR]
        by_cases hb : r0.base = r1.base
        · refine ⟨fun _ => cond_same hcl hr0 (hb ▸ hl), fun hx => absurd hx ?_⟩
          rintro ⟨r, hr, r', hr', hne⟩
          have : ∀ r ∈ r0 :: r1 :: rs, r.base = r1.base := fun r hr => by
            rcases List.mem_cons.mp hr with rfl | hr
            · exact hb
            · exact hall r hr
          exact hne (by rw [this r hr, this r' hr'])
        · refine ⟨fun hn => absurd ⟨r0, by simp, r1, by simp, hb⟩ hn, fun _ q hq => ⟨fun hx => absurd hx.2.1 hm, fun _ => ?_⟩⟩
          obtain ⟨p1, hr1⟩ := h r1 (by simp)
          have hps1 : ∀ p ∈ ps, p = p1 := by
            intro p hp
            have : some p ∈ ps.map some := List.mem_map.mpr ⟨p, hp, rfl⟩
            rw [← hps] at this
            have : some p ∈ (r1 :: rs).map fun r => A.promote r.base := by simpa using this
            obtain ⟨r, hr, he⟩ := List.mem_map.mp this
            rw [hall r hr, hr1.2] at he
            cases he; rfl
          have hne : ps ≠ [] := by rintro rfl; simp at hps
          have hc1 : A.Common p1 ps := by
            refine ⟨fun p hp => by rw [hps1 p hp]; exact .refl _, fun q' hq' => ?_⟩
            cases ps with
            | nil => exact absurd rfl hne
            | cons x xs => rw [← hps1 x (by simp)]; exact hq' x (by simp)
          rw [cond_diff hcl hr0 hl hr1.2 hb, hq.unique hc1.cons]

/-- C54, arithmetic types: if the overloads return arithmetic types that are not all the same, the deduced type is their common type, by value;
unless the overload for the first bounded type returns an rvalue reference to what already is the common type of the others, which are not all
the same. Then the deduced type is that rvalue reference. -/
theorem C54_arithmetic (hcl : ∀ b p, A.promote b = some p → cl.isClass b = false) {visitor : Expr → Option RetTy} {p : Passed} {elems : List Elem}
    {r0 : RetTy} {rs : List RetTy} {ps : List PTy} (h : Returns visitor p elems (r0 :: rs)) (ha : ∀ r ∈ r0 :: rs, ∃ p, r.Arith A p)
    (hps : (r0 :: rs).map (fun r => A.promote r.base) = ps.map some) (hm : Mixed (r0 :: rs)) :
    ∃ q, A.Common q ps ∧
      ((r0 = .rref ⟨A.name q, false, false⟩ ∧ Mixed rs ∧ A.Common q ps.tail) → deduce cl A.cond visitor p elems = some (.rref ⟨A.name q, false, false⟩)) ∧
      (¬ (r0 = .rref ⟨A.name q, false, false⟩ ∧ Mixed rs ∧ A.Common q ps.tail) → deduce cl A.cond visitor p elems = some (.val ⟨A.name q, false, false⟩)) := by
  have hne : ps ≠ [] := by rintro rfl; simp at hps
  obtain ⟨q, hq⟩ := A.common_exists hne
  rw [h.deduce_eq]
  exact ⟨q, hq, (deduceImpl_arith hcl r0 rs ps hps ha).2 hm q hq⟩

/-- C54, arithmetic types, order: if moreover no overload returns an rvalue reference, the deduced type does not depend on the order of the bounded types,
and every result is returned as it is or converted by value. -/
theorem C54_arithmetic_order (hcl : ∀ b p, A.promote b = some p → cl.isClass b = false) {visitor visitor' : Expr → Option RetTy} {p p' : Passed}
    {elems elems' : List Elem} {rs rs' : List RetTy} (hperm : rs.Perm rs') (h : Returns visitor p elems rs) (h' : Returns visitor' p' elems' rs')
    (ha : ∀ r ∈ rs, ∃ p, r.Arith A p) (hm : Mixed rs) (hv : ∀ r ∈ rs, ∀ t, r ≠ .rref t) :
    ∃ t, deduce cl A.cond visitor p elems = some (.val t) ∧ deduce cl A.cond visitor' p' elems' = some (.val t) ∧
      ∀ r ∈ rs, returnFit cl Platform.fit (.val t) r = .same ∨ returnFit cl Platform.fit (.val t) r = .converted := by
  have key : ∀ {vis : Expr → Option RetTy} {pp : Passed} {es : List Elem} {ts : List RetTy}, Returns vis pp es ts → (∀ r ∈ ts, ∃ p, r.Arith A p) →
      Mixed ts → (∀ r ∈ ts, ∀ t, r ≠ .rref t) → ∃ q, (∀ q', A.Le q q' ↔ ∀ r ∈ ts, ∀ x, A.promote r.base = some x → A.Le x q') ∧
        deduce cl A.cond vis pp es = some (.val ⟨A.name q, false, false⟩) := by
    intro vis pp es ts h ha hm hv
    cases ts with
    | nil => obtain ⟨r, hr, -⟩ := hm; cases hr
    | cons r0 ts =>
      have hps : ∃ ps : List PTy, (r0 :: ts).map (fun r => A.promote r.base) = ps.map some := by
        clear hm h hv
        generalize r0 :: ts = l at ha
        induction l with
        | nil => exact ⟨[], rfl⟩
        | cons r l ih =>
          obtain ⟨ps, hps⟩ := ih fun r hr => ha r (List.mem_cons_of_mem _ hr)
          obtain ⟨p, hp⟩ := ha r (by simp)
          exact ⟨p :: ps, by rw [List.map_cons, List.map_cons, hps, hp.2]⟩
      obtain ⟨ps, hps⟩ := hps
      obtain ⟨q, hq, -, hd⟩ := C54_arithmetic hcl h ha hps hm
      refine ⟨q, fun q' => ⟨fun hl r hr x hx => ?_, fun hl => hq.2 q' fun x hx => ?_⟩, hd fun hc => hv r0 (by simp) _ hc.1⟩
      · refine (hq.1 x ?_).trans hl
        have : some x ∈ ps.map some := by rw [← hps, ← hx]; exact List.mem_map.mpr ⟨r, hr, rfl⟩
        obtain ⟨y, hy, he⟩ := List.mem_map.mp this
        cases he
        exact hy
      · have : some x ∈ (r0 :: ts).map fun r => A.promote r.base := by rw [hps]; exact List.mem_map.mpr ⟨x, hx, rfl⟩
        obtain ⟨r, hr, he⟩ := List.mem_map.mp this
        exact hl r hr x he
  have hmem : ∀ r, r ∈ rs' ↔ r ∈ rs := fun r => hperm.mem_iff.symm
  obtain ⟨q, hq, hd⟩ := key h ha hm hv
  obtain ⟨q', hq', hd'⟩ := key h' (fun r hr => ha r ((hmem r).mp hr))
    (by obtain ⟨r, hr, r', hr', hne⟩ := hm; exact ⟨r, (hmem r).mpr hr, r', (hmem r').mpr hr', hne⟩) (fun r hr => hv r ((hmem r).mp hr))
  have hqq : q = q' := by
    have e : ∀ x, A.Le q x ↔ A.Le q' x := fun x => by
      rw [hq, hq']
      exact ⟨fun h r hr => h r ((hmem r).mp hr), fun h r hr => h r ((hmem r).mpr hr)⟩
    exact ((e q').mpr (.refl _)).antisymm ((e q).mp (.refl _))
  subst hqq
  refine ⟨_, hd, hd', fun r hr => ?_⟩
  obtain ⟨x, ⟨t, rfl⟩ | ⟨t, rfl⟩ | ⟨b, rfl⟩, -⟩ := ha r hr
  · simp only [returnFit, Platform.fit]
    split
    · exact .inl rfl
    · exact .inr rfl
  · simp [returnFit, Platform.fit]
  · exact absurd rfl (hv _ hr _)

/-- Specification: the values of an integer type. -/
def Platform.values (A : Platform) : PTy → Int → Prop
  | .int true r, v => 0 ≤ v ∧ v < 2 ^ A.width r
  | .int false r, v => -2 ^ (A.width r - 1) ≤ v ∧ v < 2 ^ (A.width r - 1)
  | .float _, _ => True

/-- C54, integer types: a value that an overload returns is a value of the deduced type, unless it is negative and the deduced type is unsigned. -/
theorem C54_arithmetic_values {q p : PTy} {ps : List PTy} (hq : A.Common q ps) (hp : p ∈ ps) {v : Int} (hv : A.values p v) :
    A.values q v ∨ (v < 0 ∧ ∃ r, q = .int true r) := by
  have pow_le : ∀ {m n : Nat}, m ≤ n → (2 : Int) ^ m ≤ 2 ^ n := fun {m n} h => by
    have := Nat.pow_le_pow_right (n := 2) (by omega) h
    exact_mod_cast this
  cases hq.1 p hp with
  | @same u a b h =>
    have hw := A.width_mono _ _ h
    cases u with
    | true => exact .inl ⟨hv.1, Int.lt_of_lt_of_le hv.2 (pow_le hw)⟩
    | false =>
      have : (2 : Int) ^ (A.width a - 1) ≤ 2 ^ (A.width b - 1) := pow_le (by omega)
      have h1 := hv.1
      exact .inl ⟨by omega, Int.lt_of_lt_of_le hv.2 this⟩
  | @toUnsigned a b h =>
    have hw := A.width_mono _ _ h
    by_cases h0 : v < 0
    · exact .inr ⟨h0, _, rfl⟩
    · exact .inl ⟨by omega, Int.lt_of_lt_of_le hv.2 (pow_le (by omega))⟩
  | @toSigned a b h hw =>
    have : (2 : Int) ^ A.width a ≤ 2 ^ (A.width b - 1) := pow_le (by omega)
    have h1 := hv.1
    have h2 : (0 : Int) ≤ 2 ^ (A.width b - 1) := Int.le_of_lt (Int.pow_pos (by omega))
    exact .inl ⟨by omega, Int.lt_of_lt_of_le hv.2 this⟩
  | toFloat => exact .inl trivial
  | float => exact .inl trivial

/-- C54, arithmetic types, finding F21 again: in the exceptional case of `C54_arithmetic` the result of some overload is a temporary, to which the
returned reference dangles. -/
theorem C54_arithmetic_dangling {q : PTy} {rs : List RetTy} (ha : ∀ r ∈ rs, ∃ p, r.Arith A p) (hm : Mixed rs) :
    ∃ r ∈ rs, returnFit cl Platform.fit (.rref ⟨A.name q, false, false⟩) r = .dangling := by
  have : ∃ r ∈ rs, r.base ≠ A.name q := by
    obtain ⟨r, hr, r', hr', hne⟩ := hm
    by_cases h : r.base = A.name q
    · exact ⟨r', hr', fun h' => hne (h.trans h'.symm)⟩
    · exact ⟨r, hr, h⟩
  obtain ⟨r, hr, hne⟩ := this
  refine ⟨r, hr, ?_⟩
  have key : ∀ t : CvTy, t.base ≠ A.name q → (⟨A.name q, false, false⟩ : CvTy) ≠ t ∧ ¬ A.name q = t.base :=
    fun t h => ⟨fun e => h (by rw [← e]), fun e => h e.symm⟩
  obtain ⟨x, ⟨t, rfl⟩ | ⟨t, rfl⟩ | ⟨b, rfl⟩, -⟩ := ha r hr
  · simp [returnFit, Platform.fit, key t hne]
  · simp [returnFit, Platform.fit, key t hne]
  · have := key ⟨b, false, false⟩ hne
    simp only [returnFit, Platform.fit, if_neg this.1, if_neg this.2]

end

/-! The hypotheses hold for a usual platform: 0, 1, 2 are `char`, `short`, `bool`; then classes; from 10 on `int`, `unsigned`, `float`, `long`,
`unsigned long`, `double`, and so on. -/
namespace ArithmeticExample

def A : Platform where
  width r := if r = 0 then 32 else 64
  width_pos r := by split <;> omega
  width_mono r s h := by split <;> split <;> omega
  promote n := if n < 3 then some (.int false 0) else if n < 10 then none
    else if (n - 10) % 3 = 0 then some (.int false ((n - 10) / 3)) else if (n - 10) % 3 = 1 then some (.int true ((n - 10) / 3)) else some (.float ((n - 10) / 3))
  name
    | .int false r => 10 + 3 * r
    | .int true r => 11 + 3 * r
    | .float r => 12 + 3 * r
  promote_name q := by
    rcases q with ⟨_ | _, r⟩ | r <;> dsimp only
    · rw [if_neg (by omega), if_neg (by omega), if_pos (by omega)]; congr; omega
    · rw [if_neg (by omega), if_neg (by omega), if_neg (by omega), if_pos (by omega)]; congr; omega
    · rw [if_neg (by omega), if_neg (by omega), if_neg (by omega), if_neg (by omega)]; congr; omega

def cl : Classes where
  isClass n := decide (3 ≤ n ∧ n < 10)
  baseOf _ _ := false

theorem hcl : ∀ b p, A.promote b = some p → cl.isClass b = false := by
  intro b p h
  simp only [A] at h
  simp only [cl, decide_eq_false_iff_not]
  split at h
  · omega
  · split at h
    · cases h
    · omega

/-- Three bounded types. -/
def elems : List Elem := [.val ⟨3, false, false⟩, .wrapped ⟨4, false, false⟩, .val ⟨5, true, false⟩]

def visitor (a b c : RetTy) : Expr → Option RetTy
  | .of _ t => some (if t.base = 3 then a else if t.base = 4 then b else c)
  | .void => none

theorem returns (a b c : RetTy) : Returns (visitor a b c) ⟨false, false⟩ elems [a, b, c] := ⟨.inl rfl, rfl⟩

/-- Overloads returning `char`, `unsigned&` and `const long&`: the deduced type is `long`. -/
def rs : List RetTy := [.val ⟨0, false, false⟩, .lref ⟨11, false, false⟩, .lref ⟨13, true, false⟩]

theorem arith : ∀ r ∈ rs, ∃ p, r.Arith A p := by
  intro r hr
  simp only [rs, List.mem_cons, List.not_mem_nil, or_false] at hr
  rcases hr with rfl | rfl | rfl
  · exact ⟨_, .inl ⟨_, rfl⟩, rfl⟩
  · exact ⟨_, .inr (.inl ⟨_, rfl⟩), rfl⟩
  · exact ⟨_, .inr (.inl ⟨_, rfl⟩), rfl⟩

example : deduce cl A.cond (visitor (.val ⟨0, false, false⟩) (.lref ⟨11, false, false⟩) (.lref ⟨13, true, false⟩)) ⟨false, false⟩ elems =
    some (.val ⟨13, false, false⟩) := by decide

example : ∃ q, A.Common q [.int false 0, .int true 0, .int false 1] ∧
    ¬ (RetTy.val ⟨0, false, false⟩ = .rref ⟨A.name q, false, false⟩ ∧ Mixed rs.tail ∧ A.Common q [.int true 0, .int false 1]) := by
  obtain ⟨q, hq, -⟩ := C54_arithmetic hcl (returns _ _ _) arith (ps := [.int false 0, .int true 0, .int false 1]) rfl
    ⟨.val ⟨0, false, false⟩, by simp, .lref ⟨11, false, false⟩, by simp, by decide⟩
  exact ⟨q, hq, fun h => by cases h.1⟩

/-- In another order it is the same type. -/
example : ∃ t, deduce cl A.cond (visitor (.val ⟨0, false, false⟩) (.lref ⟨11, false, false⟩) (.lref ⟨13, true, false⟩)) ⟨false, false⟩ elems = some (.val t) ∧
    deduce cl A.cond (visitor (.lref ⟨13, true, false⟩) (.lref ⟨11, false, false⟩) (.val ⟨0, false, false⟩)) ⟨false, false⟩ elems = some (.val t) := by
  obtain ⟨t, h1, h2, -⟩ := C54_arithmetic_order hcl (rs := rs) (rs' := rs.reverse) (List.reverse_perm _).symm (returns _ _ _) (returns _ _ _) arith
    ⟨.val ⟨0, false, false⟩, by simp [rs], .lref ⟨11, false, false⟩, by simp [rs], by decide⟩
    (by intro r hr t; simp only [rs, List.mem_cons, List.not_mem_nil, or_false] at hr; rcases hr with rfl | rfl | rfl <;> simp)
  exact ⟨t, h1, h2⟩

/-- `int`, `unsigned` and `short`: the deduced type is `unsigned`, and −1 is changed. -/
example : deduce cl A.cond (visitor (.val ⟨10, false, false⟩) (.val ⟨11, false, false⟩) (.val ⟨1, false, false⟩)) ⟨false, false⟩ elems =
      some (.val ⟨11, false, false⟩) ∧ A.values (.int false 0) (-1) ∧ ¬ A.values (.int true 0) (-1) := by
  refine ⟨by decide, ?_, ?_⟩ <;> simp [Platform.values, A]

/-- The exception: `int&&`, `short` and `char`: the deduced type is `int&&`, and the other two results dangle. -/
example : deduce cl A.cond (visitor (.rref ⟨10, false, false⟩) (.val ⟨1, false, false⟩) (.val ⟨0, false, false⟩)) ⟨false, false⟩ elems =
      some (.rref ⟨10, false, false⟩) ∧
    returnFit cl Platform.fit (.rref ⟨10, false, false⟩) (.val ⟨1, false, false⟩) = .dangling ∧ Mixed [.val ⟨1, false, false⟩, .val ⟨0, false, false⟩] :=
  ⟨by decide, by decide, _, .head _, _, .tail _ (.head _), by decide⟩

end ArithmeticExample

/-! ### Instances -/

namespace ArithmeticExample
example (q : PTy) (hq : A.Common q [.int false 0, .int true 0]) (hv : A.values (.int false 0) (-1)) := C54_arithmetic_values hq (.head _) hv
example := C54_arithmetic_dangling (cl := cl) (A := A) (q := .int false 0) (rs := [.val ⟨1, false, false⟩, .val ⟨0, false, false⟩])
  (by intro r hr
      simp only [List.mem_cons, List.not_mem_nil, or_false] at hr
      rcases hr with rfl | rfl <;> exact ⟨_, .inl ⟨_, rfl⟩, rfl⟩) ⟨_, .head _, _, .tail _ (.head _), by decide⟩
end ArithmeticExample

end BVariant
