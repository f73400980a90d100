import Verif.Spec.ResultLifetime
import Verif.Props.ClassValues

/-
C54: the kind of the deduced type, and the lifetime of results, for overloads that return any types.
-/

namespace BVariant

section
variable {cl : Classes} {other : Cat × CvTy → Cat × CvTy → Option (Cat × CvTy)} {conv : RetTy → RetTy → Fit}

theorem condOp_void {e e' : Expr} (h : condOp cl other e e' = some .void) : e = .void ∧ e' = .void := by
  cases e <;> cases e' <;> simp only [condOp] at h
  · exact ⟨rfl, rfl⟩
  · cases h
  · cases h
  · split at h
    · split at h <;> cases h
    · cases ho : other _ _ <;> rw [ho] at h <;> cases h

theorem condOp_of_void {e e' r : Expr} (h : condOp cl other e e' = some r) (hv : e = .void ∨ e' = .void) : r = .void := by
  rcases hv with rfl | rfl
  · cases e' <;> simp only [condOp] at h <;> cases h
    rfl
  · cases e <;> simp only [condOp] at h <;> cases h
    rfl

theorem condOp_cat (hk : KeepsCategory other) {e e' : Expr} {d : Cat} {s : CvTy} (h : condOp cl other e e' = some (.of d s)) (hd : d ≠ .prvalue) :
    (∃ t, e = .of d t) ∧ ∃ t, e' = .of d t := by
  cases e <;> cases e' <;> simp only [condOp] at h
  · cases h
  · cases h
  · cases h
  · split at h
    · split at h
      · rename_i hc
        obtain ⟨rfl, -⟩ := hc
        cases h
        exact ⟨⟨_, rfl⟩, _, rfl⟩
      · cases h; exact absurd rfl hd
    · rename_i c t c' t' _
      cases ho : other (c, t) (c', t') with
      | none => rw [ho] at h; cases h
      | some q =>
        rw [ho] at h
        cases h
        obtain ⟨rfl, rfl⟩ := hk _ _ _ _ _ _ ho hd
        exact ⟨⟨_, rfl⟩, _, rfl⟩

/-- The kind of what the fold finds. -/
theorem deduceImpl_kind (hk : KeepsCategory other) (r : RetTy) (rs : List RetTy) {R : RetTy} (h : deduceImpl cl other ((r :: rs).map some) = some R) :
    (R = .void ↔ ∃ o ∈ r :: rs, o = .void) ∧ (R = .void → ∀ o ∈ r :: rs, o = .void) ∧
    (∀ t, R = .lref t → ∀ o ∈ r :: rs, ∃ s, o = .lref s) ∧ (∀ t, R = .rref t → ∃ s, r = .rref s) := by
  induction rs generalizing r R with
  | nil =>
    simp only [List.map_cons, List.map_nil, deduceImpl, Option.map_some, Option.some.injEq] at h
    subst h
    cases r <;> simp [RetTy.call, Expr.decltype]
  | cons s rs ih =>
    simp only [List.map_cons, deduceImpl, bind, Option.bind, pure] at h
    cases hr : deduceImpl cl other (some s :: rs.map some) with
    | none => rw [hr] at h; cases h
    | some R' =>
      rw [hr] at h
      simp only at h
      obtain ⟨i1, i2, i3, i4⟩ := ih s hr
      cases hc : condOp cl other (r.call cl) R'.declval with
      | none => rw [hc] at h; cases h
      | some e =>
        rw [hc] at h
        simp only [Option.some.injEq] at h
        have callv : r.call cl = .void ↔ r = .void := by cases r <;> simp [RetTy.call]
        have declv : R'.declval = .void ↔ R' = .void := by cases R' <;> simp [RetTy.declval]
        cases e with
        | void =>
          obtain ⟨h1, h2⟩ := condOp_void hc
          obtain rfl := callv.mp h1
          obtain rfl := declv.mp h2
          simp only [Expr.decltype] at h
          subst h
          refine ⟨⟨fun _ => ⟨_, List.mem_cons_self, rfl⟩, fun _ => rfl⟩, fun _ o ho => ?_, nofun, nofun⟩
          rcases List.mem_cons.mp ho with rfl | ho
          · rfl
          · exact i2 rfl o ho
        | of d t =>
          have hne : R ≠ .void := by subst h; cases d <;> simp [Expr.decltype]
          refine ⟨⟨fun hR => absurd hR hne, ?_⟩, fun hR => absurd hR hne, fun u hu => ?_, fun u hu => ?_⟩
          · rintro ⟨o, ho, rfl⟩
            have : (Expr.of d t) = .void := condOp_of_void hc (by
              rcases List.mem_cons.mp ho with h1 | ho
              · exact .inl (callv.mpr h1.symm)
              · exact .inr (declv.mpr (i1.mpr ⟨_, ho, rfl⟩)))
            cases this
          · have : d = .lvalue := by subst h; cases d <;> simp [Expr.decltype] at hu ⊢
            subst this
            obtain ⟨⟨a, h1⟩, b, h2⟩ := condOp_cat hk hc nofun
            intro o ho
            rcases List.mem_cons.mp ho with rfl | ho
            · cases o <;> simp [RetTy.call] at h1 ⊢
            · cases R' <;> simp [RetTy.declval] at h2
              exact i3 _ rfl o ho
          · have : d = .xvalue := by subst h; cases d <;> simp [Expr.decltype] at hu ⊢
            subst this
            obtain ⟨⟨a, h1⟩, -⟩ := condOp_cat hk hc nofun
            cases r <;> simp [RetTy.call] at h1 ⊢

/-- C54, whatever types the overloads return and whatever conversions there are, other than to references: the deduced type is `void` iff some overload returns
`void`, and then all do; it is an lvalue reference only if all overloads return lvalue references; and it is an rvalue reference only if the overload for the first
bounded type returns one. -/
theorem C54_kind (hk : KeepsCategory other) {visitor : Expr → Option RetTy} {p : Passed} {elems : List Elem} {r0 : RetTy} {rs : List RetTy}
    (h : Returns visitor p elems (r0 :: rs)) {R : RetTy} (hd : deduce cl other visitor p elems = some R) :
    (R = .void ↔ ∃ r ∈ r0 :: rs, r = .void) ∧ (R = .void → ∀ r ∈ r0 :: rs, r = .void) ∧
    (∀ t, R = .lref t → ∀ r ∈ r0 :: rs, ∃ s, r = .lref s) ∧ (∀ t, R = .rref t → ∃ s, r0 = .rref s) := by
  rw [h.deduce_eq] at hd
  exact deduceImpl_kind hk r0 rs hd

/-- C54, the lifetime of results, for any types: unless the overload for the first bounded type returns an rvalue reference, no result dangles. -/
theorem C54_lifetime_partial (hk : KeepsCategory other) (hb : BindsDirectly conv) {visitor : Expr → Option RetTy} {p : Passed} {elems : List Elem} {r0 : RetTy}
    {rs : List RetTy} (h : Returns visitor p elems (r0 :: rs)) (h0 : ∀ t, r0 ≠ .rref t) {R : RetTy} (hd : deduce cl other visitor p elems = some R) :
    ∀ r ∈ r0 :: rs, returnFit cl conv R r ≠ .dangling := by
  obtain ⟨-, h1, h2, h3⟩ := C54_kind hk h hd
  intro r hr hf
  cases R with
  | void =>
    cases r <;> simp [returnFit] at hf
  | val t =>
    cases r <;> simp only [returnFit] at hf <;> (try split at hf) <;> first | (cases hf; done) | exact hb.1 _ _ hf
  | lref t =>
    obtain ⟨s, rfl⟩ := h2 t rfl r hr
    simp only [returnFit] at hf
    split at hf
    · cases hf
    · exact hb.2 _ _ hf
  | rref t =>
    obtain ⟨s, e⟩ := h3 t rfl
    exact h0 s e

/-! ### The rules that are modelled -/

theorem keepsCategory_lvalueCond : KeepsCategory (lvalueCond cl) := by
  intro c c' d t t' s h hd
  unfold lvalueCond at h
  split at h
  · rename_i h1 h2
    cases h1; cases h2
    split at h
    · cases h; exact ⟨rfl, rfl⟩
    · split at h
      · cases h; exact ⟨rfl, rfl⟩
      · cases h
  · cases h

theorem keepsCategory_classCond {user : Nat → Nat → Bool} : KeepsCategory (classCond cl user) := by
  intro c c' d t t' s h hd
  unfold classCond at h
  split at h
  · split at h
    · split at h
      · cases h; exact absurd rfl hd
      · split at h
        · cases h; exact absurd rfl hd
        · cases h
    · cases h
  · cases h

theorem keepsCategory_arithmetic {A : Platform} : KeepsCategory A.cond := by
  intro c c' d t t' s h hd
  unfold Platform.cond at h
  simp only at h
  split at h
  · split at h
    · split at h
      · rename_i h1; cases h; exact ⟨rfl, h1.1.symm⟩
      · split at h
        · rename_i h1; cases h; exact ⟨rfl, h1.1.symm⟩
        · cases h; exact absurd rfl hd
    · cases h; exact absurd rfl hd
  · cases h

theorem keepsCategory_pointers {P : Pointers} : KeepsCategory (P.cond cl) := by
  intro c c' d t t' s h hd
  unfold Pointers.cond at h
  split at h
  · split at h
    · rw [Option.map_eq_some_iff] at h
      obtain ⟨q, -, e⟩ := h
      cases e; exact absurd rfl hd
    · cases h
  · cases h

theorem KeepsCategory.orElse {f g : Cat × CvTy → Cat × CvTy → Option (Cat × CvTy)} (hf : KeepsCategory f) (hg : KeepsCategory g) :
    KeepsCategory fun a b => (f a b).or (g a b) := by
  intro c c' d t t' s h hd
  cases h1 : f (c, t) (c', t') with
  | none => simp only [h1, Option.none_or] at h; exact hg _ _ _ _ _ _ h hd
  | some q => simp only [h1, Option.some_or, Option.some.injEq] at h; exact hf _ _ _ _ _ _ (h ▸ h1) hd

theorem bindsDirectly_class {user : Nat → Nat → Bool} : BindsDirectly (classFit cl user) := by
  constructor
  · intro t o
    unfold classFit
    split
    · split <;> nofun
    · nofun
  · intro t s
    simp [classFit]

end

/-! ### Non-vacuity: a mixture of references, classes, pointers and arithmetic types -/
namespace LifetimeExample

abbrev cl := PointerExample.cl

/-- The rules that are modelled, together. -/
def other : Cat × CvTy → Cat × CvTy → Option (Cat × CvTy) := fun a b =>
  (lvalueCond cl a b).or ((classCond cl ClassValueExample.toInt a b).or (PointerExample.P.cond cl a b))

theorem keeps : KeepsCategory other :=
  KeepsCategory.orElse keepsCategory_lvalueCond (KeepsCategory.orElse keepsCategory_classCond keepsCategory_pointers)

def visitor (l : List RetTy) : Expr → Option RetTy
  | .of _ t => l[t.base - 3]?
  | .void => none

/-- A class by value, and `int` by rvalue reference and by value. -/
def r0 : RetTy := .val ⟨7, false, false⟩
def rs : List RetTy := [.rref ⟨20, false, false⟩, .val ⟨20, false, false⟩]

theorem returns : Returns (visitor (r0 :: rs)) ⟨false, false⟩ ArithmeticExample.elems (r0 :: rs) := ⟨.inl rfl, rfl⟩

theorem deduced : deduce cl other (visitor (r0 :: rs)) ⟨false, false⟩ ArithmeticExample.elems = some (.val ⟨20, false, false⟩) := by decide

example : ∀ r ∈ r0 :: rs, returnFit cl (classFit cl ClassValueExample.toInt) (.val ⟨20, false, false⟩) r ≠ .dangling :=
  C54_lifetime_partial keeps bindsDirectly_class returns (fun _ h => by cases h) deduced

example := C54_kind keeps returns deduced

/-- With the rvalue reference first, a result dangles (F21). -/
example : deduce cl other (visitor [.rref ⟨20, false, false⟩, .val ⟨7, false, false⟩, .val ⟨20, false, false⟩]) ⟨false, false⟩ ArithmeticExample.elems =
      some (.rref ⟨20, false, false⟩) ∧
    returnFit cl (classFit cl ClassValueExample.toInt) (.rref ⟨20, false, false⟩) (.val ⟨20, false, false⟩) = .dangling := by decide

end LifetimeExample

end BVariant
