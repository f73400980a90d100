/-
C69: which constructor and which assignment operator a call selects, and what becomes of the operand.
-/
import Verif.Meta.MemberOverload
import Verif.Props.Convert

namespace BVariant

/-! ### Specification -/

namespace MemberArg
variable (a : MemberArg)

/-- An object of the variant type itself. -/
def IsVariant : Prop := (∃ src, a.relation = .variant src true false) ∧ a.ty.volatile = false

/-- An object of a class derived from the variant type. -/
def IsDerived : Prop := (∃ src, a.relation = .variant src true true) ∧ a.ty.volatile = false

/-- An object of another variant type. -/
def IsForeign (src : VClass) : Prop := a.relation = .variant src false false ∧ a.ty.volatile = false

/-- An object of a class derived from another variant type. -/
def IsForeignDerived (src : VClass) : Prop := a.relation = .variant src false true ∧ a.ty.volatile = false

/-- The operand may be moved from: it is an rvalue and not const. -/
def MayMove : Prop := a.rv = true ∧ a.ty.const = false

instance : Decidable a.MayMove := inferInstanceAs (Decidable (_ ∧ _))

/-- Some bounded type can be constructed from an lvalue or (`rv`) rvalue of type `t`. -/
def SomeTypeFrom (rv : Bool) (t : CvTy) : Prop := ∃ e ∈ a.dst, (a.L.arg rv t).isConstructibleExt e = true

/-- Some bounded type can be constructed from the operand as a const lvalue. (A volatile rvalue cannot be bound to a reference to
const.) -/
def TakenConst : Prop := ¬ (a.rv = true ∧ a.ty.volatile = true) ∧ a.SomeTypeFrom false a.ty.addConst

/-- Some bounded type can be constructed from the operand as it is, and it is not const. -/
def TakenAsIs : Prop := a.ty.const = false ∧ a.SomeTypeFrom a.rv a.ty

/-- The result is the operand copied, or moved if it may be. -/
def copyOrMove : Route := if a.MayMove then .move else .copy

/-- What becomes of an operand of another variant type: it is stored whole if it is of a bounded type, and otherwise its content is
converted. -/
def converted (src : VClass) (rv const : Bool) : Route :=
  if (a.foreign src rv const).isForeign then .content rv const else .whole rv ⟨src.base, const, false⟩

end MemberArg

/-- The operand, or its content, is used as an rvalue. -/
def Route.Moves : Route → Prop
  | .move => True
  | .whole rv _ => rv = true
  | .content rv _ => rv = true
  | .copy | .temporary => False

/-! ### Evaluation of the overload sets -/

namespace MemberArg
variable {a : MemberArg}

theorem takes_of_not_exact {rv : Bool} {t : CvTy} (h : ∀ src same, a.relation ≠ .variant src same false) :
    a.takes rv t = true ↔ a.SomeTypeFrom rv t := by
  have e : a.takes rv t = (a.L.arg rv t).isVariantConstructibleFrom a.dst := by
    unfold takes
    split
    · rename_i src same he
      exact absurd he (h _ _)
    · rfl
  rw [e, InitArg.isVariantConstructibleFrom, List.any_eq_true]
  rfl

theorem takes_exact {src : VClass} {same rv : Bool} {t : CvTy} (h : a.relation = .variant src same false) (hv : t.volatile = false) :
    a.takes rv t = (a.foreign src false false).constructible := by
  unfold takes
  rw [h]
  simp only [hv]
  rfl

end MemberArg

namespace MemberArg
variable {a : MemberArg}

/-- C69: an operand of the variant type is copied, or moved if it is an rvalue and not const, by construction and by assignment, whatever the
bounded types can be constructed from. -/
theorem C69_variant (h : a.IsVariant) (w : Bool) : a.construct = some a.copyOrMove ∧ a.assign w = some a.copyOrMove := by
  obtain ⟨⟨src, hr⟩, hv⟩ := h
  have t1 : ∀ rv, a.takes rv a.ty = (a.foreign src false false).constructible := fun rv => takes_exact hr hv
  have t2 : ∀ rv, a.takes rv a.ty.addConst = (a.foreign src false false).constructible := fun rv => takes_exact hr hv
  generalize (a.foreign src false false).constructible = b at t1 t2
  have hs : a.isSame = true := by simp [isSame, hr, hv]
  have ho : a.isOurs = true := by simp [isOurs, hr]
  have hd : a.isDerived = false := by simp [isDerived, hr]
  cases hrv : a.rv <;> cases hc : a.ty.const <;> cases b <;> cases w <;>
    simp [construct, ctor, soleBest, ctorRank, templateRank, variantRank, copyOrMove, MayMove, hrv, hc, hv, t1, t2, hs, ho, hd, movable,
      assign, assignOp, assignRank, betterRank, bindRank, AssignOp.plain, Ctor.plain, List.filter, List.find?]

@[simp] private theorem asConst_rv : a.asConst.rv = false := rfl
@[simp] private theorem asConst_const : a.asConst.ty.const = true := rfl
@[simp] private theorem asConst_volatile : a.asConst.ty.volatile = a.ty.volatile := rfl
@[simp] private theorem asConst_ty : a.asConst.ty = a.ty.addConst := rfl
@[simp] private theorem addConst_const {t : CvTy} : t.addConst.const = true := rfl
@[simp] private theorem addConst_volatile {t : CvTy} : t.addConst.volatile = t.volatile := rfl
@[simp] private theorem addConst_addConst {t : CvTy} : t.addConst.addConst = t.addConst := rfl
@[simp] private theorem asConst_takes (rv : Bool) (t : CvTy) : a.asConst.takes rv t = a.takes rv t := rfl
@[simp] private theorem asConst_isOurs : a.asConst.isOurs = a.isOurs := rfl
@[simp] private theorem asConst_isDerived : a.asConst.isDerived = a.isDerived := rfl
@[simp] private theorem asConst_isSame : a.asConst.isSame = a.isSame := rfl
@[simp] private theorem asConst_converts : a.asConst.converts = a.converts := rfl
@[simp] private theorem asConst_enabled : convertRank.enabled a.asConst = convertRank.enabled a := rfl
@[simp] private theorem asConst_convertVariant (rv const : Bool) : a.asConst.convertVariant rv const = a.convertVariant rv const := rfl

/-- C69: an operand of a class derived from the variant type is copied or moved as a variant, unless some bounded type can be
constructed from it; then the construction does not compile. -/
theorem C69_derived_construct (h : a.IsDerived) :
    (¬ (a.TakenAsIs ∨ a.TakenConst) → a.construct = some a.copyOrMove) ∧ (a.TakenAsIs ∨ a.TakenConst → a.construct = none) := by
  obtain ⟨⟨src, hr⟩, hv⟩ := h
  have hn : ∀ src same, a.relation ≠ .variant src same false := by rw [hr]; intro _ _ h; cases h
  rw [TakenAsIs, TakenConst, ← takes_of_not_exact hn, ← takes_of_not_exact hn]
  have hs : a.isSame = false := by simp [isSame, hr]
  have ho : a.isOurs = true := by simp [isOurs, hr]
  have hd : a.isDerived = true := by simp [isDerived, hr]
  have he : convertRank.enabled a = true := by simp [convertRank.enabled, hr]
  cases h1 : a.takes a.rv a.ty <;> cases hrv : a.rv <;> rw [hrv] at h1 <;> cases hc : a.ty.const <;>
    cases h3 : a.takes false a.ty.addConst <;>
    simp [construct, ctor, soleBest, ctorRank, templateRank, variantRank, copyOrMove, MayMove, hrv, hc, hv, h1, h3, hs, ho, hd, he, movable,
      betterRank, betterRanks, bindRank, Ctor.plain, List.filter, List.find?, convertRoute, convertFn, convertRank]

/-- C69: the same for assignment, where a non-const lvalue is taken as const, and an rvalue also as it is if there is an operator for
rvalues. -/
theorem C69_derived_assign (h : a.IsDerived) (w : Bool) :
    (¬ (w = true ∧ a.MayMove ∧ a.TakenAsIs ∨ a.TakenConst) → a.assign w = some a.copyOrMove) ∧
      (w = true ∧ a.MayMove ∧ a.TakenAsIs ∨ a.TakenConst → a.assign w = none) := by
  obtain ⟨⟨src, hr⟩, hv⟩ := h
  have hn : ∀ src same, a.relation ≠ .variant src same false := by rw [hr]; intro _ _ h; cases h
  rw [TakenAsIs, TakenConst, ← takes_of_not_exact hn, ← takes_of_not_exact hn]
  have hs : a.isSame = false := by simp [isSame, hr]
  have ho : a.isOurs = true := by simp [isOurs, hr]
  have hd : a.isDerived = true := by simp [isDerived, hr]
  have he : convertRank.enabled a = true := by simp [convertRank.enabled, hr]
  cases h1 : a.takes a.rv a.ty <;> cases hrv : a.rv <;> rw [hrv] at h1 <;> cases hc : a.ty.const <;>
    cases h3 : a.takes false a.ty.addConst <;> cases w <;>
    simp [construct, ctor, soleBest, ctorRank, templateRank, variantRank, copyOrMove, MayMove, hrv, hc, hv, h1, h3, hs, ho, hd, he, movable,
      betterRank, betterRanks, bindRank, Ctor.plain, List.filter, List.find?, convertRoute, convertFn, convertRank,
      assign, assignOp, assignRank, AssignOp.plain]

/-- C69: construction from an operand that has nothing to do with variants. It is handed to `initialize` as it is if some bounded type
can be constructed from it so, else as a const lvalue if some bounded type can be constructed from that; else its own conversion
function is called. -/
theorem C69_other_construct (h : a.relation = .other) :
    (a.TakenAsIs → a.construct = some (.whole a.rv a.ty)) ∧
    (¬ a.TakenAsIs → a.TakenConst → a.construct = some (.whole false a.ty.addConst)) ∧
    (¬ a.TakenAsIs → ¬ a.TakenConst → a.construct = if a.converts then some .temporary else none) := by
  have hn : ∀ src same, a.relation ≠ .variant src same false := by rw [h]; intro _ _ h; cases h
  rw [TakenAsIs, TakenConst, ← takes_of_not_exact hn, ← takes_of_not_exact hn]
  have hs : a.isSame = false := by simp [isSame, h]
  have ho : a.isOurs = false := by simp [isOurs, h]
  have he : convertRank.enabled a = false := by simp [convertRank.enabled, h]
  cases h1 : a.takes a.rv a.ty <;> cases hrv : a.rv <;> rw [hrv] at h1 <;> cases hc : a.ty.const <;>
    cases h3 : a.takes false a.ty.addConst <;> cases hv : a.ty.volatile <;> cases hu : a.converts <;>
    simp [construct, ctor, soleBest, ctorRank, templateRank, variantRank, userConverts, hrv, hc, hv, h1, h3, hs, ho, he, hu, movable,
      betterRank, betterRanks, bindRank, Ctor.plain, List.filter, List.find?, convertRoute, convertFn, convertRank]

set_option maxHeartbeats 1000000 in
/-- C69: assignment from such an operand. An rvalue is handed on as it is if there is an operator for rvalues; otherwise the operand is
taken as a const lvalue where possible; else its conversion function is called; else it is converted as in the construction of a variant. -/
theorem C69_other_assign (h : a.relation = .other) (w : Bool) :
    (w = true ∧ a.MayMove ∧ a.TakenAsIs → a.assign w = some (.whole true a.ty)) ∧
    (¬ (w = true ∧ a.MayMove ∧ a.TakenAsIs) → a.TakenConst → a.assign w = some (.whole false a.ty.addConst)) ∧
    (¬ (w = true ∧ a.MayMove ∧ a.TakenAsIs) → ¬ a.TakenConst →
      a.assign w = if a.converts then some .temporary else a.construct) := by
  have hn : ∀ src same, a.relation ≠ .variant src same false := by rw [h]; intro _ _ h; cases h
  rw [TakenAsIs, TakenConst, ← takes_of_not_exact hn, ← takes_of_not_exact hn]
  have hs : a.isSame = false := by simp [isSame, h]
  have ho : a.isOurs = false := by simp [isOurs, h]
  have he : convertRank.enabled a = false := by simp [convertRank.enabled, h]
  cases h1 : a.takes a.rv a.ty <;> cases hrv : a.rv <;> rw [hrv] at h1 <;> cases hc : a.ty.const <;>
    cases h3 : a.takes false a.ty.addConst <;> cases hv : a.ty.volatile <;> cases hu : a.converts <;> cases w <;>
    simp [construct, ctor, soleBest, ctorRank, templateRank, variantRank, userConverts, hrv, hc, hv, h1, h3, hs, ho, he, hu, movable,
      betterRank, betterRanks, bindRank, Ctor.plain, List.filter, List.find?, convertRoute, convertFn, convertRank,
      assign, assignOp, assignRank, AssignOp.plain, MayMove]

/-- C69: an operand of another variant type is converted if each of its bounded types can be made into one of this variant's: moved
from exactly if it is an rvalue and not const. -/
theorem C69_foreign_construct {src : VClass} (h : a.IsForeign src) :
    a.construct = if (a.foreign src a.rv a.ty.const).constructible then some (a.converted src a.movable a.ty.const)
      else if a.converts then some .temporary else none := by
  obtain ⟨hr, hv⟩ := h
  have t1 : ∀ rv, a.takes rv a.ty = (a.foreign src a.rv a.ty.const).constructible := fun rv => takes_exact hr hv
  have t2 : ∀ rv, a.takes rv a.ty.addConst = (a.foreign src a.rv a.ty.const).constructible := fun rv => takes_exact hr hv
  have hs : a.isSame = false := by simp [isSame, hr]
  have ho : a.isOurs = false := by simp [isOurs, hr]
  have hd : a.isDerived = false := by simp [isDerived, hr]
  have he : convertRank.enabled a = (a.foreign src a.rv a.ty.const).constructible := by simp [convertRank.enabled, hr]
  generalize (a.foreign src a.rv a.ty.const).constructible = b at t1 t2 he
  have hcv : ∀ rv const, a.convertVariant rv const = some (a.converted src rv const) := by
    intro rv const
    simp only [convertVariant, hr, converted]
    rfl
  cases hrv : a.rv <;> cases hc : a.ty.const <;> cases b <;> cases hu : a.converts <;>
    simp [construct, ctor, soleBest, ctorRank, templateRank, variantRank, userConverts, hrv, hc, hv, t1, t2, hs, ho, hd, he, hu, movable, hcv,
      betterRank, betterRanks, bindRank, Ctor.plain, List.filter, List.find?, convertRoute, convertFn, convertRank]

/-- C69: the same for assignment; a non-const lvalue is taken as const, and so is every rvalue if there is no operator for rvalues. -/
theorem C69_foreign_assign {src : VClass} (h : a.IsForeign src) (w : Bool) :
    a.assign w = if (a.foreign src a.rv a.ty.const).constructible then
        some (if w = true ∧ a.MayMove then a.converted src true false else a.converted src false true)
      else if a.converts then some .temporary else none := by
  obtain ⟨hr, hv⟩ := h
  have t1 : ∀ rv, a.takes rv a.ty = (a.foreign src a.rv a.ty.const).constructible := fun rv => takes_exact hr hv
  have t2 : ∀ rv, a.takes rv a.ty.addConst = (a.foreign src a.rv a.ty.const).constructible := fun rv => takes_exact hr hv
  have hs : a.isSame = false := by simp [isSame, hr]
  have ho : a.isOurs = false := by simp [isOurs, hr]
  have hd : a.isDerived = false := by simp [isDerived, hr]
  have he : convertRank.enabled a = (a.foreign src a.rv a.ty.const).constructible := by simp [convertRank.enabled, hr]
  generalize (a.foreign src a.rv a.ty.const).constructible = b at t1 t2 he
  have hcv : ∀ rv const, a.convertVariant rv const = some (a.converted src rv const) := by
    intro rv const
    simp only [convertVariant, hr, converted]
    rfl
  cases hrv : a.rv <;> cases hc : a.ty.const <;> cases b <;> cases hu : a.converts <;> cases w <;>
    simp [construct, ctor, soleBest, ctorRank, templateRank, variantRank, userConverts, hrv, hc, hv, t1, t2, hs, ho, hd, he, hu, movable, hcv,
      betterRank, betterRanks, bindRank, Ctor.plain, List.filter, List.find?, convertRoute, convertFn, convertRank,
      assign, assignOp, assignRank, AssignOp.plain, MayMove]

/-- C69: an operand of a class derived from another variant type is not converted as a variant. It is an operand like any other, but
if some bounded type can be constructed from it and also its base class converts to the variant, the construction does not compile. -/
theorem C69_foreign_derived_construct {src : VClass} (h : a.IsForeignDerived src) :
    (a.TakenAsIs ∨ a.TakenConst → (a.foreign src a.rv a.ty.const).constructible = true → a.construct = none) ∧
    (a.TakenAsIs → (a.foreign src a.rv a.ty.const).constructible = false → a.construct = some (.whole a.rv a.ty)) ∧
    (¬ a.TakenAsIs → a.TakenConst → (a.foreign src a.rv a.ty.const).constructible = false →
      a.construct = some (.whole false a.ty.addConst)) ∧
    (¬ a.TakenAsIs → ¬ a.TakenConst → a.construct = if a.converts then some .temporary else none) := by
  obtain ⟨hr, hv⟩ := h
  have hn : ∀ src same, a.relation ≠ .variant src same false := by rw [hr]; intro _ _ h; cases h
  rw [TakenAsIs, TakenConst, ← takes_of_not_exact hn, ← takes_of_not_exact hn]
  have hs : a.isSame = false := by simp [isSame, hr]
  have ho : a.isOurs = false := by simp [isOurs, hr]
  have hd : a.isDerived = true := by simp [isDerived, hr]
  have he : convertRank.enabled a = (a.foreign src a.rv a.ty.const).constructible := by simp [convertRank.enabled, hr]
  generalize (a.foreign src a.rv a.ty.const).constructible = b at he
  cases h1 : a.takes a.rv a.ty <;> cases hrv : a.rv <;> rw [hrv] at h1 <;> cases hc : a.ty.const <;>
    cases h3 : a.takes false a.ty.addConst <;> cases hu : a.converts <;> cases b <;>
    simp [construct, ctor, soleBest, ctorRank, templateRank, variantRank, userConverts, hrv, hc, hv, h1, h3, hs, ho, hd, he, hu, movable,
      betterRank, betterRanks, bindRank, Ctor.plain, List.filter, List.find?, convertRoute, convertFn, convertRank]

set_option maxHeartbeats 1000000 in
/-- C69: the same for assignment. -/
theorem C69_foreign_derived_assign {src : VClass} (h : a.IsForeignDerived src) (w : Bool) :
    (w = true ∧ a.MayMove ∧ a.TakenAsIs ∨ a.TakenConst → (a.foreign src a.rv a.ty.const).constructible = true → a.assign w = none) ∧
    (w = true ∧ a.MayMove ∧ a.TakenAsIs → (a.foreign src a.rv a.ty.const).constructible = false →
      a.assign w = some (.whole true a.ty)) ∧
    (¬ (w = true ∧ a.MayMove ∧ a.TakenAsIs) → a.TakenConst → (a.foreign src a.rv a.ty.const).constructible = false →
      a.assign w = some (.whole false a.ty.addConst)) ∧
    (¬ (w = true ∧ a.MayMove ∧ a.TakenAsIs) → ¬ a.TakenConst →
      a.assign w = if a.converts then some .temporary else a.construct) := by
  obtain ⟨hr, hv⟩ := h
  have hn : ∀ src same, a.relation ≠ .variant src same false := by rw [hr]; intro _ _ h; cases h
  rw [TakenAsIs, TakenConst, ← takes_of_not_exact hn, ← takes_of_not_exact hn]
  have hs : a.isSame = false := by simp [isSame, hr]
  have ho : a.isOurs = false := by simp [isOurs, hr]
  have hd : a.isDerived = true := by simp [isDerived, hr]
  have he : convertRank.enabled a = (a.foreign src a.rv a.ty.const).constructible := by simp [convertRank.enabled, hr]
  generalize (a.foreign src a.rv a.ty.const).constructible = b at he
  cases h1 : a.takes a.rv a.ty <;> cases hrv : a.rv <;> rw [hrv] at h1 <;> cases hc : a.ty.const <;>
    cases h3 : a.takes false a.ty.addConst <;> cases hu : a.converts <;> cases b <;> cases w <;>
    simp [construct, ctor, soleBest, ctorRank, templateRank, variantRank, userConverts, hrv, hc, hv, h1, h3, hs, ho, hd, he, hu, movable,
      betterRank, betterRanks, bindRank, Ctor.plain, List.filter, List.find?, convertRoute, convertFn, convertRank,
      assign, assignOp, assignRank, AssignOp.plain, MayMove]

private theorem soleBest_mem {α : Type} [DecidableEq α] {cs : List α} {better : α → α → Bool} {c : α} (h : soleBest cs better = some c) :
    c ∈ cs := List.mem_of_find?_eq_some h

private theorem ctor_rank {c : Ctor} (h : a.ctor = some c) : (a.ctorRank c).isSome = true :=
  (List.mem_filter.mp (soleBest_mem h)).2

private theorem assign_rank {w : Bool} {c : AssignOp} (h : a.assignOp w = some c) : (a.assignRank w c).isSome = true :=
  (List.mem_filter.mp (soleBest_mem h)).2

private theorem convert_rank {c : ConvertFn} (h : a.convertFn = some c) : (a.convertRank c).isSome = true :=
  (List.mem_filter.mp (soleBest_mem h)).2

private theorem convertVariant_moves {rv const : Bool} {r : Route} (h : a.convertVariant rv const = some r) (hm : r.Moves) : rv = true := by
  unfold convertVariant at h
  split at h
  · cases h
    split at hm <;> exact hm
  · cases h

private theorem convertRoute_moves {r : Route} (h : a.convertRoute = some r) (hm : r.Moves) : a.rv = true := by
  unfold convertRoute at h
  split at h <;> rename_i he
  · cases h; cases hm
  · have := convert_rank he
    simp only [convertRank] at this
    cases hr : a.rv
    · rw [hr] at this; cases this
    · rfl
  · cases convertVariant_moves h hm
  · cases convertVariant_moves h hm
  · have := convert_rank he
    simp only [convertRank, movable] at this
    cases hr : a.rv
    · simp [hr] at this
    · rfl
  · cases h

private theorem variantRank_movable (ho : a.isOurs = true) (h : (a.variantRank true).isSome = true) : a.MayMove := by
  simp only [variantRank, ho, movable] at h
  simp only [MayMove]
  cases hr : a.rv <;> cases hc : a.ty.const <;> simp [hr, hc] at h ⊢

/-- C69: an lvalue or a const object is never moved from by construction, whatever its type. -/
theorem C69_construct_never_moves (h : ¬ a.MayMove) {r : Route} (hr : a.construct = some r) : ¬ r.Moves := by
  intro hm
  unfold construct at hr
  split at hr <;> rename_i he
  · cases convertRoute_moves hr hm
  · have h1 := convertRoute_moves hr hm
    have := ctor_rank he
    simp [ctorRank, templateRank, h1] at this
  · have := ctor_rank he
    simp only [ctorRank, templateRank, movable] at this
    apply h
    simp only [MayMove]
    cases hrv : a.rv <;> cases hc : a.ty.const <;> simp [hrv, hc] at this ⊢
  · cases hr; cases hm
  · cases hr
    split at hm <;> rename_i ho
    · exact h (variantRank_movable ho (ctor_rank he))
    · cases hm
  · cases hr

/-- C69: nor by assignment. -/
theorem C69_assign_never_moves (h : ¬ a.MayMove) {w : Bool} {r : Route} (hr : a.assign w = some r) : ¬ r.Moves := by
  unfold assign at hr
  split at hr <;> rename_i he
  · exact C69_construct_never_moves h hr
  · exact C69_construct_never_moves (a := a.asConst) (by rintro ⟨h1, -⟩; cases h1) hr
  · split at hr
    · cases hr; exact id
    · split at hr
      · cases hr; exact id
      · exact C69_construct_never_moves h hr
  · split at hr <;> rename_i ho
    · exact absurd (variantRank_movable ho (assign_rank he)) h
    · split at hr
      · cases hr; exact id
      · exact C69_construct_never_moves h hr
  · cases hr

/-- C69: a non-const rvalue that a bounded type can be constructed from, or that is a variant, is moved from by construction, and by
assignment if there is an operator for rvalues. -/
theorem C69_rvalues_moved (hm : a.MayMove)
    (h : a.IsVariant ∨ a.IsDerived ∨ (∃ src, a.IsForeign src ∧ (a.foreign src a.rv a.ty.const).constructible = true) ∨
      (a.relation = .other ∨ ∃ src, a.IsForeignDerived src) ∧ a.TakenAsIs) {r : Route} :
    (a.construct = some r → r.Moves) ∧ (a.assign true = some r → r.Moves) := by
  have hmv : a.movable = true := by simp [movable, hm.1, hm.2]
  have hconv : ∀ src, (a.converted src true false).Moves := by
    intro src
    unfold converted
    split <;> rfl
  rcases h with h | h | ⟨src, h, hc⟩ | ⟨h | ⟨src, h⟩, ht⟩
  · have := C69_variant h true
    rw [this.1, this.2, copyOrMove, if_pos hm]
    constructor <;> (intro h; cases h; exact trivial)
  · constructor <;> intro hr
    · by_cases ht : a.TakenAsIs ∨ a.TakenConst
      · rw [(C69_derived_construct h).2 ht] at hr
        cases hr
      · rw [(C69_derived_construct h).1 ht, copyOrMove, if_pos hm] at hr
        cases hr
        exact trivial
    · by_cases ht : true = true ∧ a.MayMove ∧ a.TakenAsIs ∨ a.TakenConst
      · rw [(C69_derived_assign h true).2 ht] at hr
        cases hr
      · rw [(C69_derived_assign h true).1 ht, copyOrMove, if_pos hm] at hr
        cases hr
        exact trivial
  · have h1 : a.construct = some (a.converted src true false) := by rw [C69_foreign_construct h, if_pos hc, hmv, hm.2]
    have h2 : a.assign true = some (a.converted src true false) := by
      rw [C69_foreign_assign h, if_pos hc]
      exact congrArg some (if_pos ⟨rfl, hm⟩)
    rw [h1, h2]
    constructor <;> (intro h; cases h; exact hconv src)
  · rw [(C69_other_construct h).1 ht, (C69_other_assign h true).1 ⟨rfl, hm, ht⟩, hm.1]
    constructor <;> (intro h; cases h; exact rfl)
  · cases hc : (a.foreign src a.rv a.ty.const).constructible
    · rw [(C69_foreign_derived_construct h).2.1 ht hc, (C69_foreign_derived_assign h true).2.1 ⟨rfl, hm, ht⟩ hc, hm.1]
      constructor <;> (intro h; cases h; exact rfl)
    · rw [(C69_foreign_derived_construct h).1 (Or.inl ht) hc, (C69_foreign_derived_assign h true).1 (Or.inl ⟨rfl, hm, ht⟩) hc]
      constructor <;> (intro h; cases h)

/-- C69, finding F29: without the operator for rvalues, a non-const rvalue is copied by assignment, although it is moved by
construction, and although the operator would move it. -/
theorem C69_no_rvalue_operator (h : a.relation = .other) (hm : a.MayMove) (h1 : a.TakenAsIs) (h2 : a.TakenConst) :
    a.construct = some (.whole true a.ty) ∧ a.assign true = some (.whole true a.ty) ∧
      a.assign false = some (.whole false a.ty.addConst) := by
  refine ⟨?_, (C69_other_assign h true).1 ⟨rfl, hm, h1⟩, (C69_other_assign h false).2.1 (fun h => by cases h.1) h2⟩
  rw [(C69_other_construct h).1 h1, hm.1]

/-- C69: an operand that is not of the variant type, or derived from it, can be assigned exactly if a variant can be constructed from
it (as far as the choice of the members goes, and unless it has a conversion function). -/
theorem C69_assign_iff_construct (h : a.relation = .other ∨ ∃ src, a.IsForeign src ∨ a.IsForeignDerived src) (hc : a.converts = false)
    (w : Bool) : (a.assign w).isSome = a.construct.isSome := by
  rcases h with h | ⟨src, h | h⟩
  · obtain ⟨c1, c2, c3⟩ := C69_other_construct h
    obtain ⟨d1, d2, d3⟩ := C69_other_assign h w
    by_cases hw : w = true ∧ a.MayMove ∧ a.TakenAsIs
    · rw [d1 hw, c1 hw.2.2]; rfl
    · by_cases hk : a.TakenConst
      · rw [d2 hw hk]
        by_cases ht : a.TakenAsIs
        · rw [c1 ht]; rfl
        · rw [c2 ht hk]
      · rw [d3 hw hk, hc, if_neg Bool.false_ne_true]
  · rw [C69_foreign_construct h, C69_foreign_assign h, hc]
    split <;> rfl
  · obtain ⟨c1, c2, c3, c4⟩ := C69_foreign_derived_construct h
    obtain ⟨d1, d2, d3, d4⟩ := C69_foreign_derived_assign h w
    cases hb : (a.foreign src a.rv a.ty.const).constructible
    · by_cases hw : w = true ∧ a.MayMove ∧ a.TakenAsIs
      · rw [d2 hw hb, c2 hw.2.2 hb]; rfl
      · by_cases hk : a.TakenConst
        · rw [d3 hw hk hb]
          by_cases ht : a.TakenAsIs
          · rw [c2 ht hb]; rfl
          · rw [c3 ht hk hb]
        · rw [d4 hw hk, hc, if_neg Bool.false_ne_true]
    · by_cases hw : (w = true ∧ a.MayMove ∧ a.TakenAsIs) ∨ a.TakenConst
      · rw [d1 hw hb, c1 (hw.imp (·.2.2) id) hb]
      · rw [d4 (fun h => hw (Or.inl h)) (fun h => hw (Or.inr h)), hc, if_neg Bool.false_ne_true]

/-- C69: what an unrelated operand is handed to `initialize` as is what the constructor was selected for, so that C39 says which bounded type
the variant holds then. -/
theorem C69_initialize (h : a.relation = .other) {rv : Bool} {t : CvTy} (hc : a.construct = some (.whole rv t)) :
    (a.L.arg rv t).construct a.dst = (a.L.arg rv t).resolve (initializerOverloads a.dst) := by
  have key : a.SomeTypeFrom rv t := by
    obtain ⟨c1, c2, c3⟩ := C69_other_construct h
    by_cases h1 : a.TakenAsIs
    · rw [c1 h1] at hc
      cases hc
      exact h1.2
    · by_cases h2 : a.TakenConst
      · rw [c2 h1 h2] at hc
        cases hc
        exact h2.2
      · rw [c3 h1 h2] at hc
        split at hc <;> cases hc
  unfold InitArg.construct InitArg.isVariantConstructibleFrom
  rw [if_pos (List.any_eq_true.mpr key)]

end MemberArg

/-! ### Non-vacuity -/

/-- The classes of test/overload_selection.cpp: classes 1, 2, 3 are `A`, `B`, `C`; class 10 is `variant<A, B>`; class 11 is `AB`, derived
from it. Since C++20 an `AB` can be constructed from an `A` or a `B` in parentheses, as it is an aggregate; they do not convert to it. -/
def exAgg (cpp20 : Bool) : Lang where
  arg rv t :=
    let identity := natArg t
      (fun s => if s.base = t.base then if s.const then some 1 else if !rv && !t.const then some 0 else none else none)
      (fun s => decide (s.base ≠ t.base) || (rv && !t.const))
    { identity with
      ctor := fun
        | .val s | .wrapped s => identity.ctor (.val s) || (cpp20 && decide (s.base = 11) && decide (t.base ∈ [1, 2, 10]))
        | .ref s => identity.ctor (.ref s) }
  wrapCtor _ _ := false

/-- `variant<AB, C>` constructed from, or assigned, an lvalue of type `AB`. -/
def exAbC (cpp20 rv : Bool) : MemberArg :=
  ⟨exAgg cpp20, [.val (tyN 11), .val (tyN 3)], tyN 11, rv, .variant ⟨10, [.val (tyN 1), .val (tyN 2)]⟩ false true, false⟩

/-- `variant<A, B>` constructed from, or assigned, an `AB`. -/
def exAb (rv : Bool) : MemberArg :=
  ⟨exAgg true, [.val (tyN 1), .val (tyN 2)], tyN 11, rv, .variant ⟨10, [.val (tyN 1), .val (tyN 2)]⟩ true true, false⟩

/-- The same for a `variant<A, B>`. -/
def exSame (rv const : Bool) : MemberArg :=
  ⟨exAgg true, [.val (tyN 1), .val (tyN 2)], ⟨10, const, false⟩, rv, .variant ⟨10, [.val (tyN 1), .val (tyN 2)]⟩ true false, false⟩

/-- `variant<B, C, A>` constructed from a `variant<A, B>`. -/
def exBca (rv const : Bool) : MemberArg :=
  ⟨exAgg true, [.val (tyN 2), .val (tyN 3), .val (tyN 1)], ⟨10, const, false⟩, rv, .variant ⟨10, [.val (tyN 1), .val (tyN 2)]⟩ false false, false⟩

/-- `variant<A, B>` constructed from a `B`. -/
def exB (rv const : Bool) : MemberArg := ⟨exAgg true, [.val (tyN 1), .val (tyN 2)], ⟨2, const, false⟩, rv, .other, false⟩

/-- `variant<A, B>` constructed from a class with a conversion function. -/
def exConvertible : MemberArg := ⟨exAgg true, [.val (tyN 1), .val (tyN 2)], tyN 30, true, .other, true⟩

example : (exSame false false).construct = some .copy ∧ (exSame true false).construct = some .move ∧
    (exSame true true).construct = some .copy ∧ (exSame true false).assign true = some .move ∧
    (exSame true false).assign false = some .move ∧ (exSame false false).assign true = some .copy := by decide +kernel

example : (exAb false).construct = some .copy ∧ (exAb true).construct = some .move ∧ (exAb true).assign true = some .move := by
  decide +kernel

/-- Finding F28: the tests at test/overload_selection.cpp 109-111 and 142-145 compile up to C++17, and do not compile in C++20; the test is
switched off for C++20 (test/Jamfile.v2). -/
theorem C69_counterexample_aggregate :
    (exAbC false false).construct = some (.whole false (tyN 11)) ∧ (exAbC false false).assign true = some (.whole false ⟨11, true, false⟩) ∧
    (exAbC true false).construct = none ∧ (exAbC true false).assign true = none ∧ (exAbC true true).construct = none := by
  decide +kernel

example : (exBca false false).construct = some (.content false false) ∧ (exBca true false).construct = some (.content true false) ∧
    (exBca true true).construct = some (.content false true) ∧ (exBca true false).assign true = some (.content true false) ∧
    (exBca true false).assign false = some (.content false true) := by decide +kernel

example : (exB false false).construct = some (.whole false (tyN 2)) ∧ (exB true false).assign true = some (.whole true (tyN 2)) ∧
    (exB true false).assign false = some (.whole false ⟨2, true, false⟩) := by decide +kernel

example : exConvertible.construct = some .temporary ∧ exConvertible.assign true = some .temporary := by decide +kernel

/-! ### Instances -/

namespace MemberArg

example := C69_variant (a := exSame true false) ⟨⟨_, rfl⟩, rfl⟩ true
example := C69_foreign_construct (a := exBca true false) ⟨rfl, rfl⟩
example := C69_foreign_assign (a := exBca true false) ⟨rfl, rfl⟩ true
example := C69_derived_construct (a := exAb true) ⟨⟨_, rfl⟩, rfl⟩
example := C69_derived_assign (a := exAb true) ⟨⟨_, rfl⟩, rfl⟩ true
example := C69_foreign_derived_construct (a := exAbC true false) ⟨rfl, rfl⟩
example := C69_foreign_derived_assign (a := exAbC true false) ⟨rfl, rfl⟩ true
example := C69_other_construct (a := exB true false) rfl
example := C69_other_assign (a := exB true false) rfl true
example : ¬ (Route.whole false (tyN 2)).Moves :=
  C69_construct_never_moves (a := exB false false) (fun h => by cases h.1) (by decide +kernel)
example : ¬ (Route.content false true).Moves :=
  C69_assign_never_moves (a := exBca true true) (w := true) (fun h => by cases h.2) (by decide +kernel)
example : (Route.content true false).Moves :=
  (C69_rvalues_moved (a := exBca true false) ⟨rfl, rfl⟩ (.inr (.inr (.inl ⟨_, ⟨rfl, rfl⟩, by decide +kernel⟩)))).1 (by decide +kernel)
example := C69_assign_iff_construct (a := exBca true false) (.inr ⟨_, .inl ⟨rfl, rfl⟩⟩) rfl true
example := C69_initialize (a := exB true false) rfl (rv := true) (t := tyN 2) (by decide +kernel)

end MemberArg

example := MemberArg.C69_no_rvalue_operator (a := exB true false) rfl ⟨rfl, rfl⟩
  ⟨rfl, by unfold MemberArg.SomeTypeFrom; decide +kernel⟩ ⟨by decide, by unfold MemberArg.SomeTypeFrom; decide +kernel⟩

end BVariant
