/-
C65: which comparisons with a variant compile, and what they call.
-/
import Verif.Meta.CompareOverload

namespace BVariant

/-- An object of the variant type that is not volatile. -/
def CmpArg.IsVariant (a : CmpArg) : Prop := a.cls = .same ∧ a.volatile = false

/-- An object of the variant type or of a class derived from it that is not volatile. -/
def CmpArg.HasVariant (a : CmpArg) : Prop := a.cls ≠ .other ∧ a.volatile = false

/-- C65: comparing two variants of one type calls the member for variants of that very operator, in every version of the
language. -/
theorem C65_variants (l : CmpLang) (op : CmpOp) {x y : CmpArg} (hx : x.IsVariant) (hy : y.IsVariant) :
    resolveCmp l op x y = some ⟨false, false, false⟩ ∧ cmpCompiles l op x y = true := by
  obtain ⟨cx, vx, tx⟩ := x
  obtain ⟨cy, vy, ty⟩ := y
  obtain ⟨rfl, rfl⟩ := hx
  obtain ⟨rfl, rfl⟩ := hy
  cases l <;> cases op <;> cases tx <;> cases ty <;> exact ⟨by decide, by decide⟩

/-- C65: a right operand of another type is rejected, whatever it converts to: no implicit conversion is done. So are objects of classes
derived from the variant type, and volatile ones. -/
theorem C65_no_conversion (l : CmpLang) (op : CmpOp) (x : CmpArg) {y : CmpArg} (hy : ¬ y.IsVariant) : cmpCompiles l op x y = false := by
  obtain ⟨cx, vx, tx⟩ := x
  obtain ⟨cy, vy, ty⟩ := y
  cases cy <;> cases vy <;> first | exact absurd ⟨rfl, rfl⟩ hy | skip
  all_goals cases l <;> cases op <;> cases cx <;> cases vx <;> cases tx <;> cases ty <;> decide

/-- C65: a comparison compiles exactly if the right operand is a variant and the left one a variant or of a class derived from the variant type;
but in C++20 as published, for `==` and `!=`, exactly if both are variants, since then the reversed template is the better function
for a left operand of a derived class (finding F26). -/
theorem C65_compiles_iff (l : CmpLang) (op : CmpOp) (x y : CmpArg) :
    cmpCompiles l op x y = true ↔
      y.IsVariant ∧ if l = .cpp20 ∧ (op = .eq ∨ op = .ne) then x.IsVariant else x.HasVariant := by
  obtain ⟨cx, vx, tx⟩ := x
  obtain ⟨cy, vy, ty⟩ := y
  simp only [CmpArg.IsVariant, CmpArg.HasVariant]
  cases l <;> cases op <;> cases cx <;> cases vx <;> cases tx <;> cases cy <;> cases vy <;> cases ty <;> decide

/-- C65: whatever compiles calls the member for variants of that very operator, with the operands in their order, so that it does what
C25 and C26 say. -/
theorem C65_selected {l : CmpLang} {op : CmpOp} {x y : CmpArg} (h : cmpCompiles l op x y = true) :
    resolveCmp l op x y = some ⟨false, false, false⟩ := by
  obtain ⟨cx, vx, tx⟩ := x
  obtain ⟨cy, vy, ty⟩ := y
  revert h
  cases l <;> cases op <;> cases cx <;> cases vx <;> cases tx <;> cases cy <;> cases vy <;> cases ty <;> decide

/-- C65, why the template is there: a right operand of another type always selects it; without it, the operand would be converted exactly if it converts to
the variant. -/
theorem C65_template_needed (l : CmpLang) (op : CmpOp) {x y : CmpArg} (hx : x.IsVariant) (hy : y.cls = .other) :
    resolveCmp l op x y = some ⟨true, false, false⟩ ∧
    (⟨false, false, false⟩ : CmpCand).ranks x y = if y.converts then some (0, 2) else none := by
  obtain ⟨cx, vx, tx⟩ := x
  obtain ⟨cy, vy, ty⟩ := y
  obtain ⟨rfl, rfl⟩ := hx
  cases hy
  cases l <;> cases op <;> cases tx <;> cases vy <;> cases ty <;> exact ⟨by decide, by decide⟩

/-! Concrete cases: `v == 5`, where an `int` converts to the variant; `d == v` for an object of a derived class. -/

example : cmpCompiles .cpp17 .eq ⟨.same, false, false⟩ ⟨.other, false, true⟩ = false :=
  C65_no_conversion _ _ _ (by simp [CmpArg.IsVariant])
example : cmpCompiles .cpp17 .eq ⟨.derived, false, true⟩ ⟨.same, false, false⟩ = true ∧
    cmpCompiles .cpp20 .eq ⟨.derived, false, true⟩ ⟨.same, false, false⟩ = false ∧
    cmpCompiles .cpp20p2468 .eq ⟨.derived, false, true⟩ ⟨.same, false, false⟩ = true ∧
    cmpCompiles .cpp20 .lt ⟨.derived, false, true⟩ ⟨.same, false, false⟩ = true := by decide
example := C65_variants .cpp20 .ne (x := ⟨.same, false, false⟩) (y := ⟨.same, false, false⟩) ⟨rfl, rfl⟩ ⟨rfl, rfl⟩
example := C65_selected (l := .cpp20) (op := .lt) (x := ⟨.derived, false, true⟩) (y := ⟨.same, false, false⟩) (by decide)
example := C65_template_needed .cpp20 .eq (x := ⟨.same, false, false⟩) (y := ⟨.other, false, true⟩) ⟨rfl, rfl⟩ rfl

/-! ### Instances -/

example := C65_compiles_iff .cpp20 .eq ⟨.derived, false, true⟩ ⟨.same, false, false⟩

end BVariant
