/-
The conditional operator for operands of pointer types, which `result_multideduce1`
(/repo/include/boost/variant/detail/apply_visitor_unary.hpp 69-92) applies to what the overloads of a visitor return. The rules are those of
C++ ([expr.cond], [expr.type], [conv.ptr], [conv.qual]) and part of the trusted base.
-/
import Verif.Meta.ResultType

namespace BVariant

/-- `std::nullptr_t`, or a pointer to an object of a type or to `void`, with qualifiers. (The language.) -/
inductive PtrTy
  | null
  | to (t : CvTy)
  deriving DecidableEq, Repr

/-- Which types are pointers: the number of `void`, what each type points to, and the number of a pointer type. (The language.) -/
structure Pointers where
  void : Nat
  ptr : Nat → Option PtrTy
  name : PtrTy → Nat
  ptr_name : ∀ p, ptr (name p) = some p
  name_ptr : ∀ {b p}, ptr b = some p → name p = b

section
variable (cl : Classes) (P : Pointers)

/-- The composite pointer type, C++ [expr.type]: of `nullptr_t` and another, the other; of a pointer to `void` and another, a pointer to `void`; of pointers to the
same type, or to a class and its base, a pointer to that or to the base; always with the qualifiers of both. Otherwise there is none. (The language; used
at apply_visitor_unary.hpp 81-82. Simplification: what is pointed to is not itself a pointer, a member or a function.) -/
def Pointers.composite : PtrTy → PtrTy → Option PtrTy
  | .null, q => some q
  | p, .null => some p
  | .to t, .to s =>
    let res (b : Nat) : Option PtrTy := some (.to ⟨b, t.const || s.const, t.volatile || s.volatile⟩)
    if t.base = s.base then res t.base
    else if t.base = P.void ∨ s.base = P.void then res P.void
    else if cl.isClass t.base && cl.isClass s.base && cl.baseOf s.base t.base then res s.base
    else if cl.isClass t.base && cl.isClass s.base && cl.baseOf t.base s.base then res t.base
    else none

/-- The conditional operator for a prvalue of a pointer type and something of another pointer type, C++ [expr.cond] 6 and 7: a prvalue of the composite pointer
type. Other pairs of operands are left out (ill-formed here). (The language; used at apply_visitor_unary.hpp 81-82.) -/
def Pointers.cond : Cat × CvTy → Cat × CvTy → Option (Cat × CvTy)
  | (.prvalue, t), (_, t') =>
    match P.ptr t.base, P.ptr t'.base with
    | some p, some p' => (P.composite cl p p').map fun q => (.prvalue, ⟨P.name q, false, false⟩)
    | _, _ => none
  | _, _ => none

/-- The implicit conversions of pointers, C++ [conv.ptr] and [conv.qual]. (The language; used at apply_visitor_unary.hpp 105-107.) -/
def Pointers.converts : PtrTy → PtrTy → Bool
  | .null, _ => true
  | .to _, .null => false
  | .to t, .to s =>
    s.cvGe t && (decide (s.base = t.base) || decide (s.base = P.void) || (cl.isClass t.base && cl.isClass s.base && cl.baseOf s.base t.base))

/-- `return visitor_(...)` where the overload returns another pointer type, by value. (The language; apply_visitor_unary.hpp 105-107.) -/
def Pointers.fit : RetTy → RetTy → Fit
  | .val t, .val s =>
    match P.ptr t.base, P.ptr s.base with
    | some q, some p => if P.converts cl p q then .converted else .illFormed
    | _, _ => .illFormed
  | _, _ => .illFormed

end

end BVariant
