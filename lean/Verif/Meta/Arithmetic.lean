/-
The conditional operator for operands of arithmetic (or unscoped enumeration) types, which `result_multideduce1`
(/repo/include/boost/variant/detail/apply_visitor_unary.hpp 69-92) applies to what the overloads of a visitor return. The rules are those of
C++ ([expr.cond], [conv.prom], [expr.arith.conv]) and part of the trusted base.
-/
import Verif.Meta.ResultType

namespace BVariant

/-- An arithmetic type after promotion: an integer type by its rank (`int`, `long`, `long long`: 0, 1, 2), signed or unsigned; or a floating
point type by its rank (`float`, `double`, `long double`). (The language.) -/
inductive PTy
  | int (unsigned : Bool) (rank : Nat)
  | float (rank : Nat)
  deriving DecidableEq, Repr

/-- A platform: the widths in bits of the integer types of each rank, to what type each arithmetic type promotes (types that are not
arithmetic have none; floating point types promote to themselves), and which type a promoted type is. (The language.) -/
structure Platform where
  width : Nat → Nat
  width_pos : ∀ r, 0 < width r
  width_mono : ∀ r s, r ≤ s → width r ≤ width s
  promote : Nat → Option PTy
  name : PTy → Nat
  promote_name : ∀ q, promote (name q) = some q

variable (A : Platform)

/-- The usual arithmetic conversions after promotion, C++ [expr.arith.conv]: the higher floating point type; else of integer types with
the same sign the one of higher rank; else the unsigned type, if its rank is not less than that of the signed one; else the signed type,
if it can represent all values of the unsigned one; else the unsigned type of the rank of the signed one. (The language; used at
apply_visitor_unary.hpp 81-82.) -/
def Platform.common : PTy → PTy → PTy
  | .float a, .float b => .float (max a b)
  | .float a, .int _ _ => .float a
  | .int _ _, .float b => .float b
  | .int u a, .int v b =>
    if u = v then .int u (max a b)
    else
      let un := if u then a else b
      let si := if u then b else a
      if si ≤ un then .int true un
      else if A.width un < A.width si then .int false si
      else .int true si

/-- The conditional operator for operands of different arithmetic types, C++ [expr.cond] 4 to 7. Glvalues of the same category whose types
differ by qualifiers only: the less qualified one is converted to the type of the other, if one is. All others become prvalues, and are
brought to one type. (The language; used at apply_visitor_unary.hpp 81-82.) -/
def Platform.cond : Cat × CvTy → Cat × CvTy → Option (Cat × CvTy)
  | (c, t), (c', t') =>
    match A.promote t.base, A.promote t'.base with
    | some p, some p' =>
      if t.base = t'.base then
        if c = c' ∧ c ≠ .prvalue ∧ t.cvGe t' then some (c, t)
        else if c = c' ∧ c ≠ .prvalue ∧ t'.cvGe t then some (c, t')
        else some (.prvalue, t.removeCv)
      else some (.prvalue, ⟨A.name (A.common p p'), false, false⟩)
    | _, _ => none

/-- `return visitor_(...)` where the overload returns another arithmetic type: a value is converted; an rvalue reference is bound to a
temporary if the base types differ, C++ [dcl.init.ref]. References to the same base type with other qualifiers are left out. (The language;
apply_visitor_unary.hpp 105-107.) -/
def Platform.fit : RetTy → RetTy → Fit
  | .val _, _ => .converted
  | .rref t, .val s | .rref t, .lref s | .rref t, .rref s => if t.base = s.base then .illFormed else .dangling
  | _, _ => .illFormed

end BVariant
