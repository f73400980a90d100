/-
The conditional operator for values of different class types, which `result_multideduce1`
(/repo/include/boost/variant/detail/apply_visitor_unary.hpp 69-92) applies to what the overloads of a visitor return. The rules are those of
C++ ([expr.cond] 4, with the resolution of CWG 1895, and [conv]) and part of the trusted base.
-/
import Verif.Meta.ResultType

namespace BVariant

section
variable (cl : Classes) (user : Nat → Nat → Bool)

/-- Whether a value of type `a` is implicitly converted to type `b`: to a base class, or by a constructor or conversion function, given by `user`. (The language;
ambiguous conversions count as none.) -/
def Classes.convertsTo (a b : Nat) : Bool := cl.baseOf b a || user a b

/-- The conditional operator for a prvalue and an rvalue of different types, one of which is a class, C++ [expr.cond] 4: the one that can be converted to the
type of the other is converted; if neither or both can, the conditional is ill-formed. The result is a prvalue. Other pairs of operands are left out
(ill-formed here). (The language; used at apply_visitor_unary.hpp 81-82. Simplification: no qualifiers, no conversion functions to
references, no overloaded or built-in operators by [expr.cond] 6.) -/
def classCond : Cat × CvTy → Cat × CvTy → Option (Cat × CvTy)
  | (.prvalue, ⟨a, false, false⟩), (_, ⟨b, false, false⟩) =>
    if cl.isClass a || cl.isClass b then
      if cl.convertsTo user a b && !cl.convertsTo user b a then some (.prvalue, ⟨b, false, false⟩)
      else if cl.convertsTo user b a && !cl.convertsTo user a b then some (.prvalue, ⟨a, false, false⟩)
      else none
    else none
  | _, _ => none

/-- `return visitor_(...)` where the overload returns another type, by value: a new object is made, if there is an implicit conversion. (The language;
apply_visitor_unary.hpp 105-107.) -/
def classFit : RetTy → RetTy → Fit
  | .val ⟨b, false, false⟩, .val ⟨a, false, false⟩ => if cl.convertsTo user a b then .converted else .illFormed
  | _, _ => .illFormed

end

end BVariant
