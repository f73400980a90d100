/-
The visitors that have one function for a given type and one for all others: `direct_assigner`, `direct_mover` and `known_get`
(/repo/include/boost/variant/variant.hpp 395-413 and 599-676), and what uses them: assignment of values, swap, comparison; and `reflect`, behind
`type()`. In Verif.Core.Variant and Verif.Core.Observe a type is its position among the bounded types, and the visitors compare positions. Here types have
qualifiers, references and base classes, and overload resolution decides.

That these visitors are called with an lvalue of type `Elem.lvalue` is C84_bounded_types.
-/
import Verif.Core.Get
import Verif.Core.Observe

namespace BVariant

/-- Overload resolution for an lvalue of type `a` between `f(r&)` and `template <class U> f(U&)`. True if the former is chosen. The template is viable:
`U` is deduced as `a`, with its qualifiers, an identity conversion. So `f(r&)` is chosen iff it is viable, is not a conversion to a base class, and its
parameter is not more qualified than the template's; otherwise the conversions are equally good, and the non-template is preferred. (The language,
[over.ics.rank] and [over.match.best]; user-defined conversions to a reference are worse than the template. The overloads are at variant.hpp 400-411,
617-627 and 656-666.) -/
def Classes.picksOverDeduced (cl : Classes) (a r : CvTy) : Bool :=
  cl.binds false a r && decide (r.base = a.base) && !(r.cvGe a && decide (r ≠ a))

/-- What `T` is in `operator=(const T&)` and, for an rvalue that is not const, in `operator=(T&&)`, for an operand of the given type. (variant.hpp 2001-2028.) -/
def deducedOperand (rhs : CvTy) : CvTy := { rhs with const := false }

section
variable {V : Type} (C : Cfg V) (D : Decl)

/-- `direct_assigner<T>` and `direct_mover<T>` through `apply_visitor`, variant.hpp 599-676 and 1963-1997, for an operand of type `rhs`, which is the
object in `s`. (Simplification: an operand that is converted is no object of the model; it is never assigned directly, see `OperandOf`.) -/
def directAssignOf (l : VarId) (rhs : CvTy) (s : Src V) : M V Bool :=
  applyVisitor C l fun ty id =>
    if D.classes.picksOverDeduced ((D.elem ty).lvalue false) (deducedOperand rhs) then
      match s with
      | .lref _ r _ => do assignObj C ty id r; pure true
      | .rref _ r _ => do moveAssignObj C ty id r; pure true
      | .conv _ _ => pure false
    else pure false

/-- `assign(const T&)` and `move_assign(T&&)`, variant.hpp 1963-1997. -/
def assignValueOf (l : VarId) (rhs : CvTy) (s : Src V) : M V Unit := do
  let done ← directAssignOf C D l rhs s
  if done then pure ()
  else do
    convertConstruct C (.tmp 0) s
    M.withLocal (variantMoveAssign C l (.tmp 0)) (destroyVar C (.tmp 0))

/-- `known_get<T>`, variant.hpp 395-413, visiting a variant that is const or not. -/
def knownGetOf (const : Bool) (t : CvTy) : TyIx → ObjId → M V ObjId := fun ty id =>
  if D.classes.picksOverDeduced ((D.elem ty).lvalue const) t then pure id else forcedReturn C

/-- `swap_with`, variant.hpp 856-887: `T` is deduced from the operand. -/
def swapWithOf (other : VarId) : TyIx → ObjId → M V Unit := fun ty id => do
  let o ← applyVisitor C other (knownGetOf C D false ((D.elem ty).lvalue false))
  swapObj C ty id o

/-- `swap`, variant.hpp 2046-2062. -/
def swapOf (x y : VarId) : M V Unit := do
  let i ← which x
  let j ← which y
  if i = j then
    applyVisitor C x (swapWithOf C D y)
  else do
    moveConstruct C (.tmp 0) y
    M.withLocal (do
        moveAssign C y x
        moveAssign C x (.tmp 0))
      (destroyVar C (.tmp 0))

/-- `comparer`, variant.hpp 916-947: `T` is deduced from the operand, which is in a const variant. -/
def comparerOf (cmp : ElemCmp V) (lhs : VarId) : TyIx → ObjId → M V Bool := fun ty rhs => do
  let l ← applyVisitor C lhs (knownGetOf C D true ((D.elem ty).lvalue true))
  cmp ty l rhs

/-- `operator==`, variant.hpp 2123-2132. -/
def opEqOf (cmp : ElemCmp V) (x y : VarId) : M V Bool := do
  let i ← which x
  let j ← which y
  if i ≠ j then pure false
  else applyVisitor C y (comparerOf C D cmp x)

/-- `operator<`, variant.hpp 2134-2147. -/
def opLtOf (cmp : ElemCmp V) (x y : VarId) : M V Bool := do
  let i ← which x
  let j ← which y
  if i ≠ j then pure (decide (i < j))
  else applyVisitor C y (comparerOf C D cmp x)

/-- `type()`, variant.hpp 2075-2079, with `reflect`, 895-906: `const T&` binds to the content, and `type_id<T>` is without qualifiers. -/
def typeIdOf (x : VarId) : M V Nat :=
  applyVisitor C x fun ty _ => pure ((D.elem ty).lvalue true).removeCv.base

end

end BVariant
