/-
The return type of `apply_visitor` for a visitor without a `result_type` member
(/repo/include/boost/variant/detail/apply_visitor_unary.hpp 62-123): `result_multideduce1` folds the conditional
operator over the bounded types, and `result_wrapper1` converts what each overload returns to the type found.

The rules of C++ for `decltype`, `declval` and the conditional operator are part of the trusted base; operands of
different types are left to a parameter.
-/
import Verif.Meta.CvType

namespace BVariant

/-- A value category. (The language.) -/
inductive Cat
  | lvalue
  | xvalue
  | prvalue
  deriving DecidableEq, Repr

/-- The return type of an overload: `void`, `T`, `T&` or `T&&`. (The language.) -/
inductive RetTy
  | void
  | val (t : CvTy)
  | lref (t : CvTy)
  | rref (t : CvTy)
  deriving DecidableEq, Repr

/-- What the compiler knows of an expression: that it is `void`, or its category and type. (The language.) -/
inductive Expr
  | void
  | of (c : Cat) (t : CvTy)
  deriving DecidableEq, Repr

/-- The type of a prvalue: a type that is not a class loses its qualifiers (C++ [expr.type]). (The language.) -/
def Classes.prTy (cl : Classes) (t : CvTy) : CvTy := if cl.isClass t.base then t else t.removeCv

/-- A call of a function with the given return type (C++ [expr.call]). (The language; the calls at apply_visitor_unary.hpp
81 and 88.) -/
def RetTy.call (cl : Classes) : RetTy → Expr
  | .void => .void
  | .val t => .of .prvalue (cl.prTy t)
  | .lref t => .of .lvalue t
  | .rref t => .of .xvalue t

/-- `declval<R>()`: a call of a function returning `R&&`; for `void`, `void`. (The language; used at
apply_visitor_unary.hpp 82.) -/
def RetTy.declval : RetTy → Expr
  | .void => .void
  | .val t | .rref t => .of .xvalue t
  | .lref t => .of .lvalue t

/-- `decltype(e)` of an expression that is a call or a conditional (C++ [dcl.type.decltype]). (The language; used at
apply_visitor_unary.hpp 81 and 88.) -/
def Expr.decltype : Expr → RetTy
  | .void => .void
  | .of .prvalue t => .val t
  | .of .lvalue t => .lref t
  | .of .xvalue t => .rref t

/-- The conditional operator (C++ [expr.cond]) for operands of the same type: a glvalue if both are glvalues of the same
category, otherwise a prvalue. `void` with anything else is ill-formed. For operands of different types: `other`. (The
language; used at apply_visitor_unary.hpp 81-82.) -/
def condOp (cl : Classes) (other : Cat × CvTy → Cat × CvTy → Option (Cat × CvTy)) : Expr → Expr → Option Expr
  | .void, .void => some .void
  | .of c t, .of c' t' =>
    if t = t' then
      if c = c' ∧ c ≠ .prvalue then some (.of c t) else some (.of .prvalue (cl.prTy t))
    else (other (c, t) (c', t')).map fun p => .of p.1 p.2
  | _, _ => none

/-- How a variant is passed to `apply_visitor`. (apply_visitor_unary.hpp 112-121.) -/
structure Passed where
  rvalue : Bool
  const : Bool
  deriving DecidableEq, Repr

/-- The argument for which the overload is looked up during the deduction, apply_visitor_unary.hpp 81 and 88:
`declval< copy_cv_ref_t<value_t, Variant> >()`, where `value_t` is an element of `Variant::types`
(variant.hpp 1124-1127, without `recursive_wrapper`). `copy_cv_ref_t` (Boost.TypeTraits) copies const-ness and the
reference of `Variant`, which is a reference iff the variant is an lvalue; a `value_t` that is an lvalue reference is
not changed by it. -/
def Passed.deducedArg (p : Passed) (e : Elem) : Expr :=
  match e.unwrap with
  | .val t | .wrapped t => .of (if p.rvalue then .xvalue else .lvalue) (if p.const then t.addConst else t)
  | .ref t => .of .lvalue t

/-- The argument with which `invoke_visitor` calls the visitor, variant.hpp 984-1062, 2230-2260: the content, after
unwrapping a `recursive_wrapper` or a `reference_content` to an lvalue; with `std::move` if the variant is an rvalue. -/
def Passed.calledArg (p : Passed) (e : Elem) : Expr :=
  .of (if p.rvalue then .xvalue else .lvalue) (e.lvalue p.const)

section
variable (cl : Classes) (other : Cat × CvTy → Cat × CvTy → Option (Cat × CvTy))

/-- `result_multideduce1::deduce_impl`, apply_visitor_unary.hpp 77-89, as a function of the return types that the visitor
has for the bounded types: for the last one `decltype` of the call, for the others `decltype` of the conditional of the
call and of `declval` of the rest. `none`: the deduction does not compile (or there are no types). -/
def deduceImpl : List (Option RetTy) → Option RetTy
  | [] => none
  | [r] => r.map fun r => (r.call cl).decltype
  | r :: rs => do
    let r ← r
    let rest ← deduceImpl rs
    let e ← condOp cl other (r.call cl) rest.declval
    pure e.decltype

/-- `result_multideduce1<Visitor, Variant>::type`, apply_visitor_unary.hpp 69-92. `visitor` is the visitor's overload
set: the return type of the overload chosen for an argument, if there is one. -/
def deduce (visitor : Expr → Option RetTy) (p : Passed) (elems : List Elem) : Option RetTy :=
  deduceImpl cl other (elems.map fun e => visitor (p.deducedArg e))

/-- The same for several variants, apply_visitor_binary.hpp 160-270 and multivisitors_cpp14_based.hpp 41-100: the visitor
handed to the first variant returns, by `decltype(auto)`, what `apply_visitor` for the remaining variants returns. -/
def deduceN (visitor : List Expr → Option RetTy) : List (Passed × List Elem) → List Expr → Option RetTy
  | [], args => visitor args
  | (p, elems) :: rest, args => deduce cl other (fun a => deduceN visitor rest (args ++ [a])) p elems

/-- What becomes of the result of an overload when `result_wrapper1::operator()` (apply_visitor_unary.hpp 104-107)
returns it as the deduced type. -/
inductive Fit
  /-- the very same object or value -/
  | same
  /-- a new object made from it -/
  | converted
  /-- a reference to a temporary that is destroyed on return -/
  | dangling
  /-- the return statement does not compile -/
  | illFormed
  deriving DecidableEq, Repr

/-- `return visitor_(...)` in a function returning `r`, where the overload returns `o` (C++ [stmt.return],
[dcl.init.ref]), when both are about the same type. A const lvalue reference would bind to a temporary. For different
types: `conv`. (The language; apply_visitor_unary.hpp 105-107.) -/
def returnFit (conv : RetTy → RetTy → Fit) (r o : RetTy) : Fit :=
  match r, o with
  | .void, .void => .same
  | .val t, .val s => if t = cl.prTy s then .same else conv r o
  | .lref t, .lref s => if t = s then .same else conv r o
  | .rref t, .rref s => if t = s then .same else conv r o
  | .val t, .lref s | .val t, .rref s => if t = cl.prTy s then .converted else conv r o
  | .rref t, .val s => if t = s then .dangling else conv r o
  | .rref t, .lref s => if t = s then .illFormed else conv r o
  | .lref t, .val s | .lref t, .rref s =>
    if t = s then (if t.const && !t.volatile then (if o = .rref s then .same else .dangling) else .illFormed) else conv r o
  | .void, _ | _, .void => .illFormed

/-- C++ [expr.cond] 4 for two lvalues of different types: the one that can be bound to a reference to the type of the
other is converted to it; if neither or both can, the conditional is ill-formed. Other pairs of operands of different types
are left out (ill-formed here). -/
def lvalueCond : Cat × CvTy → Cat × CvTy → Option (Cat × CvTy)
  | (.lvalue, t), (.lvalue, s) =>
    if cl.binds false t s && !cl.binds false s t then some (.lvalue, s)
    else if cl.binds false s t && !cl.binds false t s then some (.lvalue, t)
    else none
  | _, _ => none

/-- Binding of an lvalue of another type to a reference: the same object if it binds directly. Other conversions are left
out. (The language; apply_visitor_unary.hpp 105-107.) -/
def lvalueConv : RetTy → RetTy → Fit
  | .lref t, .lref s => if cl.binds false s t then .same else .illFormed
  | _, _ => .illFormed

end

end BVariant
