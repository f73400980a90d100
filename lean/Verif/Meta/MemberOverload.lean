/-
Which constructor `variant x(operand)` calls and which assignment operator `x = operand` calls
(/repo/include/boost/variant/variant.hpp 1589-1654 and 2001-2044), and which of the functions `convert_construct` the converting
constructors then call (1431-1469 and 1551-1585).

The rules of C++ for overload resolution are part of the trusted base, as far as they are needed for these members. The
disjunctions with `recursive_variant_` (1596, 1613, 1627) are left out. A class with two different variant types as bases is left out.
-/
import Verif.Core.Convert

namespace BVariant

/-- How the type of the operand is related to variant types: not at all; or it is a variant type, or (`derived`) a class derived from
one, publicly and unambiguously. `same`: this is the type of the variant that is constructed or assigned to. (The operand of
variant.hpp 1589-1654 and 2001-2044.) -/
inductive Relation
  | other
  | variant (src : VClass) (same derived : Bool)

/-- An operand: an lvalue or (`rv`) an rvalue of type `ty`, for a variant with bounded types `dst`. `converts`: its class has a function
that converts it to the variant type (and returns it by value). (The operand of variant.hpp 1589-1654 and 2001-2044.) -/
structure MemberArg where
  L : Lang
  dst : List Elem
  ty : CvTy
  rv : Bool
  relation : Relation
  converts : Bool

namespace MemberArg
variable (a : MemberArg)

/-- `is_same<T, variant>`, where `T` is the type of the operand without const. (variant.hpp 1593, 1611, 1624, 2020.) -/
def isSame : Bool :=
  match a.relation with
  | .variant _ true false => !a.ty.volatile
  | _ => false

/-- The conversion of an lvalue or rvalue of the variant type `src`, the operand or its base class. (variant.hpp 1551-1585.) -/
def foreign (src : VClass) (rv const : Bool) : Foreign := ⟨a.L, src, a.dst, rv, const⟩

/-- `is_variant_constructible_from<A, internal_types>` for `A` an lvalue or (`rv`) rvalue reference to `t`, the type of the operand or
that type with const: variant.hpp 275-284, and for a reference to a variant type, unless it is volatile, 286-315. -/
def takes (rv : Bool) (t : CvTy) : Bool :=
  match a.relation with
  | .variant src _ false => if t.volatile then (a.L.arg rv t).isVariantConstructibleFrom a.dst else (a.foreign src rv t.const).constructible
  | _ => (a.L.arg rv t).isVariantConstructibleFrom a.dst

/-- The operand is an rvalue and not const. (What `is_rvalue_reference<T&&>` and `not_< is_const<T> >` ask, variant.hpp 1622-1623 and
2005-2006.) -/
def movable : Bool := a.rv && !a.ty.const

/-- The type of the operand is the variant type or derived from it. (The parameters of variant.hpp 1636, 1646, 2031, 2037.) -/
def isOurs : Bool :=
  match a.relation with
  | .variant _ same _ => same
  | .other => false

/-- The type of the operand is derived from a variant type. (The parameters of variant.hpp 1551-1585, 1636, 1646, 2031, 2037.) -/
def isDerived : Bool :=
  match a.relation with
  | .variant _ _ derived => derived
  | .other => false

end MemberArg

/-- The constructors with one parameter. (variant.hpp 1589-1600, 1602-1616, 1618-1631, 1636-1644, 1646-1654.) -/
inductive Ctor
  /-- the template for `const T&` -/
  | fromConst
  /-- the template for `T&` -/
  | fromRef
  /-- the template for `T&&` -/
  | fromRvalue
  | copy
  | move
  deriving DecidableEq, Repr

/-- The assignment operators. (variant.hpp 2002-2014, 2017-2028, 2031-2035, 2037-2044.) -/
inductive AssignOp
  /-- the template for `T&&` -/
  | fromRvalue
  /-- the template for `const T&` -/
  | fromConst
  | copy
  | move
  deriving DecidableEq, Repr

/-- The functions `convert_construct` that can be called with two arguments. (variant.hpp 1431-1449, 1451-1469, 1551-1561, 1563-1573,
1575-1585.) -/
inductive ConvertFn
  /-- for `T&` and `int` -/
  | lvalue
  /-- for `T&&` and `int` -/
  | rvalue
  /-- for `variant<U...>&` and `long` -/
  | variantRef
  /-- for `const variant<U...>&` and `long` -/
  | variantConst
  /-- for `variant<U...>&&` and `long` -/
  | variantRvalue
  deriving DecidableEq, Repr

/-- What the operand is used for. (variant.hpp 1436-1448, 1456-1468, 1636-1654.) -/
inductive Route
  /-- the copy constructor copies it -/
  | copy
  /-- the move constructor moves it -/
  | move
  /-- its conversion function makes a variant, which is moved -/
  | temporary
  /-- it is handed to `initialize`, as an lvalue or rvalue of this type -/
  | whole (rv : Bool) (ty : CvTy)
  /-- its content is handed to `initialize`, by `convert_copy_into` or (`rv`) `convert_move_into` -/
  | content (rv const : Bool)
  deriving DecidableEq, Repr

/-- The rank of binding an operand of the parameter's class or (`derived`) of a derived class to a reference, to const or not: a
parameter without const is better for the same class ([over.ics.rank] 3.2.3 and 3.2.6), and both are better than any parameter of
a base class (3.1). For a const operand the parameter of a template has const, too. (The language; the parameters at variant.hpp
1431-1469, 1551-1654 and 2002-2044.) -/
def bindRank (derived const : Bool) : Nat := (if derived then 2 else 0) + (if const then 1 else 0)

/-- The only element that is better than all others. (The language: [over.match.best].) -/
def soleBest {α : Type} [DecidableEq α] (cs : List α) (better : α → α → Bool) : Option α :=
  cs.find? fun c => cs.all fun d => decide (d = c) || better c d

namespace MemberArg
variable (a : MemberArg)

/-- The rank of the conversion of the operand to the parameter of a constructor template; `none` if the template does not take part.
`T` is the type of the operand without const for `const T&`, and with const for the others, which then exclude it. A volatile rvalue
cannot be bound to `const T&`. (variant.hpp 1589-1631.) -/
def templateRank : Ctor → Option Nat
  | .fromConst => if !a.isSame && !(a.rv && a.ty.volatile) && a.takes false a.ty.addConst then some (bindRank false true) else none
  | .fromRef => if !a.rv && !a.ty.const && !a.isSame && a.takes false a.ty then some (bindRank false false) else none
  | .fromRvalue => if a.movable && !a.isSame && a.takes true a.ty then some (bindRank false false) else none
  | .copy | .move => none

/-- A user conversion makes the operand a variant: its conversion function, or a converting constructor. None is considered from the
variant type and classes derived from it ([over.best.ics], [dcl.init.ref]). (The language; the constructors at variant.hpp 1589-1631.) -/
def userConverts : Bool :=
  !a.isOurs && (a.converts || (a.templateRank .fromConst).isSome || (a.templateRank .fromRef).isSome || (a.templateRank .fromRvalue).isSome)

/-- The rank of the conversion of the operand to `const variant&`, or (`rv`) to `variant&&`: direct binding, or 4 and 5 for a user
conversion, whose result is an rvalue. (The language; the parameters at variant.hpp 1636, 1646, 2031 and 2037.) -/
def variantRank (rv : Bool) : Option Nat :=
  if a.isOurs then
    if a.ty.volatile || (rv && !a.movable) then none else some (bindRank a.isDerived (!rv))
  else if a.userConverts then some (if rv then 4 else 5) else none

/-- The rank of the conversion to the parameter of a constructor. (variant.hpp 1589-1654.) -/
def ctorRank : Ctor → Option Nat
  | .copy => a.variantRank false
  | .move => a.variantRank true
  | c => a.templateRank c

/-- A constructor is not a template. (variant.hpp 1636 and 1646.) -/
def _root_.BVariant.Ctor.plain : Ctor → Bool
  | .copy | .move => true
  | _ => false

/-- A better function: a better conversion of the only operand, or an equal one and only the first is not a template.
(The language: [over.match.best].) -/
def _root_.BVariant.betterRank (r s : Option Nat) (plain plain' : Bool) : Bool :=
  match r, s with
  | some r, some s => decide (r < s) || (decide (r = s) && plain && !plain')
  | _, none => true
  | none, _ => false

/-- The constructor that `variant x(operand)` calls; `none`: there is none, or the call is ambiguous. (The language; the constructors at
variant.hpp 1589-1654.) -/
def ctor : Option Ctor :=
  soleBest ([Ctor.fromConst, .fromRef, .fromRvalue, .copy, .move].filter fun c => (a.ctorRank c).isSome)
    fun c d => betterRank (a.ctorRank c) (a.ctorRank d) c.plain d.plain

/-- The ranks of the conversions of the two arguments `operand` and `1L` to the parameters of a function `convert_construct`: the
second is exact for `long` and a conversion for `int`. The functions for `variant<U...>` take part if this is the variant type
itself or `is_variant_constructible_from` holds. (variant.hpp 1431-1469 and 1551-1585.) -/
def convertRank : ConvertFn → Option (Nat × Nat)
  | .lvalue => if a.rv then none else some (bindRank false a.ty.const, 1)
  | .rvalue => if a.rv then some (bindRank false a.ty.const, 1) else none
  | .variantRef => if enabled && !a.rv && !a.ty.const && !a.ty.volatile then some (bindRank a.isDerived false, 0) else none
  | .variantConst => if enabled && !a.ty.volatile then some (bindRank a.isDerived true, 0) else none
  | .variantRvalue => if enabled && a.movable && !a.ty.volatile then some (bindRank a.isDerived false, 0) else none
where
  /-- The condition of `enable_if`. (variant.hpp 1552-1555, 1564-1567, 1576-1579.) -/
  enabled : Bool :=
    match a.relation with
    | .variant src same _ => same || (a.foreign src a.rv a.ty.const).constructible
    | .other => false

/-- A better function: no argument is converted worse and one is converted better. (Between functions with equal conversions none of the
calls here has to choose.) (The language: [over.match.best].) -/
def _root_.BVariant.betterRanks (r s : Option (Nat × Nat)) : Bool :=
  match r, s with
  | some r, some s => decide (r.1 ≤ s.1) && decide (r.2 ≤ s.2) && (decide (r.1 < s.1) || decide (r.2 < s.2))
  | _, none => true
  | none, _ => false

/-- The function that `convert_construct(operand, 1L)` calls; `none`: the call is ambiguous. (The call at variant.hpp 1599, 1615 and
1630.) -/
def convertFn : Option ConvertFn :=
  soleBest ([ConvertFn.lvalue, .rvalue, .variantRef, .variantConst, .variantRvalue].filter fun c => (a.convertRank c).isSome)
    fun c d => betterRanks (a.convertRank c) (a.convertRank d)

/-- `convert_construct_variant`, variant.hpp 1497-1549: the operand is handed on whole if its type, which is here the base class, is a
bounded type, and otherwise its content is converted. -/
def convertVariant (rv const : Bool) : Option Route :=
  match a.relation with
  | .variant src _ _ =>
    let f := a.foreign src rv const
    some (if f.isForeign then .content rv const else .whole rv f.srcTy)
  | .other => none

/-- What `convert_construct(operand, 1L)` does; `none`: it does not compile. (variant.hpp 1431-1469 and 1551-1585.) -/
def convertRoute : Option Route :=
  match a.convertFn with
  | some .lvalue => some (.whole false a.ty)
  | some .rvalue => some (.whole true a.ty)
  | some .variantRef => a.convertVariant false false
  | some .variantConst => a.convertVariant false true
  | some .variantRvalue => a.convertVariant true false
  | none => none

/-- The operand as a parameter of type `const T&`. (variant.hpp 1590 and 2023.) -/
def asConst : MemberArg := { a with ty := a.ty.addConst, rv := false }

/-- What `variant x(operand)` does; `none`: it does not compile, unless for the choice of `initialize`. The parameter is handed on as
it is, by the template for `T&&` as an rvalue. (variant.hpp 1599, 1615, 1630, 1636-1654.) -/
def construct : Option Route :=
  match a.ctor with
  | some .fromConst => a.asConst.convertRoute
  | some .fromRef => a.convertRoute
  | some .fromRvalue => a.convertRoute
  | some .copy => some .copy
  | some .move => some (if a.isOurs then .move else .temporary)
  | none => none

/-- The rank of the conversion to the parameter of an assignment operator. `withRvalue`: the template for `T&&` is declared, which it is
not for Clang after C++20. (variant.hpp 2001-2044.) -/
def assignRank (withRvalue : Bool) : AssignOp → Option Nat
  | .fromRvalue => if withRvalue && a.movable && a.takes true a.ty then some (bindRank false false) else none
  | .fromConst => if !(a.rv && a.ty.volatile) && (a.isSame || a.takes false a.ty.addConst) then some (bindRank false true) else none
  | .copy => a.variantRank false
  | .move => a.variantRank true

/-- An assignment operator is not a template. (variant.hpp 2031 and 2037.) -/
def _root_.BVariant.AssignOp.plain : AssignOp → Bool
  | .copy | .move => true
  | _ => false

/-- The assignment operator that `x = operand` calls; `none`: there is none, or the call is ambiguous. (The language; the operators at
variant.hpp 2001-2044.) -/
def assignOp (withRvalue : Bool) : Option AssignOp :=
  soleBest ([AssignOp.fromRvalue, .fromConst, .copy, .move].filter fun c => (a.assignRank withRvalue c).isSome)
    fun c d => betterRank (a.assignRank withRvalue c) (a.assignRank withRvalue d) c.plain d.plain

/-- What `x = operand` does, unless the content is assigned to directly: the templates construct a variant from their parameter
(`variant temp(rhs)`, `variant temp(move(rhs))`) and move it; the others take the operand, or a variant that a user conversion makes of
it. A conversion function comes before the converting constructors ([dcl.init.ref]). `none`: it does not compile, unless for the
choice of `initialize`. (variant.hpp 1963-1997 and 2001-2044.) -/
def assign (withRvalue : Bool) : Option Route :=
  match a.assignOp withRvalue with
  | some .fromRvalue => a.construct
  | some .fromConst => a.asConst.construct
  | some .copy => if a.isOurs then some .copy else if a.converts then some .temporary else a.construct
  | some .move => if a.isOurs then some .move else if a.converts then some .temporary else a.construct
  | none => none

end MemberArg

end BVariant
