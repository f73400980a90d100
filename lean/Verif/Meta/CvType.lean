/-
Types with cv-qualifiers, and overload resolution between the two overloads that `get_visitor`
(/repo/include/boost/variant/get.hpp 73-97), and `visitor_ptr_t` (visitor_ptr.hpp 34-78) have:
a non-template taking `R&`, and a template taking `const U&` for any `U`.
-/

namespace BVariant

/-- An object type: a cv-unqualified type, named by a number, with its qualifiers. (The language.) -/
structure CvTy where
  base : Nat
  const : Bool := false
  volatile : Bool := false
  deriving DecidableEq, Repr

/-- `add_const` (The language; used at element_index.hpp 25-32 and get.hpp 135-144.) -/
def CvTy.addConst (t : CvTy) : CvTy := { t with const := true }

/-- `remove_cv` (The language; used at element_index.hpp 34-43.) -/
def CvTy.removeCv (t : CvTy) : CvTy := { t with const := false, volatile := false }

/-- `t` is at least as cv-qualified as `s` (same or more qualifiers). (The language.) -/
def CvTy.cvGe (t s : CvTy) : Bool := (!s.const || t.const) && (!s.volatile || t.volatile)

/-- What the types are like, as far as the library can tell. (The language.) -/
structure Classes where
  /-- the type is a class type -/
  isClass : Nat → Bool
  /-- the first class is a (proper) base of the second; accessible and unambiguous -/
  baseOf : Nat → Nat → Bool

/-- `is_base_of<B, D>`: both are classes, and `B` is `D` or a base of `D`; qualifiers are ignored. (The language; used at
polymorphic_get.hpp 64-74.) -/
def Classes.isBaseOf (cl : Classes) (b d : CvTy) : Bool :=
  cl.isClass b.base && cl.isClass d.base && (decide (b.base = d.base) || cl.baseOf b.base d.base)

/-- An lvalue (or, if `rv`, an rvalue) of type `a` can be bound to a parameter of type `r&`: the same type or a base
class, no qualifier is dropped, and an rvalue needs `r` to be const and not volatile. (C++ [dcl.init.ref]; user-defined
conversions to a reference are left out, they are worse than the template.) (The language: the calls of the overloads at
get.hpp 88-96 and polymorphic_get.hpp 114-129.) -/
def Classes.binds (cl : Classes) (rv : Bool) (a r : CvTy) : Bool :=
  r.cvGe a && (!rv || (r.const && !r.volatile)) &&
    (decide (r.base = a.base) || (cl.isClass r.base && cl.isClass a.base && cl.baseOf r.base a.base))

/-- Overload resolution for an argument of type `a` between `f(r&)` and `template <class U> f(const U&)`. True if the
former is chosen.
The template is viable (for a volatile rvalue it may not be, which is left out): it deduces `const U` as `a` plus const,
an identity conversion. So `f(r&)` is chosen iff it is viable, is not a conversion to a base class ([over.best.ics], rank
Conversion), and its parameter is not more cv-qualified than the template's ([over.ics.rank] 3.2.6: then the template
would be better). In all other cases the conversions are equally good and the non-template is preferred
([over.match.best]). -/
def Classes.picksNonTemplate (cl : Classes) (rv : Bool) (a r : CvTy) : Bool :=
  let p := a.addConst
  cl.binds rv a r && decide (r.base = a.base) && !(r.cvGe p && decide (r ≠ p))

/-- The template argument of `get<U>`: an object type, or an lvalue reference to it. (The template argument of get.hpp
118-201.) -/
structure GetArg where
  ty : CvTy
  isRef : Bool := false
  deriving DecidableEq, Repr

/-- `const U`: no effect on a reference type. (The language; used at get.hpp 135-144 and 166-173.) -/
def GetArg.addConst (u : GetArg) : GetArg := if u.isRef then u else { u with ty := u.ty.addConst }

/-- A bounded type as the user writes it: `T`, `recursive_wrapper<T>` or `T&`. (The template arguments of `variant`,
variant.hpp 1071-1127.) -/
inductive Elem
  | val (t : CvTy)
  | wrapped (t : CvTy)
  | ref (t : CvTy)
  deriving DecidableEq, Repr

/-- An element of `Variant::types`, variant.hpp 1124-1127: `unwrap_recursive` (recursive_wrapper_fwd.hpp 111-125)
removes `recursive_wrapper`. -/
def Elem.unwrap : Elem → Elem
  | .wrapped t => .val t
  | e => e

/-- The type of the lvalue that a visitor gets for content declared as the given bounded type, when the variant is
const or not: `apply_visitor` on a const variant visits const contents; the contents of a reference are what it refers
to (`reference_content::get`), which does not become const. (variant.hpp 1006-1055.) -/
def Elem.lvalue (constVariant : Bool) : Elem → CvTy
  | .val t | .wrapped t => if constVariant then t.addConst else t
  | .ref t => t

end BVariant
