/-
Model of `get`, `polymorphic_get` and `visitor_ptr`.
/repo/include/boost/variant/get.hpp, polymorphic_get.hpp, detail/element_index.hpp, visitor_ptr.hpp.
A pointer to (or reference to) content is represented by the identity of the content object.
-/
import Verif.Core.Variant
import Verif.Meta.CvType

namespace BVariant

/-- How the types of a variant are declared, and what is known of them. (The template arguments of `variant`, variant.hpp
1071-1127.) -/
structure Decl where
  elems : List Elem
  classes : Classes

/-- The bounded type at position `k`. (variant.hpp 1113-1127.) -/
def Decl.elem (D : Decl) (k : TyIx) : Elem := D.elems.getD k (.val ⟨0, false, false⟩)

/-! ### Static checks -/

/-- `variant_element_functor<VariantElement, T>`, element_index.hpp 25-32, for an element of `Variant::types` (which
contains no `recursive_wrapper`, so that the second alternative never applies). -/
def variantElementFunctor (e : Elem) (t : CvTy) : Bool :=
  decide (e = .val t) || decide (e = .wrapped t) || decide (e = .ref t)

/-- `element_iterator_impl`'s predicate, element_index.hpp 34-43. -/
def elementPred (t : CvTy) (e : Elem) : Bool :=
  variantElementFunctor e t || variantElementFunctor e t.removeCv

/-- `holds_element<Variant, U>`, element_index.hpp 45-58: `find_if` does not reach the end. -/
def holdsElement (D : Decl) (u : GetArg) : Bool := (D.elems.map Elem.unwrap).any (elementPred u.ty)

/-- `is_base_of<T, E>` for an element of `Variant::types`; false for a reference type. (polymorphic_get.hpp 64-74.) -/
def isBaseOfElem (cl : Classes) (t : CvTy) : Elem → Bool
  | .val d | .wrapped d => cl.isBaseOf t d
  | .ref _ => false

/-- `element_polymorphic_iterator_impl`'s predicate, polymorphic_get.hpp 64-74. -/
def elementPolymorphicPred (cl : Classes) (t : CvTy) (e : Elem) : Bool :=
  variantElementFunctor e t || variantElementFunctor e t.removeCv || isBaseOfElem cl t e

/-- `holds_element_polymorphic<Variant, U>`, polymorphic_get.hpp 76-84. -/
def holdsElementPolymorphic (D : Decl) (u : GetArg) : Bool :=
  (D.elems.map Elem.unwrap).any (elementPolymorphicPred D.classes u.ty)

/-- How the operand of a `get` function is passed. (The overloads at get.hpp 118-201.) -/
inductive Operand
  /-- `variant*` or `variant&` -/
  | nonconst
  /-- `const variant*` or `const variant&` -/
  | const
  /-- `variant&&` -/
  | rvalue
  deriving DecidableEq, Repr

/-- The operand is a const variant. (The overloads for const operands, get.hpp 133-146 and 164-178.) -/
def Operand.isConst : Operand → Bool
  | .const => true
  | _ => false

/-- The operand is an rvalue. (The overload for rvalues, get.hpp 187-201.) -/
def Operand.isRvalue : Operand → Bool
  | .rvalue => true
  | _ => false

/-- The static assertions of `strict_get<U>`, get.hpp 212-302. -/
def strictGetAllowed (D : Decl) (o : Operand) (u : GetArg) : Bool :=
  match o with
  | .nonconst => holdsElement D u
  | .const => holdsElement D u.addConst
  | .rvalue => !u.isRef && holdsElement D u

/-- The static assertion of `polymorphic_strict_get<U>`, polymorphic_get.hpp 218-284; the const overloads test `U`, not
`const U`. -/
def polymorphicStrictGetAllowed (D : Decl) (u : GetArg) : Bool := holdsElementPolymorphic D u

section
variable {V α : Type} (C : Cfg V) (D : Decl)

/-! ### get -/

/-- `get_visitor<U>`, get.hpp 73-97. -/
def getVisitor (o : Operand) (u : GetArg) : TyIx → ObjId → M V (Option ObjId) := fun ty id =>
  pure (if D.classes.picksNonTemplate false ((D.elem ty).lvalue o.isConst) u.ty then some id else none)

/-- `relaxed_get<U>(operand)` on pointers, get.hpp 118-146. On a const variant the visitor is `get_visitor<const U>`. -/
def relaxedGetPtr (o : Operand) (u : GetArg) (operand : Option VarId) : M V (Option ObjId) :=
  M.noexceptIf true <|
    match operand with
    | none => pure none
    | some x => applyVisitor C x (getVisitor D o (if o.isConst then u.addConst else u))

/-- Throw an exception of the library itself. (`boost::throw_exception`, get.hpp 160, 176 and 199; polymorphic_get.hpp 194
and 210; visitor_ptr.hpp 68.) -/
def throwKind (k : ExcKind) : M V α := fun w => .exc ⟨k, w.tick⟩ w

/-- `relaxed_get<U>(operand)` on references, get.hpp 148-201. The const overload passes `const U` on. -/
def relaxedGet (o : Operand) (u : GetArg) (x : VarId) : M V ObjId := do
  match ← relaxedGetPtr C D o (if o.isConst then u.addConst else u) (some x) with
  | none => throwKind .badGet
  | some id => pure id

/-! ### polymorphic_get -/

/-- The tag in `get_polymorphic_visitor<Base>::operator()`, polymorphic_get.hpp 114-129. -/
def polymorphicTag (cl : Classes) (b u : CvTy) : Bool :=
  (cl.isBaseOf b u && (b.const || !u.const)) || decide (b = u) || decide (b.removeCv = u)

/-- Whether `get_polymorphic_visitor<Base>::operator()` can be instantiated for all bounded types, polymorphic_get.hpp 98-101 and 114-129: if the tag is
true, the operand must bind to `Base&`, which may not drop qualifiers. -/
def polymorphicVisitorCompiles (o : Operand) (u : GetArg) : Bool :=
  D.elems.all fun e =>
    !polymorphicTag D.classes (if o.isConst then u.addConst else u).ty (e.lvalue o.isConst) ||
      (if o.isConst then u.addConst else u).ty.cvGe (e.lvalue o.isConst)

/-- `get_polymorphic_visitor<Base>`, polymorphic_get.hpp 92-130. -/
def polymorphicVisitor (o : Operand) (u : GetArg) : TyIx → ObjId → M V (Option ObjId) := fun ty id =>
  pure (if polymorphicTag D.classes u.ty ((D.elem ty).lvalue o.isConst) then some id else none)

/-- `polymorphic_relaxed_get<U>(operand)` on pointers, polymorphic_get.hpp 152-180. -/
def polymorphicRelaxedGetPtr (o : Operand) (u : GetArg) (operand : Option VarId) : M V (Option ObjId) :=
  M.noexceptIf true <|
    match operand with
    | none => pure none
    | some x => applyVisitor C x (polymorphicVisitor D o (if o.isConst then u.addConst else u))

/-- `polymorphic_relaxed_get<U>(operand)` on references, polymorphic_get.hpp 182-212. -/
def polymorphicRelaxedGet (o : Operand) (u : GetArg) (x : VarId) : M V ObjId := do
  match ← polymorphicRelaxedGetPtr C D o (if o.isConst then u.addConst else u) (some x) with
  | none => throwKind .badPolymorphicGet
  | some id => pure id

/-! ### The functions with the short names -/

/-- `get<U>(operand)` on pointers, get.hpp 308-337, with `BOOST_VARIANT_USE_RELAXED_GET_BY_DEFAULT` defined (`relaxed`) or not; `none`: the
call does not compile. -/
def getByPtr (relaxed : Bool) (o : Operand) (u : GetArg) : Option (Option VarId → M V (Option ObjId)) :=
  if relaxed then some (relaxedGetPtr C D o u)
  else if strictGetAllowed D o u then some (relaxedGetPtr C D o u) else none

/-- `get<U>(operand)` on references, get.hpp 339-385. -/
def getByRef (relaxed : Bool) (o : Operand) (u : GetArg) : Option (VarId → M V ObjId) :=
  if relaxed then some (relaxedGet C D o u)
  else if strictGetAllowed D o u then some (relaxedGet C D o u) else none

/-- `polymorphic_get<U>(operand)` on pointers, polymorphic_get.hpp 290-319. -/
def polymorphicGetPtr (relaxed : Bool) (o : Operand) (u : GetArg) : Option (Option VarId → M V (Option ObjId)) :=
  if relaxed then some (polymorphicRelaxedGetPtr C D o u)
  else if polymorphicStrictGetAllowed D u then some (polymorphicRelaxedGetPtr C D o u) else none

/-- `polymorphic_get<U>(operand)` on references, polymorphic_get.hpp 321-350. -/
def polymorphicGetRef (relaxed : Bool) (o : Operand) (u : GetArg) : Option (VarId → M V ObjId) :=
  if relaxed then some (polymorphicRelaxedGet C D o u)
  else if polymorphicStrictGetAllowed D u then some (polymorphicRelaxedGet C D o u) else none

/-! ### visitor_ptr -/

/-- The parameter type of the function given to `visitor_ptr`: `T`, or an lvalue reference `T&`. (visitor_ptr.hpp 34-54.) -/
structure ParamTy where
  ty : CvTy
  isRef : Bool
  deriving DecidableEq, Repr

/-- `argument_fwd_type`, visitor_ptr.hpp 50-54: what the reference parameter of `operator()` refers to. -/
def ParamTy.fwd (p : ParamTy) : CvTy := if p.isRef then p.ty else p.ty.addConst

/-- `visitor_ptr_t<T, R>`, visitor_ptr.hpp 34-78, holding the function `fn`, as it is called for the content of an operand
that is a non-const or const lvalue, or an rvalue (then `invoke_visitor` passes the content as an rvalue, variant.hpp
1006-1017). -/
def visitorPtr (o : Operand) (p : ParamTy) (fn : ObjId → M V α) : TyIx → ObjId → M V α := fun ty id =>
  if D.classes.picksNonTemplate o.isRvalue ((D.elem ty).lvalue o.isConst) p.fwd then fn id else throwKind .badVisit

end

end BVariant
