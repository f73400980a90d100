/-
Model of construction of, and assignment to, a variant from a variant of another type:
/repo/include/boost/variant/variant.hpp 286-315 (the condition), 1286-1427 (`convert_copy_into`, `convert_move_into`),
1471-1585 (`convert_construct`, `convert_construct_variant`), and 1963-2028 (assignment).

The two variant types have bounded types, and so configurations and worlds, of their own. While the content of the source is
handed over as an object of the destination's bounded type `T_k`, which is the same C++ type, it is an object of the
destination's world, and what becomes of it is then seen in the source.
-/
import Verif.Core.Eff
import Verif.Core.Variant
import Verif.Meta.Initializer

namespace BVariant

/-- What the language says about arguments.
`arg rv t` : an lvalue, or if `rv` an rvalue, of type `t`.
`wrapCtor t e` : `is_constructible_ext<T, recursive_wrapper<t> >` for a bounded type `T` that is not a `recursive_wrapper`.
(The language: argument of the calls at variant.hpp 1304-1357 and 1379-1424, and of the trait at 275-284.) -/
structure Lang where
  arg : Bool → CvTy → InitArg
  wrapCtor : CvTy → Elem → Bool

/-- A variant type: the number of the class, and its bounded types as declared. (variant.hpp 1071-1134; the operand of the
constructors 1589-1631.) -/
structure VClass where
  base : Nat
  elems : List Elem

/-- The conversion of an lvalue (const or not) or rvalue of variant type `src` to a variant with bounded types `dst`.
A const rvalue is treated as a const lvalue (the constructor from `T&&`, variant.hpp 1618-1631, excludes it). -/
structure Foreign where
  L : Lang
  src : VClass
  dst : List Elem
  rv : Bool
  const : Bool

namespace Foreign
variable (F : Foreign)

/-- `is_variant_constructible_from<E, Types>` for an element `E` of the source's `recursive_enabled_types`, variant.hpp
275-284. For a `recursive_wrapper<t>` the specialisations of `is_constructible` apply (recursive_wrapper_fwd.hpp 51-67).
(If `E` is a variant type itself the specialisations 286-315 ask the same of its elements; here it is like any other type.) -/
def elemConstructible : Elem → Bool
  | .val t => (F.L.arg true t).isVariantConstructibleFrom F.dst
  | .ref t => (F.L.arg false t).isVariantConstructibleFrom F.dst
  | .wrapped t => F.dst.any fun e =>
    match e with
    | .wrapped s => decide (s = t)
    | e => F.L.wrapCtor t e

/-- `is_variant_constructible_from<variant<U...>, Types>`, variant.hpp 286-315: no element is not constructible. -/
def constructible : Bool := F.src.elems.all F.elemConstructible

/-- The type of the operand itself. (variant.hpp 1504-1515 and 1531-1542.) -/
def srcTy : CvTy := ⟨F.src.base, F.const, false⟩

/-- `is_foreign_variant`, variant.hpp 1504-1515 and 1531-1542: the operand's type is not found among `types`, which are the
bounded types without `recursive_wrapper`, up to const. -/
def isForeign : Bool :=
  (F.dst.find? fun e => match e.unwrap with
    | .val t => decide (t.addConst = F.srcTy.addConst)
    | _ => false).isNone

/-- The argument that `convert_copy_into` or `convert_move_into` hands to `initialize` for content of the given bounded type,
variant.hpp 1304-1357 and 1379-1424: the content, seen through `backup_holder`, `recursive_wrapper` and
`reference_content`; `convert_move_into` makes it an rvalue, also if it is what a reference refers to. -/
def contentArg (e : Elem) : InitArg := F.L.arg F.rv (e.lvalue F.const)

/-- The call of `initialize` for content of the source's bounded type number `j`. (variant.hpp 1304-1357 and 1379-1424.) -/
def overload (j : TyIx) : Option Overload :=
  F.src.elems[j]?.bind fun e => (F.contentArg e).resolve (initializerOverloads F.dst)

/-- The call of `initialize` if the operand is stored whole, variant.hpp 1431-1469. -/
def wholeOverload : Option Overload := (F.L.arg F.rv F.srcTy).resolve (initializerOverloads F.dst)

/-- The construction compiles: the constructor takes part, and `initialize` can be called for all contents (the visitor is
instantiated for all of them), or for the whole. (variant.hpp 1589-1631 and 1497-1549.) -/
def wellFormed : Bool :=
  F.constructible &&
    (if F.isForeign then (List.range F.src.elems.length).all fun j => (F.overload j).isSome
     else F.wholeOverload.isSome)

/-- The content has the type that the parameter refers to, so that it is bound to it. Otherwise a temporary is made. (A content
of a class derived from the bounded type is bound, too; here that is a conversion.) (The language: binding of the
parameters of `initialize`, initializer.hpp 73-85.) -/
def bound (j : TyIx) (o : Overload) : Bool :=
  match F.src.elems[j]? with
  | some e => decide ((e.lvalue F.const).addConst = o.param.ty.addConst)
  | none => false

end Foreign

/-- Conversions of values between the two variants' bounded types.
`value j k v` : value of the temporary of type `T_k` that is made from content of type `U_j` with value `v`.
`left e j k v` : what is left of content that was given as an rvalue, when all went well or the exception `e` was thrown.
(The element types: their converting constructors, called at variant.hpp 1304-1357 and 1379-1424 to bind the parameter of
`initialize`.) -/
structure ConvVal (V : Type) where
  value : TyIx → TyIx → V → V
  left : Option Exc → TyIx → TyIx → V → V

section
variable {V : Type}

/-- The world of the source's type, and that of the destination's. (Device of the model: variant.hpp 1471-1495 works with
two variant types.) -/
abbrev Two (V : Type) := World V × World V

/-- `convert_copy_into` and `convert_move_into` up to the call of `initialize`, variant.hpp 1304-1357 and 1379-1424: the object
that is handed over. -/
def convertInto : Visitor V (TyIx × ObjId) where
  onObj := fun ty id => pure (ty, id)
  onHolder := fun ty p => do
    let id ← holderGet p
    pure (ty, id)

/-- After the content was an object of the destination's world it is one of the source's again, with the value it has now.
(Device of the model, for variant.hpp 1304-1357 and 1379-1424.) -/
def giveBack (j : TyIx) (id t : ObjId) (ws w : World V) : Two V :=
  (match w.objs t with
    | some (_, v) => setVal j id v ws
    | none => ws,
   { w with objs := upd w.objs t none })

/-- Hand the content over as an lvalue or rvalue of bounded type `T_k`. (The call of `initialize`, variant.hpp 1304-1357
and 1379-1424, with a parameter that is bound to the content.) -/
def lendContent (j : TyIx) (id : ObjId) (k : TyIx) (v : V) (use : ObjId → M V Unit) : Eff (Two V) Unit := fun s =>
  let t := s.2.next
  match use t { s.2 with objs := upd s.2.objs t (some (k, v)), next := t + 1 } with
  | .ok a w' => .ok a (giveBack j id t s.1 w')
  | .exc e w' => .exc e (giveBack j id t s.1 w')
  | .fault x => .fault x

/-- Hand over the content for conversion. (The call of `initialize`, variant.hpp 1304-1357 and
1379-1424, with a parameter that is bound to a temporary.) -/
def convertContent (cv : ConvVal V) (rv : Bool) (j : TyIx) (id : ObjId) (k : TyIx) (v : V) (use : Src V → M V Unit) :
    Eff (Two V) Unit := fun s =>
  let after (e : Option Exc) := if rv then setVal j id (cv.left e j k v) s.1 else s.1
  match use (.conv k (cv.value j k v)) s.2 with
  | .ok a w' => .ok a (after none, w')
  | .exc e w' => .exc e (after (some e), w')
  | .fault x => .fault x

variable (C' C : Cfg V) (F : Foreign) (cv : ConvVal V)

/-- `convert_construct(Variant&, long, true_)` and `convert_construct(Variant&&, long, true_)`, variant.hpp 1471-1495, on the
source `y`: visit, and give the content to `use` (construction, or assignment by way of it). No overload: does not compile. -/
def fromForeign (y : VarId) (use : Src V → M V Unit) : Eff (Two V) Unit := fun s =>
  match internalApplyVisitor C' y convertInto s.1 with
  | .ok (j, id) ws =>
    match readAs j id ws, F.overload j with
    | .ok v _, some o =>
      if F.bound j o then
        lendContent j id o.index v
          (fun t => use (if o.param.rv then .rref o.index t true else .lref o.index t true)) (ws, s.2)
      else convertContent cv F.rv j id o.index v use (ws, s.2)
    | .fault x, _ => .fault x
    | _, _ => .fault .ub
  | .exc e ws => .exc e (ws, s.2)
  | .fault x => .fault x

/-- The operand's type is a bounded type: `initialize(storage, operand)`, variant.hpp 1431-1469. `self` is the value of the operand,
which is then an element like any other. -/
def fromWhole (self : V) (use : Src V → M V Unit) : M V Unit := fun w =>
  match F.wholeOverload with
  | some o =>
    let t := w.next
    M.withLocal (use (if o.param.rv then .rref o.index t false else .lref o.index t false)) (destroyObj o.index t)
      { w with objs := upd w.objs t (some (o.index, self)), next := t + 1 }
  | none => .fault .ub

/-- `variant x(y)` for a `y` of another variant type that is not a bounded type, variant.hpp 1497-1585 and 1589-1631. -/
def constructForeign (y x : VarId) : Eff (Two V) Unit := fromForeign C' F cv y (convertConstruct C x)

/-- `variant x(y)` for a `y` of another variant type that is a bounded type. (variant.hpp 1431-1469, chosen at 1517-1521
and 1544-1548.) -/
def constructWhole (self : V) (x : VarId) : M V Unit := fromWhole F self (convertConstruct C x)

/-- `x = y` for a `y` of another variant type that is a bounded type. (variant.hpp 1963-1997 with 1431-1469, chosen at
1517-1521 and 1544-1548.) -/
def assignWhole (self : V) (x : VarId) : M V Unit := fromWhole F self (assignValue C x)

/-- `x = y` for a `y` of another variant type that is not a bounded type, variant.hpp 1963-2028: no content of `x` has the type of
`y`, so that it is assigned by way of a temporary variant. -/
def assignForeign (y x : VarId) : Eff (Two V) Unit := fromForeign C' F cv y (assignValue C x)

end

end BVariant
