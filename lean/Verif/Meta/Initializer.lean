/-
Model of the overload set behind converting construction: `make_initializer_node` and `initializer_root`
(/repo/include/boost/variant/detail/initializer.hpp 54-160), C++ overload resolution among its members, and the
condition under which the converting constructors take part (`is_variant_constructible_from`, variant.hpp 261-284, with
the specialisations of `is_constructible` in recursive_wrapper_fwd.hpp 51-67).
-/
import Verif.Meta.CvType

namespace BVariant

/-- The type of the second parameter of an `initialize` overload: `ty&`, or if `rv`, `ty&&`. (initializer.hpp
73-85.) -/
structure Param where
  rv : Bool
  ty : CvTy
  deriving DecidableEq, Repr

/-- `param_T`, initializer.hpp 79-80: `const public_T&`, or for a reference type that type itself. `public_T` is the bounded
type without `recursive_wrapper` (73-74). -/
def Elem.param : Elem → Param
  | .val t | .wrapped t => ⟨false, t.addConst⟩
  | .ref t => ⟨false, t⟩

/-- `param2_T`, initializer.hpp 84-85: `public_T&&`. For reference types it is the local class `disable_overload`, to which
nothing converts; that overload is left out. -/
def Elem.param2 : Elem → Option Param
  | .val t | .wrapped t => some ⟨true, t⟩
  | .ref _ => none

/-- The parameters of the two static functions of an `initializer_node`, initializer.hpp 91-110. -/
def Elem.params (e : Elem) : List Param := e.param :: e.param2.toList

/-- One overload of `initialize`: its parameter, and the index it returns. (initializer.hpp 91-110.) -/
structure Overload where
  param : Param
  index : Nat
  deriving DecidableEq, Repr

/-- `make_initializer_node::apply`, initializer.hpp 56-122, on the visible overloads of the base and the index.
`using base::initialize` (89) makes the overloads of the base visible, except that a member of the derived class hides the
one of the base that has the same parameter types ([namespace.udecl]). -/
def initializerNode (b : List Overload × Nat) (e : Elem) : List Overload × Nat :=
  (b.1.filter (fun o => !e.params.contains o.param) ++ e.params.map (fun p => ⟨p, b.2⟩), b.2 + 1)

/-- The overloads of `BOOST_VARIANT_AUX_INITIALIZER_T(types, T)::initialize`, initializer.hpp 149-160. The one of
`initializer_root` (130-136) has no parameters and is never viable; it is left out. -/
def initializerOverloads (es : List Elem) : List Overload := (es.foldl initializerNode ([], 0)).1

/-- What the language says about one argument expression (a type and a value category).
`R` : implicit conversion sequences.
`rank t` : the implicit conversion sequence from the argument to a parameter of type `t&`, where for `t` const a temporary
may have to be made; `none` if there is none ([over.best.ics], [over.ics.ref]).
`better` : the first sequence is better than the second ([over.ics.rank]), disregarding the rule about rvalue references.
`rvOk t` : if there is a sequence to `const t&`, there is one to `t&&`: not if the parameter would be bound to an lvalue, or
to a const rvalue. It then differs from the one to `const t&` only in the binding.
`ctor t` : `is_constructible_ext<T, A>`, variant.hpp 261-273, for a value type, or (`ref`) of `reference_content` for a reference type (1131-1134).
`ty` : the type of the argument. -/
structure InitArg where
  R : Type
  rank : CvTy → Option R
  better : R → R → Bool
  rvOk : CvTy → Bool
  ctor : Elem → Bool
  ty : CvTy

/-- The implicit conversion sequence to a parameter. (The language: [over.best.ics]; the call at variant.hpp 1443-1448.) -/
def InitArg.seq (a : InitArg) (p : Param) : Option a.R :=
  if p.rv then if a.rvOk p.ty then a.rank p.ty.addConst else none else a.rank p.ty

/-- The conversion to the first parameter is better than that to the second: [over.ics.rank] 3.2, where the rule about
binding rvalue references (3.2.3) comes after the comparison of the conversions themselves. -/
def InitArg.beats (a : InitArg) (p q : Param) : Bool :=
  match a.seq p, a.seq q with
  | some r, some s => a.better r s || (!a.better s r && p.rv && !q.rv)
  | _, _ => false

/-- Overload resolution for a call `initialize(dest, argument)`: the viable overload that is better than all other viable
ones ([over.match.best]; none of them is a template, the first argument is the same for all). (The language:
[over.match.best]; the call at variant.hpp 1443-1448.) -/
def InitArg.resolve (a : InitArg) (os : List Overload) : Option Overload :=
  (os.filter fun o => (a.seq o.param).isSome).find? fun o =>
    os.all fun o' => o' = o || (a.seq o'.param).isNone || a.beats o.param o'.param

/-- `is_constructible_ext<T, A>` for an element of `internal_types`, variant.hpp 261-273: `recursive_wrapper<T>` is
constructible from `T` and `const T`, lvalue or rvalue, only (recursive_wrapper_fwd.hpp 51-67; arguments that are a
`recursive_wrapper` themselves are left out). -/
def InitArg.isConstructibleExt (a : InitArg) : Elem → Bool
  | .wrapped t => decide (a.ty = t ∨ a.ty = t.addConst)
  | e => a.ctor e

/-- `is_variant_constructible_from<A, internal_types>`, variant.hpp 275-284. -/
def InitArg.isVariantConstructibleFrom (a : InitArg) (es : List Elem) : Bool := es.any a.isConstructibleExt

/-- `variant v(argument)`, for an argument that is not a variant: the overload that is called, `none` if the construction is
ill-formed. The constructors (variant.hpp 1589-1631) take part if `is_variant_constructible_from` holds, and
`convert_construct` (1431-1469) calls `initialize`. -/
def InitArg.construct (a : InitArg) (es : List Elem) : Option Overload :=
  if a.isVariantConstructibleFrom es then a.resolve (initializerOverloads es) else none

end BVariant
