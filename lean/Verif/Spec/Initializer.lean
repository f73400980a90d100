/-
What C39 says, apart from how `initializer.hpp` does it: overload resolution over the bounded types.
-/
import Verif.Meta.Initializer

namespace BVariant

/-- The conversion of the argument to a bounded type: to `T` (made or bound as by `const T&`), or to the reference `T&`. -/
def InitArg.rankOf (a : InitArg) : Elem → Option a.R
  | .val t | .wrapped t => a.rank t.addConst
  | .ref t => a.rank t

/-- The bounded type number `i` is the best one: the argument converts to it, and better than to any other. -/
def Winner (a : InitArg) (es : List Elem) (i : Nat) : Prop :=
  ∃ e r, es[i]? = some e ∧ a.rankOf e = some r ∧
    ∀ (j : Nat) (e' : Elem) (r' : a.R), j ≠ i → es[j]? = some e' → a.rankOf e' = some r' → a.better r r' = true

/-- An rvalue of the bounded type can be bound. -/
def InitArg.rvalueTo (a : InitArg) : Elem → Bool
  | .val t | .wrapped t => a.rvOk t
  | .ref _ => false

/-- What a reference that can refer to the bounded type has to refer to: `const T`, or for `T&` just `T`. -/
def Elem.referent : Elem → CvTy
  | .val t | .wrapped t => { t with const := true }
  | .ref t => t

/-- What is assumed of the language, for a variant with the given bounded types.
`asymm` : of two conversions at most one is better.
`decides` : if one of two bounded types is made as an rvalue, and the other is not (it refers directly to the argument, which
is an lvalue or const), then one conversion is better than the other: binding directly is an identity or a conversion to a
base class, and all other conversions of a class are user-defined. (Not so if `const B&` is a bounded type, another one is
`A`, and the argument is an rvalue of a class derived from the unrelated `A` and `B`: then `A&&` is chosen.)
`ctor` : an implicit conversion makes `is_constructible` true. -/
structure InitArg.Lawful (a : InitArg) (es : List Elem) : Prop where
  asymm : ∀ r s, a.better r s = true → a.better s r = false
  decides : ∀ e ∈ es, ∀ e' ∈ es, e.referent ≠ e'.referent → ∀ r r', a.rankOf e = some r → a.rankOf e' = some r' →
    a.rvalueTo e = true → a.rvalueTo e' = false → a.better r r' = true ∨ a.better r' r = true
  ctor : ∀ e ∈ es, (∀ t, e ≠ .wrapped t) → (a.rankOf e).isSome = true → a.ctor e = true

/-- The bounded types differ, also after `recursive_wrapper` and top-level const are removed; and if one is `const T&`, none
is `T`. -/
def Separate (es : List Elem) : Prop :=
  ∀ (i j : Nat) (e e' : Elem), es[i]? = some e → es[j]? = some e' → e.referent = e'.referent → i = j

/-- The argument is not volatile; that it converts to its own type is an identity conversion, and that is better than the
conversion to any type that differs in more than qualifiers. -/
structure InitArg.HasIdentity (a : InitArg) : Prop where
  self : (a.rank { a.ty with const := true }).isSome = true
  best : ∀ t r r', a.rank { a.ty with const := true } = some r → t.base ≠ a.ty.base → a.rank t = some r' →
    a.better r r' = true

/-- The type a bounded type consists of or refers to, without qualifiers. -/
def Elem.base : Elem → Nat
  | .val t | .wrapped t | .ref t => t.base

end BVariant
