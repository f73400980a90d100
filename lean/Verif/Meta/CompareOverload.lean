/-
Which function a comparison `x @ y` calls, when one of the operands is a variant (/repo/include/boost/variant/variant.hpp
2081-2119 and 2123-2169): the member for variants, or the member template that no call may select.

The rules of C++ for overload resolution are part of the trusted base, as far as they are needed for these members. Operators
that the user declares for the types of the operands are not considered.
-/

namespace BVariant

/-- The comparison operators. (variant.hpp 2083-2169.) -/
inductive CmpOp
  | eq
  | ne
  | lt
  | gt
  | le
  | ge
  deriving DecidableEq, Repr

/-- The language: up to C++17 there are no rewritten candidates; C++20 as published tries `y == x` for `x == y` and for `x != y`;
with P2468R2 an `operator==` is not used so where a matching `operator!=` is declared, as it is here for both members. (The language; variant.hpp
2095-2099 and 2151-2154 declare them.) -/
inductive CmpLang
  | cpp17
  | cpp20
  | cpp20p2468
  deriving DecidableEq, Repr

/-- How the class of an operand is related to the variant type. (The parameter types `const variant&` and `const U&`, variant.hpp
2083-2169.) -/
inductive CmpClass
  /-- the variant type -/
  | same
  /-- a class derived from it, publicly and unambiguously -/
  | derived
  /-- any other type -/
  | other
  deriving DecidableEq, Repr

/-- An operand: its class, whether it is volatile, and whether an implicit conversion by a constructor of the variant type or a
conversion function of the class makes it a variant. Const and value categories do not matter. (variant.hpp 2083-2169.) -/
structure CmpArg where
  cls : CmpClass
  volatile : Bool
  converts : Bool
  deriving DecidableEq, Repr

/-- A member function considered: the template or not, rewritten (an `operator==` for `!=`) or not, with the operands in reversed
order or not. (variant.hpp 2083-2087, 2095-2099, 2123-2132, 2151-2154.) -/
structure CmpCand where
  template : Bool
  fromEq : Bool
  reversed : Bool
  deriving DecidableEq, Repr

/-- The candidates: the two members of the operator in the class of the left operand; in C++20 for `==` also those with the operands
reversed, and for `!=` also the members `operator==`, in both orders (C++ [over.match.oper] 3.4). With P2468R2 an
`operator==` with a matching `operator!=` is no rewrite target. (The language; variant.hpp 2083-2169.) -/
def cmpCands (l : CmpLang) (op : CmpOp) : List CmpCand :=
  let both (fromEq reversed : Bool) : List CmpCand := [⟨true, fromEq, reversed⟩, ⟨false, fromEq, reversed⟩]
  both false false ++
    match l, op with
    | .cpp20, .eq => both false true
    | .cpp20, .ne => both true false ++ both true true
    | _, _ => []

/-- The rank of the conversion of an operand to the implicit object parameter, `const variant&`: 0 for the identity, 1 from a derived
class; `none`: the operand has no such member, or is volatile. No user conversion is considered. (The language; the `const` after
the parameters at variant.hpp 2083-2169.) -/
def CmpArg.asObject (a : CmpArg) : Option Nat :=
  if a.volatile then none else
  match a.cls with
  | .same => some 0
  | .derived => some 1
  | .other => none

/-- The rank of the conversion to the parameter `const variant&` of the member that is not a template: as before, or 2 for a user
conversion. (The language; variant.hpp 2123, 2134, 2151-2169.) -/
def CmpArg.asVariant (a : CmpArg) : Option Nat :=
  match a.asObject with
  | some r => some r
  | none => if a.converts then some 2 else none

/-- The rank of the conversion to the parameter `const U&` of the template, where `U` is the type of the operand. (The language;
variant.hpp 2083-2117.) -/
def CmpArg.asAnything (_ : CmpArg) : Option Nat := some 0

/-- The ranks of the conversions of the operands `x` and `y`, in this order; `none`: not viable. (The language; the declarations at
variant.hpp 2083-2169.) -/
def CmpCand.ranks (c : CmpCand) (x y : CmpArg) : Option (Nat × Nat) :=
  let object := if c.reversed then y else x
  let argument := if c.reversed then x else y
  match object.asObject, (if c.template then argument.asAnything else argument.asVariant) with
  | some o, some a => some (if c.reversed then (a, o) else (o, a))
  | _, _ => none

/-- `c` with ranks `r` is a better function than `d` with ranks `s` (C++ [over.match.best]): no operand is converted worse, and one is
converted better, or else: not a template; not rewritten; not reversed. (Of the template and the reversed template none is more
specialised.) (The language.) -/
def CmpCand.better (c : CmpCand) (r : Nat × Nat) (d : CmpCand) (s : Nat × Nat) : Bool :=
  decide (r.1 ≤ s.1) && decide (r.2 ≤ s.2) &&
    (decide (r.1 < s.1) || decide (r.2 < s.2) || (!c.template && d.template) ||
      (c.template == d.template && (!(c.fromEq || c.reversed) && (d.fromEq || d.reversed) ||
        (c.fromEq || c.reversed) && !c.reversed && d.reversed)))

/-- The function selected; `none`: there is none, or the expression is ambiguous. (The language.) -/
def resolveCmp (l : CmpLang) (op : CmpOp) (x y : CmpArg) : Option CmpCand :=
  let cs := (cmpCands l op).filterMap fun c => (c.ranks x y).map (c, ·)
  (cs.find? fun c => cs.all fun d => c == d || c.1.better c.2 d.1 d.2).map (·.1)

/-- Whether the expression compiles: a function is selected whose body does. `BOOST_STATIC_ASSERT( false && sizeof(U) )` in the body of
the template fails whenever it is instantiated (not in an unevaluated
operand, where the expression has type `void`). (variant.hpp 2086, 2092, 2098, 2104, 2110, 2116.) -/
def cmpCompiles (l : CmpLang) (op : CmpOp) (x y : CmpArg) : Bool :=
  match resolveCmp l op x y with
  | none => false
  | some c => !c.template

end BVariant
