/-
Model of visitation with value categories and of visitation of several variants.
/repo/include/boost/variant/variant.hpp 984-1062 and 2230-2260 (`invoke_visitor`, member `apply_visitor`),
detail/apply_visitor_unary.hpp, detail/apply_visitor_binary.hpp, detail/multivisitors_cpp11_based.hpp,
detail/multivisitors_cpp14_based.hpp (the same with deduced return types), detail/apply_visitor_delayed.hpp.
The variants visited together may be of different types: `K` is a table of variant types, and every variant and every
argument says of which of them it is (an element type is a variant type and an index into its bounded types).
Simplification: no bounded type is itself const, so that an argument is const iff the variant is.
-/
import Verif.Core.Variant

namespace BVariant

/-- How something is passed: as an rvalue or an lvalue, const or not: `T&&`, `T&`, `const T&&`, `const T&`.
(The four overloads of the member `apply_visitor`, variant.hpp 2230-2260.) -/
structure PassedAs where
  rvalue : Bool
  const : Bool
  deriving DecidableEq, Repr

/-- An argument with which a user visitor is called: an element object, content of a variant of type number `vt`, and
how it is passed. (variant.hpp 1006-1017: `visitor_(operand)` or `visitor_(std::move(operand))`.) -/
structure Arg where
  vt : Nat
  ty : TyIx
  id : ObjId
  cat : PassedAs
  deriving DecidableEq, Repr

/-- Whether the argument is an rvalue. (`! is_lvalue_reference<Value>::value`, multivisitors_cpp11_based.hpp 130 and 165.) -/
abbrev Arg.rvalue (a : Arg) : Bool := a.cat.rvalue

/-- A variant of type number `vt` passed to `apply_visitor`: an lvalue `x` or an rvalue `std::move(x)`, const or not.
(apply_visitor_unary.hpp 43-59, apply_visitor_binary.hpp 142-167.) -/
structure Visitable where
  vt : Nat
  x : VarId
  cat : PassedAs
  deriving DecidableEq, Repr

/-- Whether the variant is an rvalue. (`! is_lvalue_reference<T2>::value`, multivisitors_cpp11_based.hpp 182-184.) -/
abbrev Visitable.rvalue (v : Visitable) : Bool := v.cat.rvalue

section
variable {V α : Type} (K : Nat → Cfg V)

/-- `apply_visitor(visitor, visitable)`, apply_visitor_unary.hpp 43-59, through the members `apply_visitor() &&` and
`apply_visitor() &`, variant.hpp 2230-2260: `invoke_visitor<Visitor, MoveSemantics>`, 1006-1017, passes
`std::move(operand)` iff the variant is an rvalue. `const &&` and `const &` do the same with a const operand. -/
def applyVisitor1 (f : Arg → M V α) (v : Visitable) : M V α :=
  applyVisitor (K v.vt) v.x fun ty id =>
    if v.rvalue then f ⟨v.vt, ty, id, ⟨true, v.cat.const⟩⟩ else f ⟨v.vt, ty, id, ⟨false, v.cat.const⟩⟩

/-- `apply_visitor_binary_invoke::operator()`, apply_visitor_binary.hpp 64-76. `MoveSemantics` is
`!is_lvalue_reference<Value1>`, 112 and 125. `Value1` is const if the argument is. -/
def binaryInvoke (f : Arg → Arg → M V α) (value1 : Arg) : Arg → M V α := fun value2 =>
  if value1.rvalue then f ⟨value1.vt, value1.ty, value1.id, ⟨true, value1.cat.const⟩⟩ value2
  else f ⟨value1.vt, value1.ty, value1.id, ⟨false, value1.cat.const⟩⟩ value2

/-- `apply_visitor_binary_unwrap::operator()`, apply_visitor_binary.hpp 105-129. -/
def binaryUnwrap (f : Arg → Arg → M V α) (visitable2 : Visitable) : Arg → M V α := fun value1 =>
  if visitable2.rvalue then applyVisitor1 K (binaryInvoke f value1) ⟨visitable2.vt, visitable2.x, ⟨true, visitable2.cat.const⟩⟩
  else applyVisitor1 K (binaryInvoke f value1) ⟨visitable2.vt, visitable2.x, ⟨false, visitable2.cat.const⟩⟩

/-- `apply_visitor(visitor, visitable1, visitable2)`, apply_visitor_binary.hpp 142-167 (and the C++14 versions 258-284). -/
def applyVisitor2 (f : Arg → Arg → M V α) (visitable1 visitable2 : Visitable) : M V α :=
  applyVisitor1 K (binaryUnwrap K f visitable2) visitable1

/-- `unwrap` of a wrapped rvalue element, multivisitors_cpp11_based.hpp 58-63: `Wrapper::T` is initialised from
`std::move(w.v)`, which is a move construction; if `Wrapper::T` is const, a copy construction (a `const T&&` does not bind
to `T&&`). -/
def unwrapObj (C : Cfg V) (const : Bool) (ty : TyIx) (src : ObjId) : M V ObjId :=
  if const then copyCtor C ty src else moveCtor C ty src

/-- `unwrap` of a wrapped rvalue variant, multivisitors_cpp11_based.hpp 58-63: as `unwrapObj`. -/
def unwrapVar (C : Cfg V) (const : Bool) (x y : VarId) : M V Unit :=
  if const then copyConstruct C x y else moveConstruct C x y

/-- The arguments `unwrap(std::get<I>(t))...` of the call in `do_call`, multivisitors_cpp11_based.hpp 158, evaluated in the
order given by the list of positions (C++ leaves it open). `unwrap` (58-70) of an rvalue returns by value, so it
constructs a temporary, which lives until the end of the full expression; of an lvalue it returns the reference.
`t` gives the temporaries made so far. -/
def unwrapArgs (values : List Arg) : List Nat → (Nat → Option ObjId) → ((Nat → Option ObjId) → M V α) → M V α
  | [], t, k => k t
  | i :: order, t, k =>
    match values[i]? with
    | none => unwrapArgs values order t k
    | some a =>
      if a.rvalue then do
        let o ← unwrapObj (K a.vt) a.cat.const a.ty a.id
        M.withLocal (unwrapArgs values order (upd t i (some o)) k) (destroyObj a.ty o)
      else unwrapArgs values order t k

/-- `make_index_sequence<N, I...>`, multivisitors_cpp11_based.hpp 33-40. -/
def makeIndexSequence : Nat → List Nat → List Nat
  | 0, is => is
  | n + 1, is => makeIndexSequence n (n :: is)

/-- `tuple_tail`, multivisitors_cpp11_based.hpp 73-86. -/
def tupleTail {β : Type} (tpl : List β) : List β :=
  (makeIndexSequence (tpl.length - 1) []).filterMap fun i => tpl[i + 1]?

/-- The argument list `unwrap(std::get<I>(t))...` for `I...` from `make_index_sequence<sizeof...(Values) + 1>`,
multivisitors_cpp11_based.hpp 158 and 166. -/
def unwrapped (values : List Arg) (t : Nat → Option ObjId) : List Arg :=
  (makeIndexSequence values.length []).filterMap fun i =>
    match values[i]? with
    | none => none
    | some a =>
      match t i with
      | some o => some ⟨a.vt, a.ty, o, ⟨true, a.cat.const⟩⟩
      | none => some a

/-- `one_by_one_visitor_and_value_referer<Visitor, std::tuple<>, Values...>::do_call`,
multivisitors_cpp11_based.hpp 156-159. -/
def doCall (order : Nat → List Nat) (f : List Arg → M V α) (values : List Arg) : M V α :=
  unwrapArgs K values (order values.length) (fun _ => none) fun t => f (unwrapped values t)

/-- `unwrap(std::get<0>(visitables_))`, multivisitors_cpp11_based.hpp 132 and 58-70: an rvalue variant is returned by value,
so a temporary variant is move-constructed (from a const rvalue copy-constructed, and const itself), which is then visited
as an rvalue and lives until the end of the full expression; an lvalue is returned by reference. The temporary is number
`d`. -/
def unwrapVisitable (d : Nat) (v : Visitable) (body : Visitable → M V α) : M V α :=
  if v.rvalue then do
    unwrapVar (K v.vt) v.cat.const (.tmp d) v.x
    M.withLocal (body ⟨v.vt, .tmp d, ⟨true, v.cat.const⟩⟩) (destroyVar (K v.vt) (.tmp d))
  else body ⟨v.vt, v.x, ⟨false, v.cat.const⟩⟩

/-- `one_by_one_visitor_and_value_referer::operator()`, multivisitors_cpp11_based.hpp 123-134 and (no visitables left)
161-168. `tuple_tail` of the visitables is their tail (`tupleTail_eq`). -/
def oneByOne (order : Nat → List Nat) (f : List Arg → M V α) (d : Nat) : List Visitable → List Arg → Arg → M V α
  | [], values => fun value => doCall K order f (values ++ [value])
  | v :: visitables, values => fun value =>
    unwrapVisitable K d v fun v' => applyVisitor1 K (oneByOne order f (d + 1) visitables (values ++ [value])) v'

/-- `apply_visitor(visitor, v1, v2, v3, vn...)`, multivisitors_cpp11_based.hpp 173-207: `vs` are `v2, v3, vn...`. -/
def applyVisitorN (order : Nat → List Nat) (f : List Arg → M V α) (v1 : Visitable) (vs : List Visitable) : M V α :=
  applyVisitor1 K (oneByOne K order f 0 vs []) v1

/-- Overload resolution on the number of variants: unary, binary and n-ary `apply_visitor`. The empty list is not a call
of any of them (here: undefined). (apply_visitor_unary.hpp 43-59, apply_visitor_binary.hpp 142-167,
multivisitors_cpp11_based.hpp 173-207.) -/
def applyVisitorAny (order : Nat → List Nat) (f : List Arg → M V α) : List Visitable → M V α
  | [] => M.fail .ub
  | [v] => applyVisitor1 K (fun a => f [a]) v
  | [v1, v2] => applyVisitor2 K (fun a b => f [a, b]) v1 v2
  | v1 :: vs => applyVisitorN K order f v1 vs

/-- `apply_visitor_delayed_t::operator()(Visitables&...)`, apply_visitor_delayed.hpp 61-65 (and 97-101): the arguments
are always passed on as lvalues; `Visitables` may be const (and for a const rvalue it is). -/
def applyVisitorDelayed (order : Nat → List Nat) (f : List Arg → M V α) (xs : List (Nat × VarId × Bool)) : M V α :=
  applyVisitorAny K order f (xs.map fun x => ⟨x.1, x.2.1, ⟨false, x.2.2⟩⟩)

end

end BVariant
