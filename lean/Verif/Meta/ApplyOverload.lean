/-
Which of the overloads of `apply_visitor` a call selects (/repo/include/boost/variant/detail/apply_visitor_unary.hpp,
apply_visitor_binary.hpp, apply_visitor_delayed.hpp, multivisitors_cpp11_based.hpp, multivisitors_cpp14_based.hpp,
has_result_type.hpp), for a compiler with C++14 return type deduction.

The rules of C++ for template argument deduction, overload resolution and partial ordering of function templates are
part of the trusted base, as far as they are needed for these overloads.
-/

namespace BVariant

/-- The first argument of a call of `apply_visitor`: a visitor of class type that has or does not have an accessible
member type `result_type`, const or not, an lvalue or an rvalue. (The `Visitor` parameters of all overloads.) -/
structure VisitorArg where
  hasResult : Bool
  const : Bool
  rvalue : Bool
  deriving DecidableEq, Repr

/-- Another argument of the call. All that matters is whether it converts implicitly to `bool`: a `boost::variant` does
not, a class derived from it may. (The `Visitable` parameters of all overloads.) -/
structure VisitableArg where
  toBool : Bool
  deriving DecidableEq, Repr

/-- The parameter for the visitor: `Visitor&`, `const Visitor&` or `Visitor&&`. (apply_visitor_unary.hpp 45, 56, 113.) -/
inductive VisitorParam
  | lref
  | constLref
  | fwd
  deriving DecidableEq, Repr

/-- What the function returns: `Visitor::result_type` or, by `decltype(auto)`, a deduced type. The delayed versions return
a function object that does this. (apply_visitor_unary.hpp 44, 55, 113; apply_visitor_delayed.hpp 51 and 98.) -/
inductive Family
  | resultType
  | deduced
  deriving DecidableEq, Repr

/-- An overload: the parameter for the visitor, the number of parameters `T&&` for variants, whether a parameter pack
`TN&&... vn` follows them, and whether the last parameter is the unnamed
`typename disable_if<has_result_type<Visitor>, bool>::type = true`. (The declarations cited at `overloads`.) -/
structure ApplyOverload where
  visitor : VisitorParam
  fixed : Nat
  pack : Bool
  flag : Bool
  family : Family
  deriving DecidableEq, Repr

/-- All overloads, in the order of the cited lines. -/
def overloads : List ApplyOverload := [
  -- apply_visitor_delayed.hpp 72-79 and 108-115
  ⟨.lref, 0, false, false, .resultType⟩, ⟨.lref, 0, false, false, .deduced⟩,
  -- apply_visitor_unary.hpp 43-48, 54-59 and 112-121
  ⟨.lref, 1, false, false, .resultType⟩, ⟨.constLref, 1, false, false, .resultType⟩, ⟨.fwd, 1, false, true, .deduced⟩,
  -- apply_visitor_binary.hpp 142-151 and 158-167
  ⟨.lref, 2, false, false, .resultType⟩, ⟨.constLref, 2, false, false, .resultType⟩,
  -- apply_visitor_binary.hpp 258-270 and 272-284
  ⟨.lref, 2, false, true, .deduced⟩, ⟨.constLref, 2, false, true, .deduced⟩,
  -- multivisitors_cpp11_based.hpp 173-189 and 191-207
  ⟨.constLref, 3, true, false, .resultType⟩, ⟨.lref, 3, true, false, .resultType⟩,
  -- multivisitors_cpp14_based.hpp 106-125 and 128-147
  ⟨.constLref, 3, true, true, .deduced⟩, ⟨.lref, 3, true, true, .deduced⟩]

/-- The template argument `Visitor`: whether it is an lvalue reference and whether the class type in it is const. -/
structure VisitorTy where
  isRef : Bool
  const : Bool
  deriving DecidableEq, Repr

/-- Deduction of `Visitor` from the first argument (C++ [temp.deduct.call]). `Visitor&` does not accept an rvalue that is
not const; `Visitor&&` deduces a reference for an lvalue. (The language; apply_visitor_unary.hpp 45, 56, 113.) -/
def VisitorParam.deduce (a : VisitorArg) : VisitorParam → Option VisitorTy
  | .lref => if a.rvalue && !a.const then none else some ⟨false, a.const⟩
  | .constLref => some ⟨false, false⟩
  | .fwd => some ⟨!a.rvalue, a.const⟩

/-- `has_result_type<Visitor>::value`, has_result_type.hpp 21-33: whether `typename C::result_type` is valid for
`C = Visitor`. It is not for a reference type. -/
def hasResultType (a : VisitorArg) (t : VisitorTy) : Bool := !t.isRef && a.hasResult

/-- Substitution of the deduced `Visitor` succeeds: into the return type `typename Visitor::result_type` (the delayed
version: `enable_if<has_result_type<Visitor>, ...>`), or into `disable_if<has_result_type<Visitor>, ...>`.
(apply_visitor_unary.hpp 44, 55, 114-117; apply_visitor_binary.hpp 143, 159, 260-263, 274-277; apply_visitor_delayed.hpp
73-76, 109-112; multivisitors_cpp11_based.hpp 174, 192; multivisitors_cpp14_based.hpp 108-111, 130-133.) -/
def ApplyOverload.enabled (o : ApplyOverload) (a : VisitorArg) (t : VisitorTy) : Bool :=
  match o.family with
  | .resultType => hasResultType a t
  | .deduced => !hasResultType a t

/-- How the arguments after the visitor meet the parameters: for each argument, whether it goes to the `bool` parameter
(`true`) or to a `T&&` (`false`). A parameter pack takes all remaining arguments if it is the last parameter; if it is not,
it is not deduced and hence empty (C++ [temp.deduct.type] 5, [temp.arg.explicit]). The `bool` parameter has a default
argument. `none`: the number of arguments does not fit, or the last one does not convert to `bool`. (The language; the
declarations cited at `overloads`.) -/
def ApplyOverload.accept (o : ApplyOverload) (vs : List VisitableArg) : Option (List Bool) :=
  if o.pack && !o.flag then
    if o.fixed ≤ vs.length then some (vs.map fun _ => false) else none
  else if vs.length = o.fixed then some (vs.map fun _ => false)
  else if o.flag && (vs.length == o.fixed + 1) && (vs.getLast?.map (·.toBool) == some true) then
    some ((List.replicate o.fixed false) ++ [true])
  else none

/-- An overload that is viable for a call, with the deduced `Visitor` and the use of the other arguments. -/
structure Viable where
  overload : ApplyOverload
  ty : VisitorTy
  toFlag : List Bool
  deriving DecidableEq, Repr

/-- Viability of an overload (C++ [over.match.viable]). (The language; the declarations cited at `overloads`.) -/
def ApplyOverload.viable (o : ApplyOverload) (a : VisitorArg) (vs : List VisitableArg) : Option Viable :=
  match o.visitor.deduce a with
  | none => none
  | some t =>
    if o.enabled a t then (o.accept vs).map fun u => ⟨o, t, u⟩ else none

/-- The reference to which the visitor is bound: rvalue reference or not, to const or not. (The language;
apply_visitor_unary.hpp 45, 56, 113.) -/
def Viable.bound (c : Viable) : Bool × Bool :=
  match c.overload.visitor with
  | .lref => (false, c.ty.const)
  | .constLref => (false, true)
  | .fwd => (!c.ty.isRef, c.ty.const)

/-- The binding of the visitor in `c` is better than in `d` (C++ [over.ics.rank] 3.2): an rvalue reference for an rvalue, or
the same kind of reference to the less qualified type. (The language.) -/
def Viable.bindsBetter (a : VisitorArg) (c d : Viable) : Bool :=
  (a.rvalue && c.bound.1 && !d.bound.1) || (c.bound.1 == d.bound.1 && !c.bound.2 && d.bound.2)

/-- Some other argument is converted better in `c` than in `d`: it is bound to `T&&` in `c` and converted to `bool` in `d`.
(The language.) -/
def Viable.passesBetter (c d : Viable) : Bool := (c.toFlag.zip d.toFlag).any fun p => !p.1 && p.2

/-- `Visitor` parameters by partial ordering of templates (C++ [temp.deduct.partial] 9): `const T&` is more specialised than
`T&`, and both are more specialised than `T&&`. (The language; apply_visitor_unary.hpp 45, 56, 113.) -/
def VisitorParam.rank : VisitorParam → Nat
  | .constLref => 2
  | .lref => 1
  | .fwd => 0

/-- Partial ordering of the templates `c` and `d`: the parameters for variants are `T&&` in both, so only the parameters for
the visitor and the packs matter (C++ [temp.deduct.partial] 10-11; of two otherwise equal templates the one without a
pack is more specialised). Parameters without argument are not looked at. (The language.) -/
def ApplyOverload.moreSpecialised (c d : ApplyOverload) : Bool :=
  d.visitor.rank < c.visitor.rank || (d.visitor.rank == c.visitor.rank && !c.pack && d.pack)

/-- `c` is a better overload than `d` (C++ [over.match.best]). (The language.) -/
def Viable.better (a : VisitorArg) (c d : Viable) : Bool :=
  (!d.bindsBetter a c && !d.passesBetter c) &&
    ((c.bindsBetter a d || c.passesBetter d) || c.overload.moreSpecialised d.overload)

/-- ApplyOverload resolution: the viable overload that is better than all others. `none`: there is none, or the call is
ambiguous. (The language.) -/
def bestOf (a : VisitorArg) (cs : List Viable) : Option Viable :=
  cs.find? fun c => cs.all fun d => c == d || c.better a d

/-- A call `apply_visitor(visitor, v...)`. (The declarations cited at `overloads`.) -/
def resolveApply (a : VisitorArg) (vs : List VisitableArg) : Option Viable :=
  bestOf a (overloads.filterMap fun o => o.viable a vs)

/-- The number of arguments that the body of the selected function visits: those not taken by the `bool` parameter, which has
no name. (The bodies at the lines cited at `overloads`.) -/
def Viable.visited (c : Viable) : Nat := (c.toFlag.filter (!·)).length

/-- Whether the visitor is called as a const object: whether the type `Visitor`, or `const Visitor`, of the reference the
functions pass on is const. `result_wrapper1` (apply_visitor_unary.hpp 94-108) keeps a `Visitor&&` and calls it, as an
lvalue, from a const member function, which does not make the referred object const. (apply_visitor_unary.hpp 47, 58,
119-120; apply_visitor_binary.hpp 146-150, 162-166, 265-269, 279-283; multivisitors_cpp11_based.hpp 177-188, 195-206;
multivisitors_cpp14_based.hpp 113-124, 135-146.) -/
def Viable.callsConst (c : Viable) : Bool := c.bound.2

/-- The visitors that the library itself makes and passes to `apply_visitor` for one variant:
`apply_visitor_binary_unwrap` and `apply_visitor_binary_invoke` (apply_visitor_binary.hpp 44-133, passed as lvalues at
115, 128, 150, 166), their `_cpp14` versions without `result_type` (182-254, passed at 237, 249, 269, 283), and
`one_by_one_visitor_and_value_referer` (multivisitors_cpp11_based.hpp 107-169, passed as a temporary at 126 and 177) with
its `_cpp14` version (multivisitors_cpp14_based.hpp 43-102, passed at 61, 113). Those for the deduced family have no
`result_type`. -/
def Family.helper (f : Family) (temporary : Bool) : VisitorArg :=
  ⟨f == .resultType, false, temporary⟩

/-- The overloads selected during the whole call, for the user's call and for the calls in the bodies of the selected
functions and of the helper visitors. `none`: something does not compile. Unary: the member `apply_visitor` is called, no
further overload. Binary: apply_visitor_binary.hpp 150 and then 115 or 128. N-ary: multivisitors_cpp11_based.hpp 177 for
the first variant and 126 for each other one. Delayed (no variant): no call yet. -/
def applyChain (a : VisitorArg) (vs : List VisitableArg) : Option (List Viable) :=
  match resolveApply a vs with
  | none => none
  | some c =>
    let inner (temporary : Bool) :=
      (vs.take c.visited).mapM fun v => resolveApply (c.overload.family.helper temporary) [v]
    match c.overload.fixed with
    | 0 | 1 => some [c]
    | 2 => (inner false).map (c :: ·)
    | _ => (inner true).map (c :: ·)

/-- `apply_visitor(visitor)(v...)`, apply_visitor_delayed.hpp 42-117: first the delayed overload, then `apply_visitor` with
the visitor as an lvalue of the type deduced there. -/
def applyDelayed (a : VisitorArg) (vs : List VisitableArg) : Option (List Viable) :=
  match resolveApply a [] with
  | none => none
  | some c => (applyChain ⟨a.hasResult, c.ty.const, false⟩ vs).map (c :: ·)

end BVariant
