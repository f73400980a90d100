/-
Model of the fallback-type search.
/repo/include/boost/variant/variant.hpp lines 154-220 (`find_fallback_type_pred`, `find_fallback_type`)
and lines 1142-1159 (`fallback_type_result_`, `has_fallback_type_`).
-/

namespace BVariant

/-- The compile-time properties of one bounded (internal) type that the library consults.
variant.hpp uses them at: `has_nothrow_constructor` 175 and 1266, `has_nothrow_copy` 1785-1790,
`is_nothrow_move_constructible` 230, 836, 1789 and 1903, `is_nothrow_move_assignable` 247,
comparison with `boost::blank` 202.
Simplification: traits are plain booleans given from outside. -/
structure Traits where
  /-- `has_nothrow_constructor<T>` -/
  nothrowDefault : Bool
  /-- `has_nothrow_copy<T>` -/
  nothrowCopy : Bool
  /-- `is_nothrow_move_constructible<T>` -/
  nothrowMove : Bool
  /-- `is_nothrow_move_assignable<T>` -/
  nothrowMoveAssign : Bool
  /-- the type is `boost::blank` -/
  isBlank : Bool
  /-- the type is trivially default constructible (scalars, `boost::blank`, plain structs); the library
  does not ask for this, it only matters for what `construct_fallback` leaves behind (1726-1735) -/
  trivialDefault : Bool
  deriving DecidableEq, Repr, Inhabited

/-- `mpl::iter_fold_if<Seq, int_<start>, next<>, Pred>` as used at variant.hpp 188-192 and 199-203:
walk the sequence while the predicate holds, adding one to the index at each step; return the index
and the rest of the sequence (the iterator) where the walk stopped.
MPL itself is not in the sandbox; this is its documented behaviour. -/
def iterFoldIf (pred : Traits → Bool) : Nat → List Traits → Nat × List Traits
  | i, [] => (i, [])
  | i, t :: ts => if pred t then iterFoldIf pred (i + 1) ts else (i, t :: ts)

/-- `find_fallback_type_pred`, variant.hpp 166-177: keep walking while the element is not nothrow
default constructible. The predicate receives the iterator and dereferences it. -/
def findFallbackTypePred (t : Traits) : Bool := !t.nothrowDefault

/-- How the predicate `mpl::not_same_as<boost::blank>` of variant.hpp 202-203 sees an element.
`iterator` : MPL hands it the iterator, which is never the type `boost::blank`, so it is always true.
`element` : it would be handed the element (what the comment at variant.hpp 157-161 intends). -/
inductive BlankPred
  | iterator
  | element
  deriving DecidableEq, Repr

/-- `mpl::not_same_as<boost::blank>` under either reading, variant.hpp 202-203. -/
def notSameAsBlank : BlankPred → Traits → Bool
  | .iterator, _ => true
  | .element, t => !t.isBlank

/-- `find_fallback_type<Types>::type`, variant.hpp 179-220. `none` is `no_fallback_type`; `some i` is
the index component of the result (`fallback_type_index_`, 1146-1147); the type component is the
element at that index. -/
def findFallbackType (bp : BlankPred) (types : List Traits) : Option Nat :=
  let first := iterFoldIf findFallbackTypePred 0 types
  let second := iterFoldIf (notSameAsBlank bp) first.1 first.2
  match second.2 with
  | [] => match first.2 with
    | [] => none
    | _ :: _ => some first.1
  | _ :: _ => some second.1

/-- What `construct_fallback` (variant.hpp 1726-1735) constructs: `fallback_type_`, which is the `second`
member of the search result (1148-1149).
`iterator` : `second` is the MPL iterator at which the search stopped, as its uses at 195, 200, 205 and
210-218 show, so an (empty) iterator object is constructed in the storage and no element object is.
`element` : the element at that iterator, which is what the comments at 1727 and 1731 intend. -/
inductive FallbackCtor
  | iterator
  | element
  deriving DecidableEq, Repr

end BVariant
