import Verif.Meta.CvType

/-
Which overload of `internal_visit` is called for what is in the storage of a variant
(/repo/include/boost/variant/variant.hpp 370-386, 420-590, 688-847, 1005-1056, 1285-1426, 1782-1798, 1900-1916), and what the visitor then
works on: the object in the storage, or the object that a `backup_holder`, a `recursive_wrapper` or a `reference_content` gives access to.

All calls have the form `internal_visit(lvalue, 1L)`. The overloads for the three templates take a `long`, those for any type take an `int`.

The rules of C++ for template argument deduction and overload resolution are part of the trusted base, as far as they are needed for these
members: binding of references to lvalues, derived-to-base conversion, and `long` against `int` for `1L`. No two of the overloads that are
viable for an operand have conversion sequences of the same rank in both arguments, so partial ordering of templates is not needed.
-/

namespace BVariant

/-- The class templates that internal visitors see through. (detail/backup_holder.hpp 22-90, recursive_wrapper.hpp 28-154;
`reference_content` is in boost/detail.) -/
inductive Tmpl
  | backupHolder
  | recursiveWrapper
  | referenceContent
  deriving DecidableEq, Repr

/-- A type without qualifiers: a type of the user's; `tmpl<cv s>`; or a class of the user's derived from `tmpl<cv s>`, publicly. The Booleans
are the qualifiers const and volatile of the argument. (The language. Simplification: a class has at most one of the three as a base, and
`reference_content<T&>` is written with `T` as its argument.) -/
inductive STy
  | user (n : Nat)
  | spec (t : Tmpl) (c v : Bool) (s : STy)
  | derived (n : Nat) (t : Tmpl) (c v : Bool) (s : STy)
  deriving DecidableEq, Repr

/-- The type of an lvalue. (The language.) -/
structure LTy where
  const : Bool
  volatile : Bool
  ty : STy
  deriving DecidableEq, Repr

/-- The template of which the class is a specialization, or from a specialization of which it is derived (true). (The language.) -/
def STy.asTmpl : STy → Option (Tmpl × Bool)
  | .user _ => none
  | .spec t _ _ _ => some (t, false)
  | .derived _ t _ _ _ => some (t, true)

/-- The first parameter of an overload: `T&` or `T&&` with `T` deduced, `const T&`, `tmpl<T>&`, `const tmpl<T>&`. (variant.hpp 370-590,
834, 1007-1055, 1305-1421, 1783 and 1901.) -/
inductive VParam
  | any
  | constAny
  | tmpl (t : Tmpl)
  | constTmpl (t : Tmpl)
  deriving DecidableEq, Repr

/-- What an overload does: its work on the operand, its work on `operand.get()`, or `internal_visit(operand.get(), 1L)`. (variant.hpp 370-590,
834, 1007-1055, 1305-1421, 1783 and 1901.) -/
inductive VAction
  | here
  | get
  | again
  deriving DecidableEq, Repr

/-- An overload: its first parameter, whether the second one is `long` (else `int`), and what it does. (variant.hpp 370-590,
834, 1007-1055, 1305-1421, 1783 and 1901.) -/
structure VOverload where
  first : VParam
  long : Bool
  act : VAction
  deriving DecidableEq, Repr

/-- The conversion of the first argument: derived to base or identity; and whether the reference is to const although the operand is not. (The
language, [over.ics.ref].) -/
structure VConv where
  toBase : Bool
  addsConst : Bool
  deriving DecidableEq, Repr

/-- Deduction, and binding of the parameter to an lvalue. A reference to a specialization of a template binds to that specialization and to
classes derived from it, if no qualifier is dropped. (The language, [temp.deduct.call], [dcl.init.ref].) -/
def VParam.bind (a : LTy) : VParam → Option VConv
  | .any => some ⟨false, false⟩
  | .constAny => some ⟨false, !a.const⟩
  | .tmpl t =>
    match a.ty.asTmpl with
    | some (t', d) => if t' = t ∧ a.const = false ∧ a.volatile = false then some ⟨d, false⟩ else none
    | none => none
  | .constTmpl t =>
    match a.ty.asTmpl with
    | some (t', d) => if t' = t ∧ a.volatile = false then some ⟨d, !a.const⟩ else none
    | none => none

/-- The first conversion is better: identity rather than derived-to-base; otherwise the less qualified reference. (The language,
[over.ics.rank].) -/
def VConv.better (i j : VConv) : Bool := (!i.toBase && j.toBase) || (i.toBase == j.toBase && !i.addsConst && j.addsConst)

/-- The overload `o` is better than `o'` for the lvalue: worse in no argument, better in one. (`1L` to `long` is better than to `int`.) (The
language, [over.match.best].) -/
def VOverload.better (a : LTy) (o o' : VOverload) : Bool :=
  match o.first.bind a, o'.first.bind a with
  | some i, some j => !(j.better i) && !(!o.long && o'.long) && (i.better j || (o.long && !o'.long))
  | _, _ => false

/-- The overload that is called: viable, and better than all other viable ones; none if there is no such (the call does not compile). (The
language, [over.match.best].) -/
def resolve (os : List VOverload) (a : LTy) : Option VOverload :=
  os.find? fun o => (o.first.bind a).isSome && os.all fun o' => o' = o || (o'.first.bind a).isNone || o.better a o'

/-- The type of the parameter as an lvalue. (The language: `const T&` makes the operand const.) -/
def VParam.seen (a : LTy) : VParam → LTy
  | .constAny => { a with const := true }
  | _ => a

/-- `get()` of a `tmpl<cv s>` that is const or not: `T&` or `const T&`, backup_holder.hpp 66-74 and recursive_wrapper.hpp 94-98;
`reference_content<T&>::get() const` returns `T&`. -/
def Tmpl.got (t : Tmpl) (const c v : Bool) (s : STy) : LTy :=
  match t with
  | .referenceContent => ⟨c, v, s⟩
  | _ => ⟨c || const, v, s⟩

/-- The call `internal_visit(operand, 1L)`, with all calls that it leads to: the type of the lvalue on which the visitor does its work, or none if a
call does not compile. For a type of the user's only overloads for any type are viable, which do their work on the operand. (variant.hpp 370-590, 834,
1007-1055, 1305-1421, 1783 and 1901.) -/
def internalVisit (os : List VOverload) : STy → Bool → Bool → Option LTy
  | .user n, c, v =>
    match resolve os ⟨c, v, .user n⟩ with
    | some o => some (o.first.seen ⟨c, v, .user n⟩)
    | none => none
  | .spec t tc tv s, c, v =>
    match resolve os ⟨c, v, .spec t tc tv s⟩ with
    | some o =>
      match o.act with
      | .here => some (o.first.seen ⟨c, v, .spec t tc tv s⟩)
      | .get => some (t.got c tc tv s)
      | .again => internalVisit os s (t.got c tc tv s).const (t.got c tc tv s).volatile
    | none => none
  | .derived n t tc tv s, c, v =>
    match resolve os ⟨c, v, .derived n t tc tv s⟩ with
    | some o =>
      match o.act with
      | .here => some (o.first.seen ⟨c, v, .derived n t tc tv s⟩)
      | .get => some (t.got c tc tv s)
      | .again => internalVisit os s (t.got c tc tv s).const (t.got c tc tv s).volatile
    | none => none

/-- The call for an lvalue of the given type. (variant.hpp as above.) -/
def LTy.visit (os : List VOverload) (a : LTy) : Option LTy := internalVisit os a.ty a.const a.volatile

/-- `destroyer`, variant.hpp 375-384. -/
def destroyerOverloads : List VOverload := [⟨.any, false, .here⟩]

/-- `copy_into`, variant.hpp 436-452. -/
def copyIntoOverloads : List VOverload :=
  [⟨.tmpl .backupHolder, true, .get⟩, ⟨.constTmpl .backupHolder, true, .get⟩, ⟨.constAny, false, .here⟩]

/-- `move_into`, variant.hpp 477-487. -/
def moveIntoOverloads : List VOverload := [⟨.tmpl .backupHolder, true, .get⟩, ⟨.any, false, .here⟩]

/-- `assign_storage`, variant.hpp 512-537. -/
def assignStorageOverloads : List VOverload :=
  [⟨.tmpl .backupHolder, true, .get⟩, ⟨.constTmpl .backupHolder, true, .get⟩, ⟨.any, false, .here⟩]

/-- `move_storage`, variant.hpp 563-588. -/
def moveStorageOverloads : List VOverload :=
  [⟨.tmpl .backupHolder, true, .get⟩, ⟨.constTmpl .backupHolder, true, .get⟩, ⟨.any, false, .here⟩]

/-- `backup_assigner`, variant.hpp 833-840. -/
def backupAssignerOverloads : List VOverload := [⟨.any, false, .here⟩]

/-- `backup_assigner::backup_assign_impl`, variant.hpp 718-831, called with `1L` by the previous one: the overloads whose second parameter accepts
what `is_nothrow_move_constructible<LhsT>` is. For a `backup_holder` that is false, as its copy constructor (backup_holder.hpp 36) is not noexcept. Here
`get` stands for the overload that keeps the holder's pointer as the backup (718-752). -/
def backupAssignImplOverloads (nothrowMove : Bool) : List VOverload :=
  if nothrowMove then [⟨.any, false, .here⟩] else [⟨.tmpl .backupHolder, true, .get⟩, ⟨.any, false, .here⟩]

/-- `invoke_visitor`, variant.hpp 1005-1055, which calls the user's visitor. (Of the two overloads at 1006-1017 one is viable.) -/
def invokeVisitorOverloads : List VOverload :=
  [⟨.any, false, .here⟩, ⟨.tmpl .recursiveWrapper, true, .again⟩, ⟨.constTmpl .recursiveWrapper, true, .again⟩,
   ⟨.tmpl .referenceContent, true, .again⟩, ⟨.constTmpl .referenceContent, true, .again⟩,
   ⟨.tmpl .backupHolder, true, .again⟩, ⟨.constTmpl .backupHolder, true, .again⟩]

/-- `convert_copy_into`, variant.hpp 1304-1357. -/
def convertCopyIntoOverloads : List VOverload :=
  [⟨.any, false, .here⟩, ⟨.tmpl .referenceContent, true, .again⟩, ⟨.constTmpl .referenceContent, true, .again⟩,
   ⟨.tmpl .backupHolder, true, .again⟩, ⟨.constTmpl .backupHolder, true, .again⟩,
   ⟨.tmpl .recursiveWrapper, true, .again⟩, ⟨.constTmpl .recursiveWrapper, true, .again⟩]

/-- `convert_move_into`, variant.hpp 1379-1424. -/
def convertMoveIntoOverloads : List VOverload :=
  [⟨.any, false, .here⟩, ⟨.tmpl .referenceContent, true, .again⟩, ⟨.constTmpl .referenceContent, true, .again⟩,
   ⟨.tmpl .backupHolder, true, .again⟩, ⟨.constTmpl .backupHolder, true, .again⟩,
   ⟨.tmpl .recursiveWrapper, true, .again⟩, ⟨.constTmpl .recursiveWrapper, true, .again⟩]

/-- `assigner`, variant.hpp 1782-1798. -/
def assignerOverloads : List VOverload := [⟨.constAny, false, .here⟩]

/-- `move_assigner`, variant.hpp 1900-1916. -/
def moveAssignerOverloads : List VOverload := [⟨.any, false, .here⟩]

/-- The object in the storage for content of the given type, and the lvalue for which `internal_visit` is called: `cast_storage<T>` or, if the content is in
a backup, `cast_storage< backup_holder<T> >`, of a variant that is const or not. (visitation_impl.hpp 98-149, cast_storage.hpp 27-37.) -/
def LTy.inStorage (constVariant backedUp : Bool) (a : LTy) : LTy :=
  if backedUp then ⟨constVariant, false, .spec .backupHolder a.const a.volatile a.ty⟩ else ⟨a.const || constVariant, a.volatile, a.ty⟩

/-- A type of the user's with its qualifiers. (The language.) -/
def CvTy.toL (t : CvTy) : LTy := ⟨t.const, t.volatile, .user t.base⟩

/-- The element of `internal_types` for a bounded type: `make_reference_content` makes `reference_content<T&>` of `T&`. (variant.hpp 1131-1134.) -/
def Elem.stored : Elem → LTy
  | .val t => t.toL
  | .wrapped t => ⟨false, false, .spec .recursiveWrapper t.const t.volatile (.user t.base)⟩
  | .ref t => ⟨false, false, .spec .referenceContent t.const t.volatile (.user t.base)⟩

end BVariant
