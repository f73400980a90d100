/-
Programs that keep references into the contents of variants: obtained from `get` or as the argument of a visitor, and used
later, while or after other statements run.
-/
import Verif.Core.Program

namespace BVariant

/-- One statement of a program that keeps references. `r` is the name of a reference, `x` of a variant. (`get<U>(x)`,
get.hpp 148-201; `apply_visitor`, apply_visitor_unary.hpp 43-59; other statements as in Core/Program.lean.) -/
inductive RCmd (V : Type)
  | stmt (c : Cmd V)
  /-- `T& r = get<T>(x);` with `T` the type of the content of `x` -/
  | bind (r x : Nat)
  /-- the object `r` refers to is read -/
  | read (r : Nat)
  /-- a value is stored into the object `r` refers to -/
  | write (r : Nat) (v : V)
  /-- the content of `x` is read through a new `get<T>(x)` -/
  | look (x : Nat)

/-- A reference: the type it was declared with and the object it was bound to. (The result of get.hpp 148-201, kept by the
user.) -/
structure Ref where
  ty : TyIx
  id : ObjId
  deriving DecidableEq, Repr

/-- The state of a program that keeps references. (The user's program.) -/
structure RSt (V : Type) where
  w : World V
  /-- the references bound so far -/
  refs : Nat → Option Ref
  /-- what was read so far, the latest first -/
  seen : List (TyIx × V)

section
variable {V : Type} (C : Cfg V)

/-- The reference that `get<T>(x)` returns: the address found by visitation (`get_visitor::operator()` returns
`boost::addressof(operand)`, get.hpp 73-97; relaxed_get/strict_get dereference it, get.hpp 118-178, 212-302), which a visitor
is handed as its argument (variant.hpp 984-1062, 2230-2260). -/
def getRef (x : VarId) : M V Ref := applyVisitor C x fun k id => pure ⟨k, id⟩

/-- Read the object a reference refers to: undefined unless it still is an object of that type. (The language: object
lifetime.) -/
def Ref.read (r : Ref) : M V (TyIx × V) := do
  let v ← readAs r.ty r.id
  pure (r.ty, v)

/-- Store a value into the object a reference refers to. (The language: object lifetime.) -/
def Ref.write (r : Ref) (v : V) : M V Unit := do
  let _ ← readAs r.ty r.id
  M.modify (setVal r.ty r.id v)

/-- Read the content of a variant by visitation. (apply_visitor_unary.hpp 43-59.) -/
def lookAt (x : VarId) : M V (TyIx × V) := applyVisitor C x fun k id => Ref.read ⟨k, id⟩

/-- Run one statement. Exceptions are caught after it. Statements that are not valid in the current state, uses of
a name never bound and `get` on a dead variable are skipped. `none`: the statement ended in a fault. (The user's program;
the library has no such code.) -/
def rStep (s : RSt V) : RCmd V → Option (RSt V)
  | .stmt c =>
    if c.valid C s.w then
      match c.code C s.w with
      | .ok _ w' | .exc _ w' => some { s with w := w' }
      | .fault _ => none
    else some s
  | .bind r x =>
    if (s.w.vars (.user x)).isSome then
      match getRef C (.user x) s.w with
      | .ok p w' => some { s with w := w', refs := upd s.refs r (some p) }
      | .exc _ w' => some { s with w := w' }
      | .fault _ => none
    else some s
  | .read r =>
    match s.refs r with
    | none => some s
    | some p =>
      match p.read s.w with
      | .ok q w' => some { s with w := w', seen := q :: s.seen }
      | .exc _ w' => some { s with w := w' }
      | .fault _ => none
  | .write r v =>
    match s.refs r with
    | none => some s
    | some p =>
      match p.write v s.w with
      | .ok _ w' | .exc _ w' => some { s with w := w' }
      | .fault _ => none
  | .look x =>
    if (s.w.vars (.user x)).isSome then
      match lookAt C (.user x) s.w with
      | .ok q w' => some { s with w := w', seen := q :: s.seen }
      | .exc _ w' => some { s with w := w' }
      | .fault _ => none
    else some s

/-- Run a program. (The user's program; the library has no such code.) -/
def rRun : List (RCmd V) → RSt V → Option (RSt V)
  | [], s => some s
  | c :: cs, s => (rStep C s c).bind (rRun cs)

/-- `apply_visitor(f, x)` where the visitor `f` runs the statements `cs`, which may use its argument under the name `r` and may
do anything to any variant, `x` included (variant.hpp 984-1062, 2230-2260; exceptions stay within `cs`). -/
def visitWith (r : Nat) (x : VarId) (cs : List (RCmd V)) (s : RSt V) : M V (RSt V) :=
  applyVisitor C x fun k id => show M V (RSt V) from fun w =>
    match rRun C cs { s with w := w, refs := upd s.refs r (some ⟨k, id⟩) } with
    | some s' => .ok s' s'.w
    | none => .fault .ub

end

end BVariant
