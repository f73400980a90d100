/-
Assignment of recursive variants whose classes assign member by member, as the implicitly defined `operator=` of a class with
variant members does (Core/Tree.lean has classes that copy first and then swap). The library calls `T::operator=`, and this calls
the library again for each member.
-/
import Verif.Core.Tree

namespace BVariant

section
variable {V : Type} (C : TreeCfg V)

/-- Assignment of `r` members of the node `q` to those of the node `p`, from the one with index `i`, in order. (The user's wrapped
type; each member is assigned by `f`, variant.hpp 2031-2035.) -/
def tAssignMembers (f : TLoc → TLoc → Eff (TreeSt V) Unit) (p q : ObjId) : Nat → Nat → Eff (TreeSt V) Unit
  | 0, _ => pure ()
  | r + 1, i => do
    f (.child p i) (.child q i)
    tAssignMembers f p q r (i + 1)

/-- `T::operator=` of a class with a value and variant members, as it is implicitly defined: the value is assigned, then the
members in order. Two objects of the class have as many members; that they have not is not C++. (The user's wrapped type, called at
recursive_wrapper.hpp 58-62 and 140-144.) -/
def tAssignNodeBy (f : TLoc → TLoc → Eff (TreeSt V) Unit) (k : TyIx) (p q : ObjId) : Eff (TreeSt V) Unit := do
  let (a, cs) ← tReadNode p
  let (b, ds) ← tReadNode q
  if cs.length = ds.length then do
    Eff.onExc (tMayThrow C false (.copyAssign k)) (tSetNode p (C.ops.assignFail k a b) cs)
    tSetNode p (C.ops.assign k a b) cs
    tAssignMembers f p q ds.length 0
  else Eff.fail .ub

/-- `assign_storage`, variant.hpp 496-539, as `tAssignContent`; nodes of the types `mw` are assigned member by member. For wrappers
`recursive_wrapper::operator=`, recursive_wrapper.hpp 58-62. -/
def tAssignContentBy (mw : TyIx → Bool) (f : TLoc → TLoc → Eff (TreeSt V) Unit) (n : Nat) (k : TyIx) (l r : TRef) : Eff (TreeSt V) Unit := do
  let c ← l.read
  let c' ← r.read
  match c, c' with
  | .leaf u, .leaf v => do
    Eff.onExc (tMayThrow C false (.copyAssign k)) (l.write k (.leaf (C.ops.assignFail k u v)))
    l.write k (.leaf (C.ops.assign k u v))
  | .wrap p, .wrap q => if mw k then tAssignNodeBy C f k p q else tAssignNode C n k p q
  | _, _ => Eff.fail .ub

/-- `variant_assign(const variant&)`, variant.hpp 1927-1942, as `tVariantAssign`; nodes of the types `mw` are assigned member by
member, by this function. The first argument is the depth of the stack. Simplified as `tVariantAssign`. -/
def tVariantAssignBy (mw : TyIx → Bool) : Nat → TLoc → TLoc → Eff (TreeSt V) Unit
  | 0, _, _ => Eff.fail .ub
  | n + 1, l, r => do
    let lv ← l.read
    let rv ← r.read
    match lv, rv with
    | .plain k _, .plain k' _ =>
      if k = k' then tAssignContentBy C mw (tVariantAssignBy mw n) (n + 1) k (.inPlace l) (.inPlace r)
      else tAssigner C (n + 1) l lv k' (.inPlace r)
    | .backup k q, .backup k' q' =>
      if k = k' then tAssignContentBy C mw (tVariantAssignBy mw n) (n + 1) k (.inBox q) (.inBox q') else Eff.fail .assertFailed
    | .backup _ _, .plain k' _ => tAssigner C (n + 1) l lv k' (.inPlace r)
    | .plain _ _, .backup _ _ => Eff.fail .assertFailed

/-- The statement `x = t;`. (Call of `operator=(const variant&)`, variant.hpp 2031-2035.) -/
def tAssignBy (mw : TyIx → Bool) (n : Nat) (x t : TPlace) : Eff (TreeSt V) Unit := do
  let l ← x.eval
  let r ← t.eval
  tVariantAssignBy C mw n l r

/-- The library call a statement stands for, as `TCmd.code`, if the classes `mw` are assigned member by member. (Call of
`operator=(const variant&)`, variant.hpp 2031-2035.) -/
def TCmd.codeBy (mw : TyIx → Bool) (n : Nat) : TCmd V → Eff (TreeSt V) Unit
  | .assign x t => tAssignBy C mw n x t
  | c => c.code C n

/-- Run a program, as `tRun`, if the classes `mw` are assigned member by member. (The user's program; the library has no such
code.) -/
def tRunBy (mw : TyIx → Bool) (n : Nat) : List (TCmd V) → TreeSt V → Option (TreeSt V)
  | [], s => some s
  | c :: cs, s =>
    if c.valid C s then
      match c.codeBy C mw n s with
      | .ok _ s' => tRunBy mw n cs s'
      | .exc _ s' => tRunBy mw n cs s'
      | .fault _ => none
    else tRunBy mw n cs s

end

end BVariant
