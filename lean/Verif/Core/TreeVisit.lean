/-
Model of visitors that visit the members of recursive variants in turn (apply_visitor_unary.hpp 34-122, variant.hpp 978-1062 and
2185-2260), on the memory of Core/Tree.lean; such as the calculator of doc/tutorial/advanced.xml 181-223.

The visitor is the user's. It is given a reference to the element, or to the node in its wrapper, and may read the value, overwrite it,
throw, and call `apply_visitor` for any member of a node, any number of times and in any order, with or without a handler. It does
not assign to the variants. As in Core/Tree.lean the number is the depth of the stack.
-/
import Verif.Core.Tree

namespace BVariant

section
variable {V A R : Type}

/-- What the overload of a visitor does next. `A`: what it hands to the calls for the members (its arguments, or its own state);
`R`: what it returns. (The user's visitor, called at variant.hpp 1005-1016.) -/
inductive VAct (V A R : Type)
  /-- `return r;` -/
  | ret (r : R)
  /-- `throw …;` -/
  | throw
  /-- the value of the element or of the node is overwritten -/
  | write (v : V) (next : VAct V A R)
  /-- `r = apply_visitor(…, members[i]);` -/
  | visit (i : Nat) (a : A) (next : R → VAct V A R)
  /-- the same in a `try` block with a handler -/
  | tryVisit (i : Nat) (a : A) (next : R → VAct V A R) (handler : VAct V A R)

/-- The visitor: its argument, the index of the type, the value, and the number of members. (The user's; called at variant.hpp
1005-1016.) -/
abbrev TVisitor (V A R : Type) := A → TyIx → V → Nat → VAct V A R

/-- What the visitor has a reference to: an element, or a node. (variant.hpp 1005-1056.) -/
inductive VObj
  | leaf (r : TRef) (k : TyIx)
  | node (p : ObjId)

/-- A write through the reference. (The user's visitor.) -/
def VObj.write (v : V) : VObj → Eff (TreeSt V) Unit
  | .leaf r k => r.write k (.leaf v)
  | .node p => do
    let m ← tReadNode p
    tSetNode p v m.2

/-- `apply_visitor` for a member, of which an element has none. (The user's visitor; apply_visitor_unary.hpp 34-60.) -/
def VObj.visit (f : TLoc → A → Eff (TreeSt V) R) (i : Nat) (a : A) : VObj → Eff (TreeSt V) R
  | .leaf _ _ => Eff.fail .ub
  | .node p => f (.child p i) a

/-- The overload of the visitor runs. (The user's visitor; called at variant.hpp 1005-1016.) -/
def tAct (f : TLoc → A → Eff (TreeSt V) R) (o : VObj) : VAct V A R → Eff (TreeSt V) R
  | .ret r => pure r
  | .throw => fun s => .exc ⟨.visitor, s.tick⟩ s
  | .write v next => do
    o.write v
    tAct f o next
  | .visit i a next => do
    let r ← o.visit f i a
    tAct f o (next r)
  | .tryVisit i a next handler => fun s =>
    match o.visit f i a s with
    | .ok r s' => tAct f o (next r) s'
    | .exc _ s' => tAct f o handler s'
    | .fault e => .fault e

/-- `apply_visitor(visitor, variant)`, apply_visitor_unary.hpp 34-60, with `variant::apply_visitor`, variant.hpp 2246-2260, and
`invoke_visitor`, 978-1062: the visitor is called with the content, which is in place or in a backup (1044-1054), and with the held
object if the content is a wrapper (1020-1030). -/
def tVisitAt (vis : TVisitor V A R) : Nat → TLoc → A → Eff (TreeSt V) R
  | 0, _, _ => Eff.fail .ub
  | n + 1, l, a => do
    let v ← l.read
    let c ← tContent v
    match c with
    | .dead => Eff.fail .ub
    | .leaf b => tAct (tVisitAt vis n) (.leaf (v.ref l) v.which) (vis a v.which b 0)
    | .wrap p => do
      let m ← tReadNode p
      tAct (tVisitAt vis n) (.node p) (vis a v.which m.1 m.2.length)

/-- `apply_visitor(visitor, x)` (apply_visitor_unary.hpp 34-60.) -/
def tVisit (vis : TVisitor V A R) (n : Nat) (x : TPlace) (a : A) : Eff (TreeSt V) R := do
  let l ← x.eval
  tVisitAt vis n l a

end

end BVariant
