/-
Model of visitors for several recursive variants at once (apply_visitor_binary.hpp 41-285, multivisitors_cpp11_based.hpp 88-206,
multivisitors_cpp14_based.hpp 26-148), which visit members in turn, on the memory of Core/Tree.lean.

The visitor is the user's. It is given references to the elements, or to the nodes in their wrappers, and may read and overwrite each
of the values at any time, throw, and call `apply_visitor` for any members of the nodes it was given and any variants it knows
otherwise, any number of times and in any order, with or without a handler. The variants may be parts of each other, or the same. It
does not assign to the variants. As in Core/Tree.lean the number is the depth of the stack.

Simplified: the library finds the contents one by one, each in a visitor of its own (apply_visitor_binary.hpp 105-130,
multivisitors_cpp11_based.hpp 124-134); as that only reads, the contents are here found in order, before the visitor is called. The number of
variants is not bounded; a call with none, which the library does not have, calls the visitor without contents.
-/
import Verif.Core.TreeVisit

namespace BVariant

section
variable {V A R : Type}

/-- A variant that is passed to `apply_visitor`: member `i` of the node that the visitor has as its argument `o`, or a variant that it knows
otherwise. (The user's visitor.) -/
inductive VSel
  | member (o i : Nat)
  | at (x : TPlace)

/-- What the overload of a visitor does next. (The user's visitor, called at apply_visitor_binary.hpp 64-76 and
multivisitors_cpp11_based.hpp 156-168.) -/
inductive VActN (V A R : Type)
  /-- `return r;` -/
  | ret (r : R)
  /-- `throw …;` -/
  | throw
  /-- the value of argument `o` is read -/
  | read (o : Nat) (next : V → VActN V A R)
  /-- the value of argument `o` is overwritten -/
  | write (o : Nat) (v : V) (next : VActN V A R)
  /-- `r = apply_visitor(…, …);` -/
  | visit (sel : List VSel) (a : A) (next : R → VActN V A R)
  /-- the same in a `try` block with a handler -/
  | tryVisit (sel : List VSel) (a : A) (next : R → VActN V A R) (handler : VActN V A R)

/-- The visitor: its state, and for each argument the index of the type, the value, and the number of members. (The user's; called at
apply_visitor_binary.hpp 64-76 and multivisitors_cpp11_based.hpp 156-168.) -/
abbrev NVisitor (V A R : Type) := A → List (TyIx × V × Nat) → VActN V A R

/-- A read through the reference. (The user's visitor.) -/
def VObj.get : VObj → Eff (TreeSt V) V
  | .leaf r _ => do
    let c ← r.read
    match c with
    | .leaf v => pure v
    | _ => Eff.fail .ub
  | .node p => do
    let m ← tReadNode p
    pure m.1

/-- Where the variant is that is passed to `apply_visitor`. (The user's visitor.) -/
def tSelect (os : List VObj) : VSel → Eff (TreeSt V) TLoc
  | .member o i =>
    match os[o]? with
    | some (.node p) => pure (.child p i)
    | _ => Eff.fail .ub
  | .at x => x.eval

/-- The arguments of `apply_visitor`, in order. (The user's visitor.) -/
def tSelects (os : List VObj) : List VSel → Eff (TreeSt V) (List TLoc)
  | [] => pure []
  | z :: zs => do
    let l ← tSelect os z
    let ls ← tSelects os zs
    pure (l :: ls)

/-- The content of one variant, with the held object if it is a wrapper. (variant.hpp 978-1062 and 2246-2260, as
apply_visitor_unary.hpp 34-60 has it called.) -/
def tOperand (l : TLoc) : Eff (TreeSt V) (VObj × (TyIx × V × Nat)) := do
  let v ← l.read
  let c ← tContent v
  match c with
  | .dead => Eff.fail .ub
  | .leaf b => pure (.leaf (v.ref l) v.which, (v.which, b, 0))
  | .wrap p => do
    let m ← tReadNode p
    pure (.node p, (v.which, m.1, m.2.length))

/-- The contents of all, in order. (apply_visitor_binary.hpp 105-130, multivisitors_cpp11_based.hpp 124-134.) -/
def tOperands : List TLoc → Eff (TreeSt V) (List (VObj × (TyIx × V × Nat)))
  | [] => pure []
  | l :: ls => do
    let c ← tOperand l
    let cs ← tOperands ls
    pure (c :: cs)

/-- The argument `o` of the visitor. (The user's visitor.) -/
def tArg (os : List VObj) (o : Nat) : Eff (TreeSt V) VObj :=
  match os[o]? with
  | some ob => pure ob
  | none => Eff.fail .ub

/-- The overload of the visitor runs. (The user's visitor; called at apply_visitor_binary.hpp 64-76 and
multivisitors_cpp11_based.hpp 156-168.) -/
def tActN (f : List VSel → A → Eff (TreeSt V) R) (os : List VObj) : VActN V A R → Eff (TreeSt V) R
  | .ret r => pure r
  | .throw => fun s => .exc ⟨.visitor, s.tick⟩ s
  | .read o next => do
    let ob ← tArg os o
    let v ← ob.get
    tActN f os (next v)
  | .write o v next => do
    let ob ← tArg os o
    ob.write v
    tActN f os next
  | .visit sel a next => do
    let r ← f sel a
    tActN f os (next r)
  | .tryVisit sel a next handler => fun s =>
    match f sel a s with
    | .ok r s' => tActN f os (next r) s'
    | .exc _ s' => tActN f os handler s'
    | .fault e => .fault e

/-- `apply_visitor(visitor, variants…)`, from a visitor with the arguments `os` or, if there are none, from elsewhere
(apply_visitor_binary.hpp 141-167 and 257-285, multivisitors_cpp11_based.hpp 173-206, multivisitors_cpp14_based.hpp 106-148). -/
def tVisitN (vis : NVisitor V A R) : Nat → List VObj → List VSel → A → Eff (TreeSt V) R
  | 0, _, _, _ => Eff.fail .ub
  | n + 1, os, sel, a => do
    let ls ← tSelects os sel
    let cs ← tOperands ls
    tActN (tVisitN vis n (cs.map (·.1))) (cs.map (·.1)) (vis a (cs.map (·.2)))

end

end BVariant
