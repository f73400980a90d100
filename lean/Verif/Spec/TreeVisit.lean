/-
Specification for C81: recursive visitors, on plain trees.
-/
import Verif.Spec.TreeMembers
import Verif.Core.TreeVisit

namespace BVariant

section
variable {V A R : Type}

/-- How many members the variant has. -/
def VTree.arity : VTree V → Nat
  | .leaf _ _ => 0
  | .node _ _ f => f.size

/-- What the visitor does with a tree, in terms of the tree: `Acts vis act t u o` says that when it has come to `act` and the tree it
visits is `t` then at the end the tree is `u`, and it has returned `o`, or thrown if `o` is `none`. -/
inductive VTree.Acts (vis : TVisitor V A R) : VAct V A R → VTree V → VTree V → Option R → Prop
  | ret {r t} : Acts vis (.ret r) t t (some r)
  | throw {t} : Acts vis .throw t t none
  | write {v next t u o} : Acts vis next (t.store v) u o → Acts vis (.write v next) t u o
  | visit {i a next k b f t t' r u o} : f.get i = some t → Acts vis (vis a t.which t.root t.arity) t t' (some r) →
      Acts vis (next r) (.node k b (f.set i t')) u o → Acts vis (.visit i a next) (.node k b f) u o
  | visitThrows {i a next k b f t t'} : f.get i = some t → Acts vis (vis a t.which t.root t.arity) t t' none →
      Acts vis (.visit i a next) (.node k b f) (.node k b (f.set i t')) none
  | tryVisit {i a next handler k b f t t' r u o} : f.get i = some t → Acts vis (vis a t.which t.root t.arity) t t' (some r) →
      Acts vis (next r) (.node k b (f.set i t')) u o → Acts vis (.tryVisit i a next handler) (.node k b f) u o
  | tryHandled {i a next handler k b f t t' u o} : f.get i = some t → Acts vis (vis a t.which t.root t.arity) t t' none →
      Acts vis handler (.node k b (f.set i t')) u o → Acts vis (.tryVisit i a next handler) (.node k b f) u o

/-- Visiting a tree. -/
def VTree.Visited (vis : TVisitor V A R) (a : A) (t u : VTree V) (o : Option R) : Prop := t.Acts vis (vis a t.which t.root t.arity) u o

/-- The visitor visits no members that are not there. -/
def VAct.Within (m : Nat) : VAct V A R → Prop
  | .ret _ | .throw => True
  | .write _ next => next.Within m
  | .visit i _ next => i < m ∧ ∀ r, (next r).Within m
  | .tryVisit i _ next handler => i < m ∧ (∀ r, (next r).Within m) ∧ handler.Within m

def TVisitor.Within (vis : TVisitor V A R) : Prop := ∀ a k v m, (vis a k v m).Within m

/-- The visitor writes nothing. -/
def VAct.Reads : VAct V A R → Prop
  | .ret _ | .throw => True
  | .write _ _ => False
  | .visit _ _ next => ∀ r, (next r).Reads
  | .tryVisit _ _ next handler => (∀ r, (next r).Reads) ∧ handler.Reads

def TVisitor.Reads (vis : TVisitor V A R) : Prop := ∀ a k v m, (vis a k v m).Reads

/-! ### Two kinds of visitors -/

/-- A visitor visits the members from the one with index `i` on, `r` of them, and then goes on with the results in order. -/
def visitAll (r : Nat) (a : A) (acc : List R) (i : Nat) (next : List R → VAct V A R) : VAct V A R :=
  match r with
  | 0 => next acc.reverse
  | r + 1 => .visit i a fun x => visitAll r a (x :: acc) (i + 1) next

/-- A visitor that computes a value from the value of the element, or of the node, and those of its members. -/
def foldVisitor (f : TyIx → V → List R → R) : TVisitor V Unit R := fun _ k v m =>
  visitAll m () [] 0 fun rs => .ret (f k v rs)

mutual
/-- The value computed from a tree. -/
def VTree.fold (f : TyIx → V → List R → R) : VTree V → R
  | .leaf k v => f k v []
  | .node k v ts => f k v (ts.foldAll f)
def VForest.foldAll (f : TyIx → V → List R → R) : VForest V → List R
  | .nil => []
  | .cons t ts => t.fold f :: ts.foldAll f
end

/-- A visitor that changes each value. -/
def mapVisitor (g : TyIx → V → V) : TVisitor V Unit Unit := fun _ k v m =>
  .write (g k v) (visitAll m () [] 0 fun _ => .ret ())

mutual
/-- The tree with each value changed. -/
def VTree.mapAll (g : TyIx → V → V) : VTree V → VTree V
  | .leaf k v => .leaf k (g k v)
  | .node k v ts => .node k (g k v) (ts.mapAll g)
def VForest.mapAll (g : TyIx → V → V) : VForest V → VForest V
  | .nil => .nil
  | .cons t ts => .cons (t.mapAll g) (ts.mapAll g)
end

end

end BVariant
