/-
References to the variants and nodes of recursive variants: what a program that keeps a pointer may rely on.
-/
import Verif.Core.Tree

namespace BVariant

section
variable {V : Type}

/-- The place is that of the variant `x`, or of a part of it. -/
def TPlace.Under (y x : TPlace) : Prop := x.var = y.var ∧ x.path <+: y.path

/-- A part of the variant. -/
def TPlace.below (x : TPlace) (is : List Nat) : TPlace := ⟨x.var, x.path ++ is⟩

/-- The variants that a statement assigns to, moves from, changes or destroys. -/
def TCmd.writes : TCmd V → List TPlace
  | .leaf _ _ _ | .node _ _ _ _ | .copy _ _ => []
  | .move _ t => [t]
  | .assign x _ | .store x _ => [x]
  | .moveAssign x t | .swap x t _ => [x, t]
  | .destroy x => [⟨x, []⟩]

/-- Where the variant is: a pointer to it. -/
def TPlace.loc (s : TreeSt V) (y : TPlace) : Option TLoc :=
  match y.eval s with
  | .ok l _ => some l
  | _ => none

/-- What a variant has: `which()`, its plain value or the address of its node, and, if it has one, the value of the node and
the number of its members. -/
def TPlace.object (s : TreeSt V) (y : TPlace) : Option (TyIx × TContent V × Option (V × Nat)) :=
  match y.variant s with
  | none => none
  | some v =>
    match tContent v s with
    | .ok (.wrap p) _ =>
      match s.heap p with
      | some (.node a cs) => some (v.which, .wrap p, some (a, cs.length))
      | _ => none
    | .ok c _ => some (v.which, c, none)
    | _ => none

/-- The node a variant has: a pointer to it, as `get` returns it. -/
def TPlace.node (s : TreeSt V) (y : TPlace) : Option ObjId :=
  match y.object s with
  | some (_, .wrap p, _) => some p
  | _ => none

/-- Is the content of the variant in a heap backup? -/
def TPlace.backedUp (s : TreeSt V) (y : TPlace) : Bool :=
  match y.variant s with
  | some (.backup _ _) => true
  | _ => false

/-- The statement ends in the state, by itself or by an exception. -/
def TCmd.EndsIn (C : TreeCfg V) (n : Nat) (c : TCmd V) (s s' : TreeSt V) : Prop :=
  c.code C n s = .ok () s' ∨ ∃ e, c.code C n s = .exc e s'

end

end BVariant
