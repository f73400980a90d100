/-
Specification of the stack depth that operations on recursive variants need (C58).
-/
import Verif.Spec.Tree

namespace BVariant

section
variable {V : Type}

mutual
/-- The depth to which moving a tree recurses: not below nodes whose list of members is taken over as a whole. -/
def VTree.moveHeight (C : TreeCfg V) : VTree V → Nat
  | .leaf _ _ => 1
  | .node k _ f => (if C.steals k then 0 else f.moveHeight C) + 1
def VForest.moveHeight (C : TreeCfg V) : VForest V → Nat
  | .nil => 0
  | .cons t f => max (t.moveHeight C) (f.moveHeight C)
end

/-- No operation of the environment throws. -/
def TreeCfg.NoThrow (C : TreeCfg V) : Prop := ∀ i, C.throws i = false

/-- A program that makes a chain of `n` nodes: the variable `0` is a plain value, and each of the variables `1`, …, `n` is a node whose
only member is a copy of the variable before it. -/
def chainProgram (k₀ k : TyIx) (v a : V) : Nat → List (TCmd V)
  | 0 => [.leaf 0 k₀ v]
  | n + 1 => chainProgram k₀ k v a n ++ [.node (n + 1) k a [⟨n, []⟩]]

/-- The value of the variable `n` of that program. -/
def chain (k₀ k : TyIx) (v a : V) : Nat → VTree V
  | 0 => .leaf k₀ v
  | n + 1 => .node k a (.cons (chain k₀ k v a n) .nil)

end

end BVariant
