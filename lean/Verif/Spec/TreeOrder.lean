/-
Specification of comparison, hashing and streaming of recursive variants, on their values (finite trees).
-/
import Verif.Spec.Tree
import Verif.Spec.Order
import Verif.Core.TreeObserve

namespace BVariant

section
variable {V : Type}

mutual
/-- Equal trees: of the same shape, with the same types and equal values. -/
inductive VTree.Same (eq : TyIx → V → V → Bool) : VTree V → VTree V → Prop
  | leaf {k : TyIx} {u v : V} : eq k u v = true → VTree.Same eq (.leaf k u) (.leaf k v)
  | node {k : TyIx} {a b : V} {f g : VForest V} : eq k a b = true → VForest.Same eq f g → VTree.Same eq (.node k a f) (.node k b g)
inductive VForest.Same (eq : TyIx → V → V → Bool) : VForest V → VForest V → Prop
  | nil : VForest.Same eq .nil .nil
  | cons {t u : VTree V} {f g : VForest V} : VTree.Same eq t u → VForest.Same eq f g → VForest.Same eq (.cons t f) (.cons u g)
end

/-- How two values compare, by a test for "less". -/
def ordOf (lt : V → V → Bool) (a b : V) : Ordering := if lt a b then .lt else if lt b a then .gt else .eq

mutual
/-- The order of trees: by the index of the type, then by the value, then by the members as words in a dictionary. (A plain value
and a node never have the same type.) -/
def VTree.order (lt : TyIx → V → V → Bool) : VTree V → VTree V → Ordering
  | .leaf k u, .leaf k' v => (compare k k').then (ordOf (lt k) u v)
  | .leaf k _, .node k' _ _ => (compare k k').then .lt
  | .node k _ _, .leaf k' _ => (compare k k').then .gt
  | .node k a f, .node k' b g => (compare k k').then ((ordOf (lt k) a b).then (f.order lt g))
def VForest.order (lt : TyIx → V → V → Bool) : VForest V → VForest V → Ordering
  | .nil, .nil => .eq
  | .nil, .cons _ _ => .lt
  | .cons _ _, .nil => .gt
  | .cons t f, .cons u g => (t.order lt u).then (f.order lt g)
end

mutual
/-- The hash of a tree. -/
def VTree.hash {H : Type} (h : TyIx → V → H) (hn : TyIx → V → List H → H) (combine : H → TyIx → H) : VTree V → H
  | .leaf k v => combine (h k v) k
  | .node k a f => combine (hn k a (f.hashes h hn combine)) k
def VForest.hashes {H : Type} (h : TyIx → V → H) (hn : TyIx → V → List H → H) (combine : H → TyIx → H) : VForest V → List H
  | .nil => []
  | .cons t f => t.hash h hn combine :: f.hashes h hn combine
end

mutual
/-- The stream after a tree. -/
def VTree.print {S : Type} (P : Printer V S) : VTree V → S → S
  | .leaf k v, out => P.pr k v out
  | .node k a f, out => P.after k a (f.print P (P.before k a out))
def VForest.print {S : Type} (P : Printer V S) : VForest V → S → S
  | .nil, out => out
  | .cons t f, out => f.print P (t.print P out)
end

end

end BVariant
