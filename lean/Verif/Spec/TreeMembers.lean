/-
Specification of assignment member by member (C79): what a failed one leaves.
-/
import Verif.Core.TreeMembers
import Verif.Spec.Tree

namespace BVariant

section
variable {V : Type}

def VForest.size : VForest V → Nat
  | .nil => 0
  | .cons _ f => f.size + 1

mutual
/-- Nodes of a type in `mw` have as many members as their class has. -/
def VTree.Members (mw : TyIx → Bool) (arity : TyIx → Nat) : VTree V → Prop
  | .leaf _ _ => True
  | .node k _ f => (mw k = true → f.size = arity k) ∧ f.Members mw arity
def VForest.Members (mw : TyIx → Bool) (arity : TyIx → Nat) : VForest V → Prop
  | .nil => True
  | .cons t f => t.Members mw arity ∧ f.Members mw arity
end

mutual
/-- The trees have the same types everywhere. -/
def VTree.SameShape : VTree V → VTree V → Prop
  | .leaf k _, .leaf k' _ => k = k'
  | .node k _ f, .node k' _ f' => k = k' ∧ f.SameShape f'
  | _, _ => False
def VForest.SameShape : VForest V → VForest V → Prop
  | .nil, .nil => True
  | .cons t f, .cons t' f' => t.SameShape t' ∧ f.SameShape f'
  | _, _ => False
end

mutual
/-- What a variant with value `t` may be after a failed attempt to assign it `u`: as it was; with the fallback content, if the types differ;
with what a failed assignment of its own value leaves; or with that of `u`, some members that are already assigned, one for which
the attempt failed, and the rest as it was. -/
inductive VTree.Half (C : TreeCfg V) (mw : TyIx → Bool) : VTree V → VTree V → VTree V → Prop
  | same (t u : VTree V) : VTree.Half C mw t u t
  | fallback {t u : VTree V} {fb : TyIx} : t.which ≠ u.which → C.fallback = some fb →
      VTree.Half C mw t u (.leaf fb (C.ops.defaultInit fb))
  | plain (k : TyIx) (v w : V) : VTree.Half C mw (.leaf k v) (.leaf k w) (.leaf k (C.ops.assignFail k v w))
  | value (k : TyIx) (a b : V) (f g : VForest V) : mw k = true →
      VTree.Half C mw (.node k a f) (.node k b g) (.node k (C.ops.assignFail k a b) f)
  | members (k : TyIx) (a b : V) {f g h : VForest V} : mw k = true → VForest.Half C mw f g h →
      VTree.Half C mw (.node k a f) (.node k b g) (.node k b h)
inductive VForest.Half (C : TreeCfg V) (mw : TyIx → Bool) : VForest V → VForest V → VForest V → Prop
  | here {t u w : VTree V} (f g : VForest V) : VTree.Half C mw t u w → VForest.Half C mw (.cons t f) (.cons u g) (.cons w f)
  | there (t u : VTree V) {f g h : VForest V} : VForest.Half C mw f g h → VForest.Half C mw (.cons t f) (.cons u g) (.cons u h)
end

/-- No variant in the value of `t` is in a backup. -/
def TPlace.InPlace (s : TreeSt V) (t : TPlace) : Prop := ∀ is k q, TPlace.variant s ⟨t.var, t.path ++ is⟩ ≠ some (.backup k q)

/-- The statement is supported. An assignment: its sides are the same place, or neither is a part of the other and nothing in the
right side is in a backup; with a fallback type the left side has no backups either. The other statements: as before. -/
def TCmd.SupportedBy (C : TreeCfg V) (s : TreeSt V) : TCmd V → Prop
  | .assign x t => (x = t ∨ (x.inside t = false ∧ t.inside x = false ∧ t.InPlace s)) ∧ (C.fallback ≠ none → x.InPlace s)
  | c => c.hazard C s = false

/-- All statements that are executed are supported. -/
def CleanBy (C : TreeCfg V) (mw : TyIx → Bool) (n : Nat) : List (TCmd V) → TreeSt V → Prop
  | [], _ => True
  | c :: cs, s =>
    if c.valid C s then
      c.SupportedBy C s ∧ match c.codeBy C mw n s with
      | .ok _ s' => CleanBy C mw n cs s'
      | .exc _ s' => CleanBy C mw n cs s'
      | .fault _ => True
    else CleanBy C mw n cs s

/-- There is no backup. -/
def TreeSt.noBackups (s : TreeSt V) : Bool :=
  (List.range s.next).all fun p =>
    match s.heap p with
    | some (.box _) => false
    | _ => true

/-- A condition for `SupportedBy` that can be computed. -/
def TCmd.fineBy (C : TreeCfg V) (s : TreeSt V) : TCmd V → Bool
  | .assign x t => s.noBackups && (decide (x = t) || (!x.inside t && !t.inside x))
  | c => !c.hazard C s

/-- The same for `CleanBy`. -/
def fineBy (C : TreeCfg V) (mw : TyIx → Bool) (n : Nat) : List (TCmd V) → TreeSt V → Bool
  | [], _ => true
  | c :: cs, s =>
    if c.valid C s then
      c.fineBy C s && match c.codeBy C mw n s with
      | .ok _ s' => fineBy C mw n cs s'
      | .exc _ s' => fineBy C mw n cs s'
      | .fault _ => true
    else fineBy C mw n cs s

/-- Nodes of the classes `mw` are constructed with as many members as their class has. -/
def TCmd.Builds (mw : TyIx → Bool) (arity : TyIx → Nat) : TCmd V → Prop
  | .node _ k _ ys => mw k = true → ys.length = arity k
  | _ => True

/-- The effect of a statement that fails: an assignment may have been done in part. -/
inductive TExcBy (C : TreeCfg V) (mw : TyIx → Bool) : TCmd V → TStore V → TStore V → Prop
  | assign {x t : TPlace} {u v w : VTree V} {σ : TStore V} : σ.at x = some u → σ.at t = some v → u.Half C mw v w →
      TExcBy C mw (.assign x t) σ (σ.put x w)
  | other {c : TCmd V} {σ σ' : TStore V} : (∀ x t, c ≠ .assign x t) → TExc C c σ σ' → TExcBy C mw c σ σ'

/-- The runs of a program on a store of trees. -/
inductive TStepsBy (C : TreeCfg V) (mw : TyIx → Bool) : List (TCmd V) → TStore V → TStore V → Prop
  | nil {σ : TStore V} : TStepsBy C mw [] σ σ
  | ok {c : TCmd V} {cs : List (TCmd V)} {σ σ' σ'' : TStore V} : σ.Valid C c → TOk C c σ σ' → TStepsBy C mw cs σ' σ'' →
      TStepsBy C mw (c :: cs) σ σ''
  | exc {c : TCmd V} {cs : List (TCmd V)} {σ σ' σ'' : TStore V} : σ.Valid C c → TExcBy C mw c σ σ' → TStepsBy C mw cs σ' σ'' →
      TStepsBy C mw (c :: cs) σ σ''
  | skip {c : TCmd V} {cs : List (TCmd V)} {σ σ'' : TStore V} : ¬ σ.Valid C c → TStepsBy C mw cs σ σ'' →
      TStepsBy C mw (c :: cs) σ σ''

/-- All nodes of the classes `mw` have as many members as their class has. -/
def TStore.Members (mw : TyIx → Bool) (arity : TyIx → Nat) (σ : TStore V) : Prop := ∀ x u, σ x = some u → u.Members mw arity

end

end BVariant
