/-
Specification for C44: programs over a plain store that maps each variable to a pair (type, value). Nothing of the
library's mechanism appears here: no storage, no backups, no objects. Copies and moves preserve values; what a move leaves
in its source is left open.
-/
import Verif.Core.Program

namespace BVariant

/-- A plain store: `none` for a variable that is not alive. -/
abbrev Store (V : Type) := Nat → Option (TyIx × V)

section
variable {V : Type} (C : Cfg V)

/-- The statement is valid in the given store. -/
def Cmd.validIn (σ : Store V) : Cmd V → Prop
  | .defaultConstruct x => σ x = none ∧ 0 < C.n
  | .copyConstruct x y | .moveConstruct x y | .constructGet _ x y => σ x = none ∧ σ y ≠ none
  | .constructL x k _ | .constructR x k _ | .constructC x k _ => σ x = none ∧ k < C.n
  | .destroy x | .mutate x _ => σ x ≠ none
  | .copyAssign x y | .moveAssign x y | .swap x y | .assignGet _ x y => σ x ≠ none ∧ σ y ≠ none
  | .assignL x k _ | .assignR x k _ | .assignC x k _ | .assignVL x k _ | .assignVR x k _ => σ x ≠ none ∧ k < C.n

/-- `σ'` is a store after the successful statement in store `σ`. -/
def Cmd.doneBy (σ σ' : Store V) : Cmd V → Prop
  | .defaultConstruct x => σ' = upd σ x (some (0, C.ops.valueInit 0))
  | .copyConstruct x y | .constructGet false x y => σ' = upd σ x (σ y)
  | .moveConstruct x y | .constructGet true x y => ∃ k v m, σ y = some (k, v) ∧ σ' = upd (upd σ y (some (k, m))) x (some (k, v))
  | .constructL x k v | .constructR x k v | .constructC x k v => σ' = upd σ x (some (k, v))
  | .destroy x => σ' = upd σ x none
  | .copyAssign x y | .assignGet false x y => σ' = upd σ x (σ y)
  | .moveAssign x y | .assignGet true x y =>
    if x = y then ∃ k v m, σ x = some (k, v) ∧ σ' = upd σ x (some (k, m))
    else ∃ k v m, σ y = some (k, v) ∧ σ' = upd (upd σ y (some (k, m))) x (some (k, v))
  | .assignL x k v | .assignR x k v | .assignC x k v | .assignVL x k v | .assignVR x k v => σ' = upd σ x (some (k, v))
  | .swap x y => σ' = upd (upd σ x (σ y)) y (σ x)
  | .mutate x v => ∃ k v0, σ x = some (k, v0) ∧ σ' = upd σ x (some (k, v))

/-- The documented states of the target of a failed assignment of content of type `k`, when it held `old`: as before; or,
if the types are the same, still of that type (the element's own assignment failed); or, if the types differ and there
is a fallback type, a default-initialised object of that. -/
def Documented (old : TyIx × V) (k : TyIx) (r : TyIx × V) : Prop :=
  r = old ∨ (k = old.1 ∧ r.1 = old.1) ∨
    (k ≠ old.1 ∧ ∃ fb, C.fallback = some fb ∧ r = (fb, C.ops.defaultInit fb))

/-- `σ'` is a store after the statement has thrown in store `σ`. -/
def Cmd.failedBy (σ σ' : Store V) : Cmd V → Prop
  | .defaultConstruct _ | .copyConstruct _ _ | .constructL _ _ _ | .constructR _ _ _ | .constructC _ _ _
  | .constructGet false _ _ => σ' = σ
  | .moveConstruct _ y | .constructGet true _ y => ∃ k v m, σ y = some (k, v) ∧ σ' = upd σ y (some (k, m))
  | .destroy _ | .mutate _ _ => False
  | .copyAssign x y | .assignGet false x y => ∃ old k v r, σ x = some old ∧ σ y = some (k, v) ∧ Documented C old k r ∧ σ' = upd σ x (some r)
  | .moveAssign x y | .assignGet true x y => ∃ old k v r m, σ x = some old ∧ σ y = some (k, v) ∧ Documented C old k r ∧
      σ' = upd (upd σ y (some (k, m))) x (some r)
  | .assignL x k _ | .assignR x k _ | .assignC x k _ | .assignVL x k _ | .assignVR x k _ =>
    ∃ old r, σ x = some old ∧ Documented C old k r ∧ σ' = upd σ x (some r)
  | .swap x y => ∃ a b a' b', σ x = some a ∧ σ y = some b ∧ (a'.1 = a.1 ∨ C.fallback = some a'.1) ∧
      (b'.1 = b.1 ∨ b'.1 = a.1 ∨ C.fallback = some b'.1) ∧ σ' = upd (upd σ x (some a')) y (some b')

/-- What became of a statement. -/
inductive Fate
  | skipped
  | done
  | failed
  deriving DecidableEq, Repr

/-- A run of a program over the plain store, with the fate of each statement. -/
inductive StoreRun : List (Cmd V) → Store V → List Fate → Store V → Prop
  | nil (σ : Store V) : StoreRun [] σ [] σ
  | skip {c cs σ fs σ'} : ¬ c.validIn C σ → StoreRun cs σ fs σ' → StoreRun (c :: cs) σ (.skipped :: fs) σ'
  | done {c cs σ σ₁ fs σ'} : c.validIn C σ → c.doneBy C σ σ₁ → StoreRun cs σ₁ fs σ' →
      StoreRun (c :: cs) σ (.done :: fs) σ'
  | fail {c cs σ σ₁ fs σ'} : c.validIn C σ → c.failedBy C σ σ₁ → StoreRun cs σ₁ fs σ' →
      StoreRun (c :: cs) σ (.failed :: fs) σ'

/-- The fates of the statements in a run of the model. -/
def fates : List (Cmd V) → World V → List Fate
  | [], _ => []
  | c :: cs, w =>
    if c.valid C w then
      match c.code C w with
      | .ok _ w' => .done :: fates cs w'
      | .exc _ w' => .failed :: fates cs w'
      | .fault _ => []
    else .skipped :: fates cs w

end

end BVariant
