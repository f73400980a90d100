/-
Specification of `recursive_wrapper` (C35, C36): wrappers as plain values in a store.
-/
import Verif.Core.Wrapper

namespace BVariant

section
variable {V : Type}

/-- Every live wrapper owns a live object, no two own the same, and there is no other memory. -/
structure WrapInv (s : WrapSt V) : Prop where
  owns : ∀ x p, s.wraps x = some p → ∃ v, s.heap p = some (.live v)
  inj : ∀ x y p, s.wraps x = some p → s.wraps y = some p → x = y
  noLeak : ∀ p, s.heap p ≠ none → ∃ x, s.wraps x = some p
  fresh : ∀ p, s.next ≤ p → s.heap p = none

/-- A store: wrappers are values, as the program's own objects are. There are no pointers and no heap. -/
structure WStore (V : Type) where
  wrap : Nat → Option V
  loc : Nat → Option V

/-- The value of a wrapper. -/
def WrapSt.content (s : WrapSt V) (x : Nat) : Option V :=
  match s.wraps x with
  | none => none
  | some p =>
    match s.heap p with
    | some (.live v) => some v
    | _ => none

/-- The store a state stands for. -/
def WrapSt.store (s : WrapSt V) : WStore V := ⟨s.content, s.locals⟩

/-- The value at a place. -/
def WStore.val (σ : WStore V) : Place → Option V
  | .get x => σ.wrap x
  | .local n => σ.loc n

/-- Store a value at a place. -/
def WStore.put (σ : WStore V) (t : Place) (v : V) : WStore V :=
  match t with
  | .get x => { σ with wrap := upd σ.wrap x (some v) }
  | .local n => { σ with loc := upd σ.loc n (some v) }

variable (o : Ops V)

/-- The effect of a statement that succeeds. -/
inductive WOk : WCmd V → WStore V → WStore V → Prop
  | defaultConstruct {x σ} : WOk (.defaultConstruct x) σ (σ.put (.get x) (o.defaultInit 0))
  | copyConstruct {x y σ v} : σ.val (.get y) = some v → WOk (.copyConstruct x y) σ (σ.put (.get x) (o.copy 0 v))
  | moveConstruct {x y σ v} : σ.val (.get y) = some v →
      WOk (.moveConstruct x y) σ ((σ.put (.get y) (o.movedFrom 0 v)).put (.get x) (o.move 0 v))
  | construct {x t σ v} : σ.val t = some v → WOk (.construct x t) σ (σ.put (.get x) (o.copy 0 v))
  | constructMove {x t σ v} : σ.val t = some v →
      WOk (.constructMove x t) σ ((σ.put t (o.movedFrom 0 v)).put (.get x) (o.move 0 v))
  | destroy {x σ} : WOk (.destroy x) σ { σ with wrap := upd σ.wrap x none }
  | copyAssign {x y σ u v} : σ.val (.get x) = some u → σ.val (.get y) = some v →
      WOk (.copyAssign x y) σ (σ.put (.get x) (o.assign 0 u v))
  | moveAssign {x y σ u v} : σ.val (.get x) = some u → σ.val (.get y) = some v →
      WOk (.moveAssign x y) σ ((σ.put (.get y) u).put (.get x) v)
  | assign {x t σ u v} : σ.val (.get x) = some u → σ.val t = some v →
      WOk (.assign x t) σ (σ.put (.get x) (o.assign 0 u v))
  | assignMove {x t σ u v} : σ.val (.get x) = some u → σ.val t = some v → t ≠ .get x →
      WOk (.assignMove x t) σ ((σ.put (.get x) (o.moveAssign 0 u v)).put t (o.moveAssignSrc 0 u v))
  | assignMoveSelf {x σ u} : σ.val (.get x) = some u → WOk (.assignMove x (.get x)) σ (σ.put (.get x) (o.selfMove 0 u))
  | swap {x y σ u v} : σ.val (.get x) = some u → σ.val (.get y) = some v →
      WOk (.swap x y) σ ((σ.put (.get y) u).put (.get x) v)
  | makeLocal {n v σ} : WOk (.makeLocal n v) σ (σ.put (.local n) v)
  | dropLocal {n σ} : WOk (.dropLocal n) σ { σ with loc := upd σ.loc n none }
  | store {t v σ} : WOk (.store t v) σ (σ.put t v)

/-- The failures a statement can have, and their effect. There are none of move assignment from a wrapper, swap and
destruction. -/
inductive WExc : WCmd V → ExcKind → WStore V → WStore V → Prop
  | noMemory {c σ} : (∃ x, c = .defaultConstruct x) ∨ (∃ x y, c = .copyConstruct x y) ∨ (∃ x y, c = .moveConstruct x y) ∨
      (∃ x t, c = .construct x t) ∨ (∃ x t, c = .constructMove x t) → WExc c .badAlloc σ σ
  | defaultConstruct {x σ} : WExc (.defaultConstruct x) (.defaultCtor 0) σ σ
  | copyConstruct {x y σ} : WExc (.copyConstruct x y) (.copyCtor 0) σ σ
  | moveConstruct {x y σ v} : σ.val (.get y) = some v →
      WExc (.moveConstruct x y) (.moveCtor 0) σ (σ.put (.get y) (o.moveFailSrc 0 v))
  | construct {x t σ} : WExc (.construct x t) (.copyCtor 0) σ σ
  | constructMove {x t σ v} : σ.val t = some v →
      WExc (.constructMove x t) (.moveCtor 0) σ (σ.put t (o.moveFailSrc 0 v))
  | copyAssign {x y σ u v} : σ.val (.get x) = some u → σ.val (.get y) = some v →
      WExc (.copyAssign x y) (.copyAssign 0) σ (σ.put (.get x) (o.assignFail 0 u v))
  | assign {x t σ u v} : σ.val (.get x) = some u → σ.val t = some v →
      WExc (.assign x t) (.copyAssign 0) σ (σ.put (.get x) (o.assignFail 0 u v))
  | assignMove {x t σ u v} : σ.val (.get x) = some u → σ.val t = some v → t ≠ .get x →
      WExc (.assignMove x t) (.moveAssign 0) σ
        ((σ.put (.get x) (o.moveAssignFail 0 u v)).put t (o.moveAssignFailSrc 0 u v))
  | assignMoveSelf {x σ u} : σ.val (.get x) = some u →
      WExc (.assignMove x (.get x)) (.moveAssign 0) σ (σ.put (.get x) (o.selfMoveFail 0 u))

/-- The statement is valid in the store. -/
def WCmd.validIn (σ : WStore V) : WCmd V → Prop
  | .defaultConstruct x => σ.wrap x = none
  | .copyConstruct x y | .moveConstruct x y => σ.wrap x = none ∧ σ.wrap y ≠ none
  | .construct x t | .constructMove x t => σ.wrap x = none ∧ σ.val t ≠ none
  | .destroy x => σ.wrap x ≠ none
  | .copyAssign x y | .moveAssign x y | .swap x y => σ.wrap x ≠ none ∧ σ.wrap y ≠ none
  | .assign x t | .assignMove x t => σ.wrap x ≠ none ∧ σ.val t ≠ none
  | .makeLocal n _ => σ.loc n = none
  | .dropLocal n => σ.loc n ≠ none
  | .store t _ => σ.val t ≠ none

/-- A program on the store: statements succeed or fail; invalid ones are skipped. -/
inductive WSteps : List (WCmd V) → WStore V → WStore V → Prop
  | nil {σ} : WSteps [] σ σ
  | ok {c cs σ σ' σ''} : c.validIn σ → WOk o c σ σ' → WSteps cs σ' σ'' → WSteps (c :: cs) σ σ''
  | exc {c cs k σ σ' σ''} : c.validIn σ → WExc o c k σ σ' → WSteps cs σ' σ'' → WSteps (c :: cs) σ σ''
  | skip {c cs σ σ'} : ¬ c.validIn σ → WSteps cs σ σ' → WSteps (c :: cs) σ σ'

end

end BVariant
