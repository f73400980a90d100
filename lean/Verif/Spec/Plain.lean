/-
Specification for C64: programs with control flow over a plain store. The statements are those of Core/MixedConvert.lean, their
meaning that of Spec/Store.lean; nothing of the library's mechanism appears here, and nothing of the machine of
Core/Structured.lean: what a program does is said by induction on the program.
-/
import Verif.Spec.Store
import Verif.Core.MixedConvert

namespace BVariant

section
variable {V : Type} (D : Decls V) (ρ : Nat → Nat)

/-- The statement compiles and is valid in the given store. -/
def MixCmd.validIn (σ : Store V) : MixCmd V → Prop
  | .on vt c => (∀ x ∈ c.names, ρ x = vt) ∧ c.validIn (D.K vt) σ
  | .constructFrom rv const x y => σ x = none ∧ σ y ≠ none ∧ ρ y ≠ ρ x ∧ (rv && const) = false ∧
      (D.between ρ rv const x y).isForeign = true ∧ (D.between ρ rv const x y).wellFormed = true
  | .assignFrom rv const x y => σ x ≠ none ∧ σ y ≠ none ∧ ρ y ≠ ρ x ∧ (rv && const) = false ∧
      (D.between ρ rv const x y).isForeign = true ∧ (D.between ρ rv const x y).wellFormed = true

/-- The value `q` of the operand of a conversion afterwards, when it was `v`: the same if the operand was an lvalue. -/
def LeftOf (F : Foreign) (v q : V) : Prop := F.rv = false → q = v

/-- The value that content `v` has as the bounded type that it is converted to. -/
def ValueAs (F : Foreign) (cv : ConvVal V) (j : TyIx) (v : V) (o : Overload) : V := if F.bound j o then v else cv.value j o.index v

/-- `σ'` is a store after the successful statement in store `σ`. A conversion selects the bounded type by overload resolution, on
the content of the source. -/
def MixCmd.doneBy (σ σ' : Store V) : MixCmd V → Prop
  | .on vt c => c.doneBy (D.K vt) σ σ'
  | .constructFrom rv const x y | .assignFrom rv const x y => ∃ j v o q, σ y = some (j, v) ∧
      (D.between ρ rv const x y).overload j = some o ∧ LeftOf (D.between ρ rv const x y) v q ∧
      σ' = upd (upd σ y (some (j, q))) x (some (o.index, ValueAs (D.between ρ rv const x y) (D.cv (ρ y) (ρ x)) j v o))

/-- `σ'` is a store after the statement has thrown in store `σ`. -/
def MixCmd.failedBy (σ σ' : Store V) : MixCmd V → Prop
  | .on vt c => c.failedBy (D.K vt) σ σ'
  | .constructFrom rv const x y => ∃ j v o q, σ y = some (j, v) ∧ (D.between ρ rv const x y).overload j = some o ∧
      LeftOf (D.between ρ rv const x y) v q ∧ σ' = upd σ y (some (j, q))
  | .assignFrom rv const x y => ∃ old j v o q r, σ x = some old ∧ σ y = some (j, v) ∧
      (D.between ρ rv const x y).overload j = some o ∧ LeftOf (D.between ρ rv const x y) v q ∧
      Documented (D.K (ρ x)) old o.index r ∧ σ' = upd (upd σ y (some (j, q))) x (some r)

/-- A program over a plain store. Conditions look at the store, and may throw (`none`). -/
inductive Plain (V : Type)
  | cmd (c : MixCmd V)
  | skip
  /-- `throw` -/
  | raise
  | seq (s t : Plain V)
  /-- `if (b) s else t` -/
  | cond (b : Store V → Option Bool) (s t : Plain V)
  /-- `while (b) s` -/
  | loop (b : Store V → Option Bool) (s : Plain V)
  /-- `try { s } catch (...) { h }` -/
  | guarded (s h : Plain V)
  /-- `{ s }` where `s` declares the variant `x` -/
  | scope (x : Nat) (s : Plain V)

/-- The variant type whose operations a statement calls. -/
def MixCmd.target : MixCmd V → Nat
  | .on vt _ => vt
  | .constructFrom _ _ x _ | .assignFrom _ _ x _ => ρ x

/-- `P.Runs D ρ fails σ u σ'`: the program, begun in store `σ`, can end in store `σ'`; by an exception if `u`. A statement may
throw if `fails` holds of its variant type. -/
inductive Plain.Runs (fails : Nat → Prop) : Plain V → Store V → Bool → Store V → Prop
  | skipped {c σ} : ¬ MixCmd.validIn D ρ σ c → Runs fails (.cmd c) σ false σ
  | done {c σ σ'} : MixCmd.validIn D ρ σ c → MixCmd.doneBy D ρ σ σ' c → Runs fails (.cmd c) σ false σ'
  | failed {c σ σ'} : fails (MixCmd.target ρ c) → MixCmd.validIn D ρ σ c → MixCmd.failedBy D ρ σ σ' c → Runs fails (.cmd c) σ true σ'
  | skip {σ} : Runs fails .skip σ false σ
  | raise {σ} : Runs fails .raise σ true σ
  | seq {s t σ σ₁ u σ'} : Runs fails s σ false σ₁ → Runs fails t σ₁ u σ' → Runs fails (.seq s t) σ u σ'
  | seqThrows {s t σ σ'} : Runs fails s σ true σ' → Runs fails (.seq s t) σ true σ'
  | condTrue {b s t σ u σ'} : b σ = some true → Runs fails s σ u σ' → Runs fails (.cond b s t) σ u σ'
  | condFalse {b s t σ u σ'} : b σ = some false → Runs fails t σ u σ' → Runs fails (.cond b s t) σ u σ'
  | condThrows {b s t σ} : b σ = none → Runs fails (.cond b s t) σ true σ
  | loopEnds {b s σ} : b σ = some false → Runs fails (.loop b s) σ false σ
  | loopThrows {b s σ} : b σ = none → Runs fails (.loop b s) σ true σ
  | loopGoesOn {b s σ σ₁ u σ'} : b σ = some true → Runs fails s σ false σ₁ → Runs fails (.loop b s) σ₁ u σ' →
      Runs fails (.loop b s) σ u σ'
  | loopLeft {b s σ σ'} : b σ = some true → Runs fails s σ true σ' → Runs fails (.loop b s) σ true σ'
  | guarded {s h σ σ'} : Runs fails s σ false σ' → Runs fails (.guarded s h) σ false σ'
  | handled {s h σ σ₁ u σ'} : Runs fails s σ true σ₁ → Runs fails h σ₁ u σ' → Runs fails (.guarded s h) σ u σ'
  | scope {x s σ u σ'} : Runs fails s σ u σ' → Runs fails (.scope x s) σ u (upd σ' x none)

/-- What is to be done after the current statement of a plain program. -/
inductive PFrame (V : Type)
  | next (s : Plain V)
  | handler (h : Plain V)
  | ends (x : Nat)

/-- What a plain program is about to do: execute a statement, go on after one, or look for a handler. -/
inductive PCtl (V : Type)
  | run (s : Plain V)
  | ret
  | unwind

/-- A plain program on its way. -/
structure PConf (V : Type) where
  ctl : PCtl V
  stack : List (PFrame V)
  store : Store V

/-- One step of a plain program. -/
inductive PConf.Step (fails : Nat → Prop) : PConf V → PConf V → Prop
  | skipped {c k σ} : ¬ MixCmd.validIn D ρ σ c → Step fails ⟨.run (.cmd c), k, σ⟩ ⟨.ret, k, σ⟩
  | done {c k σ σ'} : MixCmd.validIn D ρ σ c → MixCmd.doneBy D ρ σ σ' c → Step fails ⟨.run (.cmd c), k, σ⟩ ⟨.ret, k, σ'⟩
  | failed {c k σ σ'} : fails (MixCmd.target ρ c) → MixCmd.validIn D ρ σ c → MixCmd.failedBy D ρ σ σ' c →
      Step fails ⟨.run (.cmd c), k, σ⟩ ⟨.unwind, k, σ'⟩
  | skip {k σ} : Step fails ⟨.run .skip, k, σ⟩ ⟨.ret, k, σ⟩
  | raise {k σ} : Step fails ⟨.run .raise, k, σ⟩ ⟨.unwind, k, σ⟩
  | seq {s t k σ} : Step fails ⟨.run (.seq s t), k, σ⟩ ⟨.run s, .next t :: k, σ⟩
  | condTrue {b s t k σ} : b σ = some true → Step fails ⟨.run (.cond b s t), k, σ⟩ ⟨.run s, k, σ⟩
  | condFalse {b s t k σ} : b σ = some false → Step fails ⟨.run (.cond b s t), k, σ⟩ ⟨.run t, k, σ⟩
  | condThrows {b s t k σ} : b σ = none → Step fails ⟨.run (.cond b s t), k, σ⟩ ⟨.unwind, k, σ⟩
  | loopTrue {b s k σ} : b σ = some true → Step fails ⟨.run (.loop b s), k, σ⟩ ⟨.run s, .next (.loop b s) :: k, σ⟩
  | loopFalse {b s k σ} : b σ = some false → Step fails ⟨.run (.loop b s), k, σ⟩ ⟨.ret, k, σ⟩
  | loopThrows {b s k σ} : b σ = none → Step fails ⟨.run (.loop b s), k, σ⟩ ⟨.unwind, k, σ⟩
  | guarded {s h k σ} : Step fails ⟨.run (.guarded s h), k, σ⟩ ⟨.run s, .handler h :: k, σ⟩
  | scope {x s k σ} : Step fails ⟨.run (.scope x s), k, σ⟩ ⟨.run s, .ends x :: k, σ⟩
  | next {s k σ} : Step fails ⟨.ret, .next s :: k, σ⟩ ⟨.run s, k, σ⟩
  | notHandled {h k σ} : Step fails ⟨.ret, .handler h :: k, σ⟩ ⟨.ret, k, σ⟩
  | ends {x k σ} : Step fails ⟨.ret, .ends x :: k, σ⟩ ⟨.ret, k, upd σ x none⟩
  | skipNext {s k σ} : Step fails ⟨.unwind, .next s :: k, σ⟩ ⟨.unwind, k, σ⟩
  | handled {h k σ} : Step fails ⟨.unwind, .handler h :: k, σ⟩ ⟨.run h, k, σ⟩
  | endsUnwind {x k σ} : Step fails ⟨.unwind, .ends x :: k, σ⟩ ⟨.unwind, k, upd σ x none⟩

/-- A number of steps. -/
inductive PConf.Steps (fails : Nat → Prop) : Nat → PConf V → PConf V → Prop
  | none {p} : Steps fails 0 p p
  | more {n p q r} : Steps fails n p q → PConf.Step D ρ fails q r → Steps fails (n + 1) p r

/-- The statement leaves no moved-from value, whose value is the element's business. -/
def MixCmd.movesNothing : MixCmd V → Prop
  | .on _ (.moveConstruct _ _) | .on _ (.moveAssign _ _) | .on _ (.constructGet true _ _) | .on _ (.assignGet true _ _) => False
  | .on _ _ => True
  | .constructFrom rv _ _ _ | .assignFrom rv _ _ _ => rv = false

@[inherit_doc MixCmd.movesNothing]
def Plain.movesNothing : Plain V → Prop
  | .cmd c => c.movesNothing
  | .skip | .raise => True
  | .seq s t | .cond _ s t | .guarded s t => s.movesNothing ∧ t.movesNothing
  | .loop _ s | .scope _ s => s.movesNothing

/-- The two programs declare the same variant types, with the same conversions of values and the same value of the first bounded type by default. They
may differ in everything else: in what the operations of the elements promise, and so in fallback types and backups, in the size of the unrolled part of
the dispatch, and in assertions. -/
structure Decls.SameTypes (D D' : Decls V) : Prop where
  L : D.L = D'.L
  cls : D.cls = D'.cls
  cv : D.cv = D'.cv
  init : ∀ vt, (D.K vt).ops.valueInit 0 = (D'.K vt).ops.valueInit 0

end

end BVariant
