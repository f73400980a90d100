/-
Specification for C76: exactly what programs with variables of several variant types, and conversions between them, do. As for C72, a variable is a
type, a value and a mark; the number of a bounded type is that in the variant type of the variable.
-/
import Verif.Core.MixedConvert
import Verif.Spec.Exact

namespace BVariant

section
variable {V : Type}

/-- What became of the lent content of `y`, which was `b`. -/
def xReturn (y : VarId) (b : Tag V) : Eff (XSt V) Unit := do
  let c ← xGet y
  xPut y (some { b with val := c.val })

/-- The content `b` of `y` is seen as an object of the bounded type `k` of another variant type while `m` runs: they are the same C++ type. -/
def xLend (y : VarId) (b : Tag V) (k : TyIx) (m : Eff (XSt V) Unit) : Eff (XSt V) Unit := do
  xPut y (some ⟨k, b.val, false⟩)
  Eff.onExc m (xReturn y b)
  xReturn y b

/-- The content `b` of `y` is converted, as an rvalue, while `m` runs. -/
def xUseUp (y : VarId) (b : Tag V) (left : Option Exc → V) (m : Eff (XSt V) Unit) : Eff (XSt V) Unit := fun σ =>
  match m σ with
  | .ok _ σ' => .ok () { σ' with vars := upd σ'.vars y (some { b with val := left none }) }
  | .exc e σ' => .exc e { σ' with vars := upd σ'.vars y (some { b with val := left (some e) }) }
  | .fault f => .fault f

/-- A conversion from the variable `y` of another variant type. `lent`: its content is taken as it is, as an rvalue or an lvalue; `conv`: it is converted. -/
def xFrom (F : Foreign) (cv : ConvVal V) (y : VarId) (lent : Bool → Eff (XSt V) Unit) (conv : TyIx → V → Eff (XSt V) Unit) : Eff (XSt V) Unit := do
  let b ← xGet y
  match F.overload b.ty with
  | none => Eff.fail .ub
  | some o =>
    if F.bound b.ty o then xLend y b o.index (lent o.param.rv)
    else if F.rv then xUseUp y b (fun e => cv.left e b.ty o.index b.val) (conv o.index (cv.value b.ty o.index b.val))
    else conv o.index (cv.value b.ty o.index b.val)

/-- A variable `t` from the lent content of `y`. -/
def xTake (C : Cfg V) (t y : VarId) (rv : Bool) : Eff (XSt V) Unit := if rv then xMoveConstruct C t y else xCopyConstruct C t y

variable (D : Decls V) (ρ : Nat → Nat)

/-- What a statement does. -/
def MixCmd.exact : MixCmd V → Eff (XSt V) Unit
  | .on vt c => c.exact (D.K vt)
  | .constructFrom rv const x y =>
    xFrom (D.between ρ rv const x y) (D.cv (ρ y) (ρ x)) (.user y) (xTake (D.K (ρ x)) (.user x) (.user y)) (xConvert (D.K (ρ x)) (.user x) .other)
  | .assignFrom rv const x y =>
    xFrom (D.between ρ rv const x y) (D.cv (ρ y) (ρ x)) (.user y)
      (fun rv => do
        xTake (D.K (ρ x)) (.tmp 0) (.user y) rv
        xWithLocal (.tmp 0) (xMoveAssign (D.K (ρ x)) (.user x) (.tmp 0)))
      (xAssignValue (D.K (ρ x)) (.user x) .other false)

/-- The statement compiles and is valid. -/
def MixCmd.exactValid (σ : XSt V) : MixCmd V → Bool
  | .on vt c => c.names.all (fun x => ρ x == vt) && c.exactValid (D.K vt) σ
  | .constructFrom rv const x y =>
    (σ.vars (.user x)).isNone && (σ.vars (.user y)).isSome && decide (ρ y ≠ ρ x) && !(rv && const) &&
      (D.between ρ rv const x y).isForeign && (D.between ρ rv const x y).wellFormed
  | .assignFrom rv const x y =>
    (σ.vars (.user x)).isSome && (σ.vars (.user y)).isSome && decide (ρ y ≠ ρ x) && !(rv && const) &&
      (D.between ρ rv const x y).isForeign && (D.between ρ rv const x y).wellFormed

/-- The statement is one that finding F1 concerns. Conversions are not. -/
def MixCmd.exactHazard (σ : XSt V) : MixCmd V → Bool
  | .on _ c => c.exactHazard σ
  | .constructFrom .. | .assignFrom .. => false

/-- What a program does: the state at the end, and what each of its statements threw. `none`: the program meets a statement that finding F1 concerns. -/
def exactRunConv : List (MixCmd V) → XSt V → Option (XSt V × List (Option Exc))
  | [], σ => some (σ, [])
  | c :: cs, σ =>
    if c.exactValid D ρ σ then
      if c.exactHazard σ then none
      else match c.exact D ρ σ with
        | .ok _ σ' => (exactRunConv cs σ').map fun p => (p.1, none :: p.2)
        | .exc e σ' => (exactRunConv cs σ').map fun p => (p.1, some e :: p.2)
        | .fault _ => none
    else (exactRunConv cs σ).map fun p => (p.1, none :: p.2)

/-- What each statement of a run of the model throws. -/
def thrownConv : List (MixCmd V) → World V → List (Option Exc)
  | [], _ => []
  | c :: cs, w =>
    if c.valid D ρ w then
      match c.code D ρ w with
      | .ok _ w' => none :: thrownConv cs w'
      | .exc e w' => some e :: thrownConv cs w'
      | .fault _ => []
    else none :: thrownConv cs w

end

end BVariant
