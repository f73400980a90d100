/-
Programs with variables of several variant types and conversions between them: construction of, and assignment to, a variant from
a variable of another variant type, in one world (Core/Convert.lean models the same code in two).
-/
import Verif.Core.Mixed
import Verif.Core.Convert

namespace BVariant

/-- The variant types of a program: what each does with its contents, its class, and the conversions of values from the bounded
types of one to those of another. (The user's program: instances of variant.hpp 1071-1134.) -/
structure Decls (V : Type) where
  K : Nat → Cfg V
  L : Lang
  cls : Nat → VClass
  cv : Nat → Nat → ConvVal V

section
variable {V : Type}

/-- The conversion of an lvalue or rvalue of type `vs` to type `vt`. (The operand of variant.hpp 1589-1631 and 2001-2028.) -/
def Decls.foreign (D : Decls V) (vs vt : Nat) (rv const : Bool) : Foreign := ⟨D.L, D.cls vs, (D.cls vt).elems, rv, const⟩

/-- The object is seen as one of bounded type `k`: the same C++ type has different numbers in different variant types. (Device
of the model, for variant.hpp 1304-1357 and 1379-1424.) -/
def World.seenAs (k : TyIx) (id : ObjId) (w : World V) : World V :=
  { w with objs := upd w.objs id ((w.objs id).map fun p => (k, p.2)) }

/-- The same, for the time of a call. (The call of `initialize`, variant.hpp 1304-1357 and 1379-1424, with a parameter that is
bound to the content.) -/
def asBounded (j k : TyIx) (id : ObjId) (use : M V Unit) : M V Unit := fun w =>
  match use (w.seenAs k id) with
  | .ok a w' => .ok a (w'.seenAs j id)
  | .exc e w' => .exc e (w'.seenAs j id)
  | .fault x => .fault x

/-- Content is converted: what is left of it if it was an rvalue. (The call of `initialize`, variant.hpp 1304-1357 and 1379-1424,
with a parameter that is bound to a temporary.) -/
def convertingFrom (cv : ConvVal V) (rv : Bool) (j k : TyIx) (id : ObjId) (v : V) (use : M V Unit) : M V Unit := fun w =>
  match use w with
  | .ok a w' => .ok a (if rv then setVal j id (cv.left none j k v) w' else w')
  | .exc e w' => .exc e (if rv then setVal j id (cv.left (some e) j k v) w' else w')
  | .fault x => .fault x

/-- `convert_construct(Variant&, long, true_)` and `convert_construct(Variant&&, long, true_)`, variant.hpp 1471-1495, on the
source `y`: visit, and give the content to `use` (construction, or assignment by way of it). No overload: does not compile. -/
def fromVariable (C' : Cfg V) (F : Foreign) (cv : ConvVal V) (y : VarId) (use : Src V → M V Unit) : M V Unit := do
  let (j, id) ← internalApplyVisitor C' y convertInto
  let v ← readAs j id
  match F.overload j with
  | some o =>
    if F.bound j o then
      asBounded j o.index id (use (if o.param.rv then .rref o.index id true else .lref o.index id true))
    else convertingFrom cv F.rv j o.index id v (use (.conv o.index (cv.value j o.index v)))
  | none => M.fail .ub

/-- One statement. (Calls of the functions at variant.hpp 1259-1284, 1589-1654 and 2001-2062.) -/
inductive MixCmd (V : Type)
  /-- a statement on variables of type `vt` -/
  | on (vt : Nat) (c : Cmd V)
  /-- `variant x(y);` with `y` a variable of another variant type, if `rv` then `std::move(y)`; `const`: `y` is seen as const -/
  | constructFrom (rv const : Bool) (x y : Nat)
  /-- `x = y;`, likewise -/
  | assignFrom (rv const : Bool) (x y : Nat)

/-- The conversion that a statement asks for. (The operand of variant.hpp 1589-1631 and 2001-2028.) -/
def Decls.between (D : Decls V) (ρ : Nat → Nat) (rv const : Bool) (x y : Nat) : Foreign := D.foreign (ρ y) (ρ x) rv const

/-- The library call a statement stands for. (variant.hpp 1497-1585 and 1589-1631; 1963-2028.) -/
def MixCmd.code (D : Decls V) (ρ : Nat → Nat) : MixCmd V → M V Unit
  | .on vt c => c.code (D.K vt)
  | .constructFrom rv const x y =>
    fromVariable (D.K (ρ y)) (D.between ρ rv const x y) (D.cv (ρ y) (ρ x)) (.user y) (convertConstruct (D.K (ρ x)) (.user x))
  | .assignFrom rv const x y =>
    fromVariable (D.K (ρ y)) (D.between ρ rv const x y) (D.cv (ρ y) (ρ x)) (.user y) (assignValue (D.K (ρ x)) (.user x))

/-- The variables a statement names. (Device of the model.) -/
def MixCmd.names : MixCmd V → List Nat
  | .on _ c => c.names
  | .constructFrom _ _ x y | .assignFrom _ _ x y => [x, y]

/-- The statement compiles and is valid C++ in the given state. A conversion is between different variant types, with the operand's type not
one of the bounded types (then the operand is an element like any other); a const rvalue is taken for a const lvalue
(Core/Convert.lean). (The language; variant.hpp 286-315 and 1497-1549.) -/
def MixCmd.valid (D : Decls V) (ρ : Nat → Nat) (w : World V) : MixCmd V → Bool
  | .on vt c => c.names.all (fun x => ρ x == vt) && c.valid (D.K vt) w
  | .constructFrom rv const x y =>
    (w.vars (.user x)).isNone && (w.vars (.user y)).isSome && decide (ρ y ≠ ρ x) && !(rv && const) &&
      (D.between ρ rv const x y).isForeign && (D.between ρ rv const x y).wellFormed
  | .assignFrom rv const x y =>
    (w.vars (.user x)).isSome && (w.vars (.user y)).isSome && decide (ρ y ≠ ρ x) && !(rv && const) &&
      (D.between ρ rv const x y).isForeign && (D.between ρ rv const x y).wellFormed

/-- Run a program with variables of the declared variant types `ρ`. Exceptions are caught after each statement and the program goes
on; statements that do not compile or are not valid are skipped. (The user's program; the library has no such code.) -/
def runConv (D : Decls V) (ρ : Nat → Nat) : List (MixCmd V) → World V → Option (World V)
  | [], w => some w
  | c :: cs, w =>
    if c.valid D ρ w then
      match c.code D ρ w with
      | .ok _ w' => runConv D ρ cs w'
      | .exc _ w' => runConv D ρ cs w'
      | .fault _ => none
    else runConv D ρ cs w

end

end BVariant
