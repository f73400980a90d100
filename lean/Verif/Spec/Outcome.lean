/-
Specification vocabulary for theorems about single operations.
-/
import Verif.Spec.Program

namespace BVariant

section
variable {V α : Type}

/-- The code ends normally in a way described by `Q`, or throws in a way described by `E`; it does not end in
undefined behaviour, a failed assertion or `std::terminate`. -/
def Ends (m : M V α) (w : World V) (Q : α → World V → Prop) (E : Exc → World V → Prop) : Prop :=
  (∃ a w', m w = .ok a w' ∧ Q a w') ∨ (∃ e w', m w = .exc e w' ∧ E e w')

/-- The code returns normally (decidable, for examples). -/
def endsOk (m : M V α) (w : World V) : Bool :=
  match m w with
  | .ok _ _ => true
  | _ => false

/-- The code throws (decidable, for examples). -/
def endsExc (m : M V α) (w : World V) : Bool :=
  match m w with
  | .exc _ _ => true
  | _ => false

/-- Identity of the object that variant `x` owns. -/
def World.objOf (w : World V) (x : Nat) : Option ObjId := (w.vars (.user x)).bind VarSt.contentId

/-- Type and value of the content of variable `x`. -/
def World.holds (w : World V) (x : Nat) (k : TyIx) (v : V) : Prop := w.content (.user x) = some (k, v)

/-- The result of `which()` on variable `x` is `k`. -/
def WhichIs (w : World V) (x : Nat) (k : TyIx) : Prop := which (.user x) w = .ok (k : Int) w

/-- All variables but those listed are exactly as they were: storage state, object and value. -/
def Rest (w w' : World V) (xs : List Nat) : Prop := ∀ z, z ∉ xs → Unchanged w w' (.user z)

/-- After the step from `w` to `w'`, variable `x` holds, within its own storage, an object of type `k` and value
`v` that did not exist before. -/
def BuiltInPlace (w w' : World V) (x : Nat) (k : TyIx) (v : V) : Prop :=
  ∃ id, w.objs id = none ∧ w'.inPlace (.user x) k id ∧ w'.objs id = some (k, v)

/-- The same objects are alive in `w'` as in `w` (their values may differ). -/
def SameObjects (w w' : World V) : Prop := ∀ i, w'.objs i = none ↔ w.objs i = none

/-- No object or variant begins or ends its life, and no storage state changes, between `w` and `w'`. -/
def NothingBuilt (w w' : World V) : Prop :=
  w'.vars = w.vars ∧ SameObjects w w' ∧ w'.next = w.next ∧ w'.allocs = w.allocs

/-- The variable is alive. -/
def World.alive (w : World V) (x : Nat) : Prop := (w.vars (.user x)).isSome = true

/-- `v'` is a copy of the value `vy` of type `ky`, or results from assigning it to the value `vx` of the same type. -/
def CopyResult (C : Cfg V) (kx : TyIx) (vx : V) (ky : TyIx) (vy v' : V) : Prop :=
  (kx = ky ∧ v' = C.ops.assign ky vx vy) ∨ v' = C.ops.copy ky vy ∨ v' = C.ops.move ky (C.ops.copy ky vy)

/-- `v'` was move-constructed or copied from the value `vy` of type `ky`, or results from move-assigning it to the
value `vx` of the same type. -/
def MoveResult (C : Cfg V) (kx : TyIx) (vx : V) (ky : TyIx) (vy v' : V) : Prop :=
  (kx = ky ∧ v' = C.ops.moveAssign ky vx vy) ∨ v' = C.ops.move ky vy ∨ v' = C.ops.copy ky vy

/-- `v'` is the value `v` of type `k`, possibly after it has been moved away and back, or copied. -/
def Restored (C : Cfg V) (k : TyIx) (v v' : V) : Prop :=
  v' = v ∨ v' = C.ops.move k (C.ops.move k v) ∨ v' = C.ops.copy k v

/-- Outside finding F2: if content of some bounded type may be put into a heap backup, every bounded type that is
nothrow copy constructible is nothrow move constructible. -/
def NoCopyOnly (C : Cfg V) : Prop :=
  ∀ k kr, k < C.n → kr < C.n → C.mayBackup kr → (C.tr k).nothrowCopy = true → (C.tr k).nothrowMove = true

end

end BVariant
