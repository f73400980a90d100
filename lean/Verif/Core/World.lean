/-
The world in which the run-time part of the library is modelled: element objects with identity,
variant objects, exceptions and faults, and the element operations the library calls.
-/
import Verif.Meta.Fallback

namespace BVariant

/-- Position of a bounded type in the type list (`internal_types`, variant.hpp 1131-1134). -/
notation "TyIx" => Nat

/-- Identity of an element object (stands for its address and lifetime). -/
notation "ObjId" => Nat

/-- A variable of type `variant<...>`: one of the program's, or a temporary of the library. (Temporaries: variant.hpp
1976, 1994 and 2058.) -/
inductive VarId
  | user (n : Nat)
  | tmp (n : Nat)
  deriving DecidableEq, Repr

/-- The element operation that threw. (The element types, the library's exceptions and `operator new`.) -/
inductive ExcKind
  | badAlloc
  | defaultCtor (ty : TyIx)
  | copyCtor (ty : TyIx)
  | moveCtor (ty : TyIx)
  | copyAssign (ty : TyIx)
  | moveAssign (ty : TyIx)
  | swap (ty : TyIx)
  | convert (ty : TyIx)
  /-- thrown by a visitor or another piece of user code -/
  | visitor
  /-- `bad_get` (get.hpp 42-53), `bad_polymorphic_get` (polymorphic_get.hpp 37-48),
  `bad_visit` (bad_visit.hpp 28-39) -/
  | badGet
  | badPolymorphicGet
  | badVisit
  deriving DecidableEq, Repr

/-- An exception object: what threw it and the moment (tick) at which it was thrown. (The language.) -/
structure Exc where
  kind : ExcKind
  tick : Nat
  deriving DecidableEq, Repr

/-- Ways for an execution to go wrong other than by an exception. (The language; `BOOST_ASSERT`, forced_return.hpp 38 and
initializer.hpp 105.) -/
inductive Fault
  /-- undefined behaviour: use of a dead object, of storage at the wrong type, of a null backup -/
  | ub
  /-- `BOOST_ASSERT` failure -/
  | assertFailed
  /-- an exception left a `noexcept` function -/
  | terminate
  deriving DecidableEq, Repr

/-- What the storage of a variant holds (`storage_`, variant.hpp 1210): nothing, an element object, or a
`backup_holder<T>` for bounded type `ty` with its pointer (detail/backup_holder.hpp 22-90).
Bytes are not modelled. -/
inductive Slot
  | raw
  | obj (id : ObjId)
  | holder (ty : TyIx) (p : Option ObjId)
  deriving DecidableEq, Repr

/-- A variant object: `which_` and `storage_`, variant.hpp 1209-1210. `which_` is an unbounded integer
here; Verif.Meta.Discriminator shows that `int` and `signed char` lose nothing. -/
structure VarSt where
  which_ : Int
  slot : Slot
  deriving DecidableEq, Repr

/-- The state of the program. (Device of the model.) -/
structure World (V : Type) where
  /-- the live element objects: bounded type and value -/
  objs : ObjId → Option (TyIx × V)
  /-- the next unused identity -/
  next : ObjId
  /-- the live variant objects -/
  vars : VarId → Option VarSt
  /-- number of potentially throwing operations performed so far -/
  tick : Nat
  /-- number of calls of `operator new` made by the library itself (variant.hpp 800) so far -/
  allocs : Nat
  /-- element objects that live inside the given element object and die with it. Element types are opaque here, so it is
  empty in all states that programs reach (`flat` in Verif.Spec.Invariant); recursive contents are in Verif.Core.Tree. -/
  sub : ObjId → List ObjId

/-- Function update. (Device of the model.) -/
def upd {α β : Type} [DecidableEq α] (f : α → β) (a : α) (b : β) : α → β :=
  fun x => if x = a then b else f x

@[simp] theorem upd_same {α β : Type} [DecidableEq α] (f : α → β) (a : α) (b : β) :
    upd f a b a = b := by simp [upd]

@[simp] theorem upd_ne {α β : Type} [DecidableEq α] (f : α → β) {a x : α} (b : β) (h : x ≠ a) :
    upd f a b x = f x := by simp [upd, h]

/-- The world before any object exists. (Device of the model.) -/
def World.init (V : Type) : World V :=
  { objs := fun _ => none, next := 0, vars := fun _ => none, tick := 0, allocs := 0, sub := fun _ => [] }

/-- Outcome of running a piece of code. (The language.) -/
inductive Out (V : Type) (α : Type)
  | ok (a : α) (w : World V)
  | exc (e : Exc) (w : World V)
  | fault (f : Fault)

/-- Code that runs in a world. (The language.) -/
def M (V : Type) (α : Type) := World V → Out V α

namespace M
variable {V α β : Type}

/-- A value. (The language.) -/
def pure (a : α) : M V α := fun w => .ok a w

/-- Sequencing: exceptions and faults end the code. (The language.) -/
def bind (m : M V α) (f : α → M V β) : M V β := fun w =>
  match m w with
  | .ok a w' => f a w'
  | .exc e w' => .exc e w'
  | .fault x => .fault x

instance : Monad (M V) where
  pure := M.pure
  bind := M.bind

/-- `throw e` (The language.) -/
def throwExc (e : Exc) : M V α := fun w => .exc e w

/-- undefined behaviour, failed assertion, ... (The language.) -/
def fail (f : Fault) : M V α := fun _ => .fault f

/-- `BOOST_TRY { m } BOOST_CATCH (...) { h; BOOST_RETHROW; } BOOST_CATCH_END`. (variant.hpp 732-749, 770-786, 805-822,
1748-1761 and 1868-1881.) -/
def onExc (m : M V α) (h : M V Unit) : M V α := fun w =>
  match m w with
  | .ok a w' => .ok a w'
  | .exc e w' =>
    match h w' with
    | .ok _ w'' => .exc e w''
    | .exc e' w'' => .exc e' w''
    | .fault x => .fault x
  | .fault x => .fault x

/-- Body of a scope with a local object whose destructor is `d`: `d` runs at the end of the scope,
normally or by an exception. (The language; used for the temporaries at variant.hpp 1713, 1976, 1994 and 2058.) -/
def withLocal (m : M V α) (d : M V Unit) : M V α := fun w =>
  match m w with
  | .ok a w' =>
    match d w' with
    | .ok _ w'' => .ok a w''
    | .exc e' w'' => .exc e' w''
    | .fault x => .fault x
  | .exc e w' =>
    match d w' with
    | .ok _ w'' => .exc e w''
    | .exc _ _ => .fault .terminate
    | .fault x => .fault x
  | .fault x => .fault x

/-- A function with exception specification `noexcept(b)`. (variant.hpp 484, 1266, 1646 and 2039.) -/
def noexceptIf (b : Bool) (m : M V α) : M V α := fun w =>
  match m w with
  | .ok a w' => .ok a w'
  | .exc e w' => if b then .fault .terminate else .exc e w'
  | .fault x => .fault x

/-- Read the world. (Device of the model.) -/
def get : M V (World V) := fun w => .ok w w

/-- Change the world. (Device of the model.) -/
def modify (f : World V → World V) : M V Unit := fun w => .ok () (f w)

end M

/-- What the operations of the element types do to values. All are arbitrary functions. Each takes the
bounded type's index. "Fail" functions give the value left behind in an operand when the operation
throws. A one-operand self version is used when both operands are the same object. (The element types; the library calls
these operations for instance at variant.hpp 439-451, 480-486, 512-537, 563-588, 1279 and 1728.) -/
structure Ops (V : Type) where
  /-- `T()` -/
  valueInit : TyIx → V
  /-- `new T` without parentheses; differs from `T()` for scalars -/
  defaultInit : TyIx → V
  /-- value of a copy -/
  copy : TyIx → V → V
  /-- value of an object move-constructed from a value -/
  move : TyIx → V → V
  /-- value left in the source of a move construction -/
  movedFrom : TyIx → V → V
  moveFailSrc : TyIx → V → V
  /-- left value, right value ↦ left value after `l = r` -/
  assign : TyIx → V → V → V
  assignFail : TyIx → V → V → V
  /-- left and right value after `l = std::move(r)` -/
  moveAssign : TyIx → V → V → V
  moveAssignSrc : TyIx → V → V → V
  moveAssignFail : TyIx → V → V → V
  moveAssignFailSrc : TyIx → V → V → V
  /-- value after `x = std::move(x)` -/
  selfMove : TyIx → V → V
  selfMoveFail : TyIx → V → V
  /-- left and right value after `swap(l, r)` -/
  swapL : TyIx → V → V → V
  swapR : TyIx → V → V → V
  swapFailL : TyIx → V → V → V
  swapFailR : TyIx → V → V → V
  /-- value after `swap(x, x)` -/
  selfSwap : TyIx → V → V
  selfSwapFail : TyIx → V → V

/-- Element operations that preserve values, as the standard concepts ask. Only the theorems that speak
of equal values assume this. (The bounded type requirements, doc/reference/concepts.xml.) -/
structure Ops.Lawful {V : Type} (o : Ops V) : Prop where
  copy_eq : ∀ k v, o.copy k v = v
  move_eq : ∀ k v, o.move k v = v
  assign_eq : ∀ k l r, o.assign k l r = r
  moveAssign_eq : ∀ k l r, o.moveAssign k l r = r
  swapL_eq : ∀ k l r, o.swapL k l r = r
  swapR_eq : ∀ k l r, o.swapR k l r = l
  selfSwap_eq : ∀ k v, o.selfSwap k v = v

/-- A variant type together with everything the environment decides. (The template arguments of `variant`, variant.hpp
1071-1171.) -/
structure Cfg (V : Type) where
  /-- `internal_types` -/
  types : List Traits
  /-- `BOOST_VARIANT_VISITATION_UNROLLING_LIMIT - 1`, visitation_impl.hpp 48-54 -/
  unroll : Nat
  ops : Ops V
  /-- the exception oracle: does the potentially throwing operation number `t` throw? -/
  throws : Nat → Bool
  /-- is `NDEBUG` defined (assertions off)? -/
  ndebug : Bool
  blankPred : BlankPred
  fallbackCtor : FallbackCtor

namespace Cfg
variable {V : Type} (C : Cfg V)

/-- The number of bounded types. (`mpl::size<internal_types>`, variant.hpp 1131-1134.) -/
def n : Nat := C.types.length

/-- The traits of a bounded type. (Used at variant.hpp 166-254, 1785-1790 and 1903-1908.) -/
def tr (k : TyIx) : Traits := C.types.getD k default

/-- `fallback_type_index_`, or none when there is no fallback type; variant.hpp 1142-1156. -/
def fallback : Option TyIx := findFallbackType C.blankPred C.types

/-- `has_fallback_type_` (also `never_uses_backup_flag`), variant.hpp 1151-1159. -/
def hasFallback : Bool := C.fallback.isSome

end Cfg

section Prim
variable {V : Type} (C : Cfg V)

/-- One potentially throwing operation: it throws iff it is not declared nothrow and the oracle says so.
`onThrow` are the effects it leaves behind when it throws. (The element types.) -/
def mayThrow (nothrow : Bool) (k : ExcKind) (onThrow : World V → World V) : M V Unit := fun w =>
  let w' := { w with tick := w.tick + 1 }
  if !nothrow && C.throws w.tick then .exc ⟨k, w.tick⟩ (onThrow w') else .ok () w'

/-- Use the object `id` as an lvalue of bounded type `ty`: undefined if it is not a live object of that
type. (The language: object lifetime; the references made by cast_storage.hpp 27-37.) -/
def readAs (ty : TyIx) (id : ObjId) : M V V := fun w =>
  match w.objs id with
  | some (t, v) => if t = ty then .ok v w else .fault .ub
  | none => .fault .ub

/-- Give a live object a new value. (The language.) -/
def setVal (ty : TyIx) (id : ObjId) (v : V) (w : World V) : World V :=
  { w with objs := upd w.objs id (some (ty, v)) }

/-- Begin the lifetime of a new object. (The language: the placement new at variant.hpp 439-451, 480-486, 715, 740, 1279,
1697-1752 and 1850-1872.) -/
def newObj (ty : TyIx) (v : V) : M V ObjId := fun w =>
  .ok w.next { w with objs := upd w.objs w.next (some (ty, v)), next := w.next + 1 }

/-- Destructor call on an object of bounded type `ty`; never throws. Objects nested in it die too. (variant.hpp 378;
backup_holder.hpp 33.) -/
def destroyObj (ty : TyIx) (id : ObjId) : M V Unit := do
  let _ ← readAs ty id
  M.modify fun w => { w with objs := fun i => if i = id ∨ i ∈ w.sub id then none else w.objs i }

/-- `T(const T&)` (The element types, called at variant.hpp 439-451, 1697, 1719 and 1751.) -/
def copyCtor (ty : TyIx) (src : ObjId) : M V ObjId := do
  let v ← readAs ty src
  mayThrow C (C.tr ty).nothrowCopy (.copyCtor ty) id
  newObj ty (C.ops.copy ty v)

/-- `T(T&&)` (The element types, called at variant.hpp 480-486, 1850 and 1871.) -/
def moveCtor (ty : TyIx) (src : ObjId) : M V ObjId := do
  let v ← readAs ty src
  mayThrow C (C.tr ty).nothrowMove (.moveCtor ty) (setVal ty src (C.ops.moveFailSrc ty v))
  M.modify (setVal ty src (C.ops.movedFrom ty v))
  newObj ty (C.ops.move ty v)

/-- `T()` (The element types, called at variant.hpp 1279, and by `initialize`, initializer.hpp 91-110.) -/
def valueCtor (ty : TyIx) : M V ObjId := do
  mayThrow C (C.tr ty).nothrowDefault (.defaultCtor ty) id
  newObj ty (C.ops.valueInit ty)

/-- `new T` (The element types, called at variant.hpp 1728-1729.) -/
def defaultCtor (ty : TyIx) : M V ObjId := do
  mayThrow C (C.tr ty).nothrowDefault (.defaultCtor ty) id
  newObj ty (C.ops.defaultInit ty)

/-- `new T(src)` on the heap: allocation, then copy construction. (`new LhsT`, in the strategy at variant.hpp 792-829.) -/
def heapCopy (ty : TyIx) (src : ObjId) : M V ObjId := do
  M.modify fun w => { w with allocs := w.allocs + 1 }
  mayThrow C false .badAlloc id
  copyCtor C ty src

/-- `l = r` for element objects (copy assignment). Element copy assignment may always throw: the library
never consults a trait for it. (The element types, called at variant.hpp 512-537 and 618.) -/
def assignObj (ty : TyIx) (l r : ObjId) : M V Unit := do
  let vl ← readAs ty l
  let vr ← readAs ty r
  mayThrow C false (.copyAssign ty) (setVal ty l (C.ops.assignFail ty vl vr))
  M.modify (setVal ty l (C.ops.assign ty vl vr))

/-- `l = std::move(r)` for element objects. (The element types, called at variant.hpp 563-588 and 661.) -/
def moveAssignObj (ty : TyIx) (l r : ObjId) : M V Unit := do
  let vl ← readAs ty l
  let vr ← readAs ty r
  if l = r then
    mayThrow C (C.tr ty).nothrowMoveAssign (.moveAssign ty) (setVal ty l (C.ops.selfMoveFail ty vl))
    M.modify (setVal ty l (C.ops.selfMove ty vl))
  else
    mayThrow C (C.tr ty).nothrowMoveAssign (.moveAssign ty)
      (fun w => setVal ty r (C.ops.moveAssignFailSrc ty vl vr) (setVal ty l (C.ops.moveAssignFail ty vl vr) w))
    M.modify fun w => setVal ty r (C.ops.moveAssignSrc ty vl vr) (setVal ty l (C.ops.moveAssign ty vl vr) w)

/-- `move_swap(l, r)`, detail/move.hpp 38-43: the element's own `swap`. -/
def swapObj (ty : TyIx) (l r : ObjId) : M V Unit := do
  let vl ← readAs ty l
  let vr ← readAs ty r
  if l = r then
    mayThrow C false (.swap ty) (setVal ty l (C.ops.selfSwapFail ty vl))
    M.modify (setVal ty l (C.ops.selfSwap ty vl))
  else
    mayThrow C false (.swap ty)
      (fun w => setVal ty r (C.ops.swapFailR ty vl vr) (setVal ty l (C.ops.swapFailL ty vl vr) w))
    M.modify fun w => setVal ty r (C.ops.swapR ty vl vr) (setVal ty l (C.ops.swapL ty vl vr) w)

end Prim

end BVariant
