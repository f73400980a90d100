/-
Model of `recursive_wrapper<T>`, /repo/include/boost/variant/recursive_wrapper.hpp 28-154, with a heap.
Simplification: one type `T`. (Wrappers of different types share nothing but the heap.)
-/
import Verif.Core.Eff

namespace BVariant

/-- A block of memory: allocated without an object in it, or holding a live `T`. (What `p_`, recursive_wrapper.hpp 37,
points to.) -/
inductive Block (V : Type)
  | raw
  | live (v : V)
  deriving DecidableEq, Repr

/-- The state of a program on wrappers. (Device of the model.) -/
structure WrapSt (V : Type) where
  /-- the allocated blocks -/
  heap : ObjId → Option (Block V)
  /-- the next unused address -/
  next : ObjId
  /-- `p_` of the live wrappers, recursive_wrapper.hpp 37 -/
  wraps : Nat → Option ObjId
  /-- the program's own objects of type `T` -/
  locals : Nat → Option V
  /-- number of potentially throwing operations performed so far -/
  tick : Nat
  /-- number of allocations made so far -/
  allocs : Nat

/-- An lvalue of type `T`. (The operands at recursive_wrapper.hpp 64, 85, 121 and 134, and the result of `get()`, 94-95.) -/
inductive Loc
  | heap (p : ObjId)
  | loc (n : Nat)
  deriving DecidableEq, Repr

/-- What the environment decides: what `T`'s operations do (at type index 0), which of them are nothrow, and which
operations throw. -/
structure WrapCfg (V : Type) where
  ops : Ops V
  tr : Traits
  throws : Nat → Bool

section
variable {V : Type} (C : WrapCfg V)

/-- Use an lvalue: undefined unless there is a live object. (The language: object lifetime.) -/
def Loc.read : Loc → Eff (WrapSt V) V
  | .heap p => fun s =>
    match s.heap p with
    | some (.live v) => .ok v s
    | _ => .fault .ub
  | .loc n => fun s =>
    match s.locals n with
    | some v => .ok v s
    | none => .fault .ub

/-- Change the value of a live object. (The language.) -/
def Loc.set (l : Loc) (v : V) (s : WrapSt V) : WrapSt V :=
  match l with
  | .heap p => { s with heap := upd s.heap p (some (.live v)) }
  | .loc n => { s with locals := upd s.locals n (some v) }

/-- One potentially throwing operation. (The type `T`.) -/
def wMayThrow (nothrow : Bool) (k : ExcKind) (onThrow : WrapSt V → WrapSt V) : Eff (WrapSt V) Unit := fun s =>
  let s' := { s with tick := s.tick + 1 }
  if !nothrow && C.throws s.tick then .exc ⟨k, s.tick⟩ (onThrow s') else .ok () s'

/-- `operator new(sizeof(T))` (The language; called at recursive_wrapper.hpp 110-135.) -/
def wAlloc : Eff (WrapSt V) ObjId := do
  Eff.modify fun s => { s with allocs := s.allocs + 1 }
  wMayThrow C false .badAlloc id
  fun s => .ok s.next { s with heap := upd s.heap s.next (some .raw), next := s.next + 1 }

/-- `operator delete(p)`: undefined if there is no such block, or an object is still alive in it. (The language; called at
recursive_wrapper.hpp 105.) -/
def wFree (p : ObjId) : Eff (WrapSt V) Unit := fun s =>
  match s.heap p with
  | some .raw => .ok () { s with heap := upd s.heap p none }
  | _ => .fault .ub

/-- Construct an object in a block: `ctor` gives its value. (The language: the construction at recursive_wrapper.hpp
110-135.) -/
def wConstruct (p : ObjId) (ctor : Eff (WrapSt V) V) : Eff (WrapSt V) Unit := do
  let v ← ctor
  fun s =>
    match s.heap p with
    | some .raw => .ok () { s with heap := upd s.heap p (some (.live v)) }
    | _ => .fault .ub

/-- `new T(...)`: allocation, then construction; if that throws the block is freed. (recursive_wrapper.hpp 110-135.) -/
def wNew (ctor : Eff (WrapSt V) V) : Eff (WrapSt V) ObjId := do
  let p ← wAlloc C
  Eff.onExc (wConstruct p ctor) (wFree p)
  pure p

/-- `T()`, by default initialisation (The type `T`, called at recursive_wrapper.hpp 110.) -/
def wDefaultT : Eff (WrapSt V) V := do
  wMayThrow C C.tr.nothrowDefault (.defaultCtor 0) id
  pure (C.ops.defaultInit 0)

/-- `T(const T&)` (The type `T`, called at recursive_wrapper.hpp 116 and 122.) -/
def wCopyT (l : Loc) : Eff (WrapSt V) V := do
  let v ← l.read
  wMayThrow C C.tr.nothrowCopy (.copyCtor 0) id
  pure (C.ops.copy 0 v)

/-- `T(T&&)` (The type `T`, called at recursive_wrapper.hpp 129 and 135.) -/
def wMoveT (l : Loc) : Eff (WrapSt V) V := do
  let v ← l.read
  wMayThrow C C.tr.nothrowMove (.moveCtor 0) (l.set (C.ops.moveFailSrc 0 v))
  Eff.modify (l.set (C.ops.movedFrom 0 v))
  pure (C.ops.move 0 v)

/-- `boost::checked_delete(p)`: destruction, then deallocation. (recursive_wrapper.hpp 105.) -/
def wDelete (p : ObjId) : Eff (WrapSt V) Unit := do
  let _ ← (Loc.heap p).read
  Eff.modify fun s => { s with heap := upd s.heap p (some .raw) }
  wFree p

/-- `get_pointer()`, recursive_wrapper.hpp 97-98. -/
def wPtr (x : Nat) : Eff (WrapSt V) ObjId := fun s =>
  match s.wraps x with
  | some p => .ok p s
  | none => .fault .ub

/-- Begin the life of wrapper `x` with `p_(p)`. (recursive_wrapper.hpp 108-137.) -/
def wBegin (x : Nat) (p : ObjId) : Eff (WrapSt V) Unit := Eff.modify fun s => { s with wraps := upd s.wraps x (some p) }

/-- `~recursive_wrapper()`, recursive_wrapper.hpp 102-106. -/
def wDestroy (x : Nat) : Eff (WrapSt V) Unit := do
  let p ← wPtr x
  wDelete p
  Eff.modify fun s => { s with wraps := upd s.wraps x none }

/-- `recursive_wrapper()`, recursive_wrapper.hpp 108-112. -/
def wDefaultConstruct (x : Nat) : Eff (WrapSt V) Unit := do
  let p ← wNew C (wDefaultT C)
  wBegin x p

/-- `recursive_wrapper(const recursive_wrapper&)`, recursive_wrapper.hpp 114-118. -/
def wCopyConstruct (x y : Nat) : Eff (WrapSt V) Unit := do
  let q ← wPtr y
  let p ← wNew C (wCopyT C (.heap q))
  wBegin x p

/-- `recursive_wrapper(const T&)`, recursive_wrapper.hpp 120-124. -/
def wConstructVal (x : Nat) (l : Loc) : Eff (WrapSt V) Unit := do
  let p ← wNew C (wCopyT C l)
  wBegin x p

/-- `recursive_wrapper(recursive_wrapper&&)`, recursive_wrapper.hpp 127-131. -/
def wMoveConstruct (x y : Nat) : Eff (WrapSt V) Unit := do
  let q ← wPtr y
  let p ← wNew C (wMoveT C (.heap q))
  wBegin x p

/-- `recursive_wrapper(T&&)`, recursive_wrapper.hpp 133-137. -/
def wMoveConstructVal (x : Nat) (l : Loc) : Eff (WrapSt V) Unit := do
  let p ← wNew C (wMoveT C l)
  wBegin x p

/-- `l = r` for lvalues of type `T`. (The type `T`, called at recursive_wrapper.hpp 140-144.) -/
def wAssignT (l r : Loc) : Eff (WrapSt V) Unit := do
  let vl ← l.read
  let vr ← r.read
  wMayThrow C false (.copyAssign 0) (l.set (C.ops.assignFail 0 vl vr))
  Eff.modify (l.set (C.ops.assign 0 vl vr))

/-- `l = std::move(r)` for lvalues of type `T`. (The type `T`, called at recursive_wrapper.hpp 87.) -/
def wMoveAssignT (l r : Loc) : Eff (WrapSt V) Unit := do
  let vl ← l.read
  let vr ← r.read
  if l = r then
    wMayThrow C C.tr.nothrowMoveAssign (.moveAssign 0) (l.set (C.ops.selfMoveFail 0 vl))
    Eff.modify (l.set (C.ops.selfMove 0 vl))
  else
    wMayThrow C C.tr.nothrowMoveAssign (.moveAssign 0)
      (fun s => r.set (C.ops.moveAssignFailSrc 0 vl vr) (l.set (C.ops.moveAssignFail 0 vl vr) s))
    Eff.modify fun s => r.set (C.ops.moveAssignSrc 0 vl vr) (l.set (C.ops.moveAssign 0 vl vr) s)

/-- `assign`, recursive_wrapper.hpp 140-144. -/
def wAssign (x : Nat) (l : Loc) : Eff (WrapSt V) Unit := do
  let p ← wPtr x
  wAssignT C (.heap p) l

/-- `operator=(const recursive_wrapper&)`, recursive_wrapper.hpp 58-62. -/
def wCopyAssign (x y : Nat) : Eff (WrapSt V) Unit := do
  let q ← wPtr y
  wAssign C x (.heap q)

/-- `swap(recursive_wrapper&)`, recursive_wrapper.hpp 70-75. -/
def wSwap (x y : Nat) : Eff (WrapSt V) Unit := Eff.noexcept do
  let temp ← wPtr y
  let p ← wPtr x
  Eff.modify fun s => { s with wraps := upd s.wraps y (some p) }
  Eff.modify fun s => { s with wraps := upd s.wraps x (some temp) }

/-- `operator=(recursive_wrapper&&)`, recursive_wrapper.hpp 79-83. -/
def wMoveAssign (x y : Nat) : Eff (WrapSt V) Unit := Eff.noexcept (wSwap x y)

/-- `operator=(T&&)`, recursive_wrapper.hpp 85-89. -/
def wMoveAssignVal (x : Nat) (l : Loc) : Eff (WrapSt V) Unit := do
  let p ← wPtr x
  wMoveAssignT C (.heap p) l

/-- An lvalue of type `T` as a program writes it: `x.get()`, recursive_wrapper.hpp 94-95, or a local object. -/
inductive Place
  | get (x : Nat)
  | local (n : Nat)
  deriving DecidableEq, Repr

/-- Evaluation of the expression. (The user's program; `get()`, recursive_wrapper.hpp 94-98.) -/
def Place.eval : Place → Eff (WrapSt V) Loc
  | .get x => do
    let p ← wPtr x
    pure (.heap p)
  | .local n => pure (.loc n)

/-- One statement of a program on wrappers. (Calls of recursive_wrapper.hpp 58-90 and 102-154.) -/
inductive WCmd (V : Type)
  /-- `recursive_wrapper<T> x;` -/
  | defaultConstruct (x : Nat)
  /-- `recursive_wrapper<T> x(y);` -/
  | copyConstruct (x y : Nat)
  /-- `recursive_wrapper<T> x(std::move(y));` -/
  | moveConstruct (x y : Nat)
  /-- `recursive_wrapper<T> x(t);` -/
  | construct (x : Nat) (t : Place)
  /-- `recursive_wrapper<T> x(std::move(t));` -/
  | constructMove (x : Nat) (t : Place)
  /-- end of the life of `x` -/
  | destroy (x : Nat)
  /-- `x = y;` -/
  | copyAssign (x y : Nat)
  /-- `x = std::move(y);` -/
  | moveAssign (x y : Nat)
  /-- `x = t;` -/
  | assign (x : Nat) (t : Place)
  /-- `x = std::move(t);` -/
  | assignMove (x : Nat) (t : Place)
  /-- `x.swap(y);` or `swap(x, y);` (recursive_wrapper.hpp 150-154) -/
  | swap (x y : Nat)
  /-- the program begins or ends a `T` of its own, or gives a `T` a new value -/
  | makeLocal (n : Nat) (v : V)
  | dropLocal (n : Nat)
  | store (t : Place) (v : V)

/-- The library call a statement stands for. (Calls of recursive_wrapper.hpp 58-90 and 102-154.) -/
def WCmd.code : WCmd V → Eff (WrapSt V) Unit
  | .defaultConstruct x => wDefaultConstruct C x
  | .copyConstruct x y => wCopyConstruct C x y
  | .moveConstruct x y => wMoveConstruct C x y
  | .construct x t => do wConstructVal C x (← t.eval)
  | .constructMove x t => do wMoveConstructVal C x (← t.eval)
  | .destroy x => wDestroy x
  | .copyAssign x y => wCopyAssign C x y
  | .moveAssign x y => wMoveAssign x y
  | .assign x t => do wAssign C x (← t.eval)
  | .assignMove x t => do wMoveAssignVal C x (← t.eval)
  | .swap x y => wSwap x y
  | .makeLocal n v => Eff.modify fun s => { s with locals := upd s.locals n (some v) }
  | .dropLocal n => Eff.modify fun s => { s with locals := upd s.locals n none }
  | .store t v => do
    let l ← t.eval
    let _ ← l.read
    Eff.modify (l.set v)

/-- The lvalue denotes an object. (The language: object lifetime.) -/
def Place.valid (s : WrapSt V) : Place → Bool
  | .get x => (s.wraps x).isSome
  | .local n => (s.locals n).isSome

/-- The statement is valid C++ in the given state: constructors get a dead wrapper, all other operands are alive. (The
language: object lifetime.) -/
def WCmd.valid (s : WrapSt V) : WCmd V → Bool
  | .defaultConstruct x => (s.wraps x).isNone
  | .copyConstruct x y | .moveConstruct x y => (s.wraps x).isNone && (s.wraps y).isSome
  | .construct x t | .constructMove x t => (s.wraps x).isNone && t.valid s
  | .destroy x => (s.wraps x).isSome
  | .copyAssign x y | .moveAssign x y | .swap x y => (s.wraps x).isSome && (s.wraps y).isSome
  | .assign x t | .assignMove x t => (s.wraps x).isSome && t.valid s
  | .makeLocal n _ => (s.locals n).isNone
  | .dropLocal n => (s.locals n).isSome
  | .store t _ => t.valid s

/-- Run a program, as `run` (Core/Program.lean) does for variants. (The user's program; the library has no such code.) -/
def wRun : List (WCmd V) → WrapSt V → Option (WrapSt V)
  | [], s => some s
  | c :: cs, s =>
    if c.valid s then
      match c.code C s with
      | .ok _ s' => wRun cs s'
      | .exc _ s' => wRun cs s'
      | .fault _ => none
    else wRun cs s

/-- Before any object exists. (Device of the model.) -/
def WrapSt.init (V : Type) : WrapSt V :=
  { heap := fun _ => none, next := 0, wraps := fun _ => none, locals := fun _ => none, tick := 0, allocs := 0 }

end

end BVariant
