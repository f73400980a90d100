/-
Specification for C72: exactly what each statement does. A variable is a type, a value and a mark that says whether the content is
in a heap backup; there are no objects, no addresses, no storage and no visitation. What the operations of the elements do to
values is taken from `Ops`, without assuming that copies are equal.
-/
import Verif.Core.Program
import Verif.Core.Eff
import Verif.Spec.Invariant

namespace BVariant

/-- The content of a variable. -/
structure Tag (V : Type) where
  ty : TyIx
  val : V
  /-- in a heap backup? -/
  backed : Bool

/-- The state of the variables; how many operations of the elements and how many allocations there have been. -/
structure XSt (V : Type) where
  vars : VarId → Option (Tag V)
  tick : Nat
  allocs : Nat

/-- Before any variable is alive. -/
def XSt.init (V : Type) : XSt V := ⟨fun _ => none, 0, 0⟩

section
variable {V : Type}

/-- The content of a variable in the model. -/
def World.tagged (w : World V) (x : VarId) : Option (Tag V) :=
  (w.vars x).bind fun s => s.contentId.bind fun i => (w.objs i).map fun p => ⟨p.1, p.2, decide (s.which_ < 0)⟩

/-- The state of the model, without objects and addresses. -/
def World.view (w : World V) : XSt V := ⟨w.tagged, w.tick, w.allocs⟩

/-- The content of a variable that is alive. -/
def xGet (x : VarId) : Eff (XSt V) (Tag V) := fun σ =>
  match σ.vars x with
  | some t => .ok t σ
  | none => .fault .ub

/-- Change, begin or end a variable. -/
def xPut (x : VarId) (t : Option (Tag V)) : Eff (XSt V) Unit := Eff.modify fun σ => { σ with vars := upd σ.vars x t }

variable (C : Cfg V)

/-- An operation of the elements, which may throw. -/
def xMay (nothrow : Bool) (k : ExcKind) : Eff (XSt V) Unit := fun σ =>
  if nothrow = false ∧ C.throws σ.tick = true then .exc ⟨k, σ.tick⟩ { σ with tick := σ.tick + 1 } else .ok () { σ with tick := σ.tick + 1 }

/-- A call of `operator new`. -/
def xNew : Eff (XSt V) Unit := do
  Eff.modify fun σ => { σ with allocs := σ.allocs + 1 }
  xMay C false .badAlloc

/-- The copy constructor of an element. -/
def xCopy (k : TyIx) : Eff (XSt V) Unit := xMay C (C.tr k).nothrowCopy (.copyCtor k)

/-- The move constructor of an element, with what it does to the variable `y` that holds it. -/
def xMove (y : VarId) (b : Tag V) : Eff (XSt V) Unit := do
  Eff.onExc (xMay C (C.tr b.ty).nothrowMove (.moveCtor b.ty)) (xPut y (some { b with val := C.ops.moveFailSrc b.ty b.val }))
  xPut y (some { b with val := C.ops.movedFrom b.ty b.val })

/-- The move constructor of an element that is of no more use. -/
def xMoveLocal (k : TyIx) : Eff (XSt V) Unit := xMay C (C.tr k).nothrowMove (.moveCtor k)

/-- `variant x;` -/
def xDefault (x : VarId) : Eff (XSt V) Unit := do
  xMay C (C.tr 0).nothrowDefault (.defaultCtor 0)
  xPut x (some ⟨0, C.ops.valueInit 0, false⟩)

/-- `variant x(y);` -/
def xCopyConstruct (x y : VarId) : Eff (XSt V) Unit := do
  let b ← xGet y
  xCopy C b.ty
  xPut x (some ⟨b.ty, C.ops.copy b.ty b.val, false⟩)

/-- `variant x(std::move(y));` -/
def xMoveConstruct (x y : VarId) : Eff (XSt V) Unit := do
  let b ← xGet y
  xMove C y b
  xPut x (some ⟨b.ty, C.ops.move b.ty b.val, false⟩)

/-- The operand of a conversion: an lvalue, an rvalue, or an operand of another type. -/
inductive XMode
  | lvalue
  | rvalue
  | other
  deriving DecidableEq, Repr

/-- `variant x(t);` with `t` converted to the bounded type `k` and the value `v`. -/
def xConvert (x : VarId) (m : XMode) (k : TyIx) (v : V) : Eff (XSt V) Unit := do
  match m with
  | .lvalue => do
    xCopy C k
    xPut x (some ⟨k, C.ops.copy k v, false⟩)
  | .rvalue => do
    xMoveLocal C k
    xPut x (some ⟨k, C.ops.move k v, false⟩)
  | .other => do
    xMay C false (.convert k)
    xMoveLocal C k
    xPut x (some ⟨k, C.ops.move k v, false⟩)

/-- The element in variable `l` is assigned the value `v` of the same type. -/
def xAssignElem (l : VarId) (a : Tag V) (v : V) : Eff (XSt V) Unit := do
  Eff.onExc (xMay C false (.copyAssign a.ty)) (xPut l (some { a with val := C.ops.assignFail a.ty a.val v }))
  xPut l (some { a with val := C.ops.assign a.ty a.val v })

/-- The element in variable `l` is move-assigned the value `v` of the same type. -/
def xMoveAssignElem (l : VarId) (a : Tag V) (v : V) : Eff (XSt V) Unit := do
  Eff.onExc (xMay C (C.tr a.ty).nothrowMoveAssign (.moveAssign a.ty)) (xPut l (some { a with val := C.ops.moveAssignFail a.ty a.val v }))
  xPut l (some { a with val := C.ops.moveAssign a.ty a.val v })

/-- The element in variable `l` is move-assigned that in variable `r`, of the same type. -/
def xMoveAssignElems (l r : VarId) (a b : Tag V) : Eff (XSt V) Unit :=
  if l = r then do
    Eff.onExc (xMay C (C.tr a.ty).nothrowMoveAssign (.moveAssign a.ty)) (xPut l (some { a with val := C.ops.selfMoveFail a.ty a.val }))
    xPut l (some { a with val := C.ops.selfMove a.ty a.val })
  else do
    Eff.onExc (xMay C (C.tr a.ty).nothrowMoveAssign (.moveAssign a.ty)) do
      xPut r (some { b with val := C.ops.moveAssignFailSrc a.ty a.val b.val })
      xPut l (some { a with val := C.ops.moveAssignFail a.ty a.val b.val })
    xPut r (some { b with val := C.ops.moveAssignSrc a.ty a.val b.val })
    xPut l (some { a with val := C.ops.moveAssign a.ty a.val b.val })

/-- Variable `l` gets a default-initialised object of the fallback type. -/
def xFallback (l : VarId) (fb : TyIx) : Eff (XSt V) Unit := do
  xMay C true (.defaultCtor fb)
  xPut l (some ⟨fb, C.ops.defaultInit fb, false⟩)

/-- Variable `l`, which holds `a`, gets a copy of the value `v` of type `k`, where neither the copy nor the move constructor of `k` is nothrow and there
is no fallback type. The old content is kept meanwhile: it stays in its backup, or it is moved away, or it is copied to the heap. -/
def xGuardedCopy (l : VarId) (a : Tag V) (k : TyIx) (v : V) : Eff (XSt V) Unit :=
  if a.backed then do
    xCopy C k
    xPut l (some ⟨k, C.ops.copy k v, false⟩)
  else if (C.tr a.ty).nothrowMove then do
    xMoveLocal C a.ty
    Eff.onExc (xCopy C k) do
      xMoveLocal C a.ty
      xPut l (some { a with val := C.ops.move a.ty (C.ops.move a.ty a.val) })
    xPut l (some ⟨k, C.ops.copy k v, false⟩)
  else do
    xNew C
    xCopy C a.ty
    Eff.onExc (xCopy C k) (xPut l (some ⟨a.ty, C.ops.copy a.ty a.val, true⟩))
    xPut l (some ⟨k, C.ops.copy k v, false⟩)

/-- Variable `l`, which holds `a`, gets a copy of `b`, where the types differ or one of the two is in a heap backup. -/
def xReplaceCopy (l : VarId) (a b : Tag V) : Eff (XSt V) Unit :=
  if (C.tr b.ty).nothrowCopy then do
    xCopy C b.ty
    xPut l (some ⟨b.ty, C.ops.copy b.ty b.val, false⟩)
  else if (C.tr b.ty).nothrowMove then do
    xCopy C b.ty
    xMoveLocal C b.ty
    xPut l (some ⟨b.ty, C.ops.move b.ty (C.ops.copy b.ty b.val), false⟩)
  else
    match C.fallback with
    | some fb => do
      Eff.onExc (xCopy C b.ty) (xFallback C l fb)
      xPut l (some ⟨b.ty, C.ops.copy b.ty b.val, false⟩)
    | none => xGuardedCopy C l a b.ty b.val

/-- Variable `l`, which holds `a`, gets `b` from variable `r`, where the types differ or one of the two is in a heap backup. -/
def xReplaceMove (l r : VarId) (a b : Tag V) : Eff (XSt V) Unit :=
  if (C.tr b.ty).nothrowMove then do
    xMove C r b
    xPut l (some ⟨b.ty, C.ops.move b.ty b.val, false⟩)
  else if (C.tr b.ty).nothrowCopy then do
    xCopy C b.ty
    xPut l (some ⟨b.ty, C.ops.copy b.ty b.val, false⟩)
  else
    match C.fallback with
    | some fb => do
      Eff.onExc (xMove C r b) (xFallback C l fb)
      xPut l (some ⟨b.ty, C.ops.move b.ty b.val, false⟩)
    | none => xGuardedCopy C l a b.ty b.val

/-- `l = r;` -/
def xCopyAssign (l r : VarId) : Eff (XSt V) Unit := do
  let a ← xGet l
  let b ← xGet r
  if a.ty = b.ty ∧ a.backed = b.backed then xAssignElem C l a b.val else xReplaceCopy C l a b

/-- `l = std::move(r);` -/
def xMoveAssign (l r : VarId) : Eff (XSt V) Unit := do
  let a ← xGet l
  let b ← xGet r
  if a.ty = b.ty ∧ a.backed = b.backed then xMoveAssignElems C l r a b else xReplaceMove C l r a b

/-- The code `m` with a local variable `t`, which is alive and dies in any case. -/
def xWithLocal (t : VarId) (m : Eff (XSt V) Unit) : Eff (XSt V) Unit := do
  Eff.onExc m (xPut t none)
  xPut t none

/-- `l = t;` with `t` converted to the bounded type `k` and the value `v`. If `direct`, `t` is an object of the bounded type, which is assigned to the
content if that is of the same type. -/
def xAssignValue (l : VarId) (m : XMode) (direct : Bool) (k : TyIx) (v : V) : Eff (XSt V) Unit := do
  let a ← xGet l
  if direct = true ∧ a.ty = k then
    match m with
    | .lvalue => xAssignElem C l a v
    | _ => xMoveAssignElem C l a v
  else do
    xConvert C (.tmp 0) m k v
    xWithLocal (.tmp 0) (xMoveAssign C l (.tmp 0))

/-- `l = get<T>(r);` or `l = std::move(get<T>(r));` -/
def xAssignGet (rv : Bool) (l r : VarId) : Eff (XSt V) Unit := do
  let a ← xGet l
  let b ← xGet r
  if a.ty = b.ty then
    if rv then xMoveAssignElems C l r a b else xAssignElem C l a b.val
  else do
    if rv then xMoveConstruct C (.tmp 0) r else xCopyConstruct C (.tmp 0) r
    xWithLocal (.tmp 0) (xMoveAssign C l (.tmp 0))

/-- `swap(l, r);` -/
def xSwap (l r : VarId) : Eff (XSt V) Unit := do
  let a ← xGet l
  let b ← xGet r
  if a.ty = b.ty then
    if l = r then do
      Eff.onExc (xMay C false (.swap a.ty)) (xPut l (some { a with val := C.ops.selfSwapFail a.ty a.val }))
      xPut l (some { a with val := C.ops.selfSwap a.ty a.val })
    else do
      Eff.onExc (xMay C false (.swap a.ty)) do
        xPut r (some { b with val := C.ops.swapFailR a.ty a.val b.val })
        xPut l (some { a with val := C.ops.swapFailL a.ty a.val b.val })
      xPut r (some { b with val := C.ops.swapR a.ty a.val b.val })
      xPut l (some { a with val := C.ops.swapL a.ty a.val b.val })
  else do
    xMoveConstruct C (.tmp 0) r
    xWithLocal (.tmp 0) do
      xMoveAssign C r l
      xMoveAssign C l (.tmp 0)

/-- The user stores a value into the content. -/
def xStore (x : VarId) (v : V) : Eff (XSt V) Unit := do
  let a ← xGet x
  xPut x (some { a with val := v })

/-- What a statement does. -/
def Cmd.exact : Cmd V → Eff (XSt V) Unit
  | .defaultConstruct x => xDefault C (.user x)
  | .copyConstruct x y | .constructGet false x y => xCopyConstruct C (.user x) (.user y)
  | .moveConstruct x y | .constructGet true x y => xMoveConstruct C (.user x) (.user y)
  | .constructL x k v => xConvert C (.user x) .lvalue k v
  | .constructR x k v => xConvert C (.user x) .rvalue k v
  | .constructC x k v => xConvert C (.user x) .other k v
  | .destroy x => xPut (.user x) none
  | .copyAssign x y => xCopyAssign C (.user x) (.user y)
  | .moveAssign x y => xMoveAssign C (.user x) (.user y)
  | .assignL x k v => xAssignValue C (.user x) .lvalue true k v
  | .assignR x k v => xAssignValue C (.user x) .rvalue true k v
  | .assignC x k v => xAssignValue C (.user x) .other false k v
  | .assignVL x k v => xAssignValue C (.user x) .lvalue false k v
  | .assignVR x k v => xAssignValue C (.user x) .rvalue false k v
  | .assignGet rv x y => xAssignGet C rv (.user x) (.user y)
  | .swap x y => xSwap C (.user x) (.user y)
  | .mutate x v => xStore (.user x) v

/-- The statement is valid. -/
def Cmd.exactValid (σ : XSt V) : Cmd V → Bool
  | .defaultConstruct x => (σ.vars (.user x)).isNone && decide (0 < C.n)
  | .copyConstruct x y | .moveConstruct x y | .constructGet _ x y => (σ.vars (.user x)).isNone && (σ.vars (.user y)).isSome
  | .constructL x k _ | .constructR x k _ | .constructC x k _ => (σ.vars (.user x)).isNone && decide (k < C.n)
  | .destroy x | .mutate x _ => (σ.vars (.user x)).isSome
  | .copyAssign x y | .moveAssign x y | .swap x y | .assignGet _ x y => (σ.vars (.user x)).isSome && (σ.vars (.user y)).isSome
  | .assignL x k _ | .assignR x k _ | .assignC x k _ | .assignVL x k _ | .assignVR x k _ => (σ.vars (.user x)).isSome && decide (k < C.n)

/-- The content is in a heap backup. -/
def XSt.isBacked (σ : XSt V) (x : Nat) : Bool := (σ.vars (.user x)).any (·.backed)

/-- The statement is one that finding F1 concerns: content of a backup is assigned to a variable that holds another type or holds its content in place; or a
variable in a backup is swapped with one of another type. -/
def Cmd.exactHazard (σ : XSt V) : Cmd V → Bool
  | .copyAssign x y | .moveAssign x y =>
    match σ.vars (.user x), σ.vars (.user y) with
    | some a, some b => b.backed && !(decide (a.ty = b.ty) && a.backed)
    | _, _ => false
  | .swap x y =>
    match σ.vars (.user x), σ.vars (.user y) with
    | some a, some b => a.backed && decide (a.ty ≠ b.ty)
    | _, _ => false
  | _ => false

/-- What a program does: the state at the end, and what each of its statements threw, if it did. Exceptions are caught after each statement, and
statements that are not valid are skipped. `none`: the program meets a statement that finding F1 concerns. -/
def exactRun : List (Cmd V) → XSt V → Option (XSt V × List (Option Exc))
  | [], σ => some (σ, [])
  | c :: cs, σ =>
    if c.exactValid C σ then
      if c.exactHazard σ then none
      else match c.exact C σ with
        | .ok _ σ' => (exactRun cs σ').map fun p => (p.1, none :: p.2)
        | .exc e σ' => (exactRun cs σ').map fun p => (p.1, some e :: p.2)
        | .fault _ => none
    else (exactRun cs σ).map fun p => (p.1, none :: p.2)

/-- What each statement of a run of the model throws. -/
def thrown : List (Cmd V) → World V → List (Option Exc)
  | [], _ => []
  | c :: cs, w =>
    if c.valid C w then
      match c.code C w with
      | .ok _ w' => none :: thrown cs w'
      | .exc e w' => some e :: thrown cs w'
      | .fault _ => []
    else none :: thrown cs w

end

end BVariant
