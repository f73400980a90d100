/-
Model of `class variant`: visitation, construction, assignment, swap, destruction.
/repo/include/boost/variant/variant.hpp, detail/visitation_impl.hpp, detail/backup_holder.hpp,
detail/initializer.hpp.
-/
import Verif.Core.World
import Verif.Meta.Discriminator
import Verif.Meta.Visitation

namespace BVariant

section
variable {V α : Type} (C : Cfg V)

/-! ### Access to a variant object -/

/-- The variant object `x`; undefined if it is not alive. (The language: object lifetime; reads of `which_` and
`storage_`, variant.hpp 1209-1210.) -/
def getVar (x : VarId) : M V VarSt := fun w =>
  match w.vars x with
  | some s => .ok s w
  | none => .fault .ub

/-- Placement new into, or destruction of, what is in `storage_` of `x`. (For instance variant.hpp 439, 486, 715, 740,
1697, 1719 and 378.) -/
def setSlot (x : VarId) (s : Slot) : M V Unit := do
  let st ← getVar x
  M.modify fun w => { w with vars := upd w.vars x (some { st with slot := s }) }

/-- Assignment to `which_` of `x`. (variant.hpp 1212-1220.) -/
def setWhich (x : VarId) (i : Int) : M V Unit := do
  let st ← getVar x
  M.modify fun w => { w with vars := upd w.vars x (some { st with which_ := i }) }

/-- `which()`, variant.hpp 1231-1240. -/
def which (x : VarId) : M V Int := do
  let s ← getVar x
  pure (whichOf s.which_)

/-- A constructor of `variant` has finished: the object `x` begins its life. (If the constructor throws,
it never does.) (variant.hpp 1264-1284 and 1589-1654.) -/
def beginVar (x : VarId) (s : VarSt) : M V Unit :=
  M.modify fun w => { w with vars := upd w.vars x (some s) }

/-! ### backup_holder -/

/-- `backup_holder::get`, backup_holder.hpp 66-74: dereferences the pointer. -/
def holderGet (p : Option ObjId) : M V ObjId :=
  match p with
  | some id => pure id
  | none => M.fail .ub

/-- `backup_holder::~backup_holder`, backup_holder.hpp 31-34: `delete backup_`. -/
def holderDtor (ty : TyIx) (p : Option ObjId) : M V Unit :=
  match p with
  | some id => destroyObj ty id
  | none => pure ()

/-- `backup_holder(const backup_holder&)`, backup_holder.hpp 78-84: `backup_` is set to null and
`BOOST_ASSERT(false)` is executed. Result: the holder's pointer. -/
def holderCopyCtor : M V (Option ObjId) :=
  if C.ndebug then pure none else M.fail .assertFailed

/-! ### Visitation -/

/-- `forced_return`, detail/forced_return.hpp 33-43: an assertion, then undefined behaviour. -/
def forcedReturn : M V α := M.fail (if C.ndebug then .ub else .assertFailed)

/-- An internal visitor: `internal_visit(T&, int)` and what `internal_visit` does when it is given a
`backup_holder<T>` (its own overload if there is one, otherwise the generic overload with
`backup_holder<T>` in place of `T`). (The visitors at variant.hpp 370-386, 420-488, 496-590 and 688-847.) -/
structure Visitor (V : Type) (α : Type) where
  onObj : TyIx → ObjId → M V α
  onHolder : TyIx → Option ObjId → M V α

/-- `cast_storage<T>(storage)`, detail/cast_storage.hpp 27-37, followed by use of the reference:
undefined unless the storage holds a live `T`. -/
def castObj (x : VarId) (ty : TyIx) : M V ObjId := do
  let s ← getVar x
  match s.slot with
  | .obj id => do
    let _ ← readAs ty id
    pure id
  | _ => M.fail .ub

/-- `cast_storage< backup_holder<T> >(storage)` followed by use of the reference. (cast_storage.hpp 27-37, called in
visitation_impl.hpp 98-149.) -/
def castHolder (x : VarId) (ty : TyIx) : M V (Option ObjId) := do
  let s ← getVar x
  match s.slot with
  | .holder t p => if t = ty then pure p else M.fail .ub
  | _ => M.fail .ub

/-- `never_uses_backup` of bounded type `ty`, visitation_impl.hpp 139-143. -/
def neverUsesBackup (ty : TyIx) : Bool :=
  C.hasFallback || (C.tr ty).nothrowMove || (C.tr ty).nothrowCopy

/-- `visitation_impl_invoke` and `visitation_impl_invoke_impl`, visitation_impl.hpp 98-149. -/
def visitationInvoke (internalWhich : Int) (x : VarId) (vis : Visitor V α) (ty : TyIx) : M V α :=
  if neverUsesBackup C ty then do
    let id ← castObj x ty
    vis.onObj ty id
  else if internalWhich ≥ 0 then do
    let id ← castObj x ty
    vis.onObj ty id
  else do
    let p ← castHolder x ty
    vis.onHolder ty p

/-- `internal_apply_visitor`, variant.hpp 2185-2226. The step types are the positions `0 .. n-1`, which
stand for the elements of `internal_types`. -/
def internalApplyVisitor (x : VarId) (vis : Visitor V α) : M V α := do
  let s ← getVar x
  visitationImpl C.unroll (whichOf s.which_) 0 (List.range C.n)
    (visitationInvoke C s.which_ x vis) (forcedReturn C)

/-- `invoke_visitor`, variant.hpp 984-1062: a user visitor sees through a `backup_holder`.
Values of `recursive_wrapper<T>` and `reference_content<T>` are identified with the value they give
access to, so unwrapping them (1021-1043) leaves the object unchanged here. -/
def invokeVisitor (f : TyIx → ObjId → M V α) : Visitor V α where
  onObj := f
  onHolder := fun ty p => do
    let id ← holderGet p
    f ty id

/-- `apply_visitor`, variant.hpp 2230-2260 (the value category of the variant is treated in
Verif.Core.Multi). -/
def applyVisitor (x : VarId) (f : TyIx → ObjId → M V α) : M V α :=
  internalApplyVisitor C x (invokeVisitor f)

/-! ### Destruction -/

/-- `destroyer`, variant.hpp 370-386, applied to the storage of `x`. The generic overload is used for
`backup_holder<T>` too, so its destructor runs. -/
def destroyer (x : VarId) : Visitor V Unit where
  onObj := fun ty id => do
    destroyObj ty id
    setSlot x .raw
  onHolder := fun ty p => do
    holderDtor ty p
    setSlot x .raw

/-- `destroy_content()`, variant.hpp 1251-1255. -/
def destroyContent (x : VarId) : M V Unit :=
  M.noexceptIf true (internalApplyVisitor C x (destroyer x))

/-- `~variant()`, variant.hpp 1259-1262, and the end of the variant object's life. -/
def destroyVar (x : VarId) : M V Unit := do
  destroyContent C x
  M.modify fun w => { w with vars := upd w.vars x none }

/-! ### Construction -/

/-- `variant()`, variant.hpp 1264-1284: `new(storage) internal_T0(); indicate_which(0)`. -/
def defaultConstruct (x : VarId) : M V Unit :=
  M.noexceptIf (C.tr 0).nothrowDefault do
    let id ← valueCtor C 0
    beginVar x ⟨indicateWhich 0, .obj id⟩

/-- `copy_into`, variant.hpp 420-454; the result is the object constructed in the given storage. -/
def copyInto : Visitor V ObjId where
  onObj := fun ty id => copyCtor C ty id
  onHolder := fun ty p => do
    let id ← holderGet p
    copyCtor C ty id

/-- `move_into`, variant.hpp 461-488. -/
def moveInto : Visitor V ObjId where
  onObj := fun ty id => M.noexceptIf (C.tr ty).nothrowMove (moveCtor C ty id)
  onHolder := fun ty p => do
    let id ← holderGet p
    moveCtor C ty id

/-- `variant(const variant&)`, variant.hpp 1636-1644. -/
def copyConstruct (x y : VarId) : M V Unit := do
  let id ← internalApplyVisitor C y (copyInto C)
  let i ← which y
  beginVar x ⟨indicateWhich i, .obj id⟩

/-- `is_variant_move_noexcept_constructible`, variant.hpp 227-237. -/
def moveNoexceptConstructible : Bool := C.types.all (·.nothrowMove)

/-- `is_variant_move_noexcept_assignable`, variant.hpp 244-254. -/
def moveNoexceptAssignable : Bool := C.types.all (·.nothrowMoveAssign)

/-- `variant(variant&&)`, variant.hpp 1646-1654. -/
def moveConstruct (x y : VarId) : M V Unit :=
  M.noexceptIf (moveNoexceptConstructible C) do
    let id ← internalApplyVisitor C y (moveInto C)
    let i ← which y
    beginVar x ⟨indicateWhich i, .obj id⟩

/-- The operand of a converting construction or assignment, after overload resolution over the bounded
types (Verif.Meta.Initializer) has chosen the bounded type `ty`.
`lref` : an lvalue of type `ty` (overload `const T&`, initializer.hpp 91-99).
`rref` : an rvalue of type `ty` (overload `T&&`, initializer.hpp 101-110).
The flag `foreign` says that the operand `T` is another variant type, and the lvalue or rvalue is its content, which
`convert_copy_into` and `convert_move_into` hand to `initialize` (variant.hpp 1304-1313 and 1379-1388).
`conv` : an operand of another type, converted to a temporary of type `ty` with value `v`, which binds
to the `T&&` overload. -/
inductive Src (V : Type)
  | lref (ty : TyIx) (id : ObjId) (foreign : Bool)
  | rref (ty : TyIx) (id : ObjId) (foreign : Bool)
  | conv (ty : TyIx) (v : V)

/-- The bounded type chosen by overload resolution. (The result of `initializer::initialize`, variant.hpp 1443-1448 and
1463-1468.) -/
def Src.ty : Src V → TyIx
  | .lref ty _ _ => ty
  | .rref ty _ _ => ty
  | .conv ty _ => ty

/-- `initializer::initialize`, initializer.hpp 91-110; the result is the index and the object
constructed in the storage. -/
def initializeFrom : Src V → M V (TyIx × ObjId)
  | .lref ty id _ => do
    let o ← copyCtor C ty id
    pure (ty, o)
  | .rref ty id _ => do
    let o ← moveCtor C ty id
    pure (ty, o)
  | .conv ty v => do
    mayThrow C false (.convert ty) id
    let t ← newObj ty v
    let o ← M.withLocal (moveCtor C ty t) (destroyObj ty t)
    pure (ty, o)

/-- `variant(const T&)`, `variant(T&)`, `variant(T&&)` through `convert_construct`,
variant.hpp 1431-1469 and 1589-1631. -/
def convertConstruct (x : VarId) (s : Src V) : M V Unit := do
  let r ← initializeFrom C s
  beginVar x ⟨indicateWhich r.1, .obj r.2⟩

/-! ### Assignment between variants -/

/-- `assign_storage`, variant.hpp 496-539: `rhs` is the variant whose storage is given. -/
def assignStorage (rhs : VarId) : Visitor V Unit where
  onObj := fun ty l => do
    let r ← castObj rhs ty
    assignObj C ty l r
  onHolder := fun ty p => do
    let l ← holderGet p
    let q ← castHolder rhs ty
    let r ← holderGet q
    assignObj C ty l r

/-- `move_storage`, variant.hpp 547-590. -/
def moveStorage (rhs : VarId) : Visitor V Unit where
  onObj := fun ty l => do
    let r ← castObj rhs ty
    moveAssignObj C ty l r
  onHolder := fun ty p => do
    let l ← holderGet p
    let q ← castHolder rhs ty
    let r ← holderGet q
    moveAssignObj C ty l r

/-- The type `RhsT` and content with which an assigner is invoked: an element, or (because `assigner` and
`move_assigner` have no overload for it) a `backup_holder<T>`. (The template parameter `RhsT` at variant.hpp 1683-1798 and
1825-1916.) -/
inductive RhsContent
  | obj (ty : TyIx) (id : ObjId)
  | holder (ty : TyIx) (p : Option ObjId)

/-- `has_nothrow_copy<RhsT>`; false for `backup_holder<T>`, whose copy constructor is not `noexcept`
(backup_holder.hpp 78-84). -/
def RhsContent.nothrowCopy : RhsContent → Bool
  | .obj ty _ => (C.tr ty).nothrowCopy
  | .holder _ _ => false

/-- `is_nothrow_move_constructible<RhsT>`; false for `backup_holder<T>`, which has no move constructor. (variant.hpp
1787-1790 and 1903-1904.) -/
def RhsContent.nothrowMove : RhsContent → Bool
  | .obj ty _ => (C.tr ty).nothrowMove
  | .holder _ _ => false

/-- `construct_impl<RhsT>`, variant.hpp 712-716, and the copies at 1697-1698 and 1751-1752:
copy-construct the right-hand content into the storage. -/
def copyRhs : RhsContent → M V Slot
  | .obj ty id => do
    let o ← copyCtor C ty id
    pure (.obj o)
  | .holder ty _ => do
    let q ← holderCopyCtor C
    pure (.holder ty q)

/-- `new(lhs_.storage_.address()) RhsT( rhs_content )`. (variant.hpp 1697-1698, 1719-1720, 1751-1752 and 715.) -/
def copyRhsInto (l : VarId) (rhs : RhsContent) : M V Unit := do
  let s ← copyRhs C rhs
  setSlot l s

/-- `backup_assigner`, variant.hpp 688-847, visiting the content of `l`. -/
def backupAssigner (l : VarId) (rhsWhich : Int) (rhs : RhsContent) : Visitor V Unit where
  onObj := fun ty lhs =>
    if (C.tr ty).nothrowMove then do
      -- 755-790: move the content to a local
      let b ← moveCtor C ty lhs
      M.withLocal (do
          destroyObj ty lhs
          M.onExc (copyRhsInto C l rhs) (do
            let o ← moveCtor C ty b
            setSlot l (.obj o))
          setWhich l (indicateWhich rhsWhich))
        (destroyObj ty b)
    else do
      -- 792-829: copy the content to the heap
      let b ← heapCopy C ty lhs
      destroyObj ty lhs
      M.onExc (copyRhsInto C l rhs) (do
        setSlot l (.holder ty (some b))
        let i ← which l
        setWhich l (indicateBackupWhich i))
      setWhich l (indicateWhich rhsWhich)
      destroyObj ty b
  onHolder := fun ty p => do
    -- 718-753: `backup_lhs_content.swap(lhs_content)`, then destroy the (now null) holder
    setSlot l (.holder ty none)
    holderDtor ty none
    setSlot l .raw
    M.onExc (copyRhsInto C l rhs) (do
      -- the local holder becomes null again, so its destructor does nothing
      setSlot l (.holder ty none)
      setSlot l (.holder ty p))
    setWhich l (indicateWhich rhsWhich)
    -- destructor of the local `backup_lhs_content`
    holderDtor ty p

/-- `construct_fallback`, variant.hpp 1726-1735. With `FallbackCtor.iterator` the object constructed is an
MPL iterator: for a trivially default constructible fallback type that leaves an indeterminate object
of that type, for any other type it leaves no object. -/
def constructFallback (l : VarId) : M V Unit :=
  M.noexceptIf true <|
    match C.fallback with
    | none => M.fail .ub
    | some fb =>
      if C.fallbackCtor = .element ∨ (C.tr fb).trivialDefault then do
        let o ← defaultCtor C fb
        setSlot l (.obj o)
        setWhich l (indicateWhich fb)
      else do
        setSlot l .raw
        setWhich l (indicateWhich fb)

/-- `assigner::assign_impl`, variant.hpp 1683-1778: the four strategies, selected by the three flags. -/
def assignImpl (l : VarId) (rhsWhich : Int) (rhs : RhsContent)
    (nothrowCopy nothrowMove hasFallback : Bool) : M V Unit :=
  if nothrowCopy then
    -- 1685-1702
    M.noexceptIf true do
      destroyContent C l
      copyRhsInto C l rhs
      setWhich l (indicateWhich rhsWhich)
  else if nothrowMove then
    -- 1704-1724: copy to a temporary, then move it (never reached with a holder)
    match rhs with
    | .obj ty id => do
      let t ← copyCtor C ty id
      M.withLocal (do
          destroyContent C l
          let o ← moveCtor C ty t
          setSlot l (.obj o)
          setWhich l (indicateWhich rhsWhich))
        (destroyObj ty t)
    | .holder _ _ => M.fail .ub
  else if hasFallback then do
    -- 1737-1765
    destroyContent C l
    M.onExc (copyRhsInto C l rhs) (constructFallback C l)
    setWhich l (indicateWhich rhsWhich)
  else
    -- 1767-1778
    internalApplyVisitor C l (backupAssigner C l rhsWhich rhs)

/-- `assigner::internal_visit`, variant.hpp 1782-1798. -/
def assignerVisit (l : VarId) (rhsWhich : Int) (rhs : RhsContent) : M V Unit :=
  assignImpl C l rhsWhich rhs (rhs.nothrowCopy C) (rhs.nothrowCopy C || rhs.nothrowMove C) C.hasFallback

/-- `assigner`, variant.hpp 1667-1805. -/
def assigner (l : VarId) (rhsWhich : Int) : Visitor V Unit where
  onObj := fun ty id => assignerVisit C l rhsWhich (.obj ty id)
  onHolder := fun ty p => assignerVisit C l rhsWhich (.holder ty p)

/-- Move-construct the right-hand content into the storage, variant.hpp 1850-1851 and 1871-1872. For a
`backup_holder` this is its copy constructor (it has no move constructor). -/
def moveRhsInto (l : VarId) (rhs : RhsContent) : M V Unit :=
  match rhs with
  | .obj ty id => do
    let o ← moveCtor C ty id
    setSlot l (.obj o)
  | .holder ty _ => do
    let q ← holderCopyCtor C
    setSlot l (.holder ty q)

/-- `move_assigner::assign_impl`, variant.hpp 1825-1896. -/
def moveAssignImpl (l : VarId) (rhsWhich : Int) (rhs : RhsContent)
    (nothrowCopy nothrowMove hasFallback : Bool) : M V Unit :=
  if nothrowMove then
    -- 1838-1855
    M.noexceptIf true do
      destroyContent C l
      moveRhsInto C l rhs
      setWhich l (indicateWhich rhsWhich)
  else if nothrowCopy then
    -- 1827-1836
    M.noexceptIf true (assignImpl C l rhsWhich rhs true false hasFallback)
  else if hasFallback then do
    -- 1857-1885
    destroyContent C l
    M.onExc (moveRhsInto C l rhs) (constructFallback C l)
    setWhich l (indicateWhich rhsWhich)
  else
    -- 1887-1896: copies
    assignImpl C l rhsWhich rhs false false false

/-- `move_assigner::internal_visit`, variant.hpp 1900-1916. -/
def moveAssignerVisit (l : VarId) (rhsWhich : Int) (rhs : RhsContent) : M V Unit :=
  moveAssignImpl C l rhsWhich rhs (rhs.nothrowMove C || rhs.nothrowCopy C) (rhs.nothrowMove C) C.hasFallback

/-- `move_assigner`, variant.hpp 1815-1923. -/
def moveAssigner (l : VarId) (rhsWhich : Int) : Visitor V Unit where
  onObj := fun ty id => moveAssignerVisit C l rhsWhich (.obj ty id)
  onHolder := fun ty p => moveAssignerVisit C l rhsWhich (.holder ty p)

/-- `variant_assign(const variant&)` and `operator=(const variant&)`, variant.hpp 1927-1942 and
2031-2035. -/
def copyAssign (l r : VarId) : M V Unit := do
  let sl ← getVar l
  let sr ← getVar r
  if sl.which_ = sr.which_ then
    internalApplyVisitor C l (assignStorage C r)
  else
    internalApplyVisitor C r (assigner C l (whichOf sr.which_))

/-- `variant_assign(variant&&)`, variant.hpp 1944-1959. -/
def variantMoveAssign (l r : VarId) : M V Unit := do
  let sl ← getVar l
  let sr ← getVar r
  if sl.which_ = sr.which_ then
    internalApplyVisitor C l (moveStorage C r)
  else
    internalApplyVisitor C r (moveAssigner C l (whichOf sr.which_))

/-- `operator=(variant&&)`, variant.hpp 2037-2044. -/
def moveAssign (l r : VarId) : M V Unit :=
  M.noexceptIf (moveNoexceptConstructible C && moveNoexceptAssignable C) (variantMoveAssign C l r)

/-! ### Assignment of values -/

/-- `direct_assigner` and `direct_mover` through `apply_visitor`, variant.hpp 599-676: assign in place iff
the content has exactly the operand's type. If the operand is a variant of another type that is not itself a bounded
type, no content has. -/
def directAssign (l : VarId) (s : Src V) : M V Bool :=
  applyVisitor C l fun ty id =>
    match s with
    | .lref k r foreign => if foreign = false ∧ ty = k then do assignObj C ty id r; pure true else pure false
    | .rref k r foreign => if foreign = false ∧ ty = k then do moveAssignObj C ty id r; pure true else pure false
    | .conv _ _ => pure false

/-- `assign(const T&)` and `move_assign(T&&)`, variant.hpp 1963-1997, hence `operator=(const T&)` and
`operator=(T&&)`, 2001-2028. -/
def assignValue (l : VarId) (s : Src V) : M V Unit := do
  let done ← directAssign C l s
  if done then pure ()
  else do
    convertConstruct C (.tmp 0) s
    M.withLocal (variantMoveAssign C l (.tmp 0)) (destroyVar C (.tmp 0))

/-! ### Swap -/

/-- `known_get<T>`, variant.hpp 395-413. -/
def knownGet (ty : TyIx) : TyIx → ObjId → M V ObjId :=
  fun t id => if t = ty then pure id else forcedReturn C

/-- `swap_with`, variant.hpp 856-887. -/
def swapWith (other : VarId) : TyIx → ObjId → M V Unit := fun ty id => do
  let o ← applyVisitor C other (knownGet C ty)
  swapObj C ty id o

/-- `swap`, variant.hpp 2046-2062 (and the free function, 2294-2301). -/
def swap (x y : VarId) : M V Unit := do
  let i ← which x
  let j ← which y
  if i = j then
    applyVisitor C x (swapWith C y)
  else do
    moveConstruct C (.tmp 0) y
    M.withLocal (do
        moveAssign C y x
        moveAssign C x (.tmp 0))
      (destroyVar C (.tmp 0))

/-! ### Queries -/

/-- `empty()`, variant.hpp 2070-2073. -/
def empty (_x : VarId) : M V Bool := pure false

/-- `type()`, variant.hpp 2075-2079, with `reflect`, 895-906: the result is the bounded type's index. -/
def typeOf (x : VarId) : M V TyIx := applyVisitor C x fun ty _ => pure ty

end

end BVariant
