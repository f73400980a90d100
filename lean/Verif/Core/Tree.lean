/-
Model of recursive variants: `make_recursive_variant<...>::type` (recursive_variant.hpp 138-168), or a variant with
`recursive_wrapper<T>` among its types where `T` has members of the variant type.

An object of a wrapped type `T` is a node: a value of its own and a list of variants, which its copy constructor copies in
order and its destructor destroys in reverse order (as for a class with variant members or a `std::vector` of variants). Its
move constructor moves the variants one by one, or takes over the whole list (`steals`).
Everything lives on an explicit heap, so sharing, leaks and dangling pointers can be expressed. The variant operations are
those of variant.hpp with the visitation already resolved (Core/Variant.lean models visitation).

The functions recurse to the depth of the data. Their first argument is the depth of the stack; to exceed it is undefined.
-/
import Verif.Core.Eff

namespace BVariant

/-- An object of a bounded type: of a plain type, with its value, or a `recursive_wrapper<T>` with its pointer
(recursive_wrapper.hpp 37). `dead`: the storage without an object, in the middle of an assignment; to use it is undefined. -/
inductive TContent (V : Type)
  | leaf (v : V)
  | wrap (p : ObjId)
  | dead
  deriving DecidableEq, Repr

/-- A variant: `which()` and the content, in place or in a heap backup (`backup_holder`, backup_holder.hpp 22-90). -/
inductive TVar (V : Type)
  | plain (k : TyIx) (c : TContent V)
  | backup (k : TyIx) (q : ObjId)
  deriving DecidableEq, Repr

/-- `which()`, variant.hpp 1231-1240. -/
def TVar.which {V : Type} : TVar V → TyIx
  | .plain k _ => k
  | .backup k _ => k

/-- A block of memory: without an object, with a node, or with a backed up object. (What `p_`, recursive_wrapper.hpp 37,
and `backup_`, backup_holder.hpp 27, point to.) -/
inductive TCell (V : Type)
  | raw
  | node (a : V) (cs : List (TVar V))
  | box (c : TContent V)
  deriving DecidableEq, Repr

/-- The state of the program: the heap, its variants, and counters. (Device of the model.) -/
structure TreeSt (V : Type) where
  heap : ObjId → Option (TCell V)
  next : ObjId
  /-- the program's variants -/
  vars : Nat → Option (TVar V)
  /-- number of potentially throwing operations performed so far -/
  tick : Nat
  /-- number of allocations made so far -/
  allocs : Nat

/-- What the environment decides: what the operations of the plain types do (and of the nodes' own values), which of them
are nothrow, which operations throw, and the fallback type. (The template arguments of `variant` and the element types;
traits used at variant.hpp 166-220, 1785-1790 and 1903-1908.) -/
structure TreeCfg (V : Type) where
  ops : Ops V
  tr : TyIx → Traits
  throws : Nat → Bool
  /-- is the bounded type a `recursive_wrapper<T>`? (recursive_wrapper_fwd.hpp 82-102) -/
  wrapped : TyIx → Bool
  /-- does the move constructor of the wrapped type take over the list of variants (as for a `std::vector`), or does it move
  them one by one (as for an array or variant members)? -/
  steals : TyIx → Bool
  /-- `fallback_type_index_`, always a plain type: the default constructor of a wrapper allocates -/
  fallback : Option TyIx

section
variable {V : Type} (C : TreeCfg V)

/-- One potentially throwing operation. (The element types.) -/
def tMayThrow (nothrow : Bool) (k : ExcKind) : Eff (TreeSt V) Unit := fun s =>
  let s' := { s with tick := s.tick + 1 }
  if !nothrow && C.throws s.tick then .exc ⟨k, s.tick⟩ s' else .ok () s'

/-- `operator new` (The language; called at recursive_wrapper.hpp 110-135 and variant.hpp 800.) -/
def tAlloc : Eff (TreeSt V) ObjId := do
  Eff.modify fun s => { s with allocs := s.allocs + 1 }
  tMayThrow C false .badAlloc
  fun s => .ok s.next { s with heap := upd s.heap s.next (some .raw), next := s.next + 1 }

/-- `operator delete`: undefined unless the block is there and its object is dead. (The language; called at
recursive_wrapper.hpp 105 and backup_holder.hpp 33.) -/
def tFree (p : ObjId) : Eff (TreeSt V) Unit := fun s =>
  match s.heap p with
  | some .raw => .ok () { s with heap := upd s.heap p none }
  | _ => .fault .ub

/-- The object in block `p`, constructed by `ctor`, is complete. (The language: the end of a constructor.) -/
def tFill (p : ObjId) (c : TCell V) : Eff (TreeSt V) Unit := fun s =>
  match s.heap p with
  | some .raw => .ok () { s with heap := upd s.heap p (some c) }
  | _ => .fault .ub

/-- `new T(...)`: allocation, then construction; if that throws the block is freed. (The language; recursive_wrapper.hpp
110-135 and variant.hpp 800.) -/
def tNew (ctor : Eff (TreeSt V) (TCell V)) : Eff (TreeSt V) ObjId := do
  let p ← tAlloc C
  let c ← Eff.onExc ctor (tFree p)
  tFill p c
  pure p

/-- Use a node: undefined unless it is alive. (`recursive_wrapper::get()`, recursive_wrapper.hpp 94-98.) -/
def tReadNode (p : ObjId) : Eff (TreeSt V) (V × List (TVar V)) := fun s =>
  match s.heap p with
  | some (.node a cs) => .ok (a, cs) s
  | _ => .fault .ub

/-- `backup_holder::get()`, backup_holder.hpp 66-74: undefined unless the backup is alive. -/
def tReadBox (q : ObjId) : Eff (TreeSt V) (TContent V) := fun s =>
  match s.heap q with
  | some (.box c) => .ok c s
  | _ => .fault .ub

/-- The content of a variant, in place or in the backup (visitation_impl.hpp 98-149, variant.hpp 1045-1055). -/
def tContent : TVar V → Eff (TreeSt V) (TContent V)
  | .plain _ c => pure c
  | .backup _ q => tReadBox q

/-- The end of an object's life and of its block. (recursive_wrapper.hpp 105 and backup_holder.hpp 33.) -/
def tDelete (p : ObjId) : Eff (TreeSt V) Unit := do
  Eff.modify fun s => { s with heap := upd s.heap p (some .raw) }
  tFree p

/-- Destruction of the members in reverse order of construction. (The user's wrapped type; each member is destroyed by
variant.hpp 1259-1262.) -/
def tDestroyList (d : TVar V → Eff (TreeSt V) Unit) : List (TVar V) → Eff (TreeSt V) Unit
  | [] => pure ()
  | x :: xs => do
    tDestroyList d xs
    d x

/-- Destruction of an object of a bounded type. For a wrapper: `~recursive_wrapper`, recursive_wrapper.hpp 102-106, with
the destructor of the node. -/
def tDestroyContent (d : TVar V → Eff (TreeSt V) Unit) : TContent V → Eff (TreeSt V) Unit
  | .dead => Eff.fail .ub
  | .leaf _ => pure ()
  | .wrap p => do
    let n ← tReadNode p
    tDestroyList d n.2
    tDelete p

/-- `~variant`, by `destroyer`, variant.hpp 370-386 and 1251-1262; for a backup `~backup_holder`, backup_holder.hpp
31-34. -/
def tDestroyVar : Nat → TVar V → Eff (TreeSt V) Unit
  | 0, _ => Eff.fail .ub
  | n + 1, .plain _ c => tDestroyContent (tDestroyVar n) c
  | n + 1, .backup _ q => do
    let c ← tReadBox q
    tDestroyContent (tDestroyVar n) c
    tDelete q

/-- Copy construction of the members in order; if one throws, those before it are destroyed in reverse order. (The user's
wrapped type; each member is copied by variant.hpp 1636-1644.) -/
def tCopyList (f : TVar V → Eff (TreeSt V) (TVar V)) (d : TVar V → Eff (TreeSt V) Unit) :
    List (TVar V) → Eff (TreeSt V) (List (TVar V))
  | [] => pure []
  | x :: xs => do
    let x' ← f x
    let xs' ← Eff.onExc (tCopyList f d xs) (d x')
    pure (x' :: xs')

/-- Copy constructor of a node of the type with index `k`: its own value, then its variants. (The user's wrapped type,
called at recursive_wrapper.hpp 116.) -/
def tCopyNode (f : TVar V → Eff (TreeSt V) (TVar V)) (d : TVar V → Eff (TreeSt V) Unit) (k : TyIx) (a : V)
    (cs : List (TVar V)) : Eff (TreeSt V) (TCell V) := do
  tMayThrow C (C.tr k).nothrowCopy (.copyCtor k)
  let cs' ← tCopyList f d cs
  pure (.node (C.ops.copy k a) cs')

/-- Copy constructor of an object of the bounded type `k`. For a wrapper: `recursive_wrapper(const recursive_wrapper&)`,
recursive_wrapper.hpp 114-118. -/
def tCopyContent (f : TVar V → Eff (TreeSt V) (TVar V)) (d : TVar V → Eff (TreeSt V) Unit) (k : TyIx) :
    TContent V → Eff (TreeSt V) (TContent V)
  | .dead => Eff.fail .ub
  | .leaf v => do
    tMayThrow C (C.tr k).nothrowCopy (.copyCtor k)
    pure (.leaf (C.ops.copy k v))
  | .wrap p => do
    let n ← tReadNode p
    let q ← tNew C (tCopyNode C f d k n.1 n.2)
    pure (.wrap q)

/-- `variant(const variant&)`, variant.hpp 1636-1644, by `copy_into`, 420-454: the copy is never a backup. -/
def tCopyVar : Nat → TVar V → Eff (TreeSt V) (TVar V)
  | 0, _ => Eff.fail .ub
  | n + 1, x => do
    let c ← tContent x
    let c' ← tCopyContent C (tCopyVar n) (tDestroyVar n) x.which c
    pure (.plain x.which c')

/-- Read one of the program's variants. (The language: object lifetime.) -/
def tVar (x : Nat) : Eff (TreeSt V) (TVar V) := fun s =>
  match s.vars x with
  | some v => .ok v s
  | none => .fault .ub

/-- Write, begin or end one of the program's variants. (The language: object lifetime.) -/
def tSetVar (x : Nat) (v : Option (TVar V)) : Eff (TreeSt V) Unit := Eff.modify fun s => { s with vars := upd s.vars x v }

/-- Where a variant lives: it is one of the program's variables, or a member of a node. (The address of a variant: `*this`
in variant.hpp.) -/
inductive TLoc
  | var (x : Nat)
  | child (p : ObjId) (i : Nat)
  deriving DecidableEq, Repr

/-- Read a variant: undefined unless it is alive. (The language: object lifetime.) -/
def TLoc.read : TLoc → Eff (TreeSt V) (TVar V)
  | .var x => tVar x
  | .child p i => do
    let n ← tReadNode p
    match n.2[i]? with
    | some v => pure v
    | none => Eff.fail .ub

/-- Write a variant: undefined unless it is alive. (Writes of `which_` and `storage_`, variant.hpp 1209-1220.) -/
def TLoc.write : TLoc → TVar V → Eff (TreeSt V) Unit
  | .var x, v => do
    let _ ← tVar x
    tSetVar x (some v)
  | .child p i, v => do
    let n ← tReadNode p
    if i < n.2.length then Eff.modify fun s => { s with heap := upd s.heap p (some (.node n.1 (n.2.set i v))) }
    else Eff.fail .ub

/-- An expression for a variant: a variable, or the member with the given indices in nodes of nodes of its content, as
`get<T>(get<T>(y).members[i]).members[j]`. (The user's program, with get.hpp 148-201 and recursive_wrapper.hpp 94-98.) -/
structure TPlace where
  var : Nat
  path : List Nat
  deriving DecidableEq, Repr

/-- Follow a path of member indices from a variant. (The user's program, with get.hpp 148-201 and recursive_wrapper.hpp
94-98.) -/
def tWalk : TLoc → List Nat → Eff (TreeSt V) TLoc
  | l, [] => pure l
  | l, i :: is => do
    let v ← l.read
    let c ← tContent v
    match c with
    | .leaf _ | .dead => Eff.fail .ub
    | .wrap p => do
      let _ ← (TLoc.child p i).read
      tWalk (.child p i) is

/-- The variant that the expression denotes. (The user's program.) -/
def TPlace.eval (t : TPlace) : Eff (TreeSt V) TLoc := tWalk (.var t.var) t.path

/-- A reference to an object of a bounded type: in the storage of a variant, or in a heap backup. (The operand of the
visitors at variant.hpp 434-452, 475-487 and 718-840.) -/
inductive TRef
  | inPlace (l : TLoc)
  | inBox (q : ObjId)
  deriving DecidableEq, Repr

/-- Use a reference: undefined if the object it refers to is gone. (The language: object lifetime; cast_storage.hpp 27-37,
backup_holder.hpp 66-74.) -/
def TRef.read : TRef → Eff (TreeSt V) (TContent V)
  | .inPlace l => do
    let v ← l.read
    match v with
    | .plain _ c => pure c
    | .backup _ _ => Eff.fail .ub
  | .inBox q => tReadBox q

/-- Put an object of type `k` where a reference refers to. (The language: object lifetime; assignment through the
references at variant.hpp 512-537 and 563-588.) -/
def TRef.write (k : TyIx) : TRef → TContent V → Eff (TreeSt V) Unit
  | .inPlace l, c => l.write (.plain k c)
  | .inBox q, c => do
    let _ ← tReadBox q
    Eff.modify fun s => { s with heap := upd s.heap q (some (.box c)) }

/-- The content of the variant `v` at `l`. (variant.hpp 2185-2226 by visitation_impl.hpp 98-149.) -/
def TVar.ref (l : TLoc) : TVar V → TRef
  | .plain _ _ => .inPlace l
  | .backup _ q => .inBox q

/-! ### Moving -/

/-- Move construction of `r` members of the node `p`, from the one with index `i`, in order; if one throws, the new ones are
destroyed in reverse order. (The user's wrapped type; each member is moved by variant.hpp 1646-1654.) -/
def tMoveList (f : TLoc → Eff (TreeSt V) (TVar V)) (d : TVar V → Eff (TreeSt V) Unit) (p : ObjId) :
    Nat → Nat → Eff (TreeSt V) (List (TVar V))
  | 0, _ => pure []
  | r + 1, i => do
    let x' ← f (.child p i)
    let xs' ← Eff.onExc (tMoveList f d p r (i + 1)) (d x')
    pure (x' :: xs')

/-- Give the node `p` a value and members. (The user's wrapped type.) -/
def tSetNode (p : ObjId) (a : V) (cs : List (TVar V)) : Eff (TreeSt V) Unit := do
  let _ ← tReadNode p
  Eff.modify fun s => { s with heap := upd s.heap p (some (.node a cs)) }

/-- Move constructor of a node of the type with index `k`: its own value, then its variants, one by one or all at once.
(The user's wrapped type, called at recursive_wrapper.hpp 129.) -/
def tMoveNode (f : TLoc → Eff (TreeSt V) (TVar V)) (d : TVar V → Eff (TreeSt V) Unit) (k : TyIx) (p : ObjId) :
    Eff (TreeSt V) (TCell V) := do
  let n ← tReadNode p
  Eff.onExc (tMayThrow C (C.tr k).nothrowMove (.moveCtor k)) (tSetNode p (C.ops.moveFailSrc k n.1) n.2)
  tSetNode p (C.ops.movedFrom k n.1) n.2
  if C.steals k then do
    tSetNode p (C.ops.movedFrom k n.1) []
    pure (.node (C.ops.move k n.1) n.2)
  else do
    let cs' ← tMoveList f d p n.2.length 0
    pure (.node (C.ops.move k n.1) cs')

/-- Move constructor of an object of the bounded type `k`, from the one `r` refers to. For a wrapper:
`recursive_wrapper(recursive_wrapper&&)`, recursive_wrapper.hpp 127-131, which moves the node into a new one. -/
def tMoveRef (f : TLoc → Eff (TreeSt V) (TVar V)) (d : TVar V → Eff (TreeSt V) Unit) (k : TyIx) (r : TRef) :
    Eff (TreeSt V) (TContent V) := do
  let c ← r.read
  match c with
  | .dead => Eff.fail .ub
  | .leaf v => do
    Eff.onExc (tMayThrow C (C.tr k).nothrowMove (.moveCtor k)) (r.write k (.leaf (C.ops.moveFailSrc k v)))
    r.write k (.leaf (C.ops.movedFrom k v))
    pure (.leaf (C.ops.move k v))
  | .wrap p => do
    let q ← tNew C (tMoveNode C f d k p)
    pure (.wrap q)

/-- `variant(variant&&)`, variant.hpp 1646-1654, by `move_into`, 461-488: the result is never a backup. -/
def tMoveVar : Nat → TLoc → Eff (TreeSt V) (TVar V)
  | 0, _ => Eff.fail .ub
  | n + 1, l => do
    let x ← l.read
    let c ← tMoveRef C (tMoveVar n) (tDestroyVar n) x.which (x.ref l)
    pure (.plain x.which c)

/-! ### Assignment -/

/-- `T::operator=` of nodes. The library leaves it to `T`; here it is copy-and-swap. (Called at recursive_wrapper.hpp
58-62 and 140-144.) -/
def tAssignNode (n : Nat) (k : TyIx) (p q : ObjId) : Eff (TreeSt V) Unit := do
  let (b, ds) ← tReadNode q
  tMayThrow C (C.tr k).nothrowCopy (.copyCtor k)
  let ds' ← tCopyList (tCopyVar C n) (tDestroyVar n) ds
  let (_, cs) ← tReadNode p
  tSetNode p (C.ops.copy k b) ds'
  tDestroyList (tDestroyVar n) cs

/-- `assign_storage`, variant.hpp 496-539: the object `l` is assigned the object `r`. For wrappers
`recursive_wrapper::operator=`, recursive_wrapper.hpp 58-62. -/
def tAssignContent (n : Nat) (k : TyIx) (l r : TRef) : Eff (TreeSt V) Unit := do
  let c ← l.read
  let c' ← r.read
  match c, c' with
  | .leaf u, .leaf v => do
    Eff.onExc (tMayThrow C false (.copyAssign k)) (l.write k (.leaf (C.ops.assignFail k u v)))
    l.write k (.leaf (C.ops.assign k u v))
  | .wrap p, .wrap q => tAssignNode C n k p q
  | _, _ => Eff.fail .ub

/-- `move_storage`, variant.hpp 547-590: the object `l` is move-assigned the object `r`. For wrappers
`recursive_wrapper::operator=(recursive_wrapper&&)`, recursive_wrapper.hpp 79-83, which swaps the pointers (70-75). -/
def tMoveAssignContent (k : TyIx) (l r : TRef) : Eff (TreeSt V) Unit := do
  let c ← l.read
  let c' ← r.read
  match c, c' with
  | .leaf u, .leaf v =>
    if l = r then do
      Eff.onExc (tMayThrow C (C.tr k).nothrowMoveAssign (.moveAssign k)) (l.write k (.leaf (C.ops.selfMoveFail k u)))
      l.write k (.leaf (C.ops.selfMove k u))
    else do
      Eff.onExc (tMayThrow C (C.tr k).nothrowMoveAssign (.moveAssign k)) do
        l.write k (.leaf (C.ops.moveAssignFail k u v))
        r.write k (.leaf (C.ops.moveAssignFailSrc k u v))
      l.write k (.leaf (C.ops.moveAssign k u v))
      r.write k (.leaf (C.ops.moveAssignSrc k u v))
  | .wrap p, .wrap q => do
    r.write k (.wrap p)
    l.write k (.wrap q)
  | _, _ => Eff.fail .ub

/-- `destroy_content()`, variant.hpp 1251-1255. -/
def tDestroyAt (n : Nat) (l : TLoc) : Eff (TreeSt V) Unit := do
  let v ← l.read
  tDestroyVar n v
  l.write (.plain v.which .dead)

/-- `new(storage) RhsT(rhs_content)` (variant.hpp 715, 1697-1698, 1719-1720 and 1751-1752.) -/
def tCopyRef (n : Nat) (k : TyIx) (r : TRef) : Eff (TreeSt V) (TContent V) := do
  let c ← r.read
  tCopyContent C (tCopyVar C n) (tDestroyVar n) k c

/-- `has_nothrow_copy<RhsT>`. A wrapper's copy constructor allocates. (`has_nothrow_copy`, variant.hpp 1785-1786.) -/
def TreeCfg.nothrowCopy (k : TyIx) : Bool := !C.wrapped k && (C.tr k).nothrowCopy

/-- `is_nothrow_move_constructible<RhsT>`. For a wrapper false by recursive_wrapper_fwd.hpp 71. -/
def TreeCfg.nothrowMove (k : TyIx) : Bool := !C.wrapped k && (C.tr k).nothrowMove

/-- `backup_assigner`, variant.hpp 688-847, for a variant `lv` at `l`. -/
def tBackupAssign (n : Nat) (l : TLoc) (k : TyIx) (r : TRef) : TVar V → Eff (TreeSt V) Unit
  -- 718-753: the left content already is in a backup
  | .backup k0 q => do
    l.write (.plain k0 .dead)
    let c ← Eff.onExc (tCopyRef C n k r) (l.write (.backup k0 q))
    l.write (.plain k c)
    tDestroyVar n (.backup k0 q : TVar V)
  | .plain k0 c0 =>
    if C.nothrowMove k0 then
      match c0 with
      -- 755-790: the left content is moved to a local object
      | .leaf v => do
        tMayThrow C true (.moveCtor k0)
        l.write (.plain k0 .dead)
        let c ← Eff.onExc (tCopyRef C n k r) do
          tMayThrow C true (.moveCtor k0)
          l.write (.plain k0 (.leaf (C.ops.move k0 (C.ops.move k0 v))))
        l.write (.plain k c)
      | _ => Eff.fail .ub
    else do
      -- 792-829: the left content is copied to the heap
      let q ← tNew C do
        let c' ← tCopyContent C (tCopyVar C n) (tDestroyVar n) k0 c0
        pure (.box c')
      tDestroyAt n l
      let c ← Eff.onExc (tCopyRef C n k r) (l.write (.backup k0 q))
      l.write (.plain k c)
      tDestroyVar n (.backup k0 q : TVar V)

/-- `construct_fallback`, variant.hpp 1726-1735. The default constructor of a fallback type is nothrow (166-220). -/
def tFallback (l : TLoc) (fb : TyIx) : Eff (TreeSt V) Unit := do
  tMayThrow C true (.defaultCtor fb)
  l.write (.plain fb (.leaf (C.ops.defaultInit fb)))

/-- `assigner::internal_visit` and `assign_impl`, variant.hpp 1683-1798. The fallback is constructed as intended; finding F10
is the subject of Core/Variant.lean. -/
def tAssigner (n : Nat) (l : TLoc) (lv : TVar V) (k : TyIx) (r : TRef) : Eff (TreeSt V) Unit :=
  if C.nothrowCopy k then Eff.noexcept do
    tDestroyAt n l
    let c ← tCopyRef C n k r
    l.write (.plain k c)
  else if C.nothrowMove k then do
    let temp ← tCopyRef C n k r
    tDestroyAt n l
    match temp with
    | .leaf v => do
      tMayThrow C true (.moveCtor k)
      l.write (.plain k (.leaf (C.ops.move k v)))
    | _ => Eff.fail .ub
  else
    match C.fallback with
    | some fb => do
      tDestroyAt n l
      let c ← Eff.onExc (tCopyRef C n k r) (tFallback C l fb)
      l.write (.plain k c)
    | none => tBackupAssign C n l k r lv

/-- `move_assigner::internal_visit` and `assign_impl`, variant.hpp 1825-1916: of a type without a nothrow move constructor
that has a nothrow copy constructor a copy is made, and so it is if there is no fallback type. -/
def tMoveAssigner (n : Nat) (l : TLoc) (lv : TVar V) (k : TyIx) (r : TRef) : Eff (TreeSt V) Unit :=
  if C.nothrowMove k then Eff.noexcept do
    tDestroyAt n l
    let c ← tMoveRef C (tMoveVar C n) (tDestroyVar n) k r
    l.write (.plain k c)
  else if C.nothrowCopy k then Eff.noexcept do
    tDestroyAt n l
    let c ← tCopyRef C n k r
    l.write (.plain k c)
  else
    match C.fallback with
    | some fb => do
      tDestroyAt n l
      let c ← Eff.onExc (tMoveRef C (tMoveVar C n) (tDestroyVar n) k r) (tFallback C l fb)
      l.write (.plain k c)
    | none => tBackupAssign C n l k r lv

/-- `variant_assign(const variant&)`, variant.hpp 1927-1942: the variant at `l` is assigned that at `r`. The comparison is of
`which_`, which differs between a content in place and one in a backup. Assignment from a variant in a backup of another type,
or to one in place, copies a `backup_holder` (finding F1); simplified to the assertion that ends it. -/
def tVariantAssign (n : Nat) (l r : TLoc) : Eff (TreeSt V) Unit := do
  let lv ← l.read
  let rv ← r.read
  match lv, rv with
  | .plain k _, .plain k' _ =>
    if k = k' then tAssignContent C n k (.inPlace l) (.inPlace r) else tAssigner C n l lv k' (.inPlace r)
  | .backup k q, .backup k' q' =>
    if k = k' then tAssignContent C n k (.inBox q) (.inBox q') else Eff.fail .assertFailed
  | .backup _ _, .plain k' _ => tAssigner C n l lv k' (.inPlace r)
  | .plain _ _, .backup _ _ => Eff.fail .assertFailed

/-- `variant_assign(variant&&)`, variant.hpp 1944-1959. Simplified as `tVariantAssign`. -/
def tVariantMoveAssign (n : Nat) (l r : TLoc) : Eff (TreeSt V) Unit := do
  let lv ← l.read
  let rv ← r.read
  match lv, rv with
  | .plain k _, .plain k' _ =>
    if k = k' then tMoveAssignContent C k (.inPlace l) (.inPlace r) else tMoveAssigner C n l lv k' (.inPlace r)
  | .backup k q, .backup k' q' =>
    if k = k' then tMoveAssignContent C k (.inBox q) (.inBox q') else Eff.fail .assertFailed
  | .backup _ _, .plain k' _ => tMoveAssigner C n l lv k' (.inPlace r)
  | .plain _ _, .backup _ _ => Eff.fail .assertFailed

/-! ### Swap -/

/-- `swap` of two nodes, as `move_swap` finds it (detail/move.hpp 38-43). The library leaves it to `T`; here it swaps the values,
which may fail, and then the lists of variants, as for a `std::vector`. -/
def tSwapNode (k : TyIx) (p q : ObjId) : Eff (TreeSt V) Unit := do
  let (a, cs) ← tReadNode p
  let (b, ds) ← tReadNode q
  if p = q then do
    Eff.onExc (tMayThrow C false (.swap k)) (tSetNode p (C.ops.selfSwapFail k a) cs)
    tSetNode p (C.ops.selfSwap k a) cs
  else do
    Eff.onExc (tMayThrow C false (.swap k)) do
      tSetNode p (C.ops.swapFailL k a b) cs
      tSetNode q (C.ops.swapFailR k a b) ds
    tSetNode p (C.ops.swapL k a b) ds
    tSetNode q (C.ops.swapR k a b) cs

/-- `swap_with`, variant.hpp 856-887: the objects `l` and `r` are swapped. Visitation has unwrapped wrappers (1021-1043), so it is
the nodes that are swapped, not the pointers. -/
def tSwapContent (k : TyIx) (l r : TRef) : Eff (TreeSt V) Unit := do
  let c ← l.read
  let c' ← r.read
  match c, c' with
  | .leaf u, .leaf v =>
    if l = r then do
      Eff.onExc (tMayThrow C false (.swap k)) (l.write k (.leaf (C.ops.selfSwapFail k u)))
      l.write k (.leaf (C.ops.selfSwap k u))
    else do
      Eff.onExc (tMayThrow C false (.swap k)) do
        l.write k (.leaf (C.ops.swapFailL k u v))
        r.write k (.leaf (C.ops.swapFailR k u v))
      l.write k (.leaf (C.ops.swapL k u v))
      r.write k (.leaf (C.ops.swapR k u v))
  | .wrap p, .wrap q => tSwapNode C k p q
  | _, _ => Eff.fail .ub

/-- The end of the life of one of the program's variants. (variant.hpp 1259-1262.) -/
def tEndVar (n : Nat) (x : Nat) : Eff (TreeSt V) Unit := do
  let v ← tVar x
  tDestroyVar n v
  tSetVar x none

/-- `swap`, variant.hpp 2046-2062, of the variants at `l` (`*this`) and `r` (`rhs`). The local variant `tmp` lives at `z`. -/
def tSwap (n : Nat) (l r : TLoc) (z : Nat) : Eff (TreeSt V) Unit := do
  let lv ← l.read
  let rv ← r.read
  if lv.which = rv.which then tSwapContent C lv.which (lv.ref l) (rv.ref r)
  else do
    let tmp ← tMoveVar C n r
    tSetVar z (some tmp)
    Eff.onExc (do
      tVariantMoveAssign C n r l
      tVariantMoveAssign C n l (.var z)) (tEndVar n z)
    tEndVar n z

/-! ### Programs -/

/-- One statement of a program on recursive variants. (Calls of the functions at variant.hpp 1259-1262, 1589-1654 and
2001-2062.) -/
inductive TCmd (V : Type)
  /-- `variant x(v);` with `v` of the plain type `k` -/
  | leaf (x : Nat) (k : TyIx) (v : V)
  /-- `T t(a, ys...); variant x(t);` with a class `T`, wrapped at index `k`, that copies its arguments -/
  | node (x : Nat) (k : TyIx) (a : V) (ys : List TPlace)
  /-- `variant x(t);` with a variant `t` -/
  | copy (x : Nat) (t : TPlace)
  /-- `variant x(std::move(t));` -/
  | move (x : Nat) (t : TPlace)
  /-- `x = t;` with variants `x` and `t` -/
  | assign (x t : TPlace)
  /-- `x = std::move(t);` -/
  | moveAssign (x t : TPlace)
  /-- `x.swap(t);`, with the name `z` for the local variant -/
  | swap (x t : TPlace) (z : Nat)
  /-- `get<T>(x) = v;` for a plain type, `get<T>(x).value = v;` for a node: the program changes a content -/
  | store (x : TPlace) (v : V)
  /-- end of the life of `x` -/
  | destroy (x : Nat)

/-- The variants at the places. (The user's program.) -/
def tPlaces : List TPlace → Eff (TreeSt V) (List (TVar V))
  | [] => pure []
  | t :: ts => do
    let l ← t.eval
    let v ← l.read
    let vs ← tPlaces ts
    pure (v :: vs)

/-- The library call a statement stands for, with stack depth `n`. Construction from a plain value: initializer.hpp 54-136.
From a node: `recursive_wrapper(const T&)`, recursive_wrapper.hpp 120-124. -/
def TCmd.code (n : Nat) : TCmd V → Eff (TreeSt V) Unit
  | .leaf x k v => do
    tMayThrow C (C.tr k).nothrowCopy (.copyCtor k)
    tSetVar x (some (.plain k (.leaf (C.ops.copy k v))))
  | .node x k a ys => do
    let vs ← tPlaces ys
    let tmp ← tCopyList (tCopyVar C n) (tDestroyVar n) vs
    let p ← Eff.onExc (tNew C (tCopyNode C (tCopyVar C n) (tDestroyVar n) k a tmp)) (tDestroyList (tDestroyVar n) tmp)
    tDestroyList (tDestroyVar n) tmp
    tSetVar x (some (.plain k (.wrap p)))
  | .copy x t => do
    let l ← t.eval
    let v ← l.read
    let v' ← tCopyVar C n v
    tSetVar x (some v')
  | .move x t => do
    let l ← t.eval
    let v' ← tMoveVar C n l
    tSetVar x (some v')
  | .assign x t => do
    let l ← x.eval
    let r ← t.eval
    tVariantAssign C n l r
  | .moveAssign x t => do
    let l ← x.eval
    let r ← t.eval
    tVariantMoveAssign C n l r
  | .swap x t z => do
    let l ← x.eval
    let r ← t.eval
    tSwap C n l r z
  | .store x v => do
    let l ← x.eval
    let y ← l.read
    let c ← tContent y
    match c with
    | .dead => Eff.fail .ub
    | .leaf _ => (y.ref l).write y.which (.leaf v)
    | .wrap p => do
      let m ← tReadNode p
      tSetNode p v m.2
  | .destroy x => tEndVar n x

/-- The place exists. (The user's program.) -/
def TPlace.valid (s : TreeSt V) (t : TPlace) : Bool :=
  match t.eval s with
  | .ok l s' =>
    match l.read s' with
    | .ok _ _ => true
    | _ => false
  | _ => false

/-- The variant at a place. (The user's program.) -/
def TPlace.variant (s : TreeSt V) (t : TPlace) : Option (TVar V) :=
  match t.eval s with
  | .ok l s' =>
    match l.read s' with
    | .ok v _ => some v
    | _ => none
  | _ => none

/-- Is `t` a part of the content of the variant `x`? (The user's program.) -/
def TPlace.inside (t x : TPlace) : Bool := t.var == x.var && x.path.isPrefixOf t.path && t.path != x.path

/-- Does assigning content of type `k'` in place to `lv` destroy the left content before the right one is read? (The
strategies of `assigner`, variant.hpp 1683-1798; of these 1704-1724 and 1737-1765 destroy the content before they are done
with the right side.) -/
def tDestroysFirst (lv : TVar V) (k' : TyIx) : Bool :=
  if C.nothrowCopy k' then true
  else if C.nothrowMove k' then false
  else
    match C.fallback, lv with
    | none, .backup _ _ => false
    | _, _ => true

/-- The same for move assignment. (The strategies of `move_assigner`, variant.hpp 1825-1916.) -/
def tMoveDestroysFirst (lv : TVar V) (k' : TyIx) : Bool :=
  C.nothrowMove k' || C.nothrowCopy k' ||
    match C.fallback, lv with
    | none, .backup _ _ => false
    | _, _ => true

/-- The assignment or swap is one of those the library does not support: from a variant in a backup (F1); with one side a part of the
other, if something is destroyed before it is read (F5), or if nodes are swapped (F20). A swap between types moves from its left
side; and swaps of a variant with a part of it are left out (see `C56_swap_with_part_leaks`
and `C56_swap_with_part_undefined`). -/
def TCmd.hazard (s : TreeSt V) : TCmd V → Bool
  | .assign x t =>
    match x.variant s, t.variant s with
    | some (.plain _ _), some (.backup _ _) => true
    | some (.backup k _), some (.backup k' _) => k != k'
    | some (.plain k c), some (.plain k' _) => k != k' && ((t.inside x && tDestroysFirst C (.plain k c) k') || x.inside t)
    | some (.backup k q), some (.plain k' _) => (t.inside x && tDestroysFirst C (.backup k q : TVar V) k') || x.inside t
    | _, _ => false
  | .moveAssign x t =>
    match x.variant s, t.variant s with
    | some (.plain _ _), some (.backup _ _) => true
    | some (.backup k _), some (.backup k' _) => k != k' || t.inside x || x.inside t
    | some (.plain k c), some (.plain k' _) =>
      if k = k' then t.inside x || x.inside t
      else (t.inside x && tMoveDestroysFirst C (.plain k c) k') || x.inside t
    | some (.backup k q), some (.plain k' _) => (t.inside x && tMoveDestroysFirst C (.backup k q : TVar V) k') || x.inside t
    | _, _ => false
  | .swap x t _ =>
    match x.variant s, t.variant s with
    | some (.plain _ _), some _ => t.inside x || x.inside t
    | some (.backup k _), some v => k != v.which || t.inside x || x.inside t
    | _, _ => false
  | _ => false

/-- The statement is valid C++ in the given state. (The language: object lifetime.) -/
def TCmd.valid (s : TreeSt V) : TCmd V → Bool
  | .leaf x k _ => (s.vars x).isNone && !C.wrapped k
  | .node x k _ ys => (s.vars x).isNone && C.wrapped k && ys.all (·.valid s)
  | .copy x t => (s.vars x).isNone && t.valid s
  | .move x t => (s.vars x).isNone && t.valid s
  | .assign x t => x.valid s && t.valid s
  | .moveAssign x t => x.valid s && t.valid s
  | .swap x t z => x.valid s && t.valid s && (s.vars z).isNone
  | .store x _ => x.valid s
  | .destroy x => (s.vars x).isSome

/-- Run a program, in which each exception is caught after its statement. Statements that are not valid are skipped. (The
user's program; the library has no such code.) -/
def tRun (n : Nat) : List (TCmd V) → TreeSt V → Option (TreeSt V)
  | [], s => some s
  | c :: cs, s =>
    if c.valid C s then
      match c.code C n s with
      | .ok _ s' => tRun n cs s'
      | .exc _ s' => tRun n cs s'
      | .fault _ => none
    else tRun n cs s

/-- The run meets none of the assignments the library does not support. (The assignments described in findings F14 and
F20; the library has no such code.) -/
def tClean (n : Nat) : List (TCmd V) → TreeSt V → Bool
  | [], _ => true
  | c :: cs, s =>
    if c.valid C s then
      !c.hazard C s && match c.code C n s with
      | .ok _ s' => tClean n cs s'
      | .exc _ s' => tClean n cs s'
      | .fault _ => true
    else tClean n cs s

/-- Before any object exists. (Device of the model.) -/
def TreeSt.init (V : Type) : TreeSt V := { heap := fun _ => none, next := 0, vars := fun _ => none, tick := 0, allocs := 0 }

end

end BVariant
