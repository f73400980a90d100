/-
Specification for C73: exactly what each statement on recursive variants does. A variant is a finite tree, with a mark at each
variant that says whether its content is in a heap backup; there is no heap, there are no pointers and no places but paths. What the
operations of the elements do to values is taken from `Ops`, without assuming that copies are equal.
-/
import Verif.Spec.Tree

namespace BVariant

/-- The value of a recursive variant; `b`: is its content in a heap backup? -/
inductive XTree (V : Type)
  | leaf (b : Bool) (k : TyIx) (v : V)
  | node (b : Bool) (k : TyIx) (a : V) (f : List (XTree V))

/-- How many operations of the elements and how many allocations there have been. -/
structure Count where
  tick : Nat
  allocs : Nat
  deriving DecidableEq, Repr

/-- The state: a tree for each variable that is alive. -/
structure XTSt (V : Type) where
  vars : Nat → Option (XTree V)
  count : Count

/-- Before any variable is alive. -/
def XTSt.init (V : Type) : XTSt V := ⟨fun _ => none, ⟨0, 0⟩⟩

section
variable {V : Type}

namespace XTree

def which : XTree V → TyIx
  | leaf _ k _ => k
  | node _ k _ _ => k

def backed : XTree V → Bool
  | leaf b _ _ => b
  | node b _ _ _ => b

/-- The same content, in a backup or not. -/
def mark (b : Bool) : XTree V → XTree V
  | leaf _ k v => leaf b k v
  | node _ k a f => node b k a f

/-- The value at the root. -/
def root : XTree V → V
  | leaf _ _ v => v
  | node _ _ a _ => a

/-- The members. -/
def members : XTree V → List (XTree V)
  | leaf _ _ _ => []
  | node _ _ _ f => f

/-- The same variant with another value, and other members. -/
def fill (v : V) (f : List (XTree V)) : XTree V → XTree V
  | leaf b k _ => leaf b k v
  | node b k _ _ => node b k v f

/-- The part at the end of a path. -/
def sub : XTree V → List Nat → Option (XTree V)
  | t, [] => some t
  | leaf _ _ _, _ :: _ => none
  | node _ _ _ f, i :: is =>
    match f[i]? with
    | some t => t.sub is
    | none => none

/-- The tree with another part at the end of a path. -/
def put : XTree V → List Nat → XTree V → XTree V
  | _, [], u => u
  | leaf b k v, _ :: _, _ => leaf b k v
  | node b k a f, i :: is, u =>
    match f[i]? with
    | some t => node b k a (f.set i (t.put is u))
    | none => node b k a f

end XTree

mutual
/-- The value without the marks. -/
def XTree.erase : XTree V → VTree V
  | .leaf _ k v => .leaf k v
  | .node _ k a f => .node k a (XTree.eraseL f)
def XTree.eraseL : List (XTree V) → VForest V
  | [] => .nil
  | t :: ts => .cons t.erase (XTree.eraseL ts)
end

mutual
/-- In heap `h`, the variant `x` is the tree, and the blocks it owns are those listed. -/
def XTree.Rep (h : ObjId → Option (TCell V)) : XTree V → TVar V → List ObjId → Prop
  | .leaf false k v, x, ns => x = .plain k (.leaf v) ∧ ns = []
  | .leaf true k v, x, ns => ∃ q, x = .backup k q ∧ h q = some (.box (.leaf v)) ∧ ns = [q]
  | .node false k a f, x, ns => ∃ p cs ms, x = .plain k (.wrap p) ∧ h p = some (.node a cs) ∧ XTree.RepL h f cs ms ∧ ns = p :: ms
  | .node true k a f, x, ns => ∃ q p cs ms, x = .backup k q ∧ h q = some (.box (.wrap p)) ∧ h p = some (.node a cs) ∧
      XTree.RepL h f cs ms ∧ ns = q :: p :: ms
def XTree.RepL (h : ObjId → Option (TCell V)) : List (XTree V) → List (TVar V) → List ObjId → Prop
  | [], xs, ns => xs = [] ∧ ns = []
  | t :: ts, xs, ns => ∃ y ys ms ms', xs = y :: ys ∧ t.Rep h y ms ∧ XTree.RepL h ts ys ms' ∧ ns = ms ++ ms'
end

/-- The state of the model shows the state of the specification: each variable is its tree, in blocks of its own; there is no other
memory; and the counters agree. -/
structure TreeSt.Shows (s : TreeSt V) (σ : XTSt V) (own : Nat → List ObjId) : Prop where
  val : ∀ x u, σ.vars x = some u → ∃ v, s.vars x = some v ∧ u.Rep s.heap v (own x)
  dead : ∀ x, σ.vars x = none → s.vars x = none ∧ own x = []
  nodup : ∀ x, (own x).Nodup
  disj : ∀ x y p, p ∈ own x → p ∈ own y → x = y
  owned : ∀ p, s.heap p ≠ none → ∃ x, p ∈ own x
  tick : s.tick = σ.count.tick
  allocs : s.allocs = σ.count.allocs

/-- The values of the variables, without the marks. -/
def XTSt.values (σ : XTSt V) : TStore V := fun x => (σ.vars x).map XTree.erase

/-- The variant at a place. -/
def XTSt.at (σ : XTSt V) (t : TPlace) : Option (XTree V) :=
  match σ.vars t.var with
  | some u => u.sub t.path
  | none => none

/-! ### Operations -/

variable (C : TreeCfg V)

/-- An operation of the elements, which may throw. -/
def xtMay (nothrow : Bool) (k : ExcKind) : Eff Count Unit := fun c =>
  if nothrow = false ∧ C.throws c.tick = true then .exc ⟨k, c.tick⟩ { c with tick := c.tick + 1 }
  else .ok () { c with tick := c.tick + 1 }

/-- A call of `operator new`. -/
def xtNew : Eff Count Unit := do
  Eff.modify fun c => { c with allocs := c.allocs + 1 }
  xtMay C false .badAlloc

mutual
/-- A copy of a tree: of the value of a node first, in a new block, then of its members in order. No copy is in a backup. -/
def xtCopy : XTree V → Eff Count (XTree V)
  | .leaf _ k v => do
    xtMay C (C.tr k).nothrowCopy (.copyCtor k)
    pure (.leaf false k (C.ops.copy k v))
  | .node _ k a f => do
    xtNew C
    xtMay C (C.tr k).nothrowCopy (.copyCtor k)
    let f' ← xtCopyAll f
    pure (.node false k (C.ops.copy k a) f')
def xtCopyAll : List (XTree V) → Eff Count (List (XTree V))
  | [] => pure []
  | t :: ts => do
    let t' ← xtCopy t
    let ts' ← xtCopyAll ts
    pure (t' :: ts')
end

/-- What becomes of something that is moved: if all goes well, what it is moved to; and what it is itself afterwards. -/
inductive Moved (β : Type)
  | ok (to src : β) (c : Count)
  | exc (e : Exc) (src : β) (c : Count)

mutual
/-- A tree is moved: the value of a node first, to a new block, then its members, all at once or one by one in order. If that fails
what has been moved stays moved from. -/
def xtMove (c : Count) : XTree V → Moved (XTree V)
  | .leaf b k v =>
    match xtMay C (C.tr k).nothrowMove (.moveCtor k) c with
    | .ok _ c => .ok (.leaf false k (C.ops.move k v)) (.leaf b k (C.ops.movedFrom k v)) c
    | .exc e c => .exc e (.leaf b k (C.ops.moveFailSrc k v)) c
    | .fault _ => .ok (.leaf b k v) (.leaf b k v) c
  | .node b k a f =>
    match xtNew C c with
    | .ok _ c =>
      match xtMay C (C.tr k).nothrowMove (.moveCtor k) c with
      | .ok _ c =>
        if C.steals k then .ok (.node false k (C.ops.move k a) f) (.node b k (C.ops.movedFrom k a) []) c
        else
          match xtMoveAll c f with
          | .ok f' f'' c => .ok (.node false k (C.ops.move k a) f') (.node b k (C.ops.movedFrom k a) f'') c
          | .exc e f'' c => .exc e (.node b k (C.ops.movedFrom k a) f'') c
      | .exc e c => .exc e (.node b k (C.ops.moveFailSrc k a) f) c
      | .fault _ => .ok (.node b k a f) (.node b k a f) c
    | .exc e c => .exc e (.node b k a f) c
    | .fault _ => .ok (.node b k a f) (.node b k a f) c
def xtMoveAll (c : Count) : List (XTree V) → Moved (List (XTree V))
  | [] => .ok [] [] c
  | t :: ts =>
    match xtMove c t with
    | .ok u t' c =>
      match xtMoveAll c ts with
      | .ok us ts' c => .ok (u :: us) (t' :: ts') c
      | .exc e ts' c => .exc e (t' :: ts') c
    | .exc e t' c => .exc e (t' :: ts) c
end

/-- Operations that change no variable. -/
def xtRun {γ : Type} (m : Eff Count γ) : Eff (XTSt V) γ := fun σ =>
  match m σ.count with
  | .ok a c => .ok a { σ with count := c }
  | .exc e c => .exc e { σ with count := c }
  | .fault f => .fault f

/-- The variant at a place that is there. -/
def xtGet (t : TPlace) : Eff (XTSt V) (XTree V) := fun σ =>
  match σ.at t with
  | some u => .ok u σ
  | none => .fault .ub

/-- The variant at a place becomes another. -/
def xtPut (t : TPlace) (u : XTree V) : Eff (XTSt V) Unit :=
  Eff.modify fun σ => { σ with vars := upd σ.vars t.var ((σ.vars t.var).map (·.put t.path u)) }

/-- A variable begins or ends. -/
def xtSet (x : Nat) (u : Option (XTree V)) : Eff (XTSt V) Unit := Eff.modify fun σ => { σ with vars := upd σ.vars x u }

/-- The variant at a place is moved away. -/
def xtTake (t : TPlace) : Eff (XTSt V) (XTree V) := do
  let u ← xtGet t
  fun σ =>
    match xtMove C σ.count u with
    | .ok u' src c => (do xtPut t src; pure u' : Eff (XTSt V) (XTree V)) { σ with count := c }
    | .exc e src c => (do xtPut t src; fun σ => .exc e σ : Eff (XTSt V) (XTree V)) { σ with count := c }

/-- The fallback content, as a last resort. -/
def xtFallback (x : TPlace) (fb : TyIx) : Eff (XTSt V) Unit := do
  xtRun (xtMay C true (.defaultCtor fb))
  xtPut x (.leaf false fb (C.ops.defaultInit fb))

/-- The content `l` at `x` is replaced by a copy of `r`, and restored if that fails: it waits in the backup it is in; or in a local
object, to which it is moved and from which it is moved back; or in a new backup, where it then stays. -/
def xtGuarded (x : TPlace) (l r : XTree V) : Eff (XTSt V) Unit := do
  if l.backed then do
    let u ← xtRun (xtCopy C r)
    xtPut x u
  else if C.nothrowMove l.which then do
    xtRun (xtMay C true (.moveCtor l.which))
    let u ← Eff.onExc (xtRun (xtCopy C r)) do
      xtRun (xtMay C true (.moveCtor l.which))
      xtPut x (l.fill (C.ops.move l.which (C.ops.move l.which l.root)) l.members)
    xtPut x u
  else do
    xtRun (xtNew C)
    let l' ← xtRun (xtCopy C l)
    let u ← Eff.onExc (xtRun (xtCopy C r)) (xtPut x (l'.mark true))
    xtPut x u

/-- The content `l` at `x` is replaced by a copy of `r`. -/
def xtReplace (x : TPlace) (l r : XTree V) : Eff (XTSt V) Unit :=
  if C.nothrowCopy r.which then do
    let u ← xtRun (xtCopy C r)
    xtPut x u
  else if C.nothrowMove r.which then do
    let u ← xtRun (xtCopy C r)
    xtRun (xtMay C true (.moveCtor r.which))
    xtPut x (u.fill (C.ops.move r.which u.root) u.members)
  else
    match C.fallback with
    | some fb => do
      let u ← Eff.onExc (xtRun (xtCopy C r)) (xtFallback C x fb)
      xtPut x u
    | none => xtGuarded C x l r

/-- The content `l` at `x` is replaced by the one at `t`, which is `r`: it is moved, or copied. -/
def xtReplaceMove (x t : TPlace) (l r : XTree V) : Eff (XTSt V) Unit :=
  if C.nothrowMove r.which then do
    let u ← xtTake C t
    xtPut x u
  else if C.nothrowCopy r.which then do
    let u ← xtRun (xtCopy C r)
    xtPut x u
  else
    match C.fallback with
    | some fb => do
      let u ← Eff.onExc (xtTake C t) (xtFallback C x fb)
      xtPut x u
    | none => xtGuarded C x l r

/-- `x = t;` Contents of one type, both in place or both in a backup, are assigned; and a node is assigned by copying its value and
its members. Any other content is replaced. -/
def xtAssign (x t : TPlace) : Eff (XTSt V) Unit := do
  let l ← xtGet x
  let r ← xtGet t
  if l.which = r.which ∧ l.backed = r.backed then
    match l, r with
    | .leaf b k u, .leaf _ _ v => do
      Eff.onExc (xtRun (xtMay C false (.copyAssign k))) (xtPut x (.leaf b k (C.ops.assignFail k u v)))
      xtPut x (.leaf b k (C.ops.assign k u v))
    | .node b k _ _, .node _ _ a f => do
      xtRun (xtMay C (C.tr k).nothrowCopy (.copyCtor k))
      let f' ← xtRun (xtCopyAll C f)
      xtPut x (.node b k (C.ops.copy k a) f')
    | _, _ => Eff.fail .ub
  else xtReplace C x l r

/-- `x = std::move(t);` Contents of one type, both in place or both in a backup, are move-assigned; and nodes are exchanged. Any other
content is replaced. -/
def xtMoveAssign (x t : TPlace) : Eff (XTSt V) Unit := do
  let l ← xtGet x
  let r ← xtGet t
  if l.which = r.which ∧ l.backed = r.backed then
    match l, r with
    | .leaf b k u, .leaf b' _ v =>
      if x = t then do
        Eff.onExc (xtRun (xtMay C (C.tr k).nothrowMoveAssign (.moveAssign k))) (xtPut x (.leaf b k (C.ops.selfMoveFail k u)))
        xtPut x (.leaf b k (C.ops.selfMove k u))
      else do
        Eff.onExc (xtRun (xtMay C (C.tr k).nothrowMoveAssign (.moveAssign k))) do
          xtPut x (.leaf b k (C.ops.moveAssignFail k u v))
          xtPut t (.leaf b' k (C.ops.moveAssignFailSrc k u v))
        xtPut x (.leaf b k (C.ops.moveAssign k u v))
        xtPut t (.leaf b' k (C.ops.moveAssignSrc k u v))
    | .node .., .node .. => do
      xtPut x r
      xtPut t l
    | _, _ => Eff.fail .ub
  else xtReplaceMove C x t l r

/-- `x.swap(t);` Contents of one type are swapped: the values, and the members of nodes. Others are moved, by way of a local variant
`z`. -/
def xtSwap (x t : TPlace) (z : Nat) : Eff (XTSt V) Unit := do
  let l ← xtGet x
  let r ← xtGet t
  if l.which = r.which then
    if x = t then do
      Eff.onExc (xtRun (xtMay C false (.swap l.which))) (xtPut x (l.fill (C.ops.selfSwapFail l.which l.root) l.members))
      xtPut x (l.fill (C.ops.selfSwap l.which l.root) l.members)
    else do
      Eff.onExc (xtRun (xtMay C false (.swap l.which))) do
        xtPut x (l.fill (C.ops.swapFailL l.which l.root r.root) l.members)
        xtPut t (r.fill (C.ops.swapFailR l.which l.root r.root) r.members)
      xtPut x (l.fill (C.ops.swapL l.which l.root r.root) r.members)
      xtPut t (r.fill (C.ops.swapR l.which l.root r.root) l.members)
  else do
    let u ← xtTake C t
    xtSet z (some u)
    Eff.onExc (do
      xtMoveAssign C t x
      xtMoveAssign C x ⟨z, []⟩) (xtSet z none)
    xtSet z none

/-- The variants at the places. -/
def xtGetAll : List TPlace → Eff (XTSt V) (List (XTree V))
  | [] => pure []
  | t :: ts => do
    let u ← xtGet t
    let us ← xtGetAll ts
    pure (u :: us)

/-- Exactly what a statement does. -/
def TCmd.exact : TCmd V → Eff (XTSt V) Unit
  | .leaf x k v => do
    xtRun (xtMay C (C.tr k).nothrowCopy (.copyCtor k))
    xtSet x (some (.leaf false k (C.ops.copy k v)))
  | .node x k a ys => do
    let f ← xtGetAll ys
    let f' ← xtRun (xtCopyAll C f)
    let u ← xtRun (xtCopy C (.node false k a f'))
    xtSet x (some u)
  | .copy x t => do
    let r ← xtGet t
    let u ← xtRun (xtCopy C r)
    xtSet x (some u)
  | .move x t => do
    let u ← xtTake C t
    xtSet x (some u)
  | .assign x t => xtAssign C x t
  | .moveAssign x t => xtMoveAssign C x t
  | .swap x t z => xtSwap C x t z
  | .store x v => do
    let u ← xtGet x
    xtPut x (u.fill v u.members)
  | .destroy x => xtSet x none

/-- The statements the library does not support, by the trees (see `TCmd.hazard`). -/
def TCmd.risky (σ : XTSt V) : TCmd V → Bool
  | .assign x t =>
    match σ.at x, σ.at t with
    | some l, some r =>
      if l.backed = r.backed ∧ l.which = r.which then false
      else r.backed || x.inside t || (t.inside x && (C.nothrowCopy r.which || (!C.nothrowMove r.which && (C.fallback.isSome || !l.backed))))
    | _, _ => false
  | .moveAssign x t =>
    match σ.at x, σ.at t with
    | some l, some r =>
      if l.backed = r.backed ∧ l.which = r.which then t.inside x || x.inside t
      else r.backed || x.inside t || (t.inside x && (C.nothrowCopy r.which || C.nothrowMove r.which || C.fallback.isSome || !l.backed))
    | _, _ => false
  | .swap x t _ =>
    match σ.at x, σ.at t with
    | some l, some r => t.inside x || x.inside t || (l.backed && l.which != r.which)
    | _, _ => false
  | _ => false

/-- Which statements are valid: variables that begin must not be alive, and the places that are used must be there. -/
def TCmd.okay (σ : XTSt V) : TCmd V → Bool
  | .leaf x k _ => (σ.vars x).isNone && !C.wrapped k
  | .node x k _ ys => (σ.vars x).isNone && C.wrapped k && ys.all fun t => (σ.at t).isSome
  | .copy x t => (σ.vars x).isNone && (σ.at t).isSome
  | .move x t => (σ.vars x).isNone && (σ.at t).isSome
  | .assign x t => (σ.at x).isSome && (σ.at t).isSome
  | .moveAssign x t => (σ.at x).isSome && (σ.at t).isSome
  | .swap x t z => (σ.at x).isSome && (σ.at t).isSome && (σ.vars z).isNone
  | .store x _ => (σ.at x).isSome
  | .destroy x => (σ.vars x).isSome

/-- What a program does: the state at the end, and what each of its statements threw, if it did. Exceptions are caught after each
statement, and statements that are not valid are skipped. `none`: the program comes to a statement the library does not support. -/
def xtRunAll : List (TCmd V) → XTSt V → Option (XTSt V × List (Option Exc))
  | [], σ => some (σ, [])
  | c :: cs, σ =>
    if c.okay C σ then
      if c.risky C σ then none
      else
        match c.exact C σ with
        | .ok _ σ' => (xtRunAll cs σ').map fun p => (p.1, none :: p.2)
        | .exc e σ' => (xtRunAll cs σ').map fun p => (p.1, some e :: p.2)
        | .fault _ => none
    else (xtRunAll cs σ).map fun p => (p.1, none :: p.2)

/-- What each statement of a run of the model throws. -/
def tThrown (n : Nat) : List (TCmd V) → TreeSt V → List (Option Exc)
  | [], _ => []
  | c :: cs, s =>
    if c.valid C s then
      match c.code C n s with
      | .ok _ s' => none :: tThrown n cs s'
      | .exc e s' => some e :: tThrown n cs s'
      | .fault _ => []
    else none :: tThrown n cs s

end

end BVariant
