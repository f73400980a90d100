/-
Specification for C82: recursive visitors of several variants, on stores of plain trees.
-/
import Verif.Spec.TreeVisit
import Verif.Spec.TreeOrder
import Verif.Core.TreeVisitN

namespace BVariant

section
variable {V A R : Type}

/-- A member of the variant at a place. -/
def TPlace.member (x : TPlace) (i : Nat) : TPlace := ⟨x.var, x.path ++ [i]⟩

/-- The place that is meant, if the arguments of the visitor are at the places `ys`. -/
def VSel.place (ys : List TPlace) : VSel → Option TPlace
  | .member o i => ys[o]?.map (·.member i)
  | .at x => some x

def selPlaces (ys : List TPlace) : List VSel → Option (List TPlace)
  | [] => some []
  | z :: zs =>
    match z.place ys, selPlaces ys zs with
    | some y, some r => some (y :: r)
    | _, _ => none

/-- The types, values and numbers of members of the variants at some places. -/
def TStore.operands (σ : TStore V) : List TPlace → Option (List (TyIx × V × Nat))
  | [] => some []
  | y :: ys =>
    match σ.at y, σ.operands ys with
    | some t, some r => some ((t.which, t.root, t.arity) :: r)
    | _, _ => none

/-- What the visitor does with the store: `ActsN vis d ys act σ σ' o` says that when it has come to `act`, its arguments are at the places `ys` and
the store is `σ`, then at the end the store is `σ'`, and it has returned `o`, or thrown if `o` is `none`; and calls are nested `d` deep at most. -/
inductive ActsN (vis : NVisitor V A R) : Nat → List TPlace → VActN V A R → TStore V → TStore V → Option R → Prop
  | ret {d ys r σ} : ActsN vis d ys (.ret r) σ σ (some r)
  | throw {d ys σ} : ActsN vis d ys .throw σ σ none
  | read {d ys o next σ σ' y t r} : ys[o]? = some y → σ.at y = some t → ActsN vis d ys (next t.root) σ σ' r →
      ActsN vis d ys (.read o next) σ σ' r
  | write {d ys o v next σ σ' y t r} : ys[o]? = some y → σ.at y = some t → ActsN vis d ys next (σ.put y (t.store v)) σ' r →
      ActsN vis d ys (.write o v next) σ σ' r
  | visit {d ys sel a next σ σ1 σ' ys' os r o} : selPlaces ys sel = some ys' → σ.operands ys' = some os →
      ActsN vis d ys' (vis a os) σ σ1 (some r) → ActsN vis (d + 1) ys (next r) σ1 σ' o →
      ActsN vis (d + 1) ys (.visit sel a next) σ σ' o
  | visitThrows {d ys sel a next σ σ1 ys' os} : selPlaces ys sel = some ys' → σ.operands ys' = some os →
      ActsN vis d ys' (vis a os) σ σ1 none → ActsN vis (d + 1) ys (.visit sel a next) σ σ1 none
  | tryVisit {d ys sel a next handler σ σ1 σ' ys' os r o} : selPlaces ys sel = some ys' → σ.operands ys' = some os →
      ActsN vis d ys' (vis a os) σ σ1 (some r) → ActsN vis (d + 1) ys (next r) σ1 σ' o →
      ActsN vis (d + 1) ys (.tryVisit sel a next handler) σ σ' o
  | tryHandled {d ys sel a next handler σ σ1 σ' ys' os o} : selPlaces ys sel = some ys' → σ.operands ys' = some os →
      ActsN vis d ys' (vis a os) σ σ1 none → ActsN vis (d + 1) ys handler σ1 σ' o →
      ActsN vis (d + 1) ys (.tryVisit sel a next handler) σ σ' o

/-- Visiting the variants at the places `ys`, with `d` nested calls at most. -/
def VisitedN (vis : NVisitor V A R) (d : Nat) (ys : List TPlace) (a : A) (σ σ' : TStore V) (o : Option R) : Prop :=
  ∃ os, σ.operands ys = some os ∧ ActsN vis d ys (vis a os) σ σ' o

/-- In the stores the same places are there, and have the same types and numbers of members. -/
def TStore.Alike (σ τ : TStore V) : Prop :=
  ∀ y, (τ.at y).map (fun t => (t.which, t.arity)) = (σ.at y).map (fun t => (t.which, t.arity))

/-! ### Recursion that ends -/

/-- The visitor, with arguments at the places `ys`, visits only places that are in the store, and for which the measure `μ` is less than `m`. -/
def VActN.Ends (σ : TStore V) (μ : A → List TPlace → Nat) (m : Nat) (ys : List TPlace) : VActN V A R → Prop
  | .ret _ | .throw => True
  | .read o next => o < ys.length ∧ ∀ v, (next v).Ends σ μ m ys
  | .write o _ next => o < ys.length ∧ next.Ends σ μ m ys
  | .visit sel a next => (∃ ys', selPlaces ys sel = some ys' ∧ (∀ y ∈ ys', σ.at y ≠ none) ∧ μ a ys' < m) ∧ ∀ r, (next r).Ends σ μ m ys
  | .tryVisit sel a next handler => (∃ ys', selPlaces ys sel = some ys' ∧ (∀ y ∈ ys', σ.at y ≠ none) ∧ μ a ys' < m) ∧
      (∀ r, (next r).Ends σ μ m ys) ∧ handler.Ends σ μ m ys

/-- That is so for all places, and whatever the values there are at the time. -/
def NVisitor.Ends (vis : NVisitor V A R) (σ : TStore V) (μ : A → List TPlace → Nat) : Prop :=
  ∀ a ys os os', σ.operands ys = some os → os'.map (fun z => (z.1, z.2.2)) = os.map (fun z => (z.1, z.2.2)) →
    (vis a os').Ends σ μ (μ a ys) ys

/-- The visitor visits only members of its arguments, whose numbers of members are `ms`, and at least one at a time. -/
def VActN.Within (ms : List Nat) : VActN V A R → Prop
  | .ret _ | .throw => True
  | .read o next => o < ms.length ∧ ∀ v, (next v).Within ms
  | .write o _ next => o < ms.length ∧ next.Within ms
  | .visit sel _ next => (sel ≠ [] ∧ ∀ z ∈ sel, ∃ o i m, z = .member o i ∧ ms[o]? = some m ∧ i < m) ∧ ∀ r, (next r).Within ms
  | .tryVisit sel _ next handler => (sel ≠ [] ∧ ∀ z ∈ sel, ∃ o i m, z = .member o i ∧ ms[o]? = some m ∧ i < m) ∧ (∀ r, (next r).Within ms) ∧
      handler.Within ms

def NVisitor.Within (vis : NVisitor V A R) : Prop := ∀ a os, (vis a os).Within (os.map (·.2.2))

/-- The height of the highest of the variants at the places. -/
def TStore.heights (σ : TStore V) : List TPlace → Nat
  | [] => 0
  | y :: ys => max ((σ.at y).elim 0 VTree.height) (σ.heights ys)

/-- The visitor writes nothing. -/
def VActN.Reads : VActN V A R → Prop
  | .ret _ | .throw => True
  | .read _ next => ∀ v, (next v).Reads
  | .write _ _ _ => False
  | .visit _ _ next => ∀ r, (next r).Reads
  | .tryVisit _ _ next handler => (∀ r, (next r).Reads) ∧ handler.Reads

def NVisitor.Reads (vis : NVisitor V A R) : Prop := ∀ a os, (vis a os).Reads

/-! ### Comparison by a binary visitor -/

/-- The members with index `i` on, `r` of them, are compared. -/
def eqPairs (r i : Nat) : VActN V Unit Bool :=
  match r with
  | 0 => .ret true
  | r + 1 => .visit [.member 0 i, .member 1 i] () fun b => if b then eqPairs r (i + 1) else .ret false

/-- The visitor of the documentation (doc/tutorial/advanced.xml 300-319), which compares objects of the same type, by their values and, with itself, the
members. -/
def eqVisitor (eq : TyIx → V → V → Bool) : NVisitor V Unit Bool := fun _ os =>
  match os with
  | [(k, u, m), (k', v, m')] => if k = k' ∧ m = m' ∧ eq k u v = true then eqPairs m 0 else .ret false
  | _ => .ret false

end

end BVariant
