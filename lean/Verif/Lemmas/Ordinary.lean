/-
The interpreters of C72 and C73 agree on programs that do not use recursive types.
-/
import Verif.Spec.Ordinary
import Verif.Spec.ExactTree
import Verif.Lemmas.ControlKeeps

namespace BVariant

section
variable {V : Type} {C : Cfg V} {T : TreeCfg V} {inv : VarId → Option Nat}

def XTree.tag : XTree V → Tag V
  | .leaf b k v => ⟨k, v, b⟩
  | .node b k a _ => ⟨k, a, b⟩

/-- The state of C72 for a state of C73; `inv` says which variable is which. -/
def XTSt.flat (inv : VarId → Option Nat) (σ : XTSt V) : XSt V :=
  ⟨fun v => (inv v).bind fun x => (σ.vars x).map XTree.tag, σ.count.tick, σ.count.allocs⟩

/-- No variable holds a node. -/
def Leafy (C : Cfg V) (T : TreeCfg V) (σ : XTSt V) : Prop :=
  ∀ x u, σ.vars x = some u → ∃ b k v, u = .leaf b k v ∧ k < C.n ∧ T.wrapped k = false

def LiveX (X : List Nat) (σ : XTSt V) : Prop := ∀ x ∈ X, σ.vars x ≠ none

/-- Both pieces of code do the same. They begin with the variables `X` alive, and end with `Y` alive; or `E`, with an exception. -/
def Same (C : Cfg V) (T : TreeCfg V) (inv : VarId → Option Nat) (X Y E : List Nat) (m : Eff (XTSt V) Unit) (m' : Eff (XSt V) Unit) : Prop :=
  ∀ σ, Leafy C T σ → LiveX X σ →
    match m σ with
    | .ok _ σ' => m' (σ.flat inv) = .ok () (σ'.flat inv) ∧ Leafy C T σ' ∧ LiveX Y σ'
    | .exc e σ' => m' (σ.flat inv) = .exc e (σ'.flat inv) ∧ Leafy C T σ' ∧ LiveX E σ'
    | .fault _ => False

theorem Same.bind {X Y Z E : List Nat} {m k : Eff (XTSt V) Unit} {m' k' : Eff (XSt V) Unit} (h : Same C T inv X Y E m m') (h' : Same C T inv Y Z E k k') :
    Same C T inv X Z E (Bind.bind m fun _ => k) (Bind.bind m' fun _ => k') := by
  intro σ hl hx
  have h1 := h σ hl hx
  simp only [Bind.bind, Eff.bind]
  revert h1
  cases m σ with
  | ok a σ' => rintro ⟨e1, h2, h3⟩; simp only [e1]; exact h' σ' h2 h3
  | exc e σ' => rintro ⟨e1, h2, h3⟩; simp only [e1]; exact ⟨trivial, h2, h3⟩
  | fault f => exact fun h => h

theorem Same.onExc {X Y Z E F : List Nat} {m k : Eff (XTSt V) Unit} {m' k' : Eff (XSt V) Unit} (h : Same C T inv X Y E m m')
    (h' : Same C T inv E Z F k k') (hk : ∀ σ e σ', k σ ≠ .exc e σ') : Same C T inv X Y Z (Eff.onExc m k) (Eff.onExc m' k') := by
  intro σ hl hx
  have h1 := h σ hl hx
  simp only [Eff.onExc]
  revert h1
  cases m σ with
  | ok a σ' => rintro ⟨e1, h2, h3⟩; simp only [e1]; exact ⟨trivial, h2, h3⟩
  | exc e σ' =>
    rintro ⟨e1, h2, h3⟩
    simp only [e1]
    have h4 := h' σ' h2 h3
    revert h4
    cases hh : k σ' with
    | ok a σ'' => rintro ⟨e2, h5, h6⟩; simp only [e2]; exact ⟨trivial, h5, h6⟩
    | exc e' σ'' => exact absurd hh (hk σ' e' σ'')
    | fault f => exact fun h => h
  | fault f => exact fun h => h

theorem Same.weaken {X Y E : List Nat} {m : Eff (XTSt V) Unit} {m' : Eff (XSt V) Unit} {X' : List Nat} (h : Same C T inv X Y E m m')
    (hx : ∀ x ∈ X, x ∈ X') : Same C T inv X' Y E m m' := fun σ hl hl' => h σ hl fun x hx' => hl' x (hx x hx')

/-- An operation that may throw. -/
theorem Same.may (hT : OneType C T) {X : List Nat} (nt : Bool) (k : ExcKind) : Same C T inv X X X (xtRun (xtMay T nt k)) (xMay C nt k) := by
  intro σ hl hx
  by_cases h : nt = false ∧ C.throws σ.count.tick = true
  · simp only [xtRun, xtMay, hT.throws, h, and_self, if_true]
    refine ⟨?_, hl, hx⟩
    simp only [xMay, XTSt.flat, h, and_self, if_true]
  · simp only [xtRun, xtMay, hT.throws, h, if_false]
    refine ⟨?_, hl, hx⟩
    simp only [xMay, XTSt.flat, h, if_false]

theorem Same.new (hT : OneType C T) {X : List Nat} : Same C T inv X X X (xtRun (xtNew T)) (xNew C) := by
  have e : xtRun (V := V) (xtNew T) = (do
      Eff.modify (fun σ : XTSt V => { σ with count := { σ.count with allocs := σ.count.allocs + 1 } })
      xtRun (xtMay T false .badAlloc)) := by
    funext σ
    simp only [xtRun, xtNew, Bind.bind, Eff.bind, Eff.modify]
  rw [e]
  refine Same.bind (Y := X) ?_ (.may hT _ _)
  intro σ hl hx
  exact ⟨rfl, hl, hx⟩

theorem flat_upd {σ : XTSt V} {v : VarId} {x : Nat} (hv : ∀ v', inv v' = some x ↔ v' = v) (u : Option (XTree V)) :
    (XTSt.flat inv { σ with vars := upd σ.vars x u }) = { (σ.flat inv) with vars := upd (σ.flat inv).vars v (u.map XTree.tag) } := by
  simp only [XTSt.flat, XSt.mk.injEq, and_true]
  funext v'
  by_cases h : v' = v
  · subst h
    simp only [(hv v').mpr rfl, Option.bind_some, upd, if_true]
  · simp only [upd, h, if_false]
    cases hi : inv v' with
    | none => rfl
    | some y =>
      have : y ≠ x := fun hy => h ((hv v').mp (hy ▸ hi))
      simp only [Option.bind_some, this, if_false]

theorem flat_at {σ : XTSt V} {v : VarId} {x : Nat} (hv : ∀ v', inv v' = some x ↔ v' = v) : (σ.flat inv).vars v = (σ.vars x).map XTree.tag := by
  simp only [XTSt.flat, (hv v).mpr rfl, Option.bind_some]

theorem Same.set {X Y E : List Nat} {v : VarId} {x : Nat} (hv : ∀ v', inv v' = some x ↔ v' = v) {u : Option (XTree V)}
    (hu : ∀ t, u = some t → ∃ b k a, t = .leaf b k a ∧ k < C.n ∧ T.wrapped k = false) (hY : ∀ y ∈ Y, (y = x ∧ u ≠ none) ∨ (y ≠ x ∧ y ∈ X)) :
    Same C T inv X Y E (xtSet x u) (xPut v (u.map XTree.tag)) := by
  intro σ hl hx
  simp only [xtSet, Eff.modify]
  refine ⟨?_, ?_, ?_⟩
  · simp only [xPut, Eff.modify, flat_upd hv]
  · intro y t ht
    by_cases hy : y = x
    · subst hy; simp only [upd_same] at ht; exact hu t ht
    · simp only [upd, hy, if_false] at ht; exact hl y t ht
  · intro y hy
    rcases hY y hy with ⟨rfl, h⟩ | ⟨h, h'⟩
    · simpa only [upd_same] using h
    · simp only [upd, h, if_false]; exact hx y h'

theorem xtPut_eq {σ : XTSt V} {x : Nat} (h : σ.vars x ≠ none) (u : XTree V) : xtPut ⟨x, []⟩ u σ = xtSet x (some u) σ := by
  simp only [xtPut, xtSet, Eff.modify]
  cases hx : σ.vars x with
  | none => exact absurd hx h
  | some t => cases t <;> rfl

theorem Same.put {X E : List Nat} {v : VarId} {x : Nat} (hv : ∀ v', inv v' = some x ↔ v' = v) (hx : x ∈ X) {b : Bool} {k : TyIx} {a : V} (hk : k < C.n)
    (hw : T.wrapped k = false) : Same C T inv X X E (xtPut ⟨x, []⟩ (.leaf b k a)) (xPut v (some ⟨k, a, b⟩)) := by
  intro σ hl hX
  rw [xtPut_eq (hX x hx)]
  have h := Same.set (C := C) (T := T) (E := E) (X := X) (Y := X) hv (u := some (.leaf b k a)) (fun t ht => by cases ht; exact ⟨b, k, a, rfl, hk, hw⟩)
    (fun y hy => (Decidable.em (y = x)).elim (fun h => .inl ⟨h, nofun⟩) fun h => .inr ⟨h, hy⟩)
  exact h σ hl hX

theorem put_comm {x y : VarId} (h : x ≠ y) (t u : Option (Tag V)) : (do xPut x t; xPut y u : Eff (XSt V) Unit) = (do xPut y u; xPut x t) := by
  funext σ
  simp only [Bind.bind, Eff.bind, xPut, Eff.modify]
  congr 1
  congr 1
  funext z
  by_cases h1 : z = x
  · subst h1; simp [upd, h]
  · simp [upd, h1]

/-! ### Operations on leaves -/

theorem copyLeaf {α : Type} {b : Bool} {k : TyIx} {v : V} {K : XTree V → Eff (XTSt V) α} :
    (xtRun (xtCopy T (.leaf b k v)) >>= K) = (do
      xtRun (xtMay T (T.tr k).nothrowCopy (.copyCtor k))
      K (.leaf false k (T.ops.copy k v))) := by
  funext σ
  simp only [xtRun, xtCopy, Bind.bind, Eff.bind]
  cases xtMay T (T.tr k).nothrowCopy (.copyCtor k) σ.count <;> rfl

theorem copyLeafExc {α : Type} {b : Bool} {k : TyIx} {v : V} {h : Eff (XTSt V) Unit} {K : XTree V → Eff (XTSt V) α} :
    (Eff.onExc (xtRun (xtCopy T (.leaf b k v))) h >>= K) = (do
      Eff.onExc (xtRun (xtMay T (T.tr k).nothrowCopy (.copyCtor k))) h
      K (.leaf false k (T.ops.copy k v))) := by
  funext σ
  simp only [Eff.onExc, xtRun, xtCopy, Bind.bind, Eff.bind]
  cases xtMay T (T.tr k).nothrowCopy (.copyCtor k) σ.count with
  | ok a c => rfl
  | exc e c => simp only []; cases h { σ with count := c } <;> rfl
  | fault f => rfl

theorem takeLeaf {α : Type} {b : Bool} {k : TyIx} {v : V} {y : Nat} {σ : XTSt V} (hy : σ.vars y = some (.leaf b k v)) {K : XTree V → Eff (XTSt V) α} :
    (xtTake T ⟨y, []⟩ >>= K) σ = (do
      Eff.onExc (xtRun (xtMay T (T.tr k).nothrowMove (.moveCtor k))) (xtPut ⟨y, []⟩ (.leaf b k (T.ops.moveFailSrc k v)))
      xtPut ⟨y, []⟩ (.leaf b k (T.ops.movedFrom k v))
      K (.leaf false k (T.ops.move k v))) σ := by
  have e : σ.at ⟨y, []⟩ = some (.leaf b k v) := by simp only [XTSt.at, hy, XTree.sub]
  simp only [xtTake, xtGet, e, xtMove, Eff.onExc, xtRun, Bind.bind, Eff.bind, Pure.pure, Eff.pure, xtPut, Eff.modify]
  cases hm : xtMay T (T.tr k).nothrowMove (.moveCtor k) σ.count with
  | ok a c => rfl
  | exc e c => rfl
  | fault f => simp only [xtMay] at hm; split at hm <;> cases hm

theorem takeLeafExc {α : Type} {b : Bool} {k : TyIx} {v : V} {y : Nat} {σ : XTSt V} (hy : σ.vars y = some (.leaf b k v)) {h : Eff (XTSt V) Unit}
    {K : XTree V → Eff (XTSt V) α} :
    (Eff.onExc (xtTake T ⟨y, []⟩) h >>= K) σ = (do
      Eff.onExc (do
        Eff.onExc (xtRun (xtMay T (T.tr k).nothrowMove (.moveCtor k))) (xtPut ⟨y, []⟩ (.leaf b k (T.ops.moveFailSrc k v)))
        xtPut ⟨y, []⟩ (.leaf b k (T.ops.movedFrom k v))) h
      K (.leaf false k (T.ops.move k v))) σ := by
  have e : σ.at ⟨y, []⟩ = some (.leaf b k v) := by simp only [XTSt.at, hy, XTree.sub]
  simp only [xtTake, xtGet, e, xtMove, Eff.onExc, xtRun, Bind.bind, Eff.bind, Pure.pure, Eff.pure, xtPut, Eff.modify]
  cases hm : xtMay T (T.tr k).nothrowMove (.moveCtor k) σ.count with
  | ok a c => rfl
  | exc e c => simp only []; generalize h _ = r; cases r <;> rfl
  | fault f => simp only [xtMay] at hm; split at hm <;> cases hm

theorem put_noexc {x : TPlace} {u : XTree V} (σ : XTSt V) (e : Exc) (σ' : XTSt V) : xtPut x u σ ≠ .exc e σ' := nofun

theorem set_noexc {x : Nat} {u : Option (XTree V)} (σ : XTSt V) (e : Exc) (σ' : XTSt V) : xtSet x u σ ≠ .exc e σ' := nofun

/-- The two states at one point. -/
def SameAt (C : Cfg V) (T : TreeCfg V) (inv : VarId → Option Nat) (Y E : List Nat) (σ : XTSt V) (m : Eff (XTSt V) Unit) (m' : Eff (XSt V) Unit) : Prop :=
  match m σ with
  | .ok _ σ' => m' (σ.flat inv) = .ok () (σ'.flat inv) ∧ Leafy C T σ' ∧ LiveX Y σ'
  | .exc e σ' => m' (σ.flat inv) = .exc e (σ'.flat inv) ∧ Leafy C T σ' ∧ LiveX E σ'
  | .fault _ => False

theorem Same.at {X Y E : List Nat} {m : Eff (XTSt V) Unit} {m' : Eff (XSt V) Unit} (h : Same C T inv X Y E m m') {σ : XTSt V} (hl : Leafy C T σ)
    (hx : LiveX X σ) : SameAt C T inv Y E σ m m' := h σ hl hx

theorem SameAt.congr {Y E : List Nat} {σ : XTSt V} {m n : Eff (XTSt V) Unit} {m' : Eff (XSt V) Unit} (h : SameAt C T inv Y E σ n m') (e : m σ = n σ) :
    SameAt C T inv Y E σ m m' := by
  unfold SameAt at h ⊢; rw [e]; exact h

theorem SameAt.congr' {Y E : List Nat} {σ : XTSt V} {m : Eff (XTSt V) Unit} {m' n' : Eff (XSt V) Unit} (h : SameAt C T inv Y E σ m n')
    (e : m' (σ.flat inv) = n' (σ.flat inv)) : SameAt C T inv Y E σ m m' := by
  unfold SameAt at h ⊢; rw [e]; exact h

theorem get_run {α : Type} {σ : XTSt V} {x : Nat} {u : XTree V} (h : σ.vars x = some u) {K : XTree V → Eff (XTSt V) α} :
    (xtGet ⟨x, []⟩ >>= K) σ = K u σ := by
  simp only [Bind.bind, Eff.bind, xtGet, XTSt.at, h]
  cases u <;> rfl

theorem get_run' {α : Type} {σ : XTSt V} {v : VarId} {x : Nat} (hv : ∀ v', inv v' = some x ↔ v' = v) {u : XTree V} (h : σ.vars x = some u)
    {K : Tag V → Eff (XSt V) α} : (xGet v >>= K) (σ.flat inv) = K u.tag (σ.flat inv) := by
  simp only [Bind.bind, Eff.bind, xGet, flat_at hv, h, Option.map_some]

/-! ### Statements -/

theorem Same.putTwo {X E : List Nat} {v v' : VarId} {x y : Nat} (hv : ∀ u, inv u = some x ↔ u = v) (hv' : ∀ u, inv u = some y ↔ u = v')
    (hx : x ∈ X) (hy : y ∈ X) (hne : x ≠ y) {b b' : Bool} {k k' : TyIx} {a a' : V} (hk : k < C.n) (hw : T.wrapped k = false)
    (hk' : k' < C.n) (hw' : T.wrapped k' = false) :
    Same C T inv X X E (do xtPut ⟨x, []⟩ (.leaf b k a); xtPut ⟨y, []⟩ (.leaf b' k' a')) (do xPut v' (some ⟨k', a', b'⟩); xPut v (some ⟨k, a, b⟩)) := by
  have hne' : v' ≠ v := fun h => hne (by
    have h1 := (hv v).mpr rfl
    have h2 := (hv' v').mpr rfl
    rw [h] at h2
    rw [h1] at h2
    cases h2; rfl)
  rw [put_comm hne']
  exact Same.bind (.put hv hx hk hw) (.put hv' hy hk' hw')

theorem Same.fallback (hT : OneType C T) {X : List Nat} {v : VarId} {x : Nat} (hv : ∀ u, inv u = some x ↔ u = v) (hx : x ∈ X) {fb : TyIx} (hf : fb < C.n)
    (hw : T.wrapped fb = false) : Same C T inv X X X (xtFallback T ⟨x, []⟩ fb) (xFallback C v fb) := by
  unfold xtFallback xFallback
  rw [hT.ops]
  exact Same.bind (.may hT _ _) (.put hv hx hf hw)

theorem fallback_noexc {x : Nat} {fb : TyIx} (σ : XTSt V) (e : Exc) (σ' : XTSt V) : xtFallback T ⟨x, []⟩ fb σ ≠ .exc e σ' := by
  simp only [xtFallback, Bind.bind, Eff.bind, xtRun, xtMay, Bool.true_eq_false, false_and, if_false, xtPut, Eff.modify]
  nofun

theorem noMove (hT : OneType C T) {k : TyIx} (hk : k < C.n) (hw : T.wrapped k = false) : T.nothrowMove k = (C.tr k).nothrowMove := by
  simp only [TreeCfg.nothrowMove, hw, Bool.not_false, Bool.true_and, hT.tr k hk hw]

theorem noCopy (hT : OneType C T) {k : TyIx} (hk : k < C.n) (hw : T.wrapped k = false) : T.nothrowCopy k = (C.tr k).nothrowCopy := by
  simp only [TreeCfg.nothrowCopy, hw, Bool.not_false, Bool.true_and, hT.tr k hk hw]

theorem Same.guarded (hT : OneType C T) {X : List Nat} {v : VarId} {x : Nat} (hv : ∀ u, inv u = some x ↔ u = v) (hx : x ∈ X) {b b' : Bool}
    {k k' : TyIx} {a a' : V} (hk : k < C.n) (hw : T.wrapped k = false) (hk' : k' < C.n) (hw' : T.wrapped k' = false) :
    Same C T inv X X X (xtGuarded T ⟨x, []⟩ (.leaf b k a) (.leaf b' k' a')) (xGuardedCopy C v ⟨k, a, b⟩ k' a') := by
  unfold xtGuarded xGuardedCopy
  simp only [XTree.backed, XTree.which, noMove hT hk hw, copyLeaf, copyLeafExc, XTree.fill, XTree.root, XTree.mark, hT.ops,
    hT.tr k hk hw, hT.tr k' hk' hw']
  cases b with
  | true =>
    simp only [if_true]
    exact Same.bind (.may hT _ _) (.put hv hx hk' hw')
  | false =>
    simp only [Bool.false_eq_true, if_false]
    by_cases h : (C.tr k).nothrowMove = true
    · simp only [h, if_true, xCopy, xMoveLocal]
      refine Same.bind (.may hT _ _) (Same.bind (Same.onExc (F := X) (.may hT _ _) (Same.bind (.may hT _ _) (.put hv hx hk hw)) ?_) (.put hv hx hk' hw'))
      intro σ e σ'
      simp only [Bind.bind, Eff.bind, xtRun, xtMay, Bool.true_eq_false, false_and, if_false, xtPut, Eff.modify]
      nofun
    · simp only [h, xCopy]
      exact Same.bind (.new hT) (Same.bind (.may hT _ _) (Same.bind (Same.onExc (F := X) (.may hT _ _) (.put hv hx hk hw) put_noexc) (.put hv hx hk' hw')))

theorem Same.replace (hT : OneType C T) (hF : ∀ fb, C.fallback = some fb → fb < C.n) {X : List Nat} {v : VarId} {x : Nat}
    (hv : ∀ u, inv u = some x ↔ u = v) (hx : x ∈ X) {b b' : Bool}
    {k k' : TyIx} {a a' : V} (hk : k < C.n) (hw : T.wrapped k = false) (hk' : k' < C.n) (hw' : T.wrapped k' = false) :
    Same C T inv X X X (xtReplace T ⟨x, []⟩ (.leaf b k a) (.leaf b' k' a')) (xReplaceCopy C v ⟨k, a, b⟩ ⟨k', a', b'⟩) := by
  unfold xtReplace xReplaceCopy
  simp only [XTree.which, noMove hT hk' hw', noCopy hT hk' hw', copyLeaf, copyLeafExc, XTree.fill, XTree.root, XTree.members, hT.ops,
    hT.tr k' hk' hw', xCopy, xMoveLocal]
  by_cases h1 : (C.tr k').nothrowCopy = true
  · simp only [h1, if_true]
    exact Same.bind (.may hT _ _) (.put hv hx hk' hw')
  · simp only [h1]
    by_cases h2 : (C.tr k').nothrowMove = true
    · simp only [h2, if_true]
      exact Same.bind (.may hT _ _) (Same.bind (.may hT _ _) (.put hv hx hk' hw'))
    · simp only [h2, hT.fallback]
      cases hfb : C.fallback with
      | none => exact .guarded hT hv hx hk hw hk' hw'
      | some fb =>
        have hw'' := hT.fallbackPlain fb (by rw [hT.fallback, hfb])
        exact Same.bind (Same.onExc (F := X) (.may hT _ _) (.fallback hT hv hx (hF fb hfb) hw'') fallback_noexc) (.put hv hx hk' hw')

theorem Same.take (hT : OneType C T) {X : List Nat} {v : VarId} {x : Nat} (hv : ∀ u, inv u = some x ↔ u = v) (hx : x ∈ X) {b : Bool}
    {k : TyIx} {a : V} (hk : k < C.n) (hw : T.wrapped k = false) :
    Same C T inv X X X (do
      Eff.onExc (xtRun (xtMay T (T.tr k).nothrowMove (.moveCtor k))) (xtPut ⟨x, []⟩ (.leaf b k (T.ops.moveFailSrc k a)))
      xtPut ⟨x, []⟩ (.leaf b k (T.ops.movedFrom k a))) (xMove C v ⟨k, a, b⟩) := by
  unfold xMove
  rw [hT.ops, hT.tr k hk hw]
  exact Same.bind (Same.onExc (F := X) (.may hT _ _) (.put hv hx hk hw) put_noexc) (.put hv hx hk hw)

theorem bind_unit_assoc {S α : Type} (m n : Eff S Unit) (k : Eff S α) :
    (do m; n; k : Eff S α) = (do (do m; n : Eff S Unit); k) := by
  funext s
  simp only [Bind.bind, Eff.bind]
  cases m s <;> rfl

theorem SameAt.replaceMove (hT : OneType C T) (hF : ∀ fb, C.fallback = some fb → fb < C.n) {X : List Nat} {v v' : VarId} {x y : Nat}
    (hv : ∀ u, inv u = some x ↔ u = v) (hv' : ∀ u, inv u = some y ↔ u = v') (hx : x ∈ X) (hy : y ∈ X) {b b' : Bool}
    {k k' : TyIx} {a a' : V} (hk : k < C.n) (hw : T.wrapped k = false) (hk' : k' < C.n) (hw' : T.wrapped k' = false) {σ : XTSt V}
    (hl : Leafy C T σ) (hX : LiveX X σ) (hr : σ.vars y = some (.leaf b' k' a')) :
    SameAt C T inv X X σ (xtReplaceMove T ⟨x, []⟩ ⟨y, []⟩ (.leaf b k a) (.leaf b' k' a')) (xReplaceMove C v v' ⟨k, a, b⟩ ⟨k', a', b'⟩) := by
  unfold xtReplaceMove xReplaceMove
  simp only [XTree.which, noMove hT hk' hw', noCopy hT hk' hw', copyLeaf, xCopy]
  by_cases h2 : (C.tr k').nothrowMove = true
  · simp only [h2, if_true]
    refine SameAt.congr ?_ (takeLeaf hr)
    rw [bind_unit_assoc]
    have := Same.bind (Same.take (X := X) (b := b') (a := a') hT hv' hy hk' hw') (Same.put (E := X) (b := false) (a := C.ops.move k' a') hv hx hk' hw')
    rw [← hT.ops] at this ⊢
    exact this.at hl hX
  · simp only [h2]
    by_cases h1 : (C.tr k').nothrowCopy = true
    · simp only [h1, if_true, hT.tr k' hk' hw', hT.ops]
      exact (Same.bind (.may hT _ _) (.put hv hx hk' hw')).at hl hX
    · simp only [h1, hT.fallback]
      cases hfb : C.fallback with
      | none => exact (Same.guarded hT hv hx hk hw hk' hw').at hl hX
      | some fb =>
        have hw'' := hT.fallbackPlain fb (by rw [hT.fallback, hfb])
        refine SameAt.congr ?_ (takeLeafExc hr)
        have := Same.bind (Same.onExc (F := X) (Same.take (X := X) (b := b') (a := a') hT hv' hy hk' hw') (.fallback hT hv hx (hF fb hfb) hw'') fallback_noexc)
          (Same.put (E := X) (b := false) (a := C.ops.move k' a') hv hx hk' hw')
        rw [← hT.ops] at this ⊢
        exact this.at hl hX

theorem inv_ne {v v' : VarId} {x y : Nat} (hv : ∀ u, inv u = some x ↔ u = v) (hv' : ∀ u, inv u = some y ↔ u = v') : x = y ↔ v = v' := by
  have h1 := (hv v).mpr rfl
  have h2 := (hv' v').mpr rfl
  constructor
  · intro h; subst h; exact (hv' v).mp h1
  · intro h; subst h; rw [h1] at h2; cases h2; rfl

theorem Same.assign (hT : OneType C T) (hF : ∀ fb, C.fallback = some fb → fb < C.n) {X : List Nat} {v v' : VarId} {x y : Nat}
    (hv : ∀ u, inv u = some x ↔ u = v) (hv' : ∀ u, inv u = some y ↔ u = v') (hx : x ∈ X) (hy : y ∈ X) :
    Same C T inv X X X (xtAssign T ⟨x, []⟩ ⟨y, []⟩) (xCopyAssign C v v') := by
  intro σ hl hX
  change SameAt C T inv X X σ _ _
  cases hsx : σ.vars x with
  | none => exact absurd hsx (hX x hx)
  | some tx =>
  cases hsy : σ.vars y with
  | none => exact absurd hsy (hX y hy)
  | some ty =>
  obtain ⟨b, k, a, rfl, hk, hw⟩ := hl x tx hsx
  obtain ⟨b', k', a', rfl, hk', hw'⟩ := hl y ty hsy
  unfold xtAssign xCopyAssign
  refine SameAt.congr ?_ (get_run hsx)
  refine SameAt.congr ?_ (get_run hsy)
  refine SameAt.congr' ?_ (get_run' hv hsx)
  refine SameAt.congr' ?_ (get_run' hv' hsy)
  simp only [XTree.which, XTree.backed, XTree.tag]
  by_cases h : k = k' ∧ b = b'
  · obtain ⟨rfl, rfl⟩ := h
    simp only [and_self, if_true, xAssignElem, hT.ops]
    exact (Same.bind (Same.onExc (F := X) (.may hT _ _) (.put hv hx hk hw) put_noexc) (.put hv hx hk hw)).at hl hX
  · simp only [h, if_false]
    exact (Same.replace hT hF hv hx hk hw hk' hw').at hl hX

theorem Same.moveAssign (hT : OneType C T) (hF : ∀ fb, C.fallback = some fb → fb < C.n) {X : List Nat} {v v' : VarId} {x y : Nat}
    (hv : ∀ u, inv u = some x ↔ u = v) (hv' : ∀ u, inv u = some y ↔ u = v') (hx : x ∈ X) (hy : y ∈ X) :
    Same C T inv X X X (xtMoveAssign T ⟨x, []⟩ ⟨y, []⟩) (xMoveAssign C v v') := by
  intro σ hl hX
  change SameAt C T inv X X σ _ _
  cases hsx : σ.vars x with
  | none => exact absurd hsx (hX x hx)
  | some tx =>
  cases hsy : σ.vars y with
  | none => exact absurd hsy (hX y hy)
  | some ty =>
  obtain ⟨b, k, a, rfl, hk, hw⟩ := hl x tx hsx
  obtain ⟨b', k', a', rfl, hk', hw'⟩ := hl y ty hsy
  unfold xtMoveAssign xMoveAssign
  refine SameAt.congr ?_ (get_run hsx)
  refine SameAt.congr ?_ (get_run hsy)
  refine SameAt.congr' ?_ (get_run' hv hsx)
  refine SameAt.congr' ?_ (get_run' hv' hsy)
  simp only [XTree.which, XTree.backed, XTree.tag]
  by_cases h : k = k' ∧ b = b'
  · obtain ⟨rfl, rfl⟩ := h
    simp only [and_self, if_true, xMoveAssignElems, hT.ops, hT.tr k hk hw, TPlace.mk.injEq, and_true]
    by_cases he : x = y
    · have he' := (inv_ne hv hv').mp he
      subst he he'
      simp only [if_true]
      exact (Same.bind (Same.onExc (F := X) (.may hT _ _) (.put hv hx hk hw) put_noexc) (.put hv hx hk hw)).at hl hX
    · have he' := mt (inv_ne hv hv').mpr he
      simp only [he, he', if_false]
      refine (Same.bind (Same.onExc (F := X) (.may hT _ _) (.putTwo hv hv' hx hy he hk hw hk' hw') ?_) (.putTwo hv hv' hx hy he hk hw hk' hw')).at hl hX
      nofun
  · simp only [h, if_false]
    exact .replaceMove hT hF hv hv' hx hy hk hw hk' hw' hl hX hsy

/-- The names of the variables: `z` is the local variable of `swap`. -/
def names (z : Nat) : VarId → Option Nat
  | .user x => if x = z then none else some x
  | .tmp i => if i = 0 then some z else none

theorem names_user {z x : Nat} (h : x ≠ z) (v : VarId) : names z v = some x ↔ v = .user x := by
  cases v with
  | user y =>
    by_cases hy : y = z
    · simp only [names, hy, if_true, VarId.user.injEq]; exact ⟨nofun, fun e => absurd e.symm h⟩
    · simp [names, hy]
  | tmp i =>
    by_cases hi : i = 0
    · simp only [names, hi, if_true, Option.some.injEq]; exact ⟨fun e => absurd e.symm h, nofun⟩
    · simp [names, hi]

theorem names_tmp {z : Nat} (v : VarId) : names z v = some z ↔ v = .tmp 0 := by
  cases v with
  | user y =>
    by_cases hy : y = z
    · simp [names, hy]
    · simp [names, hy]
  | tmp i =>
    by_cases hi : i = 0 <;> simp [names, hi]

theorem LiveX.ne {X : List Nat} {σ : XTSt V} {x z : Nat} (h : LiveX X σ) (hx : x ∈ X) (hz : σ.vars z = none) : x ≠ z :=
  fun e => h x hx (e ▸ hz)

theorem SameAt.swap (hT : OneType C T) (hF : ∀ fb, C.fallback = some fb → fb < C.n) {x y z : Nat} {σ : XTSt V} (hl : Leafy C T σ)
    (hX : LiveX [x, y] σ) (hz : σ.vars z = none) :
    SameAt C T (names z) [x, y] [x, y] σ (xtSwap T ⟨x, []⟩ ⟨y, []⟩ z) (xSwap C (.user x) (.user y)) := by
  have hxz := hX.ne (List.mem_cons_self ..) hz
  have hyz := hX.ne (List.mem_cons_of_mem _ (List.mem_cons_self ..)) hz
  have hx : x ∈ [x, y] := List.mem_cons_self ..
  have hy : y ∈ [x, y] := List.mem_cons_of_mem _ (List.mem_cons_self ..)
  cases hsx : σ.vars x with
  | none => exact absurd hsx (hX x hx)
  | some tx =>
  cases hsy : σ.vars y with
  | none => exact absurd hsy (hX y hy)
  | some ty =>
  obtain ⟨b, k, a, rfl, hk, hw⟩ := hl x tx hsx
  obtain ⟨b', k', a', rfl, hk', hw'⟩ := hl y ty hsy
  unfold xtSwap xSwap
  refine SameAt.congr ?_ (get_run hsx)
  refine SameAt.congr ?_ (get_run hsy)
  refine SameAt.congr' ?_ (get_run' (names_user hxz) hsx)
  refine SameAt.congr' ?_ (get_run' (names_user hyz) hsy)
  simp only [XTree.which, XTree.tag, XTree.fill, XTree.root]
  by_cases h : k = k'
  · subst h
    simp only [if_true, hT.ops, TPlace.mk.injEq, and_true, VarId.user.injEq]
    by_cases he : x = y
    · subst he
      simp only [if_true]
      exact (Same.bind (Same.onExc (F := [x, x]) (.may hT _ _) (.put (names_user hxz) hx hk hw) put_noexc) (.put (names_user hxz) hx hk hw)).at hl hX
    · simp only [he, if_false]
      refine (Same.bind (Same.onExc (F := [x, y]) (.may hT _ _) (.putTwo (names_user hxz) (names_user hyz) hx hy he hk hw hk' hw') ?_)
        (.putTwo (names_user hxz) (names_user hyz) hx hy he hk hw hk' hw')).at hl hX
      nofun
  · simp only [h, if_false]
    refine SameAt.congr ?_ (takeLeaf hsy)
    have hbind : ∀ K : Eff (XSt V) Unit, (do xMoveConstruct C (.tmp 0) (.user y); K) (σ.flat (names z)) =
        (do xMove C (.user y) ⟨k', a', b'⟩; (do xPut (.tmp 0) (some ⟨k', C.ops.move k' a', false⟩); K : Eff (XSt V) Unit)) (σ.flat (names z)) := by
      intro K
      have e := get_run' (names_user hyz) hsy (K := fun t : Tag V => (do
        xMove C (.user y) t
        xPut (.tmp 0) (some ⟨t.ty, C.ops.move t.ty t.val, false⟩) : Eff (XSt V) Unit))
      simp only [Bind.bind, Eff.bind] at e ⊢
      unfold xMoveConstruct
      simp only [Bind.bind, Eff.bind]
      rw [e]
      simp only [XTree.tag]
      cases xMove C (.user y) ⟨k', a', b'⟩ (σ.flat (names z)) <;> rfl
    refine SameAt.congr' ?_ (hbind _)
    rw [bind_unit_assoc]
    have hmid : Same C T (names z) [z, x, y] [x, y] [x, y] (do
        Eff.onExc (do
          xtMoveAssign T ⟨y, []⟩ ⟨x, []⟩
          xtMoveAssign T ⟨x, []⟩ ⟨z, []⟩) (xtSet z none)
        xtSet z none) (xWithLocal (.tmp 0) do
          xMoveAssign C (.user y) (.user x)
          xMoveAssign C (.user x) (.tmp 0)) := by
      have hend : ∀ E, Same C T (names z) [z, x, y] [x, y] E (xtSet z none) (xPut (.tmp 0) none) := fun E =>
        Same.set (u := none) names_tmp nofun (fun w hw => .inr ⟨by
          simp only [List.mem_cons, List.not_mem_nil, or_false] at hw
          rcases hw with rfl | rfl
          · exact hxz
          · exact hyz, List.mem_cons_of_mem _ hw⟩)
      unfold xWithLocal
      refine Same.bind (Y := [z, x, y]) (Same.onExc (E := [z, x, y]) (F := []) (Same.bind (Y := [z, x, y])
        (.moveAssign hT hF (names_user hyz) (names_user hxz) (by simp) (by simp))
        (.moveAssign hT hF (names_user hxz) names_tmp (by simp) (by simp))) (hend []) set_noexc) (hend _)
    have := Same.bind (Same.take (X := [x, y]) (b := b') (a := a') hT (names_user hyz) hy hk' hw')
      (Same.bind (Y := [z, x, y]) (Same.set (C := C) (T := T) (X := [x, y]) (Y := [z, x, y]) (E := [x, y]) (names_tmp (z := z))
        (u := some (.leaf false k' (C.ops.move k' a'))) (fun t ht => by cases ht; exact ⟨_, _, _, rfl, hk', hw'⟩) (fun w hw => by
          by_cases hwz : w = z
          · exact .inl ⟨hwz, nofun⟩
          · rcases List.mem_cons.mp hw with h | h
            · exact absurd h hwz
            · exact .inr ⟨hwz, h⟩)) hmid)
    rw [hT.ops] at this ⊢
    exact this.at hl hX

/-- Names of variables, before and after statements. -/
def userNames : VarId → Option Nat
  | .user x => some x
  | .tmp _ => none

theorem flat_names {σ : XTSt V} {z : Nat} (hz : σ.vars z = none) : σ.flat (names z) = σ.flat userNames := by
  simp only [XTSt.flat, XSt.mk.injEq, and_true]
  funext v
  cases v with
  | user y =>
    by_cases hy : y = z
    · simp [names, userNames, hy, hz]
    · simp [names, userNames, hy]
  | tmp i =>
    by_cases hi : i = 0
    · simp [names, userNames, hi, hz]
    · simp [names, userNames, hi]

end

end BVariant
