/-
The library code of one variant type neither sees nor changes variants of other types and their contents.
-/
import Verif.Spec.Mixed
import Verif.Lemmas.Run

set_option linter.unusedSimpArgs false

namespace BVariant

section
variable {V α β : Type} {P : ObjId → Prop} {Q : VarId → Prop} {w0 : World V}

/-- `wh` is `w` without the objects in `P` and the variables in `Q`, which are in `w` as they are in `w0`. -/
structure Fr (P : ObjId → Prop) (Q : VarId → Prop) (w0 wh w : World V) : Prop where
  next : wh.next = w.next
  tick : wh.tick = w.tick
  allocs : wh.allocs = w.allocs
  sub : wh.sub = w.sub
  flat : ∀ i, w.sub i = []
  old : ∀ i, P i → i < w.next
  objHid : ∀ i, P i → wh.objs i = none
  objOld : ∀ i, P i → w.objs i = w0.objs i
  obj : ∀ i, ¬ P i → wh.objs i = w.objs i
  varHid : ∀ x, Q x → wh.vars x = none
  varOld : ∀ x, Q x → w.vars x = w0.vars x
  var : ∀ x, ¬ Q x → wh.vars x = w.vars x

/-- The code does the same with and without the other objects and variables, unless it has undefined behaviour or calls
`std::terminate` without them. -/
def Framed (P : ObjId → Prop) (Q : VarId → Prop) (w0 : World V) (m : M V α) : Prop :=
  ∀ wh w, Fr P Q w0 wh w → match m wh with
    | .ok a wh' => ∃ w', m w = .ok a w' ∧ Fr P Q w0 wh' w'
    | .exc e wh' => ∃ w', m w = .exc e w' ∧ Fr P Q w0 wh' w'
    | .fault f => f = .assertFailed → m w = .fault .assertFailed

section
variable {wh w : World V}

theorem Fr.alive (h : Fr P Q w0 wh w) {i : ObjId} {p : TyIx × V} (hi : wh.objs i = some p) : ¬ P i ∧ w.objs i = some p := by
  have hn : ¬ P i := fun hp => by rw [h.objHid i hp] at hi; cases hi
  exact ⟨hn, (h.obj i hn).symm.trans hi⟩

theorem Fr.aliveVar (h : Fr P Q w0 wh w) {x : VarId} {s : VarSt} (hx : wh.vars x = some s) : ¬ Q x ∧ w.vars x = some s := by
  have hn : ¬ Q x := fun hq => by rw [h.varHid x hq] at hx; cases hx
  exact ⟨hn, (h.var x hn).symm.trans hx⟩

/-- Changes to objects not in `P` and variables not in `Q`, the same on both sides. -/
theorem Fr.change (h : Fr P Q w0 wh w) {fo : (ObjId → Option (TyIx × V)) → ObjId → Option (TyIx × V)}
    {fv : (VarId → Option VarSt) → VarId → Option VarSt} {n t a : Nat} (hn : w.next ≤ n)
    (ho : ∀ f i, P i → fo f i = f i) (ho' : ∀ f g i, ¬ P i → f i = g i → fo f i = fo g i)
    (hv : ∀ f x, Q x → fv f x = f x) (hv' : ∀ f g x, ¬ Q x → f x = g x → fv f x = fv g x) :
    Fr P Q w0 { wh with objs := fo wh.objs, vars := fv wh.vars, next := n, tick := t, allocs := a }
      { w with objs := fo w.objs, vars := fv w.vars, next := n, tick := t, allocs := a } :=
  { next := rfl, tick := rfl, allocs := rfl, sub := h.sub, flat := h.flat
    old := fun i hi => Nat.lt_of_lt_of_le (h.old i hi) hn
    objHid := fun i hi => (ho _ i hi).trans (h.objHid i hi)
    objOld := fun i hi => (ho _ i hi).trans (h.objOld i hi)
    obj := fun i hi => ho' _ _ i hi (h.obj i hi)
    varHid := fun x hx => (hv _ x hx).trans (h.varHid x hx)
    varOld := fun x hx => (hv _ x hx).trans (h.varOld x hx)
    var := fun x hx => hv' _ _ x hx (h.var x hx) }

theorem Fr.ticked (h : Fr P Q w0 wh w) : Fr P Q w0 { wh with tick := wh.tick + 1 } { w with tick := w.tick + 1 } := by
  have := h.change (fo := fun f => f) (fv := fun f => f) (n := w.next) (t := w.tick + 1) (a := w.allocs) (Nat.le_refl _)
    (fun _ _ _ => rfl) (fun _ _ _ _ h => h) (fun _ _ _ => rfl) (fun _ _ _ _ h => h)
  rw [h.tick]
  rw [← h.next, ← h.allocs] at this
  have e1 : ({ w with tick := w.tick + 1 } : World V) = { w with next := wh.next, tick := w.tick + 1, allocs := wh.allocs } := by
    rw [h.next, h.allocs]
  rw [e1]; exact this

theorem Fr.objs (h : Fr P Q w0 wh w) {fo : (ObjId → Option (TyIx × V)) → ObjId → Option (TyIx × V)}
    (ho : ∀ f i, P i → fo f i = f i) (ho' : ∀ f g i, ¬ P i → f i = g i → fo f i = fo g i) :
    Fr P Q w0 { wh with objs := fo wh.objs } { w with objs := fo w.objs } :=
  { next := h.next, tick := h.tick, allocs := h.allocs, sub := h.sub, flat := h.flat, old := h.old
    objHid := fun i hi => (ho _ i hi).trans (h.objHid i hi)
    objOld := fun i hi => (ho _ i hi).trans (h.objOld i hi)
    obj := fun i hi => ho' _ _ i hi (h.obj i hi)
    varHid := h.varHid, varOld := h.varOld, var := h.var }

theorem Fr.setVal (h : Fr P Q w0 wh w) {i : ObjId} (hi : ¬ P i) (ty : TyIx) (v : V) :
    Fr P Q w0 (setVal ty i v wh) (setVal ty i v w) := by
  refine h.objs (fo := fun f => upd f i (some (ty, v))) (fun f j hj => ?_) (fun f g j hj he => ?_)
  · have : j ≠ i := fun e => hi (e ▸ hj)
    simp [this]
  · by_cases e : j = i
    · simp [e]
    · simp [e, he]

theorem Fr.setVar (h : Fr P Q w0 wh w) {x : VarId} (hx : ¬ Q x) (s : Option VarSt) :
    Fr P Q w0 { wh with vars := upd wh.vars x s } { w with vars := upd w.vars x s } :=
  { next := h.next, tick := h.tick, allocs := h.allocs, sub := h.sub, flat := h.flat, old := h.old
    objHid := h.objHid, objOld := h.objOld, obj := h.obj
    varHid := fun y hy => by
      have : y ≠ x := fun e => hx (e ▸ hy)
      simp only [upd_ne _ _ this]; exact h.varHid y hy
    varOld := fun y hy => by
      have : y ≠ x := fun e => hx (e ▸ hy)
      simp only [upd_ne _ _ this]; exact h.varOld y hy
    var := fun y hy => by
      by_cases e : y = x
      · simp [e]
      · simp only [upd_ne _ _ e]; exact h.var y hy }

end

/-! ### Combinators -/

theorem framed_pure (a : α) : Framed P Q w0 (pure a : M V α) := fun _ _ h => ⟨_, rfl, h⟩

theorem framed_fail (f : Fault) : Framed P Q w0 (M.fail f : M V α) := fun _ _ _ => fun e => by rw [M.fail, e]

theorem framed_bind {m : M V α} {f : α → M V β} (hm : Framed P Q w0 m) (hf : ∀ a, Framed P Q w0 (f a)) :
    Framed P Q w0 (m >>= f) := by
  intro wh w h
  have h1 := hm wh w h
  simp only [bind, M.bind]
  cases e : m wh with
  | ok a wh' =>
    rw [e] at h1
    obtain ⟨w', e', h'⟩ := h1
    simp only [e']
    exact hf a wh' w' h'
  | exc x wh' =>
    rw [e] at h1
    obtain ⟨w', e', h'⟩ := h1
    exact ⟨w', by simp only [e'], h'⟩
  | fault x =>
    rw [e] at h1
    intro hx
    simp only [h1 hx]

theorem framed_read {ty : TyIx} {id : ObjId} {f : V → M V β} (hf : ¬ P id → ∀ v, Framed P Q w0 (f v)) :
    Framed P Q w0 (readAs ty id >>= f) := by
  intro wh w h
  simp only [bind, M.bind, readAs]
  cases e : wh.objs id with
  | none => exact nofun
  | some p =>
    obtain ⟨hn, hw⟩ := h.alive e
    rw [hw]
    by_cases ht : p.1 = ty
    · simp only [ht, if_true]; exact hf hn p.2 wh w h
    · simp only [ht, if_false]; exact nofun

theorem framed_getVar {x : VarId} {f : VarSt → M V β} (hf : ¬ Q x → ∀ s, Framed P Q w0 (f s)) :
    Framed P Q w0 (getVar x >>= f) := by
  intro wh w h
  simp only [bind, M.bind, getVar]
  cases e : wh.vars x with
  | none => exact nofun
  | some s =>
    obtain ⟨hn, hw⟩ := h.aliveVar e
    rw [hw]
    exact hf hn s wh w h

theorem framed_noexceptIf {b : Bool} {m : M V α} (hm : Framed P Q w0 m) : Framed P Q w0 (M.noexceptIf b m) := by
  intro wh w h
  have h1 := hm wh w h
  simp only [M.noexceptIf]
  cases e : m wh with
  | ok a wh' => rw [e] at h1; obtain ⟨w', e', h'⟩ := h1; exact ⟨w', by simp only [e'], h'⟩
  | exc x wh' =>
    rw [e] at h1; obtain ⟨w', e', h'⟩ := h1
    simp only [e']
    cases b
    · exact ⟨w', rfl, h'⟩
    · exact nofun
  | fault x => rw [e] at h1; intro hx; simp only [h1 hx]

theorem framed_onExc {m : M V α} {k : M V Unit} (hm : Framed P Q w0 m) (hk : Framed P Q w0 k) :
    Framed P Q w0 (M.onExc m k) := by
  intro wh w h
  have h1 := hm wh w h
  simp only [M.onExc]
  cases e : m wh with
  | ok a wh' => rw [e] at h1; obtain ⟨w', e', h'⟩ := h1; exact ⟨w', by simp only [e'], h'⟩
  | exc x wh' =>
    rw [e] at h1; obtain ⟨w', e', h'⟩ := h1
    have h2 := hk wh' w' h'
    simp only [e']
    cases ek : k wh' with
    | ok a wh'' => rw [ek] at h2; obtain ⟨w'', e'', h''⟩ := h2; exact ⟨w'', by simp only [e''], h''⟩
    | exc y wh'' => rw [ek] at h2; obtain ⟨w'', e'', h''⟩ := h2; exact ⟨w'', by simp only [e''], h''⟩
    | fault y => rw [ek] at h2; intro hy; simp only [h2 hy]
  | fault x => rw [e] at h1; intro hx; simp only [h1 hx]

theorem framed_withLocal {m : M V α} {k : M V Unit} (hm : Framed P Q w0 m) (hk : Framed P Q w0 k) :
    Framed P Q w0 (M.withLocal m k) := by
  intro wh w h
  have h1 := hm wh w h
  simp only [M.withLocal]
  cases e : m wh with
  | ok a wh' =>
    rw [e] at h1; obtain ⟨w', e', h'⟩ := h1
    have h2 := hk wh' w' h'
    simp only [e']
    cases ek : k wh' with
    | ok a wh'' => rw [ek] at h2; obtain ⟨w'', e'', h''⟩ := h2; exact ⟨w'', by simp only [e''], h''⟩
    | exc y wh'' => rw [ek] at h2; obtain ⟨w'', e'', h''⟩ := h2; exact ⟨w'', by simp only [e''], h''⟩
    | fault y => rw [ek] at h2; intro hy; simp only [h2 hy]
  | exc x wh' =>
    rw [e] at h1; obtain ⟨w', e', h'⟩ := h1
    have h2 := hk wh' w' h'
    simp only [e']
    cases ek : k wh' with
    | ok a wh'' => rw [ek] at h2; obtain ⟨w'', e'', h''⟩ := h2; exact ⟨w'', by simp only [e''], h''⟩
    | exc y wh'' => exact nofun
    | fault y => rw [ek] at h2; intro hy; simp only [h2 hy]
  | fault x => rw [e] at h1; intro hx; simp only [h1 hx]

theorem framed_ite {c : Prop} [Decidable c] {a b : M V α} (ha : Framed P Q w0 a) (hb : Framed P Q w0 b) :
    Framed P Q w0 (if c then a else b) := by
  by_cases h : c
  · rw [if_pos h]; exact ha
  · rw [if_neg h]; exact hb

/-! ### Primitives -/

variable {C : Cfg V}

theorem framed_mayThrow {b : Bool} {k : ExcKind} {f : World V → World V}
    (hf : ∀ wh w, Fr P Q w0 wh w → Fr P Q w0 (f wh) (f w)) : Framed P Q w0 (mayThrow C b k f) := by
  intro wh w h
  simp only [mayThrow]
  have ht := h.tick
  by_cases hc : (!b && C.throws wh.tick) = true
  · have hc' : (!b && C.throws w.tick) = true := by rw [← ht]; exact hc
    rw [if_pos hc]
    exact ⟨_, by rw [if_pos hc', ht], hf _ _ h.ticked⟩
  · have hc' : ¬ (!b && C.throws w.tick) = true := by rw [← ht]; exact hc
    rw [if_neg hc]
    exact ⟨_, by rw [if_neg hc'], h.ticked⟩

theorem framed_modify {f : World V → World V} (hf : ∀ wh w, Fr P Q w0 wh w → Fr P Q w0 (f wh) (f w)) :
    Framed P Q w0 (M.modify f) := fun wh w h => ⟨_, rfl, hf wh w h⟩

theorem framed_newObj (ty : TyIx) (v : V) : Framed P Q w0 (newObj ty v) := by
  intro wh w h
  have hn := h.next
  refine ⟨{ w with objs := upd w.objs wh.next (some (ty, v)), next := wh.next + 1 }, by rw [newObj, hn], ?_⟩
  exact
  { next := rfl, tick := h.tick, allocs := h.allocs, sub := h.sub, flat := h.flat
    old := fun i hi => by show i < wh.next + 1; have := h.old i hi; omega
    objHid := fun i hi => by
      have : i ≠ wh.next := by have := h.old i hi; omega
      simp only [upd_ne _ _ this]; exact h.objHid i hi
    objOld := fun i hi => by
      have : i ≠ wh.next := by have := h.old i hi; omega
      simp only [upd_ne _ _ this]; exact h.objOld i hi
    obj := fun i hi => by
      by_cases e : i = wh.next
      · simp [e]
      · simp only [upd_ne _ _ e]; exact h.obj i hi
    varHid := h.varHid, varOld := h.varOld, var := h.var }

theorem framed_destroyObj (ty : TyIx) (id : ObjId) : Framed P Q w0 (destroyObj (V := V) ty id) := by
  refine framed_read fun hn v => framed_modify fun wh w h => ?_
  have hs : ∀ i, (i = id ∨ i ∈ w.sub id) ↔ i = id := by intro i; simp [h.flat]
  have hs' : ∀ i, (i = id ∨ i ∈ wh.sub id) ↔ i = id := by intro i; rw [h.sub]; exact hs i
  simp only [hs, hs']
  refine h.objs (fo := fun f i => if i = id then none else f i) (fun f i hi => ?_) (fun f g i hi he => ?_)
  · have : i ≠ id := fun e => hn (e ▸ hi)
    simp [this]
  · simp [he]

theorem framed_which (x : VarId) : Framed P Q w0 (which (V := V) x) := framed_getVar fun _ _ => framed_pure _

theorem framed_setSlot (x : VarId) (s : Slot) : Framed P Q w0 (setSlot (V := V) x s) :=
  framed_getVar fun hn _ => framed_modify fun _ _ h => h.setVar hn _

theorem framed_setWhich (x : VarId) (i : Int) : Framed P Q w0 (setWhich (V := V) x i) :=
  framed_getVar fun hn _ => framed_modify fun _ _ h => h.setVar hn _

theorem framed_beginVar {x : VarId} (hx : ¬ Q x) (s : VarSt) : Framed P Q w0 (beginVar (V := V) x s) :=
  framed_modify fun _ _ h => h.setVar hx _

theorem framed_copyCtor (ty : TyIx) (src : ObjId) : Framed P Q w0 (copyCtor C ty src) :=
  framed_read fun _ _ => framed_bind (framed_mayThrow fun _ _ h => h) fun _ => framed_newObj _ _

theorem framed_moveCtor (ty : TyIx) (src : ObjId) : Framed P Q w0 (moveCtor C ty src) :=
  framed_read fun hn _ => framed_bind (framed_mayThrow fun _ _ h => h.setVal hn _ _) fun _ =>
    framed_bind (framed_modify fun _ _ h => h.setVal hn _ _) fun _ => framed_newObj _ _

theorem framed_valueCtor (ty : TyIx) : Framed P Q w0 (valueCtor C ty) :=
  framed_bind (framed_mayThrow fun _ _ h => h) fun _ => framed_newObj _ _

theorem framed_defaultCtor (ty : TyIx) : Framed P Q w0 (defaultCtor C ty) :=
  framed_bind (framed_mayThrow fun _ _ h => h) fun _ => framed_newObj _ _

theorem framed_heapCopy (ty : TyIx) (src : ObjId) : Framed P Q w0 (heapCopy C ty src) :=
  framed_bind (framed_modify fun wh w h =>
    { next := h.next, tick := h.tick, allocs := by show wh.allocs + 1 = w.allocs + 1; rw [h.allocs]
      sub := h.sub, flat := h.flat, old := h.old, objHid := h.objHid, objOld := h.objOld, obj := h.obj
      varHid := h.varHid, varOld := h.varOld, var := h.var }) fun _ =>
    framed_bind (framed_mayThrow fun _ _ h => h) fun _ => framed_copyCtor _ _

theorem framed_assignObj (ty : TyIx) (l r : ObjId) : Framed P Q w0 (assignObj C ty l r) :=
  framed_read fun hl _ => framed_read fun _ _ => framed_bind (framed_mayThrow fun _ _ h => h.setVal hl _ _) fun _ =>
    framed_modify fun _ _ h => h.setVal hl _ _

theorem framed_moveAssignObj (ty : TyIx) (l r : ObjId) : Framed P Q w0 (moveAssignObj C ty l r) :=
  framed_read fun hl _ => framed_read fun hr _ => framed_ite
    (framed_bind (framed_mayThrow fun _ _ h => h.setVal hl _ _) fun _ => framed_modify fun _ _ h => h.setVal hl _ _)
    (framed_bind (framed_mayThrow fun _ _ h => (h.setVal hl _ _).setVal hr _ _) fun _ =>
      framed_modify fun _ _ h => (h.setVal hl _ _).setVal hr _ _)

theorem framed_swapObj (ty : TyIx) (l r : ObjId) : Framed P Q w0 (swapObj C ty l r) :=
  framed_read fun hl _ => framed_read fun hr _ => framed_ite
    (framed_bind (framed_mayThrow fun _ _ h => h.setVal hl _ _) fun _ => framed_modify fun _ _ h => h.setVal hl _ _)
    (framed_bind (framed_mayThrow fun _ _ h => (h.setVal hl _ _).setVal hr _ _) fun _ =>
      framed_modify fun _ _ h => (h.setVal hl _ _).setVal hr _ _)

/-! ### Visitation -/

theorem framed_holderGet (p : Option ObjId) : Framed P Q w0 (holderGet (V := V) p) := by
  cases p with
  | none => exact framed_fail _
  | some id => exact framed_pure _

theorem framed_holderDtor (ty : TyIx) (p : Option ObjId) : Framed P Q w0 (holderDtor (V := V) ty p) := by
  cases p with
  | none => exact framed_pure _
  | some id => exact framed_destroyObj _ _

theorem framed_holderCopyCtor : Framed P Q w0 (holderCopyCtor C) := framed_ite (framed_pure _) (framed_fail _)

theorem framed_castObj (x : VarId) (ty : TyIx) : Framed P Q w0 (castObj (V := V) x ty) :=
  framed_getVar fun _ s => by
    cases s.slot with
    | obj id => exact framed_read fun _ _ => framed_pure _
    | raw => exact framed_fail _
    | holder t p => exact framed_fail _

theorem framed_castHolder (x : VarId) (ty : TyIx) : Framed P Q w0 (castHolder (V := V) x ty) :=
  framed_getVar fun _ s => by
    cases s.slot with
    | obj id => exact framed_fail _
    | raw => exact framed_fail _
    | holder t p => exact framed_ite (framed_pure _) (framed_fail _)

/-- Both members of the visitor are framed. -/
structure FramedVisitor (P : ObjId → Prop) (Q : VarId → Prop) (w0 : World V) (vis : Visitor V α) : Prop where
  onObj : ∀ ty id, Framed P Q w0 (vis.onObj ty id)
  onHolder : ∀ ty p, Framed P Q w0 (vis.onHolder ty p)

theorem framed_visitationInvoke {vis : Visitor V α} (hv : FramedVisitor P Q w0 vis) (i : Int) (x : VarId) (ty : TyIx) :
    Framed P Q w0 (visitationInvoke C i x vis ty) :=
  framed_ite (framed_bind (framed_castObj _ _) fun _ => hv.onObj _ _)
    (framed_ite (framed_bind (framed_castObj _ _) fun _ => hv.onObj _ _)
      (framed_bind (framed_castHolder _ _) fun _ => hv.onHolder _ _))

theorem switchCases_all {τ : Type u} {β : Type v} {R : β → Prop} {invoke : τ → β} {forced : β} (hi : ∀ t, R (invoke t))
    (hf : R forced) (logical : Int) (which : Nat) (steps : List τ) (k n : Nat) :
    ∀ r, switchCases logical which steps invoke forced k n = some r → R r := by
  induction k generalizing n with
  | zero => intro r h; cases h
  | succ k ih =>
    intro r h
    rw [switchCases] at h
    split at h
    · split at h <;> cases h
      · exact hi _
      · exact hf
    · exact ih _ r h

theorem visitationImpl_all {τ : Type u} {β : Type v} {R : β → Prop} {invoke : τ → β} {forced : β} (hi : ∀ t, R (invoke t))
    (hf : R forced) (L : Nat) (logical : Int) (which : Nat) (steps : List τ) :
    R (visitationImpl L logical which steps invoke forced) := by
  induction hl : steps.length using Nat.strongRecOn generalizing which steps with
  | _ n ih =>
    rw [visitationImpl]
    split
    · rename_i h; exact switchCases_all hi hf _ _ _ _ _ _ h
    · split
      · exact hf
      · rename_i h
        obtain ⟨h1, _⟩ := List.getElem?_eq_some_iff.mp h
        exact ih _ (by rw [List.length_drop]; omega) _ _ rfl

theorem framed_internalApplyVisitor {vis : Visitor V α} (hv : FramedVisitor P Q w0 vis) (x : VarId) :
    Framed P Q w0 (internalApplyVisitor C x vis) :=
  framed_getVar fun _ _ => visitationImpl_all (fun _ => framed_visitationInvoke hv _ _ _) (framed_fail _) _ _ _ _

theorem framed_applyVisitor {f : TyIx → ObjId → M V α} (hf : ∀ ty id, Framed P Q w0 (f ty id)) (x : VarId) :
    Framed P Q w0 (applyVisitor C x f) :=
  framed_internalApplyVisitor ⟨hf, fun _ _ => framed_bind (framed_holderGet _) fun _ => hf _ _⟩ x

/-! ### Library functions -/

theorem framed_destroyContent (x : VarId) : Framed P Q w0 (destroyContent C x) :=
  framed_noexceptIf (framed_internalApplyVisitor
    ⟨fun _ _ => framed_bind (framed_destroyObj _ _) fun _ => framed_setSlot _ _,
     fun _ _ => framed_bind (framed_holderDtor _ _) fun _ => framed_setSlot _ _⟩ x)

theorem framed_destroyVar {x : VarId} (hx : ¬ Q x) : Framed P Q w0 (destroyVar C x) :=
  framed_bind (framed_destroyContent x) fun _ => framed_modify fun _ _ h => h.setVar hx _

theorem framed_defaultConstruct {x : VarId} (hx : ¬ Q x) : Framed P Q w0 (defaultConstruct C x) :=
  framed_noexceptIf (framed_bind (framed_valueCtor _) fun _ => framed_beginVar hx _)

theorem framed_copyInto : FramedVisitor P Q w0 (copyInto C) :=
  ⟨fun _ _ => framed_copyCtor _ _, fun _ _ => framed_bind (framed_holderGet _) fun _ => framed_copyCtor _ _⟩

theorem framed_moveInto : FramedVisitor P Q w0 (moveInto C) :=
  ⟨fun _ _ => framed_noexceptIf (framed_moveCtor _ _), fun _ _ => framed_bind (framed_holderGet _) fun _ => framed_moveCtor _ _⟩

theorem framed_copyConstruct {x : VarId} (hx : ¬ Q x) (y : VarId) : Framed P Q w0 (copyConstruct C x y) :=
  framed_bind (framed_internalApplyVisitor framed_copyInto _) fun _ => framed_bind (framed_which _) fun _ => framed_beginVar hx _

theorem framed_moveConstruct {x : VarId} (hx : ¬ Q x) (y : VarId) : Framed P Q w0 (moveConstruct C x y) :=
  framed_noexceptIf (framed_bind (framed_internalApplyVisitor framed_moveInto _) fun _ =>
    framed_bind (framed_which _) fun _ => framed_beginVar hx _)

theorem framed_initializeFrom (s : Src V) : Framed P Q w0 (initializeFrom C s) := by
  cases s with
  | lref ty id fr => exact framed_bind (framed_copyCtor _ _) fun _ => framed_pure _
  | rref ty id fr => exact framed_bind (framed_moveCtor _ _) fun _ => framed_pure _
  | conv ty v =>
    exact framed_bind (framed_mayThrow fun _ _ h => h) fun _ => framed_bind (framed_newObj _ _) fun _ =>
      framed_bind (framed_withLocal (framed_moveCtor _ _) (framed_destroyObj _ _)) fun _ => framed_pure _

theorem framed_convertConstruct {x : VarId} (hx : ¬ Q x) (s : Src V) : Framed P Q w0 (convertConstruct C x s) :=
  framed_bind (framed_initializeFrom s) fun _ => framed_beginVar hx _

theorem framed_assignStorage (rhs : VarId) : FramedVisitor P Q w0 (assignStorage C rhs) :=
  ⟨fun _ _ => framed_bind (framed_castObj _ _) fun _ => framed_assignObj _ _ _,
   fun _ _ => framed_bind (framed_holderGet _) fun _ => framed_bind (framed_castHolder _ _) fun _ =>
    framed_bind (framed_holderGet _) fun _ => framed_assignObj _ _ _⟩

theorem framed_moveStorage (rhs : VarId) : FramedVisitor P Q w0 (moveStorage C rhs) :=
  ⟨fun _ _ => framed_bind (framed_castObj _ _) fun _ => framed_moveAssignObj _ _ _,
   fun _ _ => framed_bind (framed_holderGet _) fun _ => framed_bind (framed_castHolder _ _) fun _ =>
    framed_bind (framed_holderGet _) fun _ => framed_moveAssignObj _ _ _⟩

theorem framed_copyRhsInto (l : VarId) (rhs : RhsContent) : Framed P Q w0 (copyRhsInto C l rhs) := by
  refine framed_bind ?_ fun _ => framed_setSlot _ _
  cases rhs with
  | obj ty id => exact framed_bind (framed_copyCtor _ _) fun _ => framed_pure _
  | holder ty p => exact framed_bind framed_holderCopyCtor fun _ => framed_pure _

theorem framed_moveRhsInto (l : VarId) (rhs : RhsContent) : Framed P Q w0 (moveRhsInto C l rhs) := by
  cases rhs with
  | obj ty id => exact framed_bind (framed_moveCtor _ _) fun _ => framed_setSlot _ _
  | holder ty p => exact framed_bind framed_holderCopyCtor fun _ => framed_setSlot _ _

theorem framed_backupAssigner (l : VarId) (i : Int) (rhs : RhsContent) : FramedVisitor P Q w0 (backupAssigner C l i rhs) :=
  ⟨fun _ _ => framed_ite
    (framed_bind (framed_moveCtor _ _) fun _ => framed_withLocal
      (framed_bind (framed_destroyObj _ _) fun _ => framed_bind
        (framed_onExc (framed_copyRhsInto _ _) (framed_bind (framed_moveCtor _ _) fun _ => framed_setSlot _ _)) fun _ =>
        framed_setWhich _ _) (framed_destroyObj _ _))
    (framed_bind (framed_heapCopy _ _) fun _ => framed_bind (framed_destroyObj _ _) fun _ => framed_bind
      (framed_onExc (framed_copyRhsInto _ _) (framed_bind (framed_setSlot _ _) fun _ => framed_bind (framed_which _) fun _ =>
        framed_setWhich _ _)) fun _ => framed_bind (framed_setWhich _ _) fun _ => framed_destroyObj _ _),
   fun _ _ => framed_bind (framed_setSlot _ _) fun _ => framed_bind (framed_holderDtor _ _) fun _ =>
    framed_bind (framed_setSlot _ _) fun _ => framed_bind (framed_onExc (framed_copyRhsInto _ _)
      (framed_bind (framed_setSlot _ _) fun _ => framed_setSlot _ _)) fun _ => framed_bind (framed_setWhich _ _) fun _ =>
      framed_holderDtor _ _⟩

theorem framed_constructFallback (l : VarId) : Framed P Q w0 (constructFallback C l) := by
  refine framed_noexceptIf ?_
  cases C.fallback with
  | none => exact framed_fail _
  | some fb =>
    exact framed_ite
      (framed_bind (framed_defaultCtor _) fun _ => framed_bind (framed_setSlot _ _) fun _ => framed_setWhich _ _)
      (framed_bind (framed_setSlot _ _) fun _ => framed_setWhich _ _)

theorem framed_assignImpl (l : VarId) (i : Int) (rhs : RhsContent) (b1 b2 b3 : Bool) :
    Framed P Q w0 (assignImpl C l i rhs b1 b2 b3) := by
  refine framed_ite ?_ (framed_ite ?_ (framed_ite ?_ ?_))
  · exact framed_noexceptIf (framed_bind (framed_destroyContent _) fun _ => framed_bind (framed_copyRhsInto _ _) fun _ =>
      framed_setWhich _ _)
  · cases rhs with
    | obj ty id =>
      exact framed_bind (framed_copyCtor _ _) fun _ => framed_withLocal
        (framed_bind (framed_destroyContent _) fun _ => framed_bind (framed_moveCtor _ _) fun _ =>
          framed_bind (framed_setSlot _ _) fun _ => framed_setWhich _ _) (framed_destroyObj _ _)
    | holder ty p => exact framed_fail _
  · exact framed_bind (framed_destroyContent _) fun _ => framed_bind
      (framed_onExc (framed_copyRhsInto _ _) (framed_constructFallback _)) fun _ => framed_setWhich _ _
  · exact framed_internalApplyVisitor (framed_backupAssigner _ _ _) _

theorem framed_moveAssignImpl (l : VarId) (i : Int) (rhs : RhsContent) (b1 b2 b3 : Bool) :
    Framed P Q w0 (moveAssignImpl C l i rhs b1 b2 b3) := by
  refine framed_ite ?_ (framed_ite ?_ (framed_ite ?_ ?_))
  · exact framed_noexceptIf (framed_bind (framed_destroyContent _) fun _ => framed_bind (framed_moveRhsInto _ _) fun _ =>
      framed_setWhich _ _)
  · exact framed_noexceptIf (framed_assignImpl _ _ _ _ _ _)
  · exact framed_bind (framed_destroyContent _) fun _ => framed_bind
      (framed_onExc (framed_moveRhsInto _ _) (framed_constructFallback _)) fun _ => framed_setWhich _ _
  · exact framed_assignImpl _ _ _ _ _ _

theorem framed_assignerVisit (l : VarId) (i : Int) (rhs : RhsContent) : Framed P Q w0 (assignerVisit C l i rhs) :=
  framed_assignImpl _ _ _ _ _ _

theorem framed_assigner (l : VarId) (i : Int) : FramedVisitor P Q w0 (assigner C l i) :=
  ⟨fun _ _ => framed_assignerVisit _ _ _, fun ty p => by
    show Framed P Q w0 (assignerVisit C l i (.holder ty p))
    exact framed_assignerVisit _ _ _⟩

theorem framed_moveAssignerVisit (l : VarId) (i : Int) (rhs : RhsContent) : Framed P Q w0 (moveAssignerVisit C l i rhs) :=
  framed_moveAssignImpl _ _ _ _ _ _

theorem framed_moveAssigner (l : VarId) (i : Int) : FramedVisitor P Q w0 (moveAssigner C l i) :=
  ⟨fun _ _ => framed_moveAssignerVisit _ _ _, fun ty p => by
    show Framed P Q w0 (moveAssignerVisit C l i (.holder ty p))
    exact framed_moveAssignerVisit _ _ _⟩

theorem framed_copyAssign (l r : VarId) : Framed P Q w0 (copyAssign C l r) :=
  framed_getVar fun _ _ => framed_getVar fun _ _ => framed_ite (framed_internalApplyVisitor (framed_assignStorage _) _)
    (framed_internalApplyVisitor (framed_assigner _ _) _)

theorem framed_variantMoveAssign (l r : VarId) : Framed P Q w0 (variantMoveAssign C l r) :=
  framed_getVar fun _ _ => framed_getVar fun _ _ => framed_ite (framed_internalApplyVisitor (framed_moveStorage _) _)
    (framed_internalApplyVisitor (framed_moveAssigner _ _) _)

theorem framed_moveAssign (l r : VarId) : Framed P Q w0 (moveAssign C l r) := framed_noexceptIf (framed_variantMoveAssign _ _)

theorem framed_directAssign (l : VarId) (s : Src V) : Framed P Q w0 (directAssign C l s) := by
  refine framed_applyVisitor (fun ty id => ?_) l
  cases s with
  | lref k r fr => exact framed_ite (framed_bind (framed_assignObj _ _ _) fun _ => framed_pure _) (framed_pure _)
  | rref k r fr => exact framed_ite (framed_bind (framed_moveAssignObj _ _ _) fun _ => framed_pure _) (framed_pure _)
  | conv k v => exact framed_pure _

theorem framed_assignValue (hq : ∀ n, ¬ Q (.tmp n)) (l : VarId) (s : Src V) : Framed P Q w0 (assignValue C l s) :=
  framed_bind (framed_directAssign _ _) fun _ => framed_ite (framed_pure _)
    (framed_bind (framed_convertConstruct (hq 0) _) fun _ =>
      framed_withLocal (framed_variantMoveAssign _ _) (framed_destroyVar (hq 0)))

theorem framed_swap (hq : ∀ n, ¬ Q (.tmp n)) (x y : VarId) : Framed P Q w0 (swap C x y) :=
  framed_bind (framed_which _) fun _ => framed_bind (framed_which _) fun _ => framed_ite
    (framed_applyVisitor (fun _ _ => framed_bind
      (framed_applyVisitor (fun _ _ => framed_ite (framed_pure _) (framed_fail _)) _) fun _ => framed_swapObj _ _ _) _)
    (framed_bind (framed_moveConstruct (hq 0) _) fun _ => framed_withLocal
      (framed_bind (framed_moveAssign _ _) fun _ => framed_moveAssign _ _) (framed_destroyVar (hq 0)))

theorem framed_withElem {k : TyIx} {v : V} {f : ObjId → M V α} (hf : ∀ t, Framed P Q w0 (f t)) :
    Framed P Q w0 (withElem k v f) :=
  framed_bind (framed_newObj _ _) fun _ => framed_withLocal (hf _) (framed_destroyObj _ _)

/-- Every statement, on variables that are not hidden. (A visitor that changes the content is the user's code.) -/
theorem framed_code_of_ne (c : Cmd V) (hm : ∀ x v, c ≠ .mutate x v) (hn : ∀ x ∈ c.names, ¬ Q (.user x))
    (hq : ∀ n, ¬ Q (.tmp n)) : Framed P Q w0 (c.code C) := by
  cases c with
  | defaultConstruct x => simp only [Cmd.code]; exact framed_defaultConstruct (hn x (by simp [Cmd.names]))
  | copyConstruct x y => simp only [Cmd.code]; exact framed_copyConstruct (hn x (by simp [Cmd.names])) _
  | moveConstruct x y => simp only [Cmd.code]; exact framed_moveConstruct (hn x (by simp [Cmd.names])) _
  | constructL x k v => simp only [Cmd.code]; exact framed_withElem (fun _ => framed_convertConstruct (hn x (by simp [Cmd.names])) _)
  | constructR x k v => simp only [Cmd.code]; exact framed_withElem (fun _ => framed_convertConstruct (hn x (by simp [Cmd.names])) _)
  | constructC x k v => simp only [Cmd.code]; exact framed_convertConstruct (hn x (by simp [Cmd.names])) _
  | destroy x => simp only [Cmd.code]; exact framed_destroyVar (hn x (by simp [Cmd.names]))
  | copyAssign x y => simp only [Cmd.code]; exact framed_copyAssign _ _
  | moveAssign x y => simp only [Cmd.code]; exact framed_moveAssign _ _
  | assignL x k v => simp only [Cmd.code]; exact framed_withElem (fun _ => framed_assignValue hq _ _)
  | assignR x k v => simp only [Cmd.code]; exact framed_withElem (fun _ => framed_assignValue hq _ _)
  | assignC x k v => simp only [Cmd.code]; exact framed_assignValue hq _ _
  | assignVL x k v => simp only [Cmd.code]; exact framed_withElem (fun _ => framed_assignValue hq _ _)
  | assignVR x k v => simp only [Cmd.code]; exact framed_withElem (fun _ => framed_assignValue hq _ _)
  | swap x y => simp only [Cmd.code]; exact framed_swap hq _ _
  | mutate x v => exact absurd rfl (hm x v)
  | constructGet rv x y =>
    simp only [Cmd.code]
    exact framed_applyVisitor (fun _ _ => framed_convertConstruct (hn x (by simp [Cmd.names])) _) _
  | assignGet rv x y => simp only [Cmd.code]; exact framed_applyVisitor (fun _ _ => framed_assignValue hq _ _) _

/-- Every statement, on variables that are not hidden. -/
theorem framed_code (c : Cmd V) (hn : ∀ x ∈ c.names, ¬ Q (.user x)) (hq : ∀ n, ¬ Q (.tmp n)) {wh w : World V} (hg : Good C wh)
    (h : Fr P Q w0 wh w) : match c.code C wh with
    | .ok a wh' => ∃ w', c.code C w = .ok a w' ∧ Fr P Q w0 wh' w'
    | .exc e wh' => ∃ w', c.code C w = .exc e w' ∧ Fr P Q w0 wh' w'
    | .fault f => f = .assertFailed → c.code C w = .fault .assertFailed := by
  by_cases hm : ∃ x v, c = .mutate x v
  · obtain ⟨x, v, rfl⟩ := hm
    simp only [Cmd.code]
    cases hx : wh.vars (.user x) with
    | none =>
      have : applyVisitor C (.user x) (fun ty id => M.modify (setVal ty id v)) wh = .fault .ub := by
        simp only [applyVisitor, internalApplyVisitor, bind, M.bind, getVar, hx]
      rw [this]; exact nofun
    | some s =>
      obtain ⟨id, k, v', hr, ho⟩ := hg.wf.rep _ _ hx
      obtain ⟨hnp, ho'⟩ := h.alive ho
      obtain ⟨hnq, hx'⟩ := h.aliveVar hx
      rw [applyVisitor_eq C _ hx hr ho, applyVisitor_eq C _ hx' hr ho']
      exact ⟨_, rfl, h.setVal hnp _ _⟩
  · have h1 := framed_code_of_ne (C := C) c (fun x v e => hm ⟨x, v, e⟩) hn hq wh w h
    cases e : c.code C wh with
    | ok a wh' => rw [e] at h1; exact h1
    | exc x wh' => rw [e] at h1; exact h1
    | fault x => rw [e] at h1; exact h1

end
end BVariant
