/-
Bounds on the costs of all functions of the model, by their structure.
-/
import Verif.Spec.Cost
import Verif.Lemmas.Hazard

namespace BVariant

section
variable {V α β : Type} {C : Cfg V} {R : Prices}

theorem Cost.weaken {m : M V α} {k k' : α → Nat} {x x' : Nat} (h : Cost R m k x) (hk : ∀ a, k a ≤ k' a) (hx : x ≤ x') :
    Cost R m k' x' := by
  intro w
  have := h w
  cases hm : m w with
  | ok a w' => rw [hm] at this; have := hk a; simp only at *; omega
  | exc e w' => rw [hm] at this; simp only at *; omega
  | fault f => trivial

theorem Cost.pure (a : α) : Cost R (Pure.pure a : M V α) (fun _ => 0) 0 := fun _ => Nat.le_refl _

theorem Cost.fail (f : Fault) (k : α → Nat) (x : Nat) : Cost R (M.fail f : M V α) k x := fun _ => trivial

theorem Cost.bind {m : M V β} {f : β → M V α} {k x : Nat} {K : α → Nat} {X : Nat} (hm : Cost R m (fun _ => k) x)
    (hf : ∀ b, Cost R (f b) K X) : Cost R (m >>= f) (fun a => k + K a) (max x (k + X)) := by
  intro w
  have h1 := hm w
  simp only [Bind.bind, M.bind]
  cases h : m w with
  | ok b w' =>
    rw [h] at h1
    have h2 := hf b w'
    simp only at h1 ⊢
    cases h' : f b w' with
    | ok a w'' => rw [h'] at h2; simp only at h2 ⊢; omega
    | exc e w'' => rw [h'] at h2; simp only at h2 ⊢; omega
    | fault f => trivial
  | exc e w' => rw [h] at h1; simp only at h1 ⊢; omega
  | fault f => trivial

/-- The same if what follows does not throw. -/
theorem Cost.bindN {m : M V β} {f : β → M V α} {k x : Nat} {K : α → Nat} {X : Nat} (hm : Cost R m (fun _ => k) x)
    (hf : ∀ b, Cost R (f b) K X) (hn : ∀ b, NoExc (f b)) : Cost R (m >>= f) (fun a => k + K a) x := by
  intro w
  have h1 := hm w
  simp only [Bind.bind, M.bind]
  cases h : m w with
  | ok b w' =>
    rw [h] at h1
    have h2 := hf b w'
    simp only at h1 ⊢
    cases h' : f b w' with
    | ok a w'' => rw [h'] at h2; simp only at h2 ⊢; omega
    | exc e w'' => exact absurd h' (hn b _ _ _)
    | fault f => trivial
  | exc e w' => rw [h] at h1; simp only at h1 ⊢; omega
  | fault f => trivial

/-- A computation that decides whether to go on, and costs something only if not. -/
theorem Cost.bindIf {m : M V Bool} {rest : M V Unit} {t k x : Nat}
    (hm : Cost R m (fun b => if b then t else 0) t) (hr : Cost R rest (fun _ => k) x) :
    Cost R (m >>= fun b => if b then Pure.pure () else rest) (fun _ => max t k) (max t x) := by
  intro w
  have h1 := hm w
  simp only [Bind.bind, M.bind]
  cases h : m w with
  | ok b w' =>
    rw [h] at h1
    cases b with
    | true => simp only [if_true, Pure.pure, M.pure] at h1 ⊢; omega
    | false =>
      have h2 := hr w'
      simp only [Bool.false_eq_true, if_false] at h1 ⊢
      cases h' : rest w' with
      | ok a w'' => rw [h'] at h2; simp only at h2 ⊢; omega
      | exc e w'' => rw [h'] at h2; simp only at h2 ⊢; omega
      | fault f => trivial
  | exc e w' => rw [h] at h1; simp only at h1 ⊢; omega
  | fault f => trivial

theorem Cost.onExc {m : M V α} {h : M V Unit} {k : α → Nat} {x k' x' : Nat} (hm : Cost R m k x)
    (hh : Cost R h (fun _ => k') x') : Cost R (M.onExc m h) k (x + max k' x') := by
  intro w
  have h1 := hm w
  simp only [M.onExc]
  cases e1 : m w with
  | ok b w' => rw [e1] at h1; exact h1
  | exc e w' =>
    rw [e1] at h1
    have h2 := hh w'
    simp only at h1 ⊢
    cases h' : h w' with
    | ok a w'' => rw [h'] at h2; simp only at h2 ⊢; omega
    | exc e' w'' => rw [h'] at h2; simp only at h2 ⊢; omega
    | fault f => trivial
  | fault f => trivial

/-- The destructors of locals cost nothing. -/
theorem Cost.withLocal {m : M V α} {h : M V Unit} {k : α → Nat} {x : Nat} (hm : Cost R m k x)
    (hh : Cost R h (fun _ => 0) 0) (hne : NoExc h) : Cost R (M.withLocal m h) k x := by
  intro w
  have h1 := hm w
  simp only [M.withLocal]
  cases e1 : m w with
  | ok b w' =>
    rw [e1] at h1
    have h2 := hh w'
    simp only at h1 ⊢
    cases h' : h w' with
    | ok a w'' => rw [h'] at h2; simp only at h2 ⊢; omega
    | exc e' w'' => exact absurd h' (hne _ _ _)
    | fault f => trivial
  | exc e w' =>
    rw [e1] at h1
    have h2 := hh w'
    simp only at h1 ⊢
    cases h' : h w' with
    | ok a w'' => rw [h'] at h2; simp only at h2 ⊢; omega
    | exc e' w'' => trivial
    | fault f => trivial
  | fault f => trivial

theorem Cost.noexceptIf {m : M V α} {k : α → Nat} {x : Nat} (b : Bool) (hm : Cost R m k x) :
    Cost R (M.noexceptIf b m) k x := by
  intro w
  have h1 := hm w
  simp only [M.noexceptIf]
  cases e1 : m w with
  | ok b w' => rw [e1] at h1; exact h1
  | exc e w' =>
    rw [e1] at h1
    cases b with
    | true => trivial
    | false => exact h1
  | fault f => trivial

theorem Cost.modify {f : World V → World V} (ht : ∀ w, (f w).tick = w.tick) (hn : ∀ w, (f w).next = w.next)
    (ha : ∀ w, (f w).allocs = w.allocs) : Cost R (M.modify f) (fun _ => 0) 0 := by
  intro w
  simp [M.modify, Prices.meter, ht, hn, ha]

theorem Cost.ite {c : Prop} [Decidable c] {m n : M V α} {k : α → Nat} {x : Nat} (hm : Cost R m k x) (hn : Cost R n k x) :
    Cost R (if c then m else n) k x := by
  split
  · exact hm
  · exact hn

theorem Cost.getVar (x : VarId) : Cost R (getVar x : M V VarSt) (fun _ => 0) 0 := by
  intro w
  simp only [BVariant.getVar]
  cases w.vars x with
  | none => trivial
  | some s => exact Nat.le_refl _

theorem Cost.readAs (ty : TyIx) (id : ObjId) : Cost R (readAs ty id : M V V) (fun _ => 0) 0 := by
  intro w
  simp only [BVariant.readAs]
  cases w.objs id with
  | none => trivial
  | some p =>
    simp only
    by_cases h : p.1 = ty
    · simp [h]
    · simp [h]

theorem Cost.mayThrow {nt : Bool} {e : ExcKind} {f : World V → World V} (ht : ∀ w, (f w).tick = w.tick)
    (hn : ∀ w, (f w).next = w.next) (ha : ∀ w, (f w).allocs = w.allocs) :
    Cost R (mayThrow C nt e f) (fun _ => R.op) R.op := by
  intro w
  simp only [BVariant.mayThrow]
  by_cases h : (!nt && C.throws w.tick) = true
  · rw [if_pos h]
    simp only [Prices.meter, ht, hn, ha, Nat.mul_add]; omega
  · rw [if_neg h]
    simp only [Prices.meter, Nat.mul_add]; omega

theorem Cost.setSlot (x : VarId) (s : Slot) : Cost R (setSlot x s : M V Unit) (fun _ => 0) 0 :=
  ((Cost.getVar x).bind fun _ => Cost.modify (by intros; rfl) (by intros; rfl) (by intros; rfl))

theorem Cost.setWhich (x : VarId) (i : Int) : Cost R (setWhich x i : M V Unit) (fun _ => 0) 0 :=
  ((Cost.getVar x).bind fun _ => Cost.modify (by intros; rfl) (by intros; rfl) (by intros; rfl))

theorem Cost.which (x : VarId) : Cost R (which x : M V Int) (fun _ => 0) 0 :=
  ((Cost.getVar x).bind fun _ => Cost.pure _)

theorem Cost.beginVar (x : VarId) (s : VarSt) : Cost R (beginVar x s : M V Unit) (fun _ => 0) 0 :=
  Cost.modify (by intros; rfl) (by intros; rfl) (by intros; rfl)

theorem Cost.newObj (ty : TyIx) (v : V) : Cost R (newObj ty v : M V ObjId) (fun _ => R.obj) 0 := by
  intro w
  simp only [BVariant.newObj, Prices.meter, Nat.mul_add]; omega

theorem Cost.destroyObj (ty : TyIx) (id : ObjId) : Cost R (destroyObj ty id : M V Unit) (fun _ => 0) 0 :=
  ((Cost.readAs ty id).bind fun _ => Cost.modify (by intros; rfl) (by intros; rfl) (by intros; rfl))

theorem Cost.copyCtor (ty : TyIx) (id : ObjId) : Cost R (copyCtor C ty id) (fun _ => R.op + R.obj) R.op :=
  ((Cost.readAs ty id).bind fun _ => (Cost.mayThrow (by intros; rfl) (by intros; rfl) (by intros; rfl)).bind fun _ =>
    Cost.newObj _ _).weaken (by intros; omega) (by omega)

theorem Cost.moveCtor (ty : TyIx) (id : ObjId) : Cost R (moveCtor C ty id) (fun _ => R.op + R.obj) R.op :=
  ((Cost.readAs ty id).bind fun _ => (Cost.mayThrow (by intros; rfl) (by intros; rfl) (by intros; rfl)).bind fun _ =>
    (Cost.modify (by intros; rfl) (by intros; rfl) (by intros; rfl)).bind fun _ =>
    Cost.newObj _ _).weaken (by intros; omega) (by omega)

theorem Cost.valueCtor (ty : TyIx) : Cost R (valueCtor C ty) (fun _ => R.op + R.obj) R.op :=
  ((Cost.mayThrow (by intros; rfl) (by intros; rfl) (by intros; rfl)).bind fun _ =>
    Cost.newObj _ _).weaken (by intros; omega) (by omega)

theorem Cost.defaultCtor (ty : TyIx) : Cost R (defaultCtor C ty) (fun _ => R.op + R.obj) R.op :=
  ((Cost.mayThrow (by intros; rfl) (by intros; rfl) (by intros; rfl)).bind fun _ =>
    Cost.newObj _ _).weaken (by intros; omega) (by omega)

theorem Cost.heapCopy (ty : TyIx) (id : ObjId) :
    Cost R (heapCopy C ty id) (fun _ => R.alloc + 2 * R.op + R.obj) (R.alloc + 2 * R.op) := by
  have h : Cost R (M.modify fun w : World V => { w with allocs := w.allocs + 1 }) (fun _ => R.alloc) 0 := by
    intro w
    simp only [M.modify, Prices.meter, Nat.mul_add]; omega
  exact (h.bind fun _ => (Cost.mayThrow (by intros; rfl) (by intros; rfl) (by intros; rfl)).bind fun _ =>
    Cost.copyCtor _ _).weaken (by intros; omega) (by omega)

theorem Cost.assignObj (ty : TyIx) (l r : ObjId) : Cost R (assignObj C ty l r) (fun _ => R.op) R.op :=
  ((Cost.readAs ty l).bind fun _ => (Cost.readAs ty r).bind fun _ =>
    (Cost.mayThrow (by intros; rfl) (by intros; rfl) (by intros; rfl)).bind fun _ =>
    Cost.modify (by intros; rfl) (by intros; rfl) (by intros; rfl)).weaken (by intros; omega) (by omega)

theorem Cost.moveAssignObj (ty : TyIx) (l r : ObjId) : Cost R (moveAssignObj C ty l r) (fun _ => R.op) R.op :=
  ((Cost.readAs ty l).bind fun _ => (Cost.readAs ty r).bind fun _ => Cost.ite
    ((Cost.mayThrow (by intros; rfl) (by intros; rfl) (by intros; rfl)).bind fun _ =>
      Cost.modify (by intros; rfl) (by intros; rfl) (by intros; rfl))
    ((Cost.mayThrow (by intros; rfl) (by intros; rfl) (by intros; rfl)).bind fun _ =>
      Cost.modify (by intros; rfl) (by intros; rfl) (by intros; rfl))).weaken (by intros; omega) (by omega)

theorem Cost.swapObj (ty : TyIx) (l r : ObjId) : Cost R (swapObj C ty l r) (fun _ => R.op) R.op :=
  ((Cost.readAs ty l).bind fun _ => (Cost.readAs ty r).bind fun _ => Cost.ite
    ((Cost.mayThrow (by intros; rfl) (by intros; rfl) (by intros; rfl)).bind fun _ =>
      Cost.modify (by intros; rfl) (by intros; rfl) (by intros; rfl))
    ((Cost.mayThrow (by intros; rfl) (by intros; rfl) (by intros; rfl)).bind fun _ =>
      Cost.modify (by intros; rfl) (by intros; rfl) (by intros; rfl))).weaken (by intros; omega) (by omega)

theorem Cost.holderGet (p : Option ObjId) : Cost R (holderGet p : M V ObjId) (fun _ => 0) 0 := by
  cases p with
  | none => exact Cost.fail _ _ _
  | some id => exact Cost.pure _

theorem Cost.holderDtor (ty : TyIx) (p : Option ObjId) : Cost R (holderDtor ty p : M V Unit) (fun _ => 0) 0 := by
  cases p with
  | none => exact Cost.pure _
  | some id => exact Cost.destroyObj _ _

theorem Cost.holderCopyCtor : Cost R (holderCopyCtor C) (fun _ => 0) 0 := Cost.ite (Cost.pure _) (Cost.fail _ _ _)

theorem Cost.castObj (x : VarId) (ty : TyIx) : Cost R (castObj x ty : M V ObjId) (fun _ => 0) 0 := by
  refine ((Cost.getVar x).bind (K := fun _ => 0) (X := 0) fun s => ?_)
  split
  · exact (Cost.readAs _ _).bind fun _ => Cost.pure _
  · exact Cost.fail _ _ _

theorem Cost.castHolder (x : VarId) (ty : TyIx) : Cost R (castHolder x ty : M V (Option ObjId)) (fun _ => 0) 0 := by
  refine ((Cost.getVar x).bind (K := fun _ => 0) (X := 0) fun s => ?_)
  split
  · exact Cost.ite (Cost.pure _) (Cost.fail _ _ _)
  · exact Cost.fail _ _ _

/-- Visitation itself costs nothing, whatever the number of bounded types. -/
theorem Cost.internalApplyVisitor (x : VarId) (vis : Visitor V α) {k : α → Nat} {e : Nat}
    (h1 : ∀ ty id, Cost R (vis.onObj ty id) k e) (h2 : ∀ ty p, Cost R (vis.onHolder ty p) k e) :
    Cost R (internalApplyVisitor C x vis) k e := by
  refine ((Cost.getVar x).bind (K := k) (X := e) fun s => ?_).weaken (by intros; omega) (by omega)
  refine visitationImpl_mem (fun m => Cost R m k e) _ _ _ (Cost.fail _ _ _) ?_ _ _ _
  intro ty
  exact Cost.ite (((Cost.castObj _ _).bind fun _ => h1 _ _).weaken (by intros; omega) (by omega))
    (Cost.ite (((Cost.castObj _ _).bind fun _ => h1 _ _).weaken (by intros; omega) (by omega))
      (((Cost.castHolder _ _).bind fun _ => h2 _ _).weaken (by intros; omega) (by omega)))

theorem Cost.applyVisitor (x : VarId) (f : TyIx → ObjId → M V α) {k : α → Nat} {e : Nat}
    (h : ∀ ty id, Cost R (f ty id) k e) : Cost R (applyVisitor C x f) k e :=
  Cost.internalApplyVisitor x _ h fun _ _ =>
    ((Cost.holderGet _).bind fun _ => h _ _).weaken (by intros; omega) (by omega)

theorem Cost.destroyContent (x : VarId) : Cost R (destroyContent C x) (fun _ => 0) 0 :=
  Cost.noexceptIf _ (Cost.internalApplyVisitor x _
    (fun _ _ => (Cost.destroyObj _ _).bind fun _ => Cost.setSlot _ _)
    (fun _ _ => (Cost.holderDtor _ _).bind fun _ => Cost.setSlot _ _))

theorem Cost.destroyVar (x : VarId) : Cost R (destroyVar C x) (fun _ => 0) 0 :=
  (Cost.destroyContent x).bind fun _ => Cost.modify (by intros; rfl) (by intros; rfl) (by intros; rfl)

theorem NoExc.destroyVar (x : VarId) : NoExc (destroyVar C x) := by
  intro w e w'
  simp only [BVariant.destroyVar, BVariant.destroyContent, M.noexceptIf, Bind.bind, M.bind, M.modify]
  cases BVariant.internalApplyVisitor C x (destroyer x) w <;> simp

theorem NoExc.beginVar (x : VarId) (s : VarSt) : NoExc (beginVar x s : M V Unit) := NoExc.modify _

theorem NoExc.which (x : VarId) : NoExc (which x : M V Int) := (NoExc.getVar x).bind fun _ => NoExc.pure _

theorem Cost.defaultConstruct (x : VarId) : Cost R (defaultConstruct C x) (fun _ => R.op + R.obj) R.op :=
  Cost.noexceptIf _ (((Cost.valueCtor _).bindN (fun _ => Cost.beginVar _ _) fun _ => NoExc.beginVar _ _).weaken (by intros; omega) (by omega))

theorem Cost.copyConstruct (x y : VarId) : Cost R (copyConstruct C x y) (fun _ => R.op + R.obj) R.op :=
  ((Cost.internalApplyVisitor y _ (fun _ _ => Cost.copyCtor _ _)
    (fun _ _ => ((Cost.holderGet _).bind fun _ => Cost.copyCtor _ _).weaken (by intros; omega) (by omega))).bindN (fun _ =>
    (Cost.which _).bind fun _ => Cost.beginVar _ _) fun _ => (NoExc.which _).bind fun _ => NoExc.beginVar _ _).weaken (by intros; omega) (by omega)

theorem Cost.moveConstruct (x y : VarId) : Cost R (moveConstruct C x y) (fun _ => R.op + R.obj) R.op :=
  Cost.noexceptIf _ (((Cost.internalApplyVisitor y _ (fun _ _ => Cost.noexceptIf _ (Cost.moveCtor _ _))
    (fun _ _ => ((Cost.holderGet _).bind fun _ => Cost.moveCtor _ _).weaken (by intros; omega) (by omega))).bindN (fun _ =>
    (Cost.which _).bind fun _ => Cost.beginVar _ _) fun _ => (NoExc.which _).bind fun _ => NoExc.beginVar _ _).weaken (by intros; omega) (by omega))

/-- The number of operations, and of objects, of a conversion to a bounded type: one, or two if a temporary is made. -/
def Src.steps : Src V → Nat
  | .conv _ _ => 2
  | _ => 1

theorem Cost.initializeFrom (s : Src V) :
    Cost R (initializeFrom C s) (fun _ => s.steps * R.op + s.steps * R.obj) (s.steps * R.op + (s.steps - 1) * R.obj) := by
  cases s with
  | lref ty id f =>
    exact ((Cost.copyCtor _ _).bindN (fun _ => Cost.pure _) fun _ => NoExc.pure _).weaken (by intros; simp only [Src.steps]; omega)
      (by simp only [Src.steps]; omega)
  | rref ty id f =>
    exact ((Cost.moveCtor _ _).bindN (fun _ => Cost.pure _) fun _ => NoExc.pure _).weaken (by intros; simp only [Src.steps]; omega)
      (by simp only [Src.steps]; omega)
  | conv ty v =>
    exact ((Cost.mayThrow (by intros; rfl) (by intros; rfl) (by intros; rfl)).bind fun _ => (Cost.newObj _ _).bind fun _ =>
      (Cost.withLocal (Cost.moveCtor _ _) (Cost.destroyObj _ _) (NoExc.destroyObj _ _)).bindN (fun _ =>
      Cost.pure _) fun _ => NoExc.pure _).weaken (by intros; simp only [Src.steps]; omega) (by simp only [Src.steps]; omega)

theorem Cost.convertConstruct (x : VarId) (s : Src V) :
    Cost R (convertConstruct C x s) (fun _ => s.steps * R.op + s.steps * R.obj)
      (s.steps * R.op + s.steps * R.obj) := by
  refine ((Cost.initializeFrom s).bind fun r => Cost.beginVar _ _).weaken (by intros; omega) ?_
  cases s <;> simp only [Src.steps] <;> omega

theorem Cost.copyRhsInto (l : VarId) (r : RhsContent) : Cost R (copyRhsInto C l r) (fun _ => R.op + R.obj) R.op := by
  refine (Cost.bindN (k := R.op + R.obj) (x := R.op) ?_ (fun _ => Cost.setSlot _ _) fun _ => NoExc.setSlot _ _).weaken (by intros; omega) (by omega)
  cases r with
  | obj ty id => exact ((Cost.copyCtor _ _).bindN (fun _ => Cost.pure _) fun _ => NoExc.pure _).weaken (by intros; omega) (by omega)
  | holder ty p => exact (Cost.holderCopyCtor.bind fun _ => Cost.pure _).weaken (by intros; omega) (by omega)

theorem Cost.moveRhsInto (l : VarId) (r : RhsContent) : Cost R (moveRhsInto C l r) (fun _ => R.op + R.obj) R.op := by
  cases r with
  | obj ty id => exact ((Cost.moveCtor _ _).bindN (fun _ => Cost.setSlot _ _) fun _ => NoExc.setSlot _ _).weaken (by intros; omega) (by omega)
  | holder ty p => exact (Cost.holderCopyCtor.bind fun _ => Cost.setSlot _ _).weaken (by intros; omega) (by omega)

theorem Cost.constructFallback (l : VarId) : Cost R (constructFallback C l) (fun _ => R.op + R.obj) R.op := by
  refine Cost.noexceptIf _ ?_
  split
  · exact Cost.fail _ _ _
  · exact Cost.ite (((Cost.defaultCtor _).bindN (fun _ => (Cost.setSlot _ _).bind fun _ =>
        Cost.setWhich _ _) fun _ => (NoExc.setSlot _ _).bind fun _ => NoExc.setWhich _ _).weaken (by intros; omega) (by omega))
      (((Cost.setSlot _ _).bind fun _ => Cost.setWhich _ _).weaken (by intros; omega) (by omega))

theorem Cost.backupAssigner_onObj (l : VarId) (i : Int) (r : RhsContent) (ty : TyIx) (id : ObjId) :
    Cost R ((backupAssigner C l i r).onObj ty id) (fun _ => R.of 3 2 1) (R.of 3 2 1) := by
  simp only [Prices.of]
  refine Cost.ite ?_ ?_
  · exact ((Cost.moveCtor _ _).bind fun _ => Cost.withLocal ((Cost.destroyObj _ _).bind fun _ =>
      (Cost.onExc (Cost.copyRhsInto _ _) ((Cost.moveCtor _ _).bindN (fun _ => Cost.setSlot _ _) fun _ => NoExc.setSlot _ _)).bind fun _ =>
        Cost.setWhich _ _) (Cost.destroyObj _ _) (NoExc.destroyObj _ _)).weaken (by intros; omega) (by omega)
  · exact ((Cost.heapCopy _ _).bind fun _ => (Cost.destroyObj _ _).bind fun _ =>
      (Cost.onExc (Cost.copyRhsInto _ _) ((Cost.setSlot _ _).bind fun _ => (Cost.which _).bind fun _ =>
        Cost.setWhich _ _)).bind fun _ => (Cost.setWhich _ _).bind fun _ =>
        Cost.destroyObj _ _).weaken (by intros; omega) (by omega)

theorem Cost.backupAssigner_onHolder (l : VarId) (i : Int) (r : RhsContent) (ty : TyIx) (p : Option ObjId) :
    Cost R ((backupAssigner C l i r).onHolder ty p) (fun _ => R.of 3 2 1) (R.of 3 2 1) := by
  simp only [Prices.of]
  exact ((Cost.setSlot _ _).bind fun _ => (Cost.holderDtor _ _).bind fun _ => (Cost.setSlot _ _).bind fun _ =>
    (Cost.onExc (Cost.copyRhsInto _ _) ((Cost.setSlot _ _).bind fun _ => Cost.setSlot _ _)).bind fun _ =>
    (Cost.setWhich _ _).bind fun _ => Cost.holderDtor _ _).weaken (by intros; omega) (by omega)

theorem Cost.assignImpl (l : VarId) (i : Int) (r : RhsContent) (b1 b2 b3 : Bool) :
    Cost R (assignImpl C l i r b1 b2 b3) (fun _ => R.of 3 2 1) (R.of 3 2 1) := by
  refine Cost.ite ?_ (Cost.ite ?_ (Cost.ite ?_ ?_))
  · refine Cost.noexceptIf _ (((Cost.destroyContent _).bind fun _ =>
      (Cost.copyRhsInto _ _).bind fun _ => Cost.setWhich _ _).weaken ?_ ?_) <;>
      simp only [Prices.of] <;> intros <;> omega
  · cases r with
    | obj ty id =>
      refine ((Cost.copyCtor _ _).bind fun _ => Cost.withLocal ((Cost.destroyContent _).bind fun _ =>
        (Cost.moveCtor _ _).bind fun _ => (Cost.setSlot _ _).bind fun _ => Cost.setWhich _ _)
          (Cost.destroyObj _ _) (NoExc.destroyObj _ _)).weaken ?_ ?_ <;>
        simp only [Prices.of] <;> intros <;> omega
    | holder ty p => exact Cost.fail _ _ _
  · refine ((Cost.destroyContent _).bind fun _ => (Cost.onExc (Cost.copyRhsInto _ _) (Cost.constructFallback _)).bind
      fun _ => Cost.setWhich _ _).weaken ?_ ?_ <;> simp only [Prices.of] <;> intros <;> omega
  · exact Cost.internalApplyVisitor _ _ (fun _ _ => Cost.backupAssigner_onObj _ _ _ _ _)
      fun _ _ => Cost.backupAssigner_onHolder _ _ _ _ _

theorem Cost.moveAssignImpl (l : VarId) (i : Int) (r : RhsContent) (b1 b2 b3 : Bool) :
    Cost R (moveAssignImpl C l i r b1 b2 b3) (fun _ => R.of 3 2 1) (R.of 3 2 1) := by
  refine Cost.ite ?_ (Cost.ite ?_ (Cost.ite ?_ ?_))
  · refine Cost.noexceptIf _ (((Cost.destroyContent _).bind fun _ =>
      (Cost.moveRhsInto _ _).bind fun _ => Cost.setWhich _ _).weaken ?_ ?_) <;>
      simp only [Prices.of] <;> intros <;> omega
  · exact Cost.noexceptIf _ (Cost.assignImpl _ _ _ _ _ _)
  · refine ((Cost.destroyContent _).bind fun _ => (Cost.onExc (Cost.moveRhsInto _ _) (Cost.constructFallback _)).bind
      fun _ => Cost.setWhich _ _).weaken ?_ ?_ <;> simp only [Prices.of] <;> intros <;> omega
  · exact Cost.assignImpl _ _ _ _ _ _

theorem Cost.copyAssign (l r : VarId) : Cost R (copyAssign C l r) (fun _ => R.of 3 2 1) (R.of 3 2 1) := by
  refine ((Cost.getVar _).bind fun _ => (Cost.getVar _).bind fun _ => Cost.ite
    (k := fun _ => R.of 3 2 1) (x := R.of 3 2 1) ?_ ?_).weaken (by intros; omega) (by omega)
  · have h : R.op ≤ R.of 3 2 1 := by simp only [Prices.of]; omega
    exact Cost.internalApplyVisitor _ _
      (fun _ _ => ((Cost.castObj _ _).bind fun _ => Cost.assignObj _ _ _).weaken (by intros; omega) (by omega))
      (fun _ _ => ((Cost.holderGet _).bind fun _ => (Cost.castHolder _ _).bind fun _ =>
        (Cost.holderGet _).bind fun _ => Cost.assignObj _ _ _).weaken (by intros; omega) (by omega))
  · refine Cost.internalApplyVisitor _ _ (fun ty id => ?_) fun ty p => ?_
    · show Cost R (assignerVisit C l _ (.obj ty id)) _ _
      exact Cost.assignImpl _ _ _ _ _ _
    · show Cost R (assignerVisit C l _ (.holder ty p)) _ _
      exact Cost.assignImpl _ _ _ _ _ _

theorem Cost.variantMoveAssign (l r : VarId) :
    Cost R (variantMoveAssign C l r) (fun _ => R.of 3 2 1) (R.of 3 2 1) := by
  refine ((Cost.getVar _).bind fun _ => (Cost.getVar _).bind fun _ => Cost.ite
    (k := fun _ => R.of 3 2 1) (x := R.of 3 2 1) ?_ ?_).weaken (by intros; omega) (by omega)
  · have h : R.op ≤ R.of 3 2 1 := by simp only [Prices.of]; omega
    exact Cost.internalApplyVisitor _ _
      (fun _ _ => ((Cost.castObj _ _).bind fun _ => Cost.moveAssignObj _ _ _).weaken (by intros; omega) (by omega))
      (fun _ _ => ((Cost.holderGet _).bind fun _ => (Cost.castHolder _ _).bind fun _ =>
        (Cost.holderGet _).bind fun _ => Cost.moveAssignObj _ _ _).weaken (by intros; omega) (by omega))
  · refine Cost.internalApplyVisitor _ _ (fun ty id => ?_) fun ty p => ?_
    · show Cost R (moveAssignerVisit C l _ (.obj ty id)) _ _
      exact Cost.moveAssignImpl _ _ _ _ _ _
    · show Cost R (moveAssignerVisit C l _ (.holder ty p)) _ _
      exact Cost.moveAssignImpl _ _ _ _ _ _

theorem Cost.moveAssign (l r : VarId) : Cost R (moveAssign C l r) (fun _ => R.of 3 2 1) (R.of 3 2 1) :=
  Cost.noexceptIf _ (Cost.variantMoveAssign _ _)

theorem Cost.directAssign (l : VarId) (s : Src V) :
    Cost R (directAssign C l s) (fun b => if b then R.op else 0) R.op := by
  refine Cost.applyVisitor _ _ fun ty id => ?_
  have hf : Cost R (Pure.pure false : M V Bool) (fun b => if b then R.op else 0) R.op :=
    fun w => Nat.le_add_right _ _
  have ht : ∀ {m : M V Unit}, Cost R m (fun _ => R.op) R.op →
      Cost R (m >>= fun _ => Pure.pure true) (fun b => if b then R.op else 0) R.op := by
    intro m hm w
    have h1 := hm w
    simp only [Bind.bind, M.bind]
    cases h : m w with
    | ok b w' => rw [h] at h1; exact h1
    | exc e w' => rw [h] at h1; exact h1
    | fault f => trivial
  cases s with
  | lref k r f => exact Cost.ite (ht (Cost.assignObj _ _ _)) hf
  | rref k r f => exact Cost.ite (ht (Cost.moveAssignObj _ _ _)) hf
  | conv k v => exact hf

theorem Cost.assignValue (l : VarId) (s : Src V) :
    Cost R (assignValue C l s) (fun _ => R.of (s.steps + 3) (s.steps + 2) 1) (R.of (s.steps + 3) (s.steps + 2) 1) := by
  have h := Cost.bindIf (Cost.directAssign (C := C) (R := R) l s)
    ((Cost.convertConstruct (C := C) (R := R) (.tmp 0) s).bind fun _ =>
      Cost.withLocal (Cost.variantMoveAssign (C := C) l (.tmp 0)) (Cost.destroyVar (C := C) (.tmp 0)) (NoExc.destroyVar _))
  refine Cost.weaken h ?_ ?_ <;> simp only [Prices.of] <;> cases s <;> simp only [Src.steps] <;> intros <;> omega

theorem Cost.swap (x y : VarId) : Cost R (swap C x y) (fun _ => R.of 7 5 2) (R.of 7 5 2) := by
  refine ((Cost.which _).bind fun _ => (Cost.which _).bind fun _ => Cost.ite
    (k := fun _ => R.of 7 5 2) (x := R.of 7 5 2) ?_ ?_).weaken (by intros; omega) (by omega)
  · have h : R.op ≤ R.of 7 5 2 := by simp only [Prices.of]; omega
    exact Cost.applyVisitor _ _ fun _ _ => ((Cost.applyVisitor _ _ fun _ _ =>
      Cost.ite (Cost.pure _) (Cost.fail _ _ _)).bind fun _ => Cost.swapObj _ _ _).weaken (by intros; omega) (by omega)
  · refine ((Cost.moveConstruct _ _).bind fun _ => Cost.withLocal
      ((Cost.moveAssign _ _).bind fun _ => Cost.moveAssign _ _) (Cost.destroyVar _) (NoExc.destroyVar _)).weaken ?_ ?_ <;>
      simp only [Prices.of] <;> intros <;> omega

theorem Cost.withElem (k : TyIx) (v : V) {f : ObjId → M V α} {K : α → Nat} {x : Nat} (h : ∀ t, Cost R (f t) K x) :
    Cost R (withElem k v f) (fun a => R.obj + K a) (R.obj + x) :=
  ((Cost.newObj _ _).bind fun _ => Cost.withLocal (h _) (Cost.destroyObj _ _) (NoExc.destroyObj _ _)).weaken
    (by intros; omega) (by omega)

end

end BVariant
