/-
Every exception that leaves a statement was thrown by an element operation or an allocation performed by that
statement. Holds in every state, well-formed or not.
-/
import Verif.Core.Program
import Verif.Lemmas.Visitation
import Verif.Spec.Program

namespace BVariant

/-- Specification: an operation of an element type that is not declared nothrow, or an allocation, throws this. -/
def ExcKind.ofElement {V : Type} (C : Cfg V) : ExcKind → Prop
  | .defaultCtor k => (C.tr k).nothrowDefault = false
  | .copyCtor k => (C.tr k).nothrowCopy = false
  | .moveCtor k => (C.tr k).nothrowMove = false
  | .moveAssign k => (C.tr k).nothrowMoveAssign = false
  | .badAlloc | .copyAssign _ | .swap _ | .convert _ => True
  | .visitor | .badGet | .badPolymorphicGet | .badVisit => False

section
variable {V α β : Type} {C : Cfg V}

/-- Time does not run backwards, and exceptions come from operations performed by the code. -/
def Honest (C : Cfg V) (m : M V α) : Prop := ∀ w,
  match m w with
  | .ok _ w' => w.tick ≤ w'.tick
  | .exc e w' => Thrown C w w' e ∧ e.kind.ofElement C
  | .fault _ => True

theorem Honest.pure (a : α) : Honest C (Pure.pure a : M V α) := fun _ => Nat.le_refl _

theorem Honest.bind {m : M V β} {f : β → M V α} (hm : Honest C m) (hf : ∀ b, Honest C (f b)) :
    Honest C (m >>= f) := by
  intro w
  have h1 := hm w
  simp only [Bind.bind, M.bind]
  cases h : m w with
  | ok b w' =>
    rw [h] at h1
    have h2 := hf b w'
    simp only
    cases h' : f b w' with
    | ok a w'' => rw [h'] at h2; simp only at *; omega
    | exc e w'' => rw [h'] at h2; exact ⟨⟨by have := h2.1.1; simp only at h1; omega, h2.1.2⟩, h2.2⟩
    | fault x => trivial
  | exc e w' => rw [h] at h1; exact h1
  | fault x => trivial

theorem Honest.onExc {m : M V α} {h : M V Unit} (hm : Honest C m) (hh : Honest C h) : Honest C (M.onExc m h) := by
  intro w
  have h1 := hm w
  simp only [M.onExc]
  cases e1 : m w with
  | ok b w' => rw [e1] at h1; exact h1
  | exc e w' =>
    rw [e1] at h1
    have h2 := hh w'
    simp only
    cases h' : h w' with
    | ok a w'' => rw [h'] at h2; exact ⟨⟨h1.1.1, by have := h1.1.2.1; simp only at h2; omega, h1.1.2.2⟩, h1.2⟩
    | exc e' w'' =>
      rw [h'] at h2
      exact ⟨⟨by have a := h2.1.1; have b := h1.1.1; have c := h1.1.2.1; omega, h2.1.2⟩, h2.2⟩
    | fault x => trivial
  | fault x => trivial

theorem Honest.withLocal {m : M V α} {h : M V Unit} (hm : Honest C m) (hh : Honest C h) :
    Honest C (M.withLocal m h) := by
  intro w
  have h1 := hm w
  simp only [M.withLocal]
  cases e1 : m w with
  | ok b w' =>
    rw [e1] at h1
    have h2 := hh w'
    simp only at h1 ⊢
    cases h' : h w' with
    | ok a w'' => rw [h'] at h2; simp only at *; omega
    | exc e' w'' => rw [h'] at h2; exact ⟨⟨by have := h2.1.1; omega, h2.1.2⟩, h2.2⟩
    | fault x => trivial
  | exc e w' =>
    rw [e1] at h1
    have h2 := hh w'
    simp only
    cases h' : h w' with
    | ok a w'' => rw [h'] at h2; exact ⟨⟨h1.1.1, by have := h1.1.2.1; simp only at h2; omega, h1.1.2.2⟩, h1.2⟩
    | exc e' w'' => trivial
    | fault x => trivial
  | fault x => trivial

theorem Honest.noexceptIf {m : M V α} (b : Bool) (hm : Honest C m) : Honest C (M.noexceptIf b m) := by
  intro w
  have h1 := hm w
  simp only [M.noexceptIf]
  cases e1 : m w with
  | ok b w' => rw [e1] at h1; exact h1
  | exc e w' =>
    rw [e1] at h1
    cases b with
    | true => trivial
    | false => exact h1
  | fault x => trivial

theorem Honest.fail (f : Fault) : Honest C (M.fail f : M V α) := fun _ => trivial

theorem Honest.modify {f : World V → World V} (h : ∀ w, (f w).tick = w.tick) : Honest C (M.modify f) :=
  fun w => Nat.le_of_eq (h w).symm

theorem Honest.ite {c : Prop} [Decidable c] {m n : M V α} (hm : Honest C m) (hn : Honest C n) :
    Honest C (if c then m else n) := by
  split
  · exact hm
  · exact hn

theorem Honest.getVar (x : VarId) : Honest C (getVar x : M V VarSt) := by
  intro w
  simp only [BVariant.getVar]
  cases w.vars x with
  | none => trivial
  | some s => exact Nat.le_refl _

theorem Honest.readAs (ty : TyIx) (id : ObjId) : Honest C (readAs ty id : M V V) := by
  intro w
  simp only [BVariant.readAs]
  cases w.objs id with
  | none => trivial
  | some p =>
    simp only
    by_cases h : p.1 = ty
    · simp [h]
    · simp [h]

theorem Honest.mayThrow {nt : Bool} {k : ExcKind} {f : World V → World V} (hf : ∀ w, (f w).tick = w.tick)
    (hk : nt = false → k.ofElement C) : Honest C (mayThrow C nt k f) := by
  intro w
  simp only [BVariant.mayThrow]
  split
  · rename_i h
    split at h
    · cases h
    · rename_i h2; cases h; simp
  · rename_i h
    split at h
    · rename_i h2
      cases h
      simp only [Bool.and_eq_true] at h2
      exact ⟨⟨Nat.le_refl _, by rw [hf]; exact Nat.lt_succ_self _, h2.2⟩, hk (by simpa using h2.1)⟩
    · cases h
  · trivial

theorem Honest.newObj (ty : TyIx) (v : V) : Honest C (newObj ty v : M V ObjId) := fun _ => Nat.le_refl _

theorem Honest.destroyObj (ty : TyIx) (id : ObjId) : Honest C (destroyObj ty id : M V Unit) :=
  (Honest.readAs ty id).bind fun _ => Honest.modify (by intros; rfl)

theorem Honest.setSlot (x : VarId) (s : Slot) : Honest C (setSlot x s : M V Unit) :=
  (Honest.getVar x).bind fun _ => Honest.modify (by intros; rfl)

theorem Honest.setWhich (x : VarId) (i : Int) : Honest C (setWhich x i : M V Unit) :=
  (Honest.getVar x).bind fun _ => Honest.modify (by intros; rfl)

theorem Honest.which (x : VarId) : Honest C (which x : M V Int) :=
  (Honest.getVar x).bind fun _ => Honest.pure _

theorem Honest.beginVar (x : VarId) (s : VarSt) : Honest C (beginVar x s : M V Unit) := Honest.modify (by intros; rfl)

theorem Honest.copyCtor (ty : TyIx) (id : ObjId) : Honest C (copyCtor C ty id) :=
  (Honest.readAs ty id).bind fun _ => (Honest.mayThrow (by intros; rfl) (by exact fun h => h)).bind fun _ => Honest.newObj _ _

theorem Honest.moveCtor (ty : TyIx) (id : ObjId) : Honest C (moveCtor C ty id) :=
  (Honest.readAs ty id).bind fun _ => (Honest.mayThrow (by intros; rfl) (by exact fun h => h)).bind fun _ =>
    (Honest.modify (by intros; rfl)).bind fun _ => Honest.newObj _ _

theorem Honest.valueCtor (ty : TyIx) : Honest C (valueCtor C ty) :=
  (Honest.mayThrow (by intros; rfl) (by exact fun h => h)).bind fun _ => Honest.newObj _ _

theorem Honest.defaultCtor (ty : TyIx) : Honest C (defaultCtor C ty) :=
  (Honest.mayThrow (by intros; rfl) (by exact fun h => h)).bind fun _ => Honest.newObj _ _

theorem Honest.heapCopy (ty : TyIx) (id : ObjId) : Honest C (heapCopy C ty id) :=
  (Honest.modify (by intros; rfl)).bind fun _ => (Honest.mayThrow (by intros; rfl) (by exact fun _ => trivial)).bind fun _ => Honest.copyCtor _ _

theorem Honest.assignObj (ty : TyIx) (l r : ObjId) : Honest C (assignObj C ty l r) :=
  (Honest.readAs ty l).bind fun _ => (Honest.readAs ty r).bind fun _ =>
    (Honest.mayThrow (by intros; rfl) (by exact fun _ => trivial)).bind fun _ => Honest.modify (by intros; rfl)

theorem Honest.moveAssignObj (ty : TyIx) (l r : ObjId) : Honest C (moveAssignObj C ty l r) :=
  (Honest.readAs ty l).bind fun _ => (Honest.readAs ty r).bind fun _ => Honest.ite
    ((Honest.mayThrow (by intros; rfl) (by exact fun h => h)).bind fun _ => Honest.modify (by intros; rfl))
    ((Honest.mayThrow (by intros; rfl) (by exact fun h => h)).bind fun _ => Honest.modify (by intros; rfl))

theorem Honest.swapObj (ty : TyIx) (l r : ObjId) : Honest C (swapObj C ty l r) :=
  (Honest.readAs ty l).bind fun _ => (Honest.readAs ty r).bind fun _ => Honest.ite
    ((Honest.mayThrow (by intros; rfl) (by exact fun _ => trivial)).bind fun _ => Honest.modify (by intros; rfl))
    ((Honest.mayThrow (by intros; rfl) (by exact fun _ => trivial)).bind fun _ => Honest.modify (by intros; rfl))

theorem Honest.holderGet (p : Option ObjId) : Honest C (holderGet p : M V ObjId) := by
  cases p with
  | none => exact Honest.fail _
  | some id => exact Honest.pure _

theorem Honest.holderDtor (ty : TyIx) (p : Option ObjId) : Honest C (holderDtor ty p : M V Unit) := by
  cases p with
  | none => exact Honest.pure _
  | some id => exact Honest.destroyObj _ _

theorem Honest.holderCopyCtor : Honest C (holderCopyCtor C) := Honest.ite (Honest.pure _) (Honest.fail _)

theorem Honest.castObj (x : VarId) (ty : TyIx) : Honest C (castObj x ty : M V ObjId) := by
  refine (Honest.getVar x).bind fun s => ?_
  split
  · exact (Honest.readAs _ _).bind fun _ => Honest.pure _
  · exact Honest.fail _

theorem Honest.castHolder (x : VarId) (ty : TyIx) : Honest C (castHolder x ty : M V (Option ObjId)) := by
  refine (Honest.getVar x).bind fun s => ?_
  split
  · exact Honest.ite (Honest.pure _) (Honest.fail _)
  · exact Honest.fail _

/-- The switch runs the visitor on some type, or the unreachable branch. -/
theorem visitationImpl_mem {τ β : Type} (P : β → Prop) (L : Nat) (inv : τ → β) (forced : β) (hf : P forced)
    (hi : ∀ t, P (inv t)) (logical : Int) (which : Nat) (steps : List τ) :
    P (visitationImpl L logical which steps inv forced) := by
  have hsw : ∀ (steps : List τ) which k n r, switchCases logical which steps inv forced k n = some r → P r := by
    intro steps which k
    induction k with
    | zero => intro n r h; cases h
    | succ k ih =>
      intro n r h
      simp only [switchCases] at h
      split at h
      · split at h
        · cases h; exact hi _
        · cases h; exact hf
      · exact ih _ _ h
  generalize hn : steps.length = n
  induction n using Nat.strongRecOn generalizing which steps with
  | _ n ih =>
    rw [visitationImpl]
    split
    · rename_i r hr; exact hsw _ _ _ _ _ hr
    · split
      · exact hf
      · rename_i t ht
        have := (List.getElem?_eq_some_iff.mp ht).1
        exact ih _ (by simp only [List.length_drop]; omega) _ _ rfl

theorem Honest.internalApplyVisitor {C' : Cfg V} (x : VarId) (vis : Visitor V α) (h1 : ∀ ty id, Honest C (vis.onObj ty id))
    (h2 : ∀ ty p, Honest C (vis.onHolder ty p)) : Honest C (internalApplyVisitor C' x vis) := by
  refine (Honest.getVar x).bind fun s => ?_
  refine visitationImpl_mem (Honest C) _ _ _ (Honest.fail _) ?_ _ _ _
  intro ty
  refine Honest.ite ((Honest.castObj _ _).bind fun _ => h1 _ _) (Honest.ite ((Honest.castObj _ _).bind fun _ => h1 _ _) ?_)
  exact (Honest.castHolder _ _).bind fun _ => h2 _ _

theorem Honest.applyVisitor (x : VarId) (f : TyIx → ObjId → M V α) (h : ∀ ty id, Honest C (f ty id)) :
    Honest C (applyVisitor C x f) :=
  Honest.internalApplyVisitor x _ h fun _ _ => (Honest.holderGet _).bind fun _ => h _ _

theorem Honest.destroyContent (x : VarId) : Honest C (destroyContent C x) :=
  Honest.noexceptIf _ (Honest.internalApplyVisitor x _
    (fun _ _ => (Honest.destroyObj _ _).bind fun _ => Honest.setSlot _ _)
    (fun _ _ => (Honest.holderDtor _ _).bind fun _ => Honest.setSlot _ _))

theorem Honest.destroyVar (x : VarId) : Honest C (destroyVar C x) :=
  (Honest.destroyContent x).bind fun _ => Honest.modify (by intros; rfl)

theorem Honest.defaultConstruct (x : VarId) : Honest C (defaultConstruct C x) :=
  Honest.noexceptIf _ ((Honest.valueCtor _).bind fun _ => Honest.beginVar _ _)

theorem Honest.copyConstruct (x y : VarId) : Honest C (copyConstruct C x y) :=
  (Honest.internalApplyVisitor y _ (fun _ _ => Honest.copyCtor _ _)
    (fun _ _ => (Honest.holderGet _).bind fun _ => Honest.copyCtor _ _)).bind fun _ =>
    (Honest.which _).bind fun _ => Honest.beginVar _ _

theorem Honest.moveConstruct (x y : VarId) : Honest C (moveConstruct C x y) :=
  Honest.noexceptIf _ ((Honest.internalApplyVisitor y _ (fun _ _ => Honest.noexceptIf _ (Honest.moveCtor _ _))
    (fun _ _ => (Honest.holderGet _).bind fun _ => Honest.moveCtor _ _)).bind fun _ =>
    (Honest.which _).bind fun _ => Honest.beginVar _ _)

theorem Honest.initializeFrom (s : Src V) : Honest C (initializeFrom C s) := by
  cases s with
  | lref ty id f => exact (Honest.copyCtor _ _).bind fun _ => Honest.pure _
  | rref ty id f => exact (Honest.moveCtor _ _).bind fun _ => Honest.pure _
  | conv ty v =>
    exact (Honest.mayThrow (by intros; rfl) (by exact fun _ => trivial)).bind fun _ => (Honest.newObj _ _).bind fun _ =>
      (Honest.withLocal (Honest.moveCtor _ _) (Honest.destroyObj _ _)).bind fun _ => Honest.pure _

theorem Honest.convertConstruct (x : VarId) (s : Src V) : Honest C (convertConstruct C x s) :=
  (Honest.initializeFrom s).bind fun _ => Honest.beginVar _ _

theorem Honest.copyRhsInto (l : VarId) (r : RhsContent) : Honest C (copyRhsInto C l r) := by
  refine Honest.bind ?_ fun _ => Honest.setSlot _ _
  cases r with
  | obj ty id => exact (Honest.copyCtor _ _).bind fun _ => Honest.pure _
  | holder ty p => exact Honest.holderCopyCtor.bind fun _ => Honest.pure _

theorem Honest.moveRhsInto (l : VarId) (r : RhsContent) : Honest C (moveRhsInto C l r) := by
  cases r with
  | obj ty id => exact (Honest.moveCtor _ _).bind fun _ => Honest.setSlot _ _
  | holder ty p => exact Honest.holderCopyCtor.bind fun _ => Honest.setSlot _ _

theorem Honest.constructFallback (l : VarId) : Honest C (constructFallback C l) := by
  refine Honest.noexceptIf _ ?_
  split
  · exact Honest.fail _
  · exact Honest.ite ((Honest.defaultCtor _).bind fun _ => (Honest.setSlot _ _).bind fun _ => Honest.setWhich _ _)
      ((Honest.setSlot _ _).bind fun _ => Honest.setWhich _ _)

theorem Honest.backupAssigner_onObj (l : VarId) (i : Int) (r : RhsContent) (ty : TyIx) (id : ObjId) :
    Honest C ((backupAssigner C l i r).onObj ty id) := by
  refine Honest.ite ?_ ?_
  · refine (Honest.moveCtor _ _).bind fun _ => Honest.withLocal ?_ (Honest.destroyObj _ _)
    exact (Honest.destroyObj _ _).bind fun _ =>
      (Honest.onExc (Honest.copyRhsInto _ _) ((Honest.moveCtor _ _).bind fun _ => Honest.setSlot _ _)).bind fun _ =>
        Honest.setWhich _ _
  · exact (Honest.heapCopy _ _).bind fun _ => (Honest.destroyObj _ _).bind fun _ =>
      (Honest.onExc (Honest.copyRhsInto _ _) ((Honest.setSlot _ _).bind fun _ =>
        (Honest.which _).bind fun _ => Honest.setWhich _ _)).bind fun _ =>
        (Honest.setWhich _ _).bind fun _ => Honest.destroyObj _ _

theorem Honest.backupAssigner_onHolder (l : VarId) (i : Int) (r : RhsContent) (ty : TyIx) (p : Option ObjId) :
    Honest C ((backupAssigner C l i r).onHolder ty p) :=
  (Honest.setSlot _ _).bind fun _ => (Honest.holderDtor _ _).bind fun _ => (Honest.setSlot _ _).bind fun _ =>
    (Honest.onExc (Honest.copyRhsInto _ _) ((Honest.setSlot _ _).bind fun _ => Honest.setSlot _ _)).bind fun _ =>
      (Honest.setWhich _ _).bind fun _ => Honest.holderDtor _ _

theorem Honest.assignImpl (l : VarId) (i : Int) (r : RhsContent) (b1 b2 b3 : Bool) :
    Honest C (assignImpl C l i r b1 b2 b3) := by
  refine Honest.ite ?_ (Honest.ite ?_ (Honest.ite ?_ ?_))
  · exact Honest.noexceptIf _ ((Honest.destroyContent _).bind fun _ =>
      (Honest.copyRhsInto _ _).bind fun _ => Honest.setWhich _ _)
  · cases r with
    | obj ty id =>
      exact (Honest.copyCtor _ _).bind fun _ => Honest.withLocal ((Honest.destroyContent _).bind fun _ =>
        (Honest.moveCtor _ _).bind fun _ => (Honest.setSlot _ _).bind fun _ => Honest.setWhich _ _)
          (Honest.destroyObj _ _)
    | holder ty p => exact Honest.fail _
  · exact (Honest.destroyContent _).bind fun _ =>
      (Honest.onExc (Honest.copyRhsInto _ _) (Honest.constructFallback _)).bind fun _ => Honest.setWhich _ _
  · exact Honest.internalApplyVisitor _ _ (Honest.backupAssigner_onObj _ _ _) (Honest.backupAssigner_onHolder _ _ _)

theorem Honest.moveAssignImpl (l : VarId) (i : Int) (r : RhsContent) (b1 b2 b3 : Bool) :
    Honest C (moveAssignImpl C l i r b1 b2 b3) := by
  refine Honest.ite ?_ (Honest.ite ?_ (Honest.ite ?_ ?_))
  · exact Honest.noexceptIf _ ((Honest.destroyContent _).bind fun _ =>
      (Honest.moveRhsInto _ _).bind fun _ => Honest.setWhich _ _)
  · exact Honest.noexceptIf _ (Honest.assignImpl _ _ _ _ _ _)
  · exact (Honest.destroyContent _).bind fun _ =>
      (Honest.onExc (Honest.moveRhsInto _ _) (Honest.constructFallback _)).bind fun _ => Honest.setWhich _ _
  · exact Honest.assignImpl _ _ _ _ _ _

theorem Honest.copyAssign (l r : VarId) : Honest C (copyAssign C l r) := by
  refine (Honest.getVar _).bind fun _ => (Honest.getVar _).bind fun _ => Honest.ite ?_ ?_
  · exact Honest.internalApplyVisitor _ _ (fun _ _ => (Honest.castObj _ _).bind fun _ => Honest.assignObj _ _ _)
      (fun _ _ => (Honest.holderGet _).bind fun _ => (Honest.castHolder _ _).bind fun _ =>
        (Honest.holderGet _).bind fun _ => Honest.assignObj _ _ _)
  · refine Honest.internalApplyVisitor _ _ (fun ty id => ?_) (fun ty p => ?_)
    · show Honest C (assignerVisit C l _ (.obj ty id))
      exact Honest.assignImpl _ _ _ _ _ _
    · show Honest C (assignerVisit C l _ (.holder ty p))
      exact Honest.assignImpl _ _ _ _ _ _

theorem Honest.variantMoveAssign (l r : VarId) : Honest C (variantMoveAssign C l r) := by
  refine (Honest.getVar _).bind fun _ => (Honest.getVar _).bind fun _ => Honest.ite ?_ ?_
  · exact Honest.internalApplyVisitor _ _ (fun _ _ => (Honest.castObj _ _).bind fun _ => Honest.moveAssignObj _ _ _)
      (fun _ _ => (Honest.holderGet _).bind fun _ => (Honest.castHolder _ _).bind fun _ =>
        (Honest.holderGet _).bind fun _ => Honest.moveAssignObj _ _ _)
  · refine Honest.internalApplyVisitor _ _ (fun ty id => ?_) (fun ty p => ?_)
    · show Honest C (moveAssignerVisit C l _ (.obj ty id))
      exact Honest.moveAssignImpl _ _ _ _ _ _
    · show Honest C (moveAssignerVisit C l _ (.holder ty p))
      exact Honest.moveAssignImpl _ _ _ _ _ _

theorem Honest.moveAssign (l r : VarId) : Honest C (moveAssign C l r) :=
  Honest.noexceptIf _ (Honest.variantMoveAssign _ _)

theorem Honest.assignValue (l : VarId) (s : Src V) : Honest C (assignValue C l s) := by
  refine Honest.bind (Honest.applyVisitor _ _ fun ty id => ?_) fun _ => Honest.ite (Honest.pure _) ?_
  · cases s with
    | lref k r f => exact Honest.ite ((Honest.assignObj _ _ _).bind fun _ => Honest.pure _) (Honest.pure _)
    | rref k r f => exact Honest.ite ((Honest.moveAssignObj _ _ _).bind fun _ => Honest.pure _) (Honest.pure _)
    | conv k v => exact Honest.pure _
  · exact (Honest.convertConstruct _ _).bind fun _ =>
      Honest.withLocal (Honest.variantMoveAssign _ _) (Honest.destroyVar _)

theorem Honest.swap (x y : VarId) : Honest C (swap C x y) := by
  refine (Honest.which _).bind fun _ => (Honest.which _).bind fun _ => Honest.ite ?_ ?_
  · exact Honest.applyVisitor _ _ fun _ _ => (Honest.applyVisitor _ _ fun _ _ =>
      Honest.ite (Honest.pure _) (Honest.fail _)).bind fun _ => Honest.swapObj _ _ _
  · exact (Honest.moveConstruct _ _).bind fun _ => Honest.withLocal
      ((Honest.moveAssign _ _).bind fun _ => Honest.moveAssign _ _) (Honest.destroyVar _)

theorem Honest.withElem (k : TyIx) (v : V) {f : ObjId → M V α} (h : ∀ t, Honest C (f t)) :
    Honest C (withElem k v f) :=
  (Honest.newObj _ _).bind fun _ => Honest.withLocal (h _) (Honest.destroyObj _ _)

theorem Honest.code (c : Cmd V) : Honest C (c.code C) := by
  cases c with
  | defaultConstruct x => exact Honest.defaultConstruct _
  | copyConstruct x y => exact Honest.copyConstruct _ _
  | moveConstruct x y => exact Honest.moveConstruct _ _
  | constructL x k v => exact Honest.withElem _ _ fun _ => Honest.convertConstruct _ _
  | constructR x k v => exact Honest.withElem _ _ fun _ => Honest.convertConstruct _ _
  | constructC x k v => exact Honest.convertConstruct _ _
  | destroy x => exact Honest.destroyVar _
  | copyAssign x y => exact Honest.copyAssign _ _
  | moveAssign x y => exact Honest.moveAssign _ _
  | assignL x k v => exact Honest.withElem _ _ fun _ => Honest.assignValue _ _
  | assignR x k v => exact Honest.withElem _ _ fun _ => Honest.assignValue _ _
  | assignC x k v => exact Honest.assignValue _ _
  | assignVL x k v => exact Honest.withElem _ _ fun _ => Honest.assignValue _ _
  | assignVR x k v => exact Honest.withElem _ _ fun _ => Honest.assignValue _ _
  | swap x y => exact Honest.swap _ _
  | mutate x v => exact Honest.applyVisitor _ _ fun _ _ => Honest.modify (by intros; rfl)
  | constructGet rv x y => exact Honest.applyVisitor _ _ fun _ _ => Honest.convertConstruct _ _
  | assignGet rv x y => exact Honest.applyVisitor _ _ fun _ _ => Honest.assignValue _ _

end

end BVariant
