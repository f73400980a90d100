/-
With a fallback type the heap-backup machinery is dead code: no statement allocates backup memory or records a
heap backup, in any state.
-/
import Verif.Lemmas.Provenance

namespace BVariant

section
variable {V α β : Type} {C : Cfg V}

theorem whichOf_nonneg (i : Int) : 0 ≤ whichOf i := by
  simp only [whichOf, usingBackup, decide_eq_true_eq]
  split <;> omega

/-- The code allocates no backup memory and leaves no variant in the heap-backup state. -/
def Quiet (m : M V α) : Prop := ∀ w, AllInPlace w →
  match m w with
  | .ok _ w' => w'.allocs = w.allocs ∧ AllInPlace w'
  | .exc _ w' => w'.allocs = w.allocs ∧ AllInPlace w'
  | .fault _ => True

theorem Quiet.pure (a : α) : Quiet (Pure.pure a : M V α) := fun _ h => ⟨rfl, h⟩

theorem Quiet.bind {m : M V β} {f : β → M V α} (hm : Quiet m) (hf : ∀ b, Quiet (f b)) :
    Quiet (m >>= f) := by
  intro w h0
  have h1 := hm w h0
  simp only [Bind.bind, M.bind]
  cases h : m w with
  | ok b w' =>
    rw [h] at h1
    have h2 := hf b w' h1.2
    simp only
    cases h' : f b w' with
    | ok a w'' => rw [h'] at h2; exact ⟨h2.1.trans h1.1, h2.2⟩
    | exc e w'' => rw [h'] at h2; exact ⟨h2.1.trans h1.1, h2.2⟩
    | fault x => trivial
  | exc e w' => rw [h] at h1; exact h1
  | fault x => trivial

theorem Quiet.onExc {m : M V α} {h : M V Unit} (hm : Quiet m) (hh : Quiet h) : Quiet (M.onExc m h) := by
  intro w h0
  have h1 := hm w h0
  simp only [M.onExc]
  cases e1 : m w with
  | ok b w' => rw [e1] at h1; exact h1
  | exc e w' =>
    rw [e1] at h1
    have h2 := hh w' h1.2
    simp only
    cases h' : h w' with
    | ok a w'' => rw [h'] at h2; exact ⟨h2.1.trans h1.1, h2.2⟩
    | exc e' w'' => rw [h'] at h2; exact ⟨h2.1.trans h1.1, h2.2⟩
    | fault x => trivial
  | fault x => trivial

theorem Quiet.withLocal {m : M V α} {h : M V Unit} (hm : Quiet m) (hh : Quiet h) :
    Quiet (M.withLocal m h) := by
  intro w h0
  have h1 := hm w h0
  simp only [M.withLocal]
  cases e1 : m w with
  | ok b w' =>
    rw [e1] at h1
    have h2 := hh w' h1.2
    simp only at h1 ⊢
    cases h' : h w' with
    | ok a w'' => rw [h'] at h2; exact ⟨h2.1.trans h1.1, h2.2⟩
    | exc e' w'' => rw [h'] at h2; exact ⟨h2.1.trans h1.1, h2.2⟩
    | fault x => trivial
  | exc e w' =>
    rw [e1] at h1
    have h2 := hh w' h1.2
    simp only
    cases h' : h w' with
    | ok a w'' => rw [h'] at h2; exact ⟨h2.1.trans h1.1, h2.2⟩
    | exc e' w'' => trivial
    | fault x => trivial
  | fault x => trivial

theorem Quiet.noexceptIf {m : M V α} (b : Bool) (hm : Quiet m) : Quiet (M.noexceptIf b m) := by
  intro w h0
  have h1 := hm w h0
  simp only [M.noexceptIf]
  cases e1 : m w with
  | ok b w' => rw [e1] at h1; exact h1
  | exc e w' =>
    rw [e1] at h1
    cases b with
    | true => trivial
    | false => exact h1
  | fault x => trivial

theorem Quiet.fail (f : Fault) : Quiet (M.fail f : M V α) := fun _ _ => trivial

theorem Quiet.modify {f : World V → World V} (h : ∀ w, (f w).allocs = w.allocs)
    (hv : ∀ w, (f w).vars = w.vars) : Quiet (M.modify f) :=
  fun w h0 => ⟨h w, fun x s hx => h0 x s (by rw [← hv w]; exact hx)⟩

theorem Quiet.ite {c : Prop} [Decidable c] {m n : M V α} (hm : Quiet m) (hn : Quiet n) :
    Quiet (if c then m else n) := by
  split
  · exact hm
  · exact hn

theorem Quiet.getVar (x : VarId) : Quiet (getVar x : M V VarSt) := by
  intro w h0
  simp only [BVariant.getVar]
  cases w.vars x with
  | none => trivial
  | some s => exact ⟨rfl, h0⟩

theorem Quiet.readAs (ty : TyIx) (id : ObjId) : Quiet (readAs ty id : M V V) := by
  intro w h0
  simp only [BVariant.readAs]
  cases w.objs id with
  | none => trivial
  | some p =>
    simp only
    by_cases h : p.1 = ty
    · simp [h, h0]
    · simp [h]

theorem Quiet.mayThrow {nt : Bool} {k : ExcKind} {f : World V → World V} (hf : ∀ w, (f w).allocs = w.allocs)
    (hv : ∀ w, (f w).vars = w.vars) : Quiet (mayThrow C nt k f) := by
  intro w h0
  simp only [BVariant.mayThrow]
  split
  · rename_i h
    split at h
    · cases h
    · cases h; exact ⟨rfl, h0⟩
  · rename_i h
    split at h
    · cases h
      exact ⟨hf _, fun x s hx => h0 x s (by rw [hv] at hx; exact hx)⟩
    · cases h
  · trivial

theorem Quiet.setSlot (x : VarId) (s : Slot) : Quiet (setSlot x s : M V Unit) := by
  intro w h0
  simp only [BVariant.setSlot, Bind.bind, M.bind, BVariant.getVar]
  cases hx : w.vars x with
  | none => trivial
  | some t =>
    refine ⟨rfl, fun y u hy => ?_⟩
    simp only [upd] at hy
    split at hy
    · cases hy; exact h0 x t hx
    · exact h0 y u hy

theorem Quiet.setWhich (x : VarId) {i : Int} (hi : 0 ≤ i) : Quiet (setWhich x i : M V Unit) := by
  intro w h0
  simp only [BVariant.setWhich, Bind.bind, M.bind, BVariant.getVar]
  cases hx : w.vars x with
  | none => trivial
  | some t =>
    refine ⟨rfl, fun y u hy => ?_⟩
    simp only [upd] at hy
    split at hy
    · cases hy; exact hi
    · exact h0 y u hy

theorem Quiet.beginVar (x : VarId) {s : VarSt} (hi : 0 ≤ s.which_) : Quiet (beginVar x s : M V Unit) := by
  intro w h0
  refine ⟨rfl, fun y u hy => ?_⟩
  simp only [upd] at hy
  split at hy
  · cases hy; exact hi
  · exact h0 y u hy

theorem Quiet.which_bind (x : VarId) {f : Int → M V α} (h : ∀ i, 0 ≤ i → Quiet (f i)) :
    Quiet (which x >>= f) := by
  intro w h0
  simp only [which, Bind.bind, M.bind, BVariant.getVar]
  cases hx : w.vars x with
  | none => trivial
  | some t => exact h _ (whichOf_nonneg t.which_) w h0

theorem Quiet.newObj (ty : TyIx) (v : V) : Quiet (newObj ty v : M V ObjId) := fun _ h => ⟨rfl, h⟩

theorem Quiet.destroyObj (ty : TyIx) (id : ObjId) : Quiet (destroyObj ty id : M V Unit) :=
  (Quiet.readAs ty id).bind fun _ => Quiet.modify (by intros; rfl) (by intros; rfl)

theorem Quiet.copyCtor (ty : TyIx) (id : ObjId) : Quiet (copyCtor C ty id) :=
  (Quiet.readAs ty id).bind fun _ => (Quiet.mayThrow (by intros; rfl) (by intros; rfl)).bind fun _ => Quiet.newObj _ _

theorem Quiet.moveCtor (ty : TyIx) (id : ObjId) : Quiet (moveCtor C ty id) :=
  (Quiet.readAs ty id).bind fun _ => (Quiet.mayThrow (by intros; rfl) (by intros; rfl)).bind fun _ =>
    (Quiet.modify (by intros; rfl) (by intros; rfl)).bind fun _ => Quiet.newObj _ _

theorem Quiet.valueCtor (ty : TyIx) : Quiet (valueCtor C ty) :=
  (Quiet.mayThrow (by intros; rfl) (by intros; rfl)).bind fun _ => Quiet.newObj _ _

theorem Quiet.defaultCtor (ty : TyIx) : Quiet (defaultCtor C ty) :=
  (Quiet.mayThrow (by intros; rfl) (by intros; rfl)).bind fun _ => Quiet.newObj _ _

theorem Quiet.assignObj (ty : TyIx) (l r : ObjId) : Quiet (assignObj C ty l r) :=
  (Quiet.readAs ty l).bind fun _ => (Quiet.readAs ty r).bind fun _ =>
    (Quiet.mayThrow (by intros; rfl) (by intros; rfl)).bind fun _ => Quiet.modify (by intros; rfl) (by intros; rfl)

theorem Quiet.moveAssignObj (ty : TyIx) (l r : ObjId) : Quiet (moveAssignObj C ty l r) :=
  (Quiet.readAs ty l).bind fun _ => (Quiet.readAs ty r).bind fun _ => Quiet.ite
    ((Quiet.mayThrow (by intros; rfl) (by intros; rfl)).bind fun _ => Quiet.modify (by intros; rfl) (by intros; rfl))
    ((Quiet.mayThrow (by intros; rfl) (by intros; rfl)).bind fun _ => Quiet.modify (by intros; rfl) (by intros; rfl))

theorem Quiet.swapObj (ty : TyIx) (l r : ObjId) : Quiet (swapObj C ty l r) :=
  (Quiet.readAs ty l).bind fun _ => (Quiet.readAs ty r).bind fun _ => Quiet.ite
    ((Quiet.mayThrow (by intros; rfl) (by intros; rfl)).bind fun _ => Quiet.modify (by intros; rfl) (by intros; rfl))
    ((Quiet.mayThrow (by intros; rfl) (by intros; rfl)).bind fun _ => Quiet.modify (by intros; rfl) (by intros; rfl))

theorem Quiet.holderGet (p : Option ObjId) : Quiet (holderGet p : M V ObjId) := by
  cases p with
  | none => exact Quiet.fail _
  | some id => exact Quiet.pure _

theorem Quiet.holderDtor (ty : TyIx) (p : Option ObjId) : Quiet (holderDtor ty p : M V Unit) := by
  cases p with
  | none => exact Quiet.pure _
  | some id => exact Quiet.destroyObj _ _

theorem Quiet.holderCopyCtor : Quiet (holderCopyCtor C) := Quiet.ite (Quiet.pure _) (Quiet.fail _)

theorem Quiet.castObj (x : VarId) (ty : TyIx) : Quiet (castObj x ty : M V ObjId) := by
  refine (Quiet.getVar x).bind fun s => ?_
  split
  · exact (Quiet.readAs _ _).bind fun _ => Quiet.pure _
  · exact Quiet.fail _

theorem Quiet.castHolder (x : VarId) (ty : TyIx) : Quiet (castHolder x ty : M V (Option ObjId)) := by
  refine (Quiet.getVar x).bind fun s => ?_
  split
  · exact Quiet.ite (Quiet.pure _) (Quiet.fail _)
  · exact Quiet.fail _

theorem Quiet.internalApplyVisitor (x : VarId) (vis : Visitor V α) (h1 : ∀ ty id, Quiet (vis.onObj ty id))
    (h2 : ∀ ty p, Quiet (vis.onHolder ty p)) : Quiet (internalApplyVisitor C x vis) := by
  refine (Quiet.getVar x).bind fun s => ?_
  refine visitationImpl_mem Quiet _ _ _ (Quiet.fail _) ?_ _ _ _
  intro ty
  refine Quiet.ite ((Quiet.castObj _ _).bind fun _ => h1 _ _) (Quiet.ite ((Quiet.castObj _ _).bind fun _ => h1 _ _) ?_)
  exact (Quiet.castHolder _ _).bind fun _ => h2 _ _

theorem Quiet.applyVisitor (x : VarId) (f : TyIx → ObjId → M V α) (h : ∀ ty id, Quiet (f ty id)) :
    Quiet (applyVisitor C x f) :=
  Quiet.internalApplyVisitor x _ h fun _ _ => (Quiet.holderGet _).bind fun _ => h _ _

theorem Quiet.destroyContent (x : VarId) : Quiet (destroyContent C x) :=
  Quiet.noexceptIf _ (Quiet.internalApplyVisitor x _
    (fun _ _ => (Quiet.destroyObj _ _).bind fun _ => Quiet.setSlot _ _)
    (fun _ _ => (Quiet.holderDtor _ _).bind fun _ => Quiet.setSlot _ _))

theorem Quiet.destroyVar (x : VarId) : Quiet (destroyVar C x) := by
  refine (Quiet.destroyContent x).bind fun _ w h0 => ⟨rfl, fun y u hy => ?_⟩
  simp only [upd] at hy
  split at hy
  · cases hy
  · exact h0 y u hy

theorem Quiet.defaultConstruct (x : VarId) : Quiet (defaultConstruct C x) :=
  Quiet.noexceptIf _ ((Quiet.valueCtor _).bind fun _ => Quiet.beginVar _ (Int.le_refl 0))

theorem Quiet.copyConstruct (x y : VarId) : Quiet (copyConstruct C x y) :=
  (Quiet.internalApplyVisitor y _ (fun _ _ => Quiet.copyCtor _ _)
    (fun _ _ => (Quiet.holderGet _).bind fun _ => Quiet.copyCtor _ _)).bind fun _ =>
    Quiet.which_bind _ fun _ hi => Quiet.beginVar _ hi

theorem Quiet.moveConstruct (x y : VarId) : Quiet (moveConstruct C x y) :=
  Quiet.noexceptIf _ ((Quiet.internalApplyVisitor y _ (fun _ _ => Quiet.noexceptIf _ (Quiet.moveCtor _ _))
    (fun _ _ => (Quiet.holderGet _).bind fun _ => Quiet.moveCtor _ _)).bind fun _ =>
    Quiet.which_bind _ fun _ hi => Quiet.beginVar _ hi)

theorem Quiet.initializeFrom (s : Src V) : Quiet (initializeFrom C s) := by
  cases s with
  | lref ty id f => exact (Quiet.copyCtor _ _).bind fun _ => Quiet.pure _
  | rref ty id f => exact (Quiet.moveCtor _ _).bind fun _ => Quiet.pure _
  | conv ty v =>
    exact (Quiet.mayThrow (by intros; rfl) (by intros; rfl)).bind fun _ => (Quiet.newObj _ _).bind fun _ =>
      (Quiet.withLocal (Quiet.moveCtor _ _) (Quiet.destroyObj _ _)).bind fun _ => Quiet.pure _

theorem Quiet.convertConstruct (x : VarId) (s : Src V) : Quiet (convertConstruct C x s) :=
  (Quiet.initializeFrom s).bind fun r => Quiet.beginVar _ (Int.natCast_nonneg r.1)

theorem Quiet.copyRhsInto (l : VarId) (r : RhsContent) : Quiet (copyRhsInto C l r) := by
  refine Quiet.bind ?_ fun _ => Quiet.setSlot _ _
  cases r with
  | obj ty id => exact (Quiet.copyCtor _ _).bind fun _ => Quiet.pure _
  | holder ty p => exact Quiet.holderCopyCtor.bind fun _ => Quiet.pure _

theorem Quiet.moveRhsInto (l : VarId) (r : RhsContent) : Quiet (moveRhsInto C l r) := by
  cases r with
  | obj ty id => exact (Quiet.moveCtor _ _).bind fun _ => Quiet.setSlot _ _
  | holder ty p => exact Quiet.holderCopyCtor.bind fun _ => Quiet.setSlot _ _

theorem Quiet.constructFallback (l : VarId) : Quiet (constructFallback C l) := by
  refine Quiet.noexceptIf _ ?_
  split
  · exact Quiet.fail _
  · rename_i fb _
    exact Quiet.ite ((Quiet.defaultCtor _).bind fun _ => (Quiet.setSlot _ _).bind fun _ =>
        Quiet.setWhich _ (Int.natCast_nonneg fb))
      ((Quiet.setSlot _ _).bind fun _ => Quiet.setWhich _ (Int.natCast_nonneg fb))

theorem Quiet.assignImpl (l : VarId) {i : Int} (hi : 0 ≤ i) (r : RhsContent) (b1 b2 : Bool) :
    Quiet (assignImpl C l i r b1 b2 true) := by
  refine Quiet.ite ?_ (Quiet.ite ?_ ?_)
  · exact Quiet.noexceptIf _ ((Quiet.destroyContent _).bind fun _ =>
      (Quiet.copyRhsInto _ _).bind fun _ => Quiet.setWhich _ hi)
  · cases r with
    | obj ty id =>
      exact (Quiet.copyCtor _ _).bind fun _ => Quiet.withLocal ((Quiet.destroyContent _).bind fun _ =>
        (Quiet.moveCtor _ _).bind fun _ => (Quiet.setSlot _ _).bind fun _ => Quiet.setWhich _ hi)
          (Quiet.destroyObj _ _)
    | holder ty p => exact Quiet.fail _
  · simp only [if_true]
    exact (Quiet.destroyContent _).bind fun _ =>
      (Quiet.onExc (Quiet.copyRhsInto _ _) (Quiet.constructFallback _)).bind fun _ => Quiet.setWhich _ hi

theorem Quiet.moveAssignImpl (l : VarId) {i : Int} (hi : 0 ≤ i) (r : RhsContent) (b1 b2 : Bool) :
    Quiet (moveAssignImpl C l i r b1 b2 true) := by
  refine Quiet.ite ?_ (Quiet.ite ?_ ?_)
  · exact Quiet.noexceptIf _ ((Quiet.destroyContent _).bind fun _ =>
      (Quiet.moveRhsInto _ _).bind fun _ => Quiet.setWhich _ hi)
  · exact Quiet.noexceptIf _ (Quiet.assignImpl _ hi _ _ _)
  · simp only [if_true]
    exact (Quiet.destroyContent _).bind fun _ =>
      (Quiet.onExc (Quiet.moveRhsInto _ _) (Quiet.constructFallback _)).bind fun _ => Quiet.setWhich _ hi

theorem Quiet.copyAssign (hf : C.hasFallback = true) (l r : VarId) : Quiet (copyAssign C l r) := by
  refine (Quiet.getVar _).bind fun _ => (Quiet.getVar _).bind fun _ => Quiet.ite ?_ ?_
  · exact Quiet.internalApplyVisitor _ _ (fun _ _ => (Quiet.castObj _ _).bind fun _ => Quiet.assignObj _ _ _)
      (fun _ _ => (Quiet.holderGet _).bind fun _ => (Quiet.castHolder _ _).bind fun _ =>
        (Quiet.holderGet _).bind fun _ => Quiet.assignObj _ _ _)
  · refine Quiet.internalApplyVisitor _ _ (fun ty id => ?_) (fun ty p => ?_)
    · show Quiet (assignerVisit C l _ (.obj ty id))
      unfold assignerVisit; rw [hf]; exact Quiet.assignImpl _ (whichOf_nonneg _) _ _ _
    · show Quiet (assignerVisit C l _ (.holder ty p))
      unfold assignerVisit; rw [hf]; exact Quiet.assignImpl _ (whichOf_nonneg _) _ _ _

theorem Quiet.variantMoveAssign (hf : C.hasFallback = true) (l r : VarId) : Quiet (variantMoveAssign C l r) := by
  refine (Quiet.getVar _).bind fun _ => (Quiet.getVar _).bind fun _ => Quiet.ite ?_ ?_
  · exact Quiet.internalApplyVisitor _ _ (fun _ _ => (Quiet.castObj _ _).bind fun _ => Quiet.moveAssignObj _ _ _)
      (fun _ _ => (Quiet.holderGet _).bind fun _ => (Quiet.castHolder _ _).bind fun _ =>
        (Quiet.holderGet _).bind fun _ => Quiet.moveAssignObj _ _ _)
  · refine Quiet.internalApplyVisitor _ _ (fun ty id => ?_) (fun ty p => ?_)
    · show Quiet (moveAssignerVisit C l _ (.obj ty id))
      unfold moveAssignerVisit; rw [hf]; exact Quiet.moveAssignImpl _ (whichOf_nonneg _) _ _ _
    · show Quiet (moveAssignerVisit C l _ (.holder ty p))
      unfold moveAssignerVisit; rw [hf]; exact Quiet.moveAssignImpl _ (whichOf_nonneg _) _ _ _

theorem Quiet.moveAssign (hf : C.hasFallback = true) (l r : VarId) : Quiet (moveAssign C l r) :=
  Quiet.noexceptIf _ (Quiet.variantMoveAssign hf _ _)

theorem Quiet.assignValue (hf : C.hasFallback = true) (l : VarId) (s : Src V) : Quiet (assignValue C l s) := by
  refine Quiet.bind (Quiet.applyVisitor _ _ fun ty id => ?_) fun _ => Quiet.ite (Quiet.pure _) ?_
  · cases s with
    | lref k r f => exact Quiet.ite ((Quiet.assignObj _ _ _).bind fun _ => Quiet.pure _) (Quiet.pure _)
    | rref k r f => exact Quiet.ite ((Quiet.moveAssignObj _ _ _).bind fun _ => Quiet.pure _) (Quiet.pure _)
    | conv k v => exact Quiet.pure _
  · exact (Quiet.convertConstruct _ _).bind fun _ =>
      Quiet.withLocal (Quiet.variantMoveAssign hf _ _) (Quiet.destroyVar _)

theorem Quiet.swap (hf : C.hasFallback = true) (x y : VarId) : Quiet (swap C x y) := by
  refine Quiet.which_bind _ fun _ _ => Quiet.which_bind _ fun _ _ => Quiet.ite ?_ ?_
  · exact Quiet.applyVisitor _ _ fun _ _ => (Quiet.applyVisitor _ _ fun _ _ =>
      Quiet.ite (Quiet.pure _) (Quiet.fail _)).bind fun _ => Quiet.swapObj _ _ _
  · exact (Quiet.moveConstruct _ _).bind fun _ => Quiet.withLocal
      ((Quiet.moveAssign hf _ _).bind fun _ => Quiet.moveAssign hf _ _) (Quiet.destroyVar _)

theorem Quiet.withElem (k : TyIx) (v : V) {f : ObjId → M V α} (h : ∀ t, Quiet (f t)) :
    Quiet (withElem k v f) :=
  (Quiet.newObj _ _).bind fun _ => Quiet.withLocal (h _) (Quiet.destroyObj _ _)

theorem Quiet.code (hf : C.hasFallback = true) (c : Cmd V) : Quiet (c.code C) := by
  cases c with
  | defaultConstruct x => exact Quiet.defaultConstruct _
  | copyConstruct x y => exact Quiet.copyConstruct _ _
  | moveConstruct x y => exact Quiet.moveConstruct _ _
  | constructL x k v => exact Quiet.withElem _ _ fun _ => Quiet.convertConstruct _ _
  | constructR x k v => exact Quiet.withElem _ _ fun _ => Quiet.convertConstruct _ _
  | constructC x k v => exact Quiet.convertConstruct _ _
  | destroy x => exact Quiet.destroyVar _
  | copyAssign x y => exact Quiet.copyAssign hf _ _
  | moveAssign x y => exact Quiet.moveAssign hf _ _
  | assignL x k v => exact Quiet.withElem _ _ fun _ => Quiet.assignValue hf _ _
  | assignR x k v => exact Quiet.withElem _ _ fun _ => Quiet.assignValue hf _ _
  | assignC x k v => exact Quiet.assignValue hf _ _
  | assignVL x k v => exact Quiet.withElem _ _ fun _ => Quiet.assignValue hf _ _
  | assignVR x k v => exact Quiet.withElem _ _ fun _ => Quiet.assignValue hf _ _
  | swap x y => exact Quiet.swap hf _ _
  | mutate x v => exact Quiet.applyVisitor _ _ fun _ _ => Quiet.modify (by intros; rfl) (by intros; rfl)
  | constructGet rv x y => exact Quiet.applyVisitor _ _ fun _ _ => Quiet.convertConstruct _ _
  | assignGet rv x y => exact Quiet.applyVisitor _ _ fun _ _ => Quiet.assignValue hf _ _

end

end BVariant
