/-
A broken variant stays broken, and no operation on it returns. Nothing is assumed about the rest of the world.
-/
import Verif.Spec.Broken
import Verif.Lemmas.Quiet
import Verif.Lemmas.Visit
import Verif.Core.MixedConvert

namespace BVariant

section
variable {V α β : Type} {C : Cfg V} {x : VarId} {s : VarSt}

/-- The code leaves the record of `x` alone, if it returns or throws. -/
def KeepsBroken (x : VarId) (s : VarSt) (m : M V α) : Prop := ∀ w, w.vars x = some s →
  (∀ a w', m w = .ok a w' → w'.vars x = some s) ∧ (∀ e w', m w = .exc e w' → w'.vars x = some s)

/-- The code does not return. -/
def StuckBroken (x : VarId) (s : VarSt) (m : M V α) : Prop := ∀ w, w.vars x = some s → ∀ a w', m w ≠ .ok a w'

/-- The code has undefined behaviour. -/
def DiesBroken (x : VarId) (s : VarSt) (m : M V α) : Prop := ∀ w, w.vars x = some s → m w = .fault .ub

theorem DiesBroken.keeps {m : M V α} (h : DiesBroken x s m) : KeepsBroken x s m := by
  intro w hw
  have hf := h w hw
  exact ⟨fun _ _ h => (by rw [hf] at h; cases h), fun _ _ h => (by rw [hf] at h; cases h)⟩

theorem DiesBroken.stuck {m : M V α} (h : DiesBroken x s m) : StuckBroken x s m := by
  intro w hw a w' h'
  rw [h w hw] at h'; cases h'

/-! ### KeepsBroken: closure -/

theorem KeepsBroken.pure (a : α) : KeepsBroken x s (Pure.pure a : M V α) := fun _ hw => ⟨fun _ _ h => (by cases h; exact hw), nofun⟩

theorem KeepsBroken.fail (f : Fault) : KeepsBroken x s (M.fail f : M V α) := fun _ _ => ⟨nofun, nofun⟩

theorem KeepsBroken.modify {f : World V → World V} (h : ∀ w, w.vars x = some s → (f w).vars x = some s) : KeepsBroken x s (M.modify f) :=
  fun w hw => ⟨fun _ _ h' => (by cases h'; exact h w hw), nofun⟩

theorem KeepsBroken.bind {m : M V β} {f : β → M V α} (h : KeepsBroken x s m) (hf : ∀ b, KeepsBroken x s (f b)) : KeepsBroken x s (m >>= f) := by
  intro w hw
  simp only [Bind.bind, M.bind]
  cases hm : m w with
  | ok b w1 => exact hf b w1 ((h w hw).1 _ _ hm)
  | exc e w1 => exact ⟨nofun, fun _ _ h' => (by cases h'; exact (h w hw).2 _ _ hm)⟩
  | fault f => exact ⟨nofun, nofun⟩

theorem KeepsBroken.onExc {m : M V α} {d : M V Unit} (h : KeepsBroken x s m) (hd : KeepsBroken x s d) : KeepsBroken x s (M.onExc m d) := by
  intro w hw
  simp only [M.onExc]
  cases hm : m w with
  | ok b w1 => exact ⟨fun _ _ h' => (by cases h'; exact (h w hw).1 _ _ hm), nofun⟩
  | exc e w1 =>
    have hw1 := (h w hw).2 _ _ hm
    simp only
    cases hm2 : d w1 with
    | ok b w2 => exact ⟨nofun, fun _ _ h' => (by cases h'; exact (hd w1 hw1).1 _ _ hm2)⟩
    | exc e w2 => exact ⟨nofun, fun _ _ h' => (by cases h'; exact (hd w1 hw1).2 _ _ hm2)⟩
    | fault f => exact ⟨nofun, nofun⟩
  | fault f => exact ⟨nofun, nofun⟩

theorem KeepsBroken.withLocal {m : M V α} {d : M V Unit} (h : KeepsBroken x s m) (hd : KeepsBroken x s d) : KeepsBroken x s (M.withLocal m d) := by
  intro w hw
  simp only [M.withLocal]
  cases hm : m w with
  | ok b w1 =>
    have hw1 := (h w hw).1 _ _ hm
    simp only
    cases hm2 : d w1 with
    | ok b w2 => exact ⟨fun _ _ h' => (by cases h'; exact (hd w1 hw1).1 _ _ hm2), nofun⟩
    | exc e w2 => exact ⟨nofun, fun _ _ h' => (by cases h'; exact (hd w1 hw1).2 _ _ hm2)⟩
    | fault f => exact ⟨nofun, nofun⟩
  | exc e w1 =>
    have hw1 := (h w hw).2 _ _ hm
    simp only
    cases hm2 : d w1 with
    | ok b w2 => exact ⟨nofun, fun _ _ h' => (by cases h'; exact (hd w1 hw1).1 _ _ hm2)⟩
    | exc e w2 => exact ⟨nofun, nofun⟩
    | fault f => exact ⟨nofun, nofun⟩
  | fault f => exact ⟨nofun, nofun⟩

theorem KeepsBroken.noexceptIf {m : M V α} (b : Bool) (h : KeepsBroken x s m) : KeepsBroken x s (M.noexceptIf b m) := by
  intro w hw
  simp only [M.noexceptIf]
  cases hm : m w with
  | ok a w1 => exact ⟨fun _ _ h' => (by cases h'; exact (h w hw).1 _ _ hm), nofun⟩
  | exc e w1 =>
    cases b with
    | true => exact ⟨nofun, nofun⟩
    | false => exact ⟨nofun, fun _ _ h' => (by cases h'; exact (h w hw).2 _ _ hm)⟩
  | fault f => exact ⟨nofun, nofun⟩

theorem KeepsBroken.ite {c : Prop} [Decidable c] {m n : M V α} (hm : KeepsBroken x s m) (hn : KeepsBroken x s n) :
    KeepsBroken x s (if c then m else n) := by
  split
  · exact hm
  · exact hn

theorem KeepsBroken.mayThrow {b : Bool} {k : ExcKind} {f : World V → World V}
    (h : ∀ w, w.vars x = some s → (f w).vars x = some s) : KeepsBroken x s (mayThrow C b k f) := by
  intro w hw
  simp only [BVariant.mayThrow]
  split
  · exact ⟨nofun, fun _ _ h' => (by cases h'; exact h _ hw)⟩
  · exact ⟨fun _ _ h' => (by cases h'; exact hw), nofun⟩

theorem KeepsBroken.readAs (ty : TyIx) (id : ObjId) : KeepsBroken x s (readAs (V := V) ty id) := by
  intro w hw
  simp only [BVariant.readAs]
  split
  · split
    · exact ⟨fun _ _ h' => (by cases h'; exact hw), nofun⟩
    · exact ⟨nofun, nofun⟩
  · exact ⟨nofun, nofun⟩

theorem KeepsBroken.newObj (ty : TyIx) (v : V) : KeepsBroken x s (newObj ty v) := fun _ hw => ⟨fun _ _ h' => (by cases h'; exact hw), nofun⟩

theorem KeepsBroken.destroyObj (ty : TyIx) (id : ObjId) : KeepsBroken x s (destroyObj (V := V) ty id) :=
  KeepsBroken.bind (KeepsBroken.readAs _ _) fun _ => KeepsBroken.modify fun _ h => h

theorem KeepsBroken.copyCtor (ty : TyIx) (id : ObjId) : KeepsBroken x s (copyCtor C ty id) :=
  KeepsBroken.bind (KeepsBroken.readAs _ _) fun _ => KeepsBroken.bind (KeepsBroken.mayThrow fun _ h => h) fun _ => KeepsBroken.newObj _ _

theorem KeepsBroken.moveCtor (ty : TyIx) (id : ObjId) : KeepsBroken x s (moveCtor C ty id) :=
  KeepsBroken.bind (KeepsBroken.readAs _ _) fun _ => KeepsBroken.bind (KeepsBroken.mayThrow fun _ h => h) fun _ =>
    KeepsBroken.bind (KeepsBroken.modify fun _ h => h) fun _ => KeepsBroken.newObj _ _

theorem KeepsBroken.valueCtor (ty : TyIx) : KeepsBroken x s (valueCtor C ty) :=
  KeepsBroken.bind (KeepsBroken.mayThrow fun _ h => h) fun _ => KeepsBroken.newObj _ _

theorem KeepsBroken.defaultCtor (ty : TyIx) : KeepsBroken x s (defaultCtor C ty) :=
  KeepsBroken.bind (KeepsBroken.mayThrow fun _ h => h) fun _ => KeepsBroken.newObj _ _

theorem KeepsBroken.heapCopy (ty : TyIx) (id : ObjId) : KeepsBroken x s (heapCopy C ty id) :=
  KeepsBroken.bind (KeepsBroken.modify fun _ h => h) fun _ => KeepsBroken.bind (KeepsBroken.mayThrow fun _ h => h) fun _ => KeepsBroken.copyCtor _ _

theorem KeepsBroken.assignObj (ty : TyIx) (l r : ObjId) : KeepsBroken x s (assignObj C ty l r) :=
  KeepsBroken.bind (KeepsBroken.readAs _ _) fun _ => KeepsBroken.bind (KeepsBroken.readAs _ _) fun _ =>
    KeepsBroken.bind (KeepsBroken.mayThrow fun _ h => h) fun _ => KeepsBroken.modify fun _ h => h

theorem KeepsBroken.moveAssignObj (ty : TyIx) (l r : ObjId) : KeepsBroken x s (moveAssignObj C ty l r) :=
  KeepsBroken.bind (KeepsBroken.readAs _ _) fun _ => KeepsBroken.bind (KeepsBroken.readAs _ _) fun _ =>
    KeepsBroken.ite (KeepsBroken.bind (KeepsBroken.mayThrow fun _ h => h) fun _ => KeepsBroken.modify fun _ h => h)
      (KeepsBroken.bind (KeepsBroken.mayThrow fun _ h => h) fun _ => KeepsBroken.modify fun _ h => h)

theorem KeepsBroken.swapObj (ty : TyIx) (l r : ObjId) : KeepsBroken x s (swapObj C ty l r) :=
  KeepsBroken.bind (KeepsBroken.readAs _ _) fun _ => KeepsBroken.bind (KeepsBroken.readAs _ _) fun _ =>
    KeepsBroken.ite (KeepsBroken.bind (KeepsBroken.mayThrow fun _ h => h) fun _ => KeepsBroken.modify fun _ h => h)
      (KeepsBroken.bind (KeepsBroken.mayThrow fun _ h => h) fun _ => KeepsBroken.modify fun _ h => h)

theorem KeepsBroken.getVar (y : VarId) : KeepsBroken x s (getVar (V := V) y) := by
  intro w hw
  simp only [BVariant.getVar]
  split
  · exact ⟨fun _ _ h' => (by cases h'; exact hw), nofun⟩
  · exact ⟨nofun, nofun⟩

theorem KeepsBroken.which (y : VarId) : KeepsBroken x s (which (V := V) y) := KeepsBroken.bind (KeepsBroken.getVar _) fun _ => KeepsBroken.pure _

theorem KeepsBroken.setVar {y : VarId} (hy : x ≠ y) (t : Option VarSt) :
    KeepsBroken x s (M.modify fun w : World V => { w with vars := upd w.vars y t }) :=
  KeepsBroken.modify fun w hw => by simp only [upd_ne _ _ hy]; exact hw

theorem KeepsBroken.setSlot {y : VarId} (hy : x ≠ y) (t : Slot) : KeepsBroken x s (setSlot (V := V) y t) :=
  KeepsBroken.bind (KeepsBroken.getVar _) fun _ => KeepsBroken.setVar hy _

theorem KeepsBroken.setWhich {y : VarId} (hy : x ≠ y) (i : Int) : KeepsBroken x s (setWhich (V := V) y i) :=
  KeepsBroken.bind (KeepsBroken.getVar _) fun _ => KeepsBroken.setVar hy _

theorem KeepsBroken.beginVar {y : VarId} (hy : x ≠ y) (t : VarSt) : KeepsBroken x s (beginVar (V := V) y t) := KeepsBroken.setVar hy _

theorem KeepsBroken.holderGet (p : Option ObjId) : KeepsBroken x s (holderGet (V := V) p) := by
  cases p with
  | none => exact KeepsBroken.fail _
  | some id => exact KeepsBroken.pure _

theorem KeepsBroken.holderDtor (ty : TyIx) (p : Option ObjId) : KeepsBroken x s (holderDtor (V := V) ty p) := by
  cases p with
  | none => exact KeepsBroken.pure _
  | some id => exact KeepsBroken.destroyObj _ _

theorem KeepsBroken.holderCopyCtor : KeepsBroken x s (holderCopyCtor C) := KeepsBroken.ite (KeepsBroken.pure _) (KeepsBroken.fail _)

theorem KeepsBroken.castObj (y : VarId) (ty : TyIx) : KeepsBroken x s (castObj (V := V) y ty) := by
  refine KeepsBroken.bind (KeepsBroken.getVar _) fun t => ?_
  split
  · exact KeepsBroken.bind (KeepsBroken.readAs _ _) fun _ => KeepsBroken.pure _
  · exact KeepsBroken.fail _

theorem KeepsBroken.castHolder (y : VarId) (ty : TyIx) : KeepsBroken x s (castHolder (V := V) y ty) := by
  refine KeepsBroken.bind (KeepsBroken.getVar _) fun t => ?_
  split
  · exact KeepsBroken.ite (KeepsBroken.pure _) (KeepsBroken.fail _)
  · exact KeepsBroken.fail _

theorem KeepsBroken.internalApplyVisitor (y : VarId) (vis : Visitor V α) (h1 : ∀ ty id, KeepsBroken x s (vis.onObj ty id))
    (h2 : ∀ ty p, KeepsBroken x s (vis.onHolder ty p)) : KeepsBroken x s (internalApplyVisitor C y vis) := by
  refine KeepsBroken.bind (KeepsBroken.getVar _) fun t => ?_
  refine visitationImpl_mem (KeepsBroken x s) _ _ _ (KeepsBroken.fail _) ?_ _ _ _
  intro ty
  exact KeepsBroken.ite (KeepsBroken.bind (KeepsBroken.castObj _ _) fun _ => h1 _ _) (KeepsBroken.ite (KeepsBroken.bind (KeepsBroken.castObj _ _) fun _ => h1 _ _)
    (KeepsBroken.bind (KeepsBroken.castHolder _ _) fun _ => h2 _ _))

theorem KeepsBroken.applyVisitor (y : VarId) {f : TyIx → ObjId → M V α} (h : ∀ ty id, KeepsBroken x s (f ty id)) :
    KeepsBroken x s (applyVisitor C y f) :=
  KeepsBroken.internalApplyVisitor _ _ h fun _ _ => KeepsBroken.bind (KeepsBroken.holderGet _) fun _ => h _ _

/-! ### StuckBroken: closure -/

theorem StuckBroken.bind_left {m : M V β} {f : β → M V α} (h : StuckBroken x s m) : StuckBroken x s (m >>= f) := by
  intro w hw a w' he
  simp only [Bind.bind, M.bind] at he
  cases hm : m w with
  | ok b w1 => exact h _ hw _ _ hm
  | exc e w1 => rw [hm] at he; cases he
  | fault f => rw [hm] at he; cases he

theorem StuckBroken.bind_right {m : M V β} {f : β → M V α} (hk : KeepsBroken x s m) (h : ∀ b, StuckBroken x s (f b)) : StuckBroken x s (m >>= f) := by
  intro w hw a w' he
  simp only [Bind.bind, M.bind] at he
  cases hm : m w with
  | ok b w1 => rw [hm] at he; exact h _ _ ((hk w hw).1 _ _ hm) _ _ he
  | exc e w1 => rw [hm] at he; cases he
  | fault f => rw [hm] at he; cases he

theorem StuckBroken.withLocal {m : M V α} {d : M V Unit} (h : StuckBroken x s m) : StuckBroken x s (M.withLocal m d) := by
  intro w hw a w' he
  simp only [M.withLocal] at he
  cases hm : m w with
  | ok b w1 => exact h _ hw _ _ hm
  | exc e w1 =>
    rw [hm] at he
    simp only at he
    cases hd : d w1 <;> rw [hd] at he <;> cases he
  | fault f => rw [hm] at he; cases he

theorem StuckBroken.noexceptIf {m : M V α} (b : Bool) (h : StuckBroken x s m) : StuckBroken x s (M.noexceptIf b m) := by
  intro w hw a w' he
  simp only [M.noexceptIf] at he
  cases hm : m w with
  | ok b w1 => exact h _ hw _ _ hm
  | exc e w1 => rw [hm] at he; cases b <;> cases he
  | fault f => rw [hm] at he; cases he

theorem StuckBroken.ite {c : Prop} [Decidable c] {m n : M V α} (hm : StuckBroken x s m) (hn : StuckBroken x s n) :
    StuckBroken x s (if c then m else n) := by
  split
  · exact hm
  · exact hn

theorem StuckBroken.fail (f : Fault) : StuckBroken x s (M.fail f : M V α) := nofun

theorem StuckBroken.internalApplyVisitor (y : VarId) (vis : Visitor V α) (h1 : ∀ ty id, StuckBroken x s (vis.onObj ty id))
    (h2 : ∀ ty p, StuckBroken x s (vis.onHolder ty p)) : StuckBroken x s (internalApplyVisitor C y vis) := by
  refine StuckBroken.bind_right (KeepsBroken.getVar _) fun t => ?_
  refine visitationImpl_mem (StuckBroken x s) _ _ _ (StuckBroken.fail _) ?_ _ _ _
  intro ty
  exact StuckBroken.ite (StuckBroken.bind_right (KeepsBroken.castObj _ _) fun _ => h1 _ _) (StuckBroken.ite (StuckBroken.bind_right (KeepsBroken.castObj _ _) fun _ => h1 _ _)
    (StuckBroken.bind_right (KeepsBroken.castHolder _ _) fun _ => h2 _ _))

theorem StuckBroken.applyVisitor (y : VarId) {f : TyIx → ObjId → M V α} (h : ∀ ty id, StuckBroken x s (f ty id)) :
    StuckBroken x s (applyVisitor C y f) :=
  StuckBroken.internalApplyVisitor _ _ h fun _ _ => StuckBroken.bind_right (KeepsBroken.holderGet _) fun _ => h _ _

/-! ### A broken variant -/

/-- The library looks into the storage of a variant with such a record. -/
theorem Broken.visits (hb : Broken C s) {y : VarId} {t : VarSt} {w : World V} (hy : w.vars y = some t) (ht : t.which_ = s.which_)
    (vis : Visitor V α) : 
      ∃ ty, internalApplyVisitor C y vis w = (castObj y ty >>= vis.onObj ty) w := by
  simp only [internalApplyVisitor, bind, M.bind, getVar, hy]
  cases hb with
  | inPlace k t' hk hs =>
    simp only at ht
    rw [ht, whichOf_natCast, visitation_range _ _ _ hk]
    refine ⟨k, ?_⟩
    simp only [visitationInvoke, ge_iff_le, Int.natCast_nonneg, if_true, ite_self]
    rfl
  | inBackup k t' hk hn hs =>
    simp only at ht
    rw [ht, whichOf_backup, visitation_range _ _ _ hk]
    refine ⟨k, ?_⟩
    have hn' : neverUsesBackup C k = true := by
      cases hf : C.fallback <;> simp_all [neverUsesBackup, Cfg.hasFallback]
    simp only [visitationInvoke, hn', if_true]
    rfl

theorem Broken.slot (hb : Broken C s) (id : ObjId) : s.slot ≠ .obj id := by
  cases hb with
  | inPlace _ _ _ hs => exact hs id
  | inBackup _ _ _ _ hs => exact hs id

theorem Broken.castObj (hb : Broken C s) (ty : TyIx) : DiesBroken x s (castObj (V := V) x ty) := by
  intro w hw
  have h := hb.slot
  obtain ⟨i, t⟩ := s
  cases t with
  | raw => simp only [BVariant.castObj, bind, M.bind, getVar, hw]; rfl
  | obj id => exact absurd rfl (h id)
  | holder ty p => simp only [BVariant.castObj, bind, M.bind, getVar, hw]; rfl

theorem Broken.visit (hb : Broken C s) (vis : Visitor V α) : DiesBroken x s (internalApplyVisitor C x vis) := by
  intro w hw
  obtain ⟨ty, h⟩ := hb.visits hw rfl vis
  rw [h]; simp only [bind, M.bind, hb.castObj (V := V) ty w hw]

theorem DiesBroken.noexceptIf {m : M V α} (b : Bool) (h : DiesBroken x s m) : DiesBroken x s (M.noexceptIf b m) := by
  intro w hw
  simp only [M.noexceptIf, h w hw]

theorem DiesBroken.bind_left {m : M V β} {f : β → M V α} (h : DiesBroken x s m) : DiesBroken x s (m >>= f) := by
  intro w hw
  simp only [bind, M.bind, h w hw]

/-- `~variant` of a broken variant. -/
theorem Broken.destroyVar (hb : Broken C s) : DiesBroken x s (destroyVar C x) := ((hb.visit _).noexceptIf _).bind_left

variable {l r : VarId}

theorem KeepsBroken.destroyContent (hb : l = x → Broken C s) : KeepsBroken x s (destroyContent C l) := by
  refine KeepsBroken.noexceptIf _ ?_
  by_cases hl : l = x
  · subst hl; exact ((hb rfl).visit _).keeps
  · exact KeepsBroken.internalApplyVisitor _ _
      (fun _ _ => KeepsBroken.bind (KeepsBroken.destroyObj _ _) fun _ => KeepsBroken.setSlot (Ne.symm hl) _)
      (fun _ _ => KeepsBroken.bind (KeepsBroken.holderDtor _ _) fun _ => KeepsBroken.setSlot (Ne.symm hl) _)

theorem StuckBroken.destroyContent (hb : Broken C s) : StuckBroken x s (destroyContent C x) := ((hb.visit _).noexceptIf _).stuck

theorem KeepsBroken.destroyVar (hl : x ≠ l) : KeepsBroken x s (destroyVar C l) :=
  KeepsBroken.bind (KeepsBroken.destroyContent fun h => absurd h.symm hl) fun _ => KeepsBroken.setVar hl _

theorem KeepsBroken.copyRhsInto (hl : x ≠ l) (rhs : RhsContent) : KeepsBroken x s (copyRhsInto C l rhs) := by
  refine KeepsBroken.bind ?_ fun _ => KeepsBroken.setSlot hl _
  cases rhs with
  | obj ty id => exact KeepsBroken.bind (KeepsBroken.copyCtor _ _) fun _ => KeepsBroken.pure _
  | holder ty p => exact KeepsBroken.bind KeepsBroken.holderCopyCtor fun _ => KeepsBroken.pure _

theorem KeepsBroken.moveRhsInto (hl : x ≠ l) (rhs : RhsContent) : KeepsBroken x s (moveRhsInto C l rhs) := by
  cases rhs with
  | obj ty id => exact KeepsBroken.bind (KeepsBroken.moveCtor _ _) fun _ => KeepsBroken.setSlot hl _
  | holder ty p => exact KeepsBroken.bind KeepsBroken.holderCopyCtor fun _ => KeepsBroken.setSlot hl _

theorem KeepsBroken.constructFallback (hl : x ≠ l) : KeepsBroken x s (constructFallback C l) := by
  refine KeepsBroken.noexceptIf _ ?_
  split
  · exact KeepsBroken.fail _
  · exact KeepsBroken.ite (KeepsBroken.bind (KeepsBroken.defaultCtor _) fun _ => KeepsBroken.bind (KeepsBroken.setSlot hl _) fun _ => KeepsBroken.setWhich hl _)
      (KeepsBroken.bind (KeepsBroken.setSlot hl _) fun _ => KeepsBroken.setWhich hl _)

theorem KeepsBroken.backupAssign (hl : x ≠ l) (i : Int) (rhs : RhsContent) :
    KeepsBroken x s (BVariant.internalApplyVisitor C l (backupAssigner C l i rhs)) := by
  refine KeepsBroken.internalApplyVisitor _ _ (fun ty id => ?_) (fun ty p => ?_)
  · refine KeepsBroken.ite ?_ ?_
    · exact KeepsBroken.bind (KeepsBroken.moveCtor _ _) fun _ => KeepsBroken.withLocal (KeepsBroken.bind (KeepsBroken.destroyObj _ _) fun _ =>
        KeepsBroken.bind (KeepsBroken.onExc (KeepsBroken.copyRhsInto hl _) (KeepsBroken.bind (KeepsBroken.moveCtor _ _) fun _ => KeepsBroken.setSlot hl _)) fun _ =>
          KeepsBroken.setWhich hl _) (KeepsBroken.destroyObj _ _)
    · exact KeepsBroken.bind (KeepsBroken.heapCopy _ _) fun _ => KeepsBroken.bind (KeepsBroken.destroyObj _ _) fun _ =>
        KeepsBroken.bind (KeepsBroken.onExc (KeepsBroken.copyRhsInto hl _) (KeepsBroken.bind (KeepsBroken.setSlot hl _) fun _ => KeepsBroken.bind (KeepsBroken.which _) fun _ =>
          KeepsBroken.setWhich hl _)) fun _ => KeepsBroken.bind (KeepsBroken.setWhich hl _) fun _ => KeepsBroken.destroyObj _ _
  · exact KeepsBroken.bind (KeepsBroken.setSlot hl _) fun _ => KeepsBroken.bind (KeepsBroken.holderDtor _ _) fun _ => KeepsBroken.bind (KeepsBroken.setSlot hl _) fun _ =>
      KeepsBroken.bind (KeepsBroken.onExc (KeepsBroken.copyRhsInto hl _) (KeepsBroken.bind (KeepsBroken.setSlot hl _) fun _ => KeepsBroken.setSlot hl _)) fun _ =>
        KeepsBroken.bind (KeepsBroken.setWhich hl _) fun _ => KeepsBroken.holderDtor _ _

theorem KeepsBroken.assignImpl (hb : l = x → Broken C s) (i : Int) (rhs : RhsContent) (b1 b2 b3 : Bool) :
    KeepsBroken x s (assignImpl C l i rhs b1 b2 b3) := by
  by_cases hl : l = x
  · subst hl
    have hd := (((hb rfl).visit (x := l) (destroyer (V := V) l)).noexceptIf true)
    refine KeepsBroken.ite ?_ (KeepsBroken.ite ?_ (KeepsBroken.ite ?_ ?_))
    · exact KeepsBroken.noexceptIf _ hd.bind_left.keeps
    · cases rhs with
      | obj ty id => exact KeepsBroken.bind (KeepsBroken.copyCtor _ _) fun _ => KeepsBroken.withLocal hd.bind_left.keeps (KeepsBroken.destroyObj _ _)
      | holder ty p => exact KeepsBroken.fail _
    · exact hd.bind_left.keeps
    · exact ((hb rfl).visit _).keeps
  · have hl := Ne.symm hl
    refine KeepsBroken.ite ?_ (KeepsBroken.ite ?_ (KeepsBroken.ite ?_ ?_))
    · exact KeepsBroken.noexceptIf _ (KeepsBroken.bind (KeepsBroken.destroyContent hb) fun _ => KeepsBroken.bind (KeepsBroken.copyRhsInto hl _) fun _ =>
        KeepsBroken.setWhich hl _)
    · cases rhs with
      | obj ty id => exact KeepsBroken.bind (KeepsBroken.copyCtor _ _) fun _ => KeepsBroken.withLocal (KeepsBroken.bind (KeepsBroken.destroyContent hb) fun _ =>
          KeepsBroken.bind (KeepsBroken.moveCtor _ _) fun _ => KeepsBroken.bind (KeepsBroken.setSlot hl _) fun _ => KeepsBroken.setWhich hl _) (KeepsBroken.destroyObj _ _)
      | holder ty p => exact KeepsBroken.fail _
    · exact KeepsBroken.bind (KeepsBroken.destroyContent hb) fun _ => KeepsBroken.bind (KeepsBroken.onExc (KeepsBroken.copyRhsInto hl _)
        (KeepsBroken.constructFallback hl)) fun _ => KeepsBroken.setWhich hl _
    · exact KeepsBroken.backupAssign hl _ _

theorem StuckBroken.assignImpl (hb : Broken C s) (i : Int) (rhs : RhsContent) (b1 b2 b3 : Bool) :
    StuckBroken x s (assignImpl C x i rhs b1 b2 b3) := by
  have hd := ((hb.visit (x := x) (destroyer (V := V) x)).noexceptIf true)
  refine StuckBroken.ite ?_ (StuckBroken.ite ?_ (StuckBroken.ite ?_ ?_))
  · exact StuckBroken.noexceptIf _ hd.bind_left.stuck
  · cases rhs with
    | obj ty id => exact StuckBroken.bind_right (KeepsBroken.copyCtor _ _) fun _ => StuckBroken.withLocal hd.bind_left.stuck
    | holder ty p => exact StuckBroken.fail _
  · exact hd.bind_left.stuck
  · exact (hb.visit _).stuck

theorem KeepsBroken.moveAssignImpl (hb : l = x → Broken C s) (i : Int) (rhs : RhsContent) (b1 b2 b3 : Bool) :
    KeepsBroken x s (moveAssignImpl C l i rhs b1 b2 b3) := by
  refine KeepsBroken.ite ?_ (KeepsBroken.ite (KeepsBroken.noexceptIf _ (KeepsBroken.assignImpl hb _ _ _ _ _)) (KeepsBroken.ite ?_ (KeepsBroken.assignImpl hb _ _ _ _ _)))
  · refine KeepsBroken.noexceptIf _ ?_
    by_cases hl : l = x
    · subst hl; exact ((hb rfl).visit _).noexceptIf _ |>.bind_left.keeps
    · have hl := Ne.symm hl
      exact KeepsBroken.bind (KeepsBroken.destroyContent hb) fun _ => KeepsBroken.bind (KeepsBroken.moveRhsInto hl _) fun _ => KeepsBroken.setWhich hl _
  · by_cases hl : l = x
    · subst hl; exact ((hb rfl).visit _).noexceptIf _ |>.bind_left.keeps
    · have hl := Ne.symm hl
      exact KeepsBroken.bind (KeepsBroken.destroyContent hb) fun _ => KeepsBroken.bind (KeepsBroken.onExc (KeepsBroken.moveRhsInto hl _)
        (KeepsBroken.constructFallback hl)) fun _ => KeepsBroken.setWhich hl _

theorem StuckBroken.moveAssignImpl (hb : Broken C s) (i : Int) (rhs : RhsContent) (b1 b2 b3 : Bool) :
    StuckBroken x s (moveAssignImpl C x i rhs b1 b2 b3) := by
  have hd := ((hb.visit (x := x) (destroyer (V := V) x)).noexceptIf true)
  exact StuckBroken.ite (StuckBroken.noexceptIf _ hd.bind_left.stuck) (StuckBroken.ite (StuckBroken.noexceptIf _ (StuckBroken.assignImpl hb _ _ _ _ _))
    (StuckBroken.ite hd.bind_left.stuck (StuckBroken.assignImpl hb _ _ _ _ _)))

theorem KeepsBroken.assignerVisit (hb : l = x → Broken C s) (i : Int) (rhs : RhsContent) : KeepsBroken x s (assignerVisit C l i rhs) :=
  KeepsBroken.assignImpl hb _ _ _ _ _

theorem StuckBroken.assignerVisit (hb : Broken C s) (i : Int) (rhs : RhsContent) : StuckBroken x s (assignerVisit C x i rhs) :=
  StuckBroken.assignImpl hb _ _ _ _ _

theorem KeepsBroken.moveAssignerVisit (hb : l = x → Broken C s) (i : Int) (rhs : RhsContent) : KeepsBroken x s (moveAssignerVisit C l i rhs) :=
  KeepsBroken.moveAssignImpl hb _ _ _ _ _

theorem StuckBroken.moveAssignerVisit (hb : Broken C s) (i : Int) (rhs : RhsContent) : StuckBroken x s (moveAssignerVisit C x i rhs) :=
  StuckBroken.moveAssignImpl hb _ _ _ _ _

/-- The visitors for operands with the same record: they look into the storage of the right-hand side. -/
theorem KeepsBroken.storage {f : TyIx → ObjId → ObjId → M V Unit} (hf : ∀ ty l r, KeepsBroken x s (f ty l r)) :
    (∀ ty l, KeepsBroken x s (do let o ← BVariant.castObj (V := V) r ty; f ty l o)) ∧
    (∀ ty p, KeepsBroken x s (do
      let l ← BVariant.holderGet (V := V) p
      let q ← BVariant.castHolder r ty
      let o ← BVariant.holderGet q
      f ty l o)) :=
  ⟨fun _ _ => KeepsBroken.bind (KeepsBroken.castObj _ _) fun _ => hf _ _ _,
   fun _ _ => KeepsBroken.bind (KeepsBroken.holderGet _) fun _ => KeepsBroken.bind (KeepsBroken.castHolder _ _) fun _ => KeepsBroken.bind (KeepsBroken.holderGet _) fun _ =>
     hf _ _ _⟩

theorem KeepsBroken.copyAssign (hb : l = x → Broken C s) : KeepsBroken x s (copyAssign C l r) := by
  refine KeepsBroken.bind (KeepsBroken.getVar _) fun _ => KeepsBroken.bind (KeepsBroken.getVar _) fun _ => KeepsBroken.ite ?_ ?_
  · have h := KeepsBroken.storage (x := x) (s := s) (r := r) (f := fun ty l o => BVariant.assignObj C ty l o) fun _ _ _ => KeepsBroken.assignObj _ _ _
    exact KeepsBroken.internalApplyVisitor _ _ h.1 h.2
  · exact KeepsBroken.internalApplyVisitor _ _ (fun ty id => KeepsBroken.assignerVisit hb _ (.obj ty id)) (fun ty p => KeepsBroken.assignerVisit hb _ (.holder ty p))

theorem KeepsBroken.variantMoveAssign (hb : l = x → Broken C s) : KeepsBroken x s (variantMoveAssign C l r) := by
  refine KeepsBroken.bind (KeepsBroken.getVar _) fun _ => KeepsBroken.bind (KeepsBroken.getVar _) fun _ => KeepsBroken.ite ?_ ?_
  · have h := KeepsBroken.storage (x := x) (s := s) (r := r) (f := fun ty l o => BVariant.moveAssignObj C ty l o) fun _ _ _ =>
      KeepsBroken.moveAssignObj _ _ _
    exact KeepsBroken.internalApplyVisitor _ _ h.1 h.2
  · exact KeepsBroken.internalApplyVisitor _ _ (fun ty id => KeepsBroken.moveAssignerVisit hb _ (.obj ty id))
      (fun ty p => KeepsBroken.moveAssignerVisit hb _ (.holder ty p))

theorem KeepsBroken.moveAssign (hb : l = x → Broken C s) : KeepsBroken x s (moveAssign C l r) := KeepsBroken.noexceptIf _ (KeepsBroken.variantMoveAssign hb)

/-- An assignment that looks at both records first. -/
theorem stuck_assign (hb : Broken C s) (hx : l = x ∨ r = x) {v1 : Visitor V Unit} {f2 : Int → Visitor V Unit}
    (h1 : ∀ ty id, ∃ f : ObjId → M V Unit, v1.onObj ty id = (BVariant.castObj r ty >>= f))
    (h2 : l = x → ∀ i ty id, StuckBroken x s ((f2 i).onObj ty id)) (h3 : l = x → ∀ i ty p, StuckBroken x s ((f2 i).onHolder ty p)) :
    StuckBroken x s (do
      let sl ← BVariant.getVar (V := V) l
      let sr ← BVariant.getVar r
      if sl.which_ = sr.which_ then BVariant.internalApplyVisitor C l v1
      else BVariant.internalApplyVisitor C r (f2 (whichOf sr.which_))) := by
  by_cases hl : l = x
  · subst hl
    exact StuckBroken.bind_right (KeepsBroken.getVar _) fun _ => StuckBroken.bind_right (KeepsBroken.getVar _) fun _ => StuckBroken.ite (hb.visit _).stuck
      (StuckBroken.internalApplyVisitor _ _ (h2 rfl _) (h3 rfl _))
  · obtain rfl : r = x := hx.resolve_left hl
    intro w hw a w' he
    simp only [bind, M.bind, BVariant.getVar] at he
    cases hv : w.vars l with
    | none => simp only [hv] at he; cases he
    | some sl =>
      simp only [hv, hw] at he
      by_cases hwh : sl.which_ = s.which_
      · rw [if_pos hwh] at he
        obtain ⟨ty, h⟩ := hb.visits hv hwh v1
        rw [h] at he
        refine StuckBroken.bind_right (x := r) (s := s) (KeepsBroken.castObj _ _) (fun id => ?_) w hw a w' he
        obtain ⟨f, hf⟩ := h1 ty id
        rw [hf]
        exact (hb.castObj ty).stuck.bind_left
      · rw [if_neg hwh] at he
        exact (hb.visit _).stuck w hw a w' he

theorem StuckBroken.copyAssign (hb : Broken C s) (hx : l = x ∨ r = x) : StuckBroken x s (copyAssign C l r) :=
  stuck_assign (f2 := assigner C l) hb hx (fun _ _ => ⟨_, rfl⟩)
    (fun h _ ty id => by subst h; exact StuckBroken.assignerVisit hb _ (.obj ty id)) (fun h _ ty p => by subst h; exact StuckBroken.assignerVisit hb _ (.holder ty p))

theorem StuckBroken.variantMoveAssign (hb : Broken C s) (hx : l = x ∨ r = x) : StuckBroken x s (variantMoveAssign C l r) :=
  stuck_assign (f2 := moveAssigner C l) hb hx (fun _ _ => ⟨_, rfl⟩)
    (fun h _ ty id => by subst h; exact StuckBroken.moveAssignerVisit hb _ (.obj ty id))
    (fun h _ ty p => by subst h; exact StuckBroken.moveAssignerVisit hb _ (.holder ty p))

theorem StuckBroken.moveAssign (hb : Broken C s) (hx : l = x ∨ r = x) : StuckBroken x s (moveAssign C l r) :=
  StuckBroken.noexceptIf _ (StuckBroken.variantMoveAssign hb hx)

/-! ### Construction -/

theorem KeepsBroken.defaultConstruct (hl : x ≠ l) : KeepsBroken x s (defaultConstruct C l) :=
  KeepsBroken.noexceptIf _ (KeepsBroken.bind (KeepsBroken.valueCtor _) fun _ => KeepsBroken.beginVar hl _)

theorem KeepsBroken.copyConstruct (hl : x ≠ l) : KeepsBroken x s (copyConstruct C l r) :=
  KeepsBroken.bind (KeepsBroken.internalApplyVisitor _ _ (fun _ _ => KeepsBroken.copyCtor _ _) fun _ _ => KeepsBroken.bind (KeepsBroken.holderGet _) fun _ =>
    KeepsBroken.copyCtor _ _) fun _ => KeepsBroken.bind (KeepsBroken.which _) fun _ => KeepsBroken.beginVar hl _

theorem KeepsBroken.moveConstruct (hl : x ≠ l) : KeepsBroken x s (moveConstruct C l r) :=
  KeepsBroken.noexceptIf _ (KeepsBroken.bind (KeepsBroken.internalApplyVisitor _ _ (fun _ _ => KeepsBroken.noexceptIf _ (KeepsBroken.moveCtor _ _)) fun _ _ =>
    KeepsBroken.bind (KeepsBroken.holderGet _) fun _ => KeepsBroken.moveCtor _ _) fun _ => KeepsBroken.bind (KeepsBroken.which _) fun _ => KeepsBroken.beginVar hl _)

theorem KeepsBroken.initializeFrom (t : Src V) : KeepsBroken x s (initializeFrom C t) := by
  cases t with
  | lref ty id b => exact KeepsBroken.bind (KeepsBroken.copyCtor _ _) fun _ => KeepsBroken.pure _
  | rref ty id b => exact KeepsBroken.bind (KeepsBroken.moveCtor _ _) fun _ => KeepsBroken.pure _
  | conv ty v =>
    exact KeepsBroken.bind (KeepsBroken.mayThrow fun _ h => h) fun _ => KeepsBroken.bind (KeepsBroken.newObj _ _) fun _ =>
      KeepsBroken.bind (KeepsBroken.withLocal (KeepsBroken.moveCtor _ _) (KeepsBroken.destroyObj _ _)) fun _ => KeepsBroken.pure _

theorem KeepsBroken.convertConstruct (hl : x ≠ l) (t : Src V) : KeepsBroken x s (convertConstruct C l t) :=
  KeepsBroken.bind (KeepsBroken.initializeFrom _) fun _ => KeepsBroken.beginVar hl _

theorem KeepsBroken.directAssign (t : Src V) : KeepsBroken x s (directAssign C l t) := by
  refine KeepsBroken.applyVisitor _ fun ty id => ?_
  split
  · exact KeepsBroken.ite (KeepsBroken.bind (KeepsBroken.assignObj _ _ _) fun _ => KeepsBroken.pure _) (KeepsBroken.pure _)
  · exact KeepsBroken.ite (KeepsBroken.bind (KeepsBroken.moveAssignObj _ _ _) fun _ => KeepsBroken.pure _) (KeepsBroken.pure _)
  · exact KeepsBroken.pure _

theorem KeepsBroken.assignValue (hb : l = x → Broken C s) (ht : x ≠ .tmp 0) (t : Src V) : KeepsBroken x s (assignValue C l t) :=
  KeepsBroken.bind (KeepsBroken.directAssign _) fun _ => KeepsBroken.ite (KeepsBroken.pure _) (KeepsBroken.bind (KeepsBroken.convertConstruct ht _) fun _ =>
    KeepsBroken.withLocal (KeepsBroken.variantMoveAssign hb) (KeepsBroken.destroyVar ht))

theorem StuckBroken.assignValue (hb : Broken C s) (t : Src V) : StuckBroken x s (assignValue C x t) := (hb.visit _).stuck.bind_left

theorem KeepsBroken.swap (hl : l = x → Broken C s) (hr : r = x → Broken C s) (ht : x ≠ .tmp 0) : KeepsBroken x s (swap C l r) := by
  refine KeepsBroken.bind (KeepsBroken.which _) fun _ => KeepsBroken.bind (KeepsBroken.which _) fun _ => KeepsBroken.ite ?_ ?_
  · exact KeepsBroken.applyVisitor _ fun _ _ => KeepsBroken.bind (KeepsBroken.applyVisitor _ fun _ _ => KeepsBroken.ite (KeepsBroken.pure _) (KeepsBroken.fail _)) fun _ =>
      KeepsBroken.swapObj _ _ _
  · exact KeepsBroken.bind (KeepsBroken.moveConstruct ht) fun _ => KeepsBroken.withLocal (KeepsBroken.bind (KeepsBroken.moveAssign hr) fun _ => KeepsBroken.moveAssign hl)
      (KeepsBroken.destroyVar ht)

theorem StuckBroken.swap (hb : Broken C s) (hx : l = x ∨ r = x) (ht : x ≠ .tmp 0) : StuckBroken x s (swap C l r) := by
  refine StuckBroken.bind_right (KeepsBroken.which _) fun _ => StuckBroken.bind_right (KeepsBroken.which _) fun _ => StuckBroken.ite ?_ ?_
  · rcases hx with rfl | rfl
    · exact (hb.visit _).stuck
    · exact StuckBroken.applyVisitor _ fun _ _ => (hb.visit _).stuck.bind_left
  · refine StuckBroken.bind_right (KeepsBroken.moveConstruct ht) fun _ => StuckBroken.withLocal ?_
    exact (StuckBroken.moveAssign hb hx.symm).bind_left

/-! ### Statements -/

theorem KeepsBroken.withElem {k : TyIx} {v : V} {f : ObjId → M V α} (h : ∀ t, KeepsBroken x s (f t)) : KeepsBroken x s (withElem k v f) :=
  KeepsBroken.bind (KeepsBroken.newObj _ _) fun _ => KeepsBroken.withLocal (h _) (KeepsBroken.destroyObj _ _)

theorem StuckBroken.withElem {k : TyIx} {v : V} {f : ObjId → M V α} (h : ∀ t, StuckBroken x s (f t)) : StuckBroken x s (withElem k v f) :=
  StuckBroken.bind_right (KeepsBroken.newObj _ _) fun _ => StuckBroken.withLocal (h _)

variable {n : Nat} {w : World V}

/-- A valid statement leaves a broken variant as it is. If it is of another type, the statement does not name it. -/
theorem KeepsBroken.code (c : Cmd V) (hv : c.valid C w = true) (hn : w.vars (.user n) = some s) (hb : n ∈ c.names → Broken C s) :
    KeepsBroken (.user n) s (c.code C) := by
  have ht : VarId.user n ≠ .tmp 0 := nofun
  have dead : ∀ {z : Nat}, (w.vars (.user z)).isNone = true → VarId.user n ≠ .user z := by
    intro z hz he; rw [← he, hn] at hz; cases hz
  have to1 : ∀ {z : Nat}, z ∈ c.names → (VarId.user z = .user n → Broken C s) := by
    intro z hz he; cases he; exact hb hz
  cases c <;> simp only [Cmd.valid, Bool.and_eq_true] at hv
  case defaultConstruct => exact KeepsBroken.defaultConstruct (dead hv.1)
  case copyConstruct => exact KeepsBroken.copyConstruct (dead hv.1)
  case moveConstruct => exact KeepsBroken.moveConstruct (dead hv.1)
  case constructL => exact KeepsBroken.withElem fun _ => KeepsBroken.convertConstruct (dead hv.1) _
  case constructR => exact KeepsBroken.withElem fun _ => KeepsBroken.convertConstruct (dead hv.1) _
  case constructC => exact KeepsBroken.convertConstruct (dead hv.1) _
  case destroy z =>
    by_cases hz : z = n
    · subst hz; exact (hb (by simp [Cmd.names])).destroyVar.keeps
    · exact KeepsBroken.destroyVar (by simp only [ne_eq, VarId.user.injEq]; omega)
  case copyAssign => exact KeepsBroken.copyAssign (to1 (by simp [Cmd.names]))
  case moveAssign => exact KeepsBroken.moveAssign (to1 (by simp [Cmd.names]))
  case assignL => exact KeepsBroken.withElem fun _ => KeepsBroken.assignValue (to1 (by simp [Cmd.names])) ht _
  case assignR => exact KeepsBroken.withElem fun _ => KeepsBroken.assignValue (to1 (by simp [Cmd.names])) ht _
  case assignC => exact KeepsBroken.assignValue (to1 (by simp [Cmd.names])) ht _
  case assignVL => exact KeepsBroken.withElem fun _ => KeepsBroken.assignValue (to1 (by simp [Cmd.names])) ht _
  case assignVR => exact KeepsBroken.withElem fun _ => KeepsBroken.assignValue (to1 (by simp [Cmd.names])) ht _
  case swap => exact KeepsBroken.swap (to1 (by simp [Cmd.names])) (to1 (by simp [Cmd.names])) ht
  case mutate => exact KeepsBroken.applyVisitor _ fun _ _ => KeepsBroken.modify fun _ h => h
  case constructGet => exact KeepsBroken.applyVisitor _ fun _ _ => KeepsBroken.convertConstruct (dead hv.1) _
  case assignGet => exact KeepsBroken.applyVisitor _ fun _ _ => KeepsBroken.assignValue (to1 (by simp [Cmd.names])) ht _

/-- A valid statement on a broken variant does not return. -/
theorem StuckBroken.code (c : Cmd V) (hv : c.valid C w = true) (hn : w.vars (.user n) = some s) (hm : n ∈ c.names) (hb : Broken C s) :
    StuckBroken (.user n) s (c.code C) := by
  have ht : VarId.user n ≠ .tmp 0 := nofun
  have dead : ∀ {z : Nat}, (w.vars (.user z)).isNone = true → n ≠ z := by
    intro z hz he; rw [← he, hn] at hz; cases hz
  cases c <;> simp only [Cmd.valid, Bool.and_eq_true] at hv <;>
    simp only [Cmd.names, List.mem_cons, List.not_mem_nil, or_false] at hm
  case defaultConstruct => exact absurd hm (dead hv.1)
  case copyConstruct => obtain rfl := hm.resolve_left (dead hv.1); exact (hb.visit _).stuck.bind_left
  case moveConstruct => obtain rfl := hm.resolve_left (dead hv.1); exact StuckBroken.noexceptIf _ (hb.visit _).stuck.bind_left
  case constructL => exact absurd hm (dead hv.1)
  case constructR => exact absurd hm (dead hv.1)
  case constructC => exact absurd hm (dead hv.1)
  case destroy => subst hm; exact hb.destroyVar.stuck
  case copyAssign => exact StuckBroken.copyAssign hb (by rcases hm with rfl | rfl; exact .inl rfl; exact .inr rfl)
  case moveAssign => exact StuckBroken.moveAssign hb (by rcases hm with rfl | rfl; exact .inl rfl; exact .inr rfl)
  case assignL => subst hm; exact StuckBroken.withElem fun _ => StuckBroken.assignValue hb _
  case assignR => subst hm; exact StuckBroken.withElem fun _ => StuckBroken.assignValue hb _
  case assignC => subst hm; exact StuckBroken.assignValue hb _
  case assignVL => subst hm; exact StuckBroken.withElem fun _ => StuckBroken.assignValue hb _
  case assignVR => subst hm; exact StuckBroken.withElem fun _ => StuckBroken.assignValue hb _
  case swap => exact StuckBroken.swap hb (by rcases hm with rfl | rfl; exact .inl rfl; exact .inr rfl) ht
  case mutate => subst hm; exact (hb.visit _).stuck
  case constructGet => obtain rfl := hm.resolve_left (dead hv.1); exact (hb.visit _).stuck
  case assignGet =>
    rcases hm with rfl | rfl
    · exact StuckBroken.applyVisitor _ fun _ _ => StuckBroken.assignValue hb _
    · exact (hb.visit _).stuck

/-! ### Conversions -/

theorem KeepsBroken.asBounded {j k : TyIx} {id : ObjId} {m : M V Unit} (h : KeepsBroken x s m) : KeepsBroken x s (asBounded j k id m) := by
  intro w hw
  have h1 := h (w.seenAs k id) hw
  simp only [BVariant.asBounded]
  cases hm : m (w.seenAs k id) with
  | ok a w1 => exact ⟨fun _ _ h' => (by cases h'; have := h1.1 _ _ hm; exact this), nofun⟩
  | exc e w1 => exact ⟨nofun, fun _ _ h' => (by cases h'; have := h1.2 _ _ hm; exact this)⟩
  | fault f => exact ⟨nofun, nofun⟩

theorem StuckBroken.asBounded {j k : TyIx} {id : ObjId} {m : M V Unit} (h : StuckBroken x s m) : StuckBroken x s (asBounded j k id m) := by
  intro w hw a w' he
  simp only [BVariant.asBounded] at he
  cases hm : m (w.seenAs k id) with
  | ok a w1 => exact h (w.seenAs k id) hw _ _ hm
  | exc e w1 => rw [hm] at he; cases he
  | fault f => rw [hm] at he; cases he

theorem KeepsBroken.convertingFrom {cv : ConvVal V} {rv : Bool} {j k : TyIx} {id : ObjId} {v : V} {m : M V Unit} (h : KeepsBroken x s m) :
    KeepsBroken x s (convertingFrom cv rv j k id v m) := by
  intro w hw
  have h1 := h w hw
  simp only [BVariant.convertingFrom]
  cases hm : m w with
  | ok a w1 => exact ⟨fun _ _ h' => (by cases h'; have := h1.1 _ _ hm; cases rv <;> exact this), nofun⟩
  | exc e w1 => exact ⟨nofun, fun _ _ h' => (by cases h'; have := h1.2 _ _ hm; cases rv <;> exact this)⟩
  | fault f => exact ⟨nofun, nofun⟩

theorem StuckBroken.convertingFrom {cv : ConvVal V} {rv : Bool} {j k : TyIx} {id : ObjId} {v : V} {m : M V Unit} (h : StuckBroken x s m) :
    StuckBroken x s (convertingFrom cv rv j k id v m) := by
  intro w hw a w' he
  simp only [BVariant.convertingFrom] at he
  cases hm : m w with
  | ok a w1 => exact h w hw _ _ hm
  | exc e w1 => rw [hm] at he; cases he
  | fault f => rw [hm] at he; cases he

theorem KeepsBroken.convertInto (ty : TyIx) (p : Option ObjId) : KeepsBroken x s ((convertInto (V := V)).onHolder ty p) :=
  KeepsBroken.bind (KeepsBroken.holderGet _) fun _ => KeepsBroken.pure _

theorem KeepsBroken.fromVariable {F : Foreign} {cv : ConvVal V} {y : VarId} {use : Src V → M V Unit} (h : ∀ t, KeepsBroken x s (use t)) :
    KeepsBroken x s (fromVariable C F cv y use) := by
  refine KeepsBroken.bind (KeepsBroken.internalApplyVisitor _ _ (fun _ _ => KeepsBroken.pure _) KeepsBroken.convertInto) fun p => ?_
  refine KeepsBroken.bind (KeepsBroken.readAs _ _) fun v => ?_
  split
  · exact KeepsBroken.ite (KeepsBroken.asBounded (h _)) (KeepsBroken.convertingFrom (h _))
  · exact KeepsBroken.fail _

theorem StuckBroken.fromVariable {F : Foreign} {cv : ConvVal V} {y : VarId} {use : Src V → M V Unit} (h : ∀ t, StuckBroken x s (use t)) :
    StuckBroken x s (fromVariable C F cv y use) := by
  refine StuckBroken.bind_right (KeepsBroken.internalApplyVisitor _ _ (fun _ _ => KeepsBroken.pure _) KeepsBroken.convertInto) fun p => ?_
  refine StuckBroken.bind_right (KeepsBroken.readAs _ _) fun v => ?_
  split
  · exact StuckBroken.ite (StuckBroken.asBounded (h _)) (StuckBroken.convertingFrom (h _))
  · exact StuckBroken.fail _

variable {D : Decls V} {ρ : Nat → Nat}

theorem KeepsBroken.mix (m : MixCmd V) (hv : m.valid D ρ w = true) (hn : w.vars (.user n) = some s)
    (hb : Broken (D.K (ρ n)) s) : KeepsBroken (.user n) s (m.code D ρ) := by
  have ht : VarId.user n ≠ .tmp 0 := nofun
  have dead : ∀ {z : Nat}, (w.vars (.user z)).isNone = true → VarId.user n ≠ .user z := by
    intro z hz he; rw [← he, hn] at hz; cases hz
  cases m with
  | on vt c =>
    simp only [MixCmd.valid, Bool.and_eq_true, List.all_eq_true, beq_iff_eq] at hv
    exact KeepsBroken.code c hv.2 hn fun hm => hv.1 n hm ▸ hb
  | constructFrom rv const z y =>
    simp only [MixCmd.valid, Bool.and_eq_true] at hv
    exact KeepsBroken.fromVariable fun _ => KeepsBroken.convertConstruct (dead hv.1.1.1.1.1) _
  | assignFrom rv const z y => exact KeepsBroken.fromVariable fun _ => KeepsBroken.assignValue (by intro h; cases h; exact hb) ht _

theorem StuckBroken.mix (m : MixCmd V) (hv : m.valid D ρ w = true) (hn : w.vars (.user n) = some s) (hm : n ∈ m.names)
    (hb : Broken (D.K (ρ n)) s) : StuckBroken (.user n) s (m.code D ρ) := by
  have dead : ∀ {z : Nat}, (w.vars (.user z)).isNone = true → n ≠ z := by
    intro z hz he; rw [← he, hn] at hz; cases hz
  cases m with
  | on vt c =>
    simp only [MixCmd.valid, Bool.and_eq_true, List.all_eq_true, beq_iff_eq] at hv
    exact StuckBroken.code c hv.2 hn hm (hv.1 n hm ▸ hb)
  | constructFrom rv const z y =>
    simp only [MixCmd.valid, Bool.and_eq_true] at hv
    simp only [MixCmd.names, List.mem_cons, List.not_mem_nil, or_false] at hm
    obtain rfl := hm.resolve_left (dead hv.1.1.1.1.1)
    exact (hb.visit _).stuck.bind_left
  | assignFrom rv const z y =>
    simp only [MixCmd.names, List.mem_cons, List.not_mem_nil, or_false] at hm
    rcases hm with rfl | rfl
    · exact StuckBroken.fromVariable fun _ => StuckBroken.assignValue hb _
    · exact (hb.visit _).stuck.bind_left

end

end BVariant
