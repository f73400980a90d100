/-
With assertions on, an assignment whose right-hand content is a `backup_holder` (finding F1) never returns normally.
-/
import Verif.Lemmas.Quiet

namespace BVariant

section
variable {V α β : Type} {C : Cfg V}

/-- The code does not return normally. -/
def NeverOk (m : M V α) : Prop := ∀ w a w', m w ≠ .ok a w'

theorem NeverOk.fail (f : Fault) : NeverOk (M.fail f : M V α) := fun _ _ _ h => by cases h

theorem NeverOk.bind_left {m : M V β} {f : β → M V α} (h : NeverOk m) : NeverOk (m >>= f) := by
  intro w a w' he
  simp only [Bind.bind, M.bind] at he
  cases hm : m w with
  | ok b w1 => exact h _ _ _ hm
  | exc e w1 => rw [hm] at he; cases he
  | fault f => rw [hm] at he; cases he

theorem NeverOk.bind_right {m : M V β} {f : β → M V α} (h : ∀ b, NeverOk (f b)) : NeverOk (m >>= f) := by
  intro w a w' he
  simp only [Bind.bind, M.bind] at he
  cases hm : m w with
  | ok b w1 => rw [hm] at he; exact h _ _ _ _ he
  | exc e w1 => rw [hm] at he; cases he
  | fault f => rw [hm] at he; cases he

theorem NeverOk.onExc {m : M V α} {d : M V Unit} (h : NeverOk m) : NeverOk (M.onExc m d) := by
  intro w a w' he
  simp only [M.onExc] at he
  cases hm : m w with
  | ok b w1 => exact h _ _ _ hm
  | exc e w1 =>
    rw [hm] at he
    simp only at he
    cases hd : d w1 <;> rw [hd] at he <;> cases he
  | fault f => rw [hm] at he; cases he

theorem NeverOk.withLocal {m : M V α} {d : M V Unit} (h : NeverOk m) : NeverOk (M.withLocal m d) := by
  intro w a w' he
  simp only [M.withLocal] at he
  cases hm : m w with
  | ok b w1 => exact h _ _ _ hm
  | exc e w1 =>
    rw [hm] at he
    simp only at he
    cases hd : d w1 <;> rw [hd] at he <;> cases he
  | fault f => rw [hm] at he; cases he

theorem NeverOk.noexceptIf {m : M V α} (b : Bool) (h : NeverOk m) : NeverOk (M.noexceptIf b m) := by
  intro w a w' he
  simp only [M.noexceptIf] at he
  cases hm : m w with
  | ok b w1 => exact h _ _ _ hm
  | exc e w1 => rw [hm] at he; cases b <;> cases he
  | fault f => rw [hm] at he; cases he

theorem NeverOk.ite {c : Prop} [Decidable c] {m n : M V α} (hm : NeverOk m) (hn : NeverOk n) :
    NeverOk (if c then m else n) := by
  split
  · exact hm
  · exact hn

theorem NeverOk.internalApplyVisitor (x : VarId) (vis : Visitor V α) (h1 : ∀ ty id, NeverOk (vis.onObj ty id))
    (h2 : ∀ ty p, NeverOk (vis.onHolder ty p)) : NeverOk (internalApplyVisitor C x vis) := by
  refine NeverOk.bind_right fun s => ?_
  refine visitationImpl_mem NeverOk _ _ _ (NeverOk.fail _) ?_ _ _ _
  intro ty
  exact NeverOk.ite (NeverOk.bind_right fun _ => h1 _ _) (NeverOk.ite (NeverOk.bind_right fun _ => h1 _ _)
    (NeverOk.bind_right fun _ => h2 _ _))

theorem NeverOk.holderCopyCtor (hd : C.ndebug = false) : NeverOk (holderCopyCtor C) := by
  simp only [BVariant.holderCopyCtor, hd, Bool.false_eq_true, if_false]
  exact NeverOk.fail _

theorem NeverOk.copyRhsInto (hd : C.ndebug = false) (l : VarId) (ty : TyIx) (p : Option ObjId) :
    NeverOk (copyRhsInto C l (.holder ty p)) :=
  NeverOk.bind_left (NeverOk.bind_left (NeverOk.holderCopyCtor hd))

theorem NeverOk.moveRhsInto (hd : C.ndebug = false) (l : VarId) (ty : TyIx) (p : Option ObjId) :
    NeverOk (moveRhsInto C l (.holder ty p)) :=
  NeverOk.bind_left (NeverOk.holderCopyCtor hd)

theorem NeverOk.assignImpl (hd : C.ndebug = false) (l : VarId) (i : Int) (ty : TyIx) (p : Option ObjId)
    (b1 b2 b3 : Bool) : NeverOk (assignImpl C l i (.holder ty p) b1 b2 b3) := by
  refine NeverOk.ite ?_ (NeverOk.ite ?_ (NeverOk.ite ?_ ?_))
  · exact NeverOk.noexceptIf _ (NeverOk.bind_right fun _ => NeverOk.bind_left (NeverOk.copyRhsInto hd _ _ _))
  · exact NeverOk.fail _
  · exact NeverOk.bind_right fun _ => NeverOk.bind_left (NeverOk.onExc (NeverOk.copyRhsInto hd _ _ _))
  · refine NeverOk.internalApplyVisitor _ _ (fun t id => ?_) (fun t q => ?_)
    · refine NeverOk.ite ?_ ?_
      · exact NeverOk.bind_right fun _ => NeverOk.withLocal (NeverOk.bind_right fun _ =>
          NeverOk.bind_left (NeverOk.onExc (NeverOk.copyRhsInto hd _ _ _)))
      · exact NeverOk.bind_right fun _ => NeverOk.bind_right fun _ =>
          NeverOk.bind_left (NeverOk.onExc (NeverOk.copyRhsInto hd _ _ _))
    · exact NeverOk.bind_right fun _ => NeverOk.bind_right fun _ => NeverOk.bind_right fun _ =>
        NeverOk.bind_left (NeverOk.onExc (NeverOk.copyRhsInto hd _ _ _))

theorem NeverOk.moveAssignImpl (hd : C.ndebug = false) (l : VarId) (i : Int) (ty : TyIx) (p : Option ObjId)
    (b1 b2 b3 : Bool) : NeverOk (moveAssignImpl C l i (.holder ty p) b1 b2 b3) := by
  refine NeverOk.ite ?_ (NeverOk.ite ?_ (NeverOk.ite ?_ ?_))
  · exact NeverOk.noexceptIf _ (NeverOk.bind_right fun _ => NeverOk.bind_left (NeverOk.moveRhsInto hd _ _ _))
  · exact NeverOk.noexceptIf _ (NeverOk.assignImpl hd _ _ _ _ _ _ _)
  · exact NeverOk.bind_right fun _ => NeverOk.bind_left (NeverOk.onExc (NeverOk.moveRhsInto hd _ _ _))
  · exact NeverOk.assignImpl hd _ _ _ _ _ _ _

end

end BVariant
