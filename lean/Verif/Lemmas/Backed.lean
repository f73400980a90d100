/-
Assignment to a variant that is in a heap backup.
-/
import Verif.Lemmas.AssignTop

set_option linter.unusedSimpArgs false

namespace BVariant

section
variable {V : Type} {C : Cfg V} {w w' : World V} {k kr : TyIx}

theorem wp_and {α : Type} {m : M V α} {Q Q' : α → World V → Prop} {E E' : Exc → World V → Prop}
    (h : wp m Q E w) (h' : wp m Q' E' w) :
    wp m (fun a w' => Q a w' ∧ Q' a w') (fun e w' => E e w' ∧ E' e w') w := by
  unfold wp at *
  cases hm : m w with
  | ok a w' => rw [hm] at h h'; exact ⟨h, h'⟩
  | exc e w' => rw [hm] at h h'; exact ⟨h, h'⟩
  | fault f => rw [hm] at h; exact h.elim

/-- An assignment to a variant in a heap backup makes no other backup: only the copy constructor of the new content is called. -/
theorem wp_backedTarget {l : VarId} {i q : ObjId} {a b : V} (vl : w.vars l = some ⟨-((k : Int) + 1), .holder k (some i)⟩)
    (oi : w.objs i = some (k, a)) (hfl : ∀ i, w.sub i = []) (or : w.objs q = some (kr, b)) (hi : i ≠ w.next) (hk : k < C.n) (hbk : C.mayBackup k)
    (hbr : C.mayBackup kr) :
    wp (assignImpl C l kr (.obj kr q) false false false) (fun _ _ => C.throws w.tick = false)
      (fun e _ => e.kind = .copyCtor kr ∧ C.throws w.tick = true) w := by
  simp only [assignImpl, Bool.false_eq_true, if_false]
  rw [wp_iav_backup C vl hk hbk]
  simp only [backupAssigner, wp_bind, wpx_setSlot, vl, upd_same, holderDtor, wp_onExc, copyRhsInto, copyRhs, wpx_copyCtor, or, if_true, hbr.2.2,
    upd_upd_same, wp_pure]
  cases C.throws w.tick with
  | true => simp
  | false => simp [wpx_setWhich, wpx_destroyObj, upd_ne _ _ hi, oi, hfl]

/-- A variant of the same content type whose record differs from one in place is in a heap backup. -/
theorem Rep.backed_of_ne {s : VarSt} {i : ObjId} (h : Rep C s i k) (hw : s.which_ ≠ (k : Int)) :
    s = ⟨-((k : Int) + 1), .holder k (some i)⟩ ∧ C.mayBackup k := by
  cases h with
  | inPlace => exact absurd rfl hw
  | inBackup _ _ _ hb => exact ⟨rfl, hb⟩

/-- A move assignment to such a variant from one that holds the same type in place. -/
theorem wp_variantMoveAssign_backed {l r : VarId} {sl : VarSt} {i q : ObjId} {vl vr : V} (hl : Owns C w l sl i k vl)
    (hr : Owns C w r ⟨(k : Int), .obj q⟩ q k vr) (hf : Fresh w) (hw : sl.which_ ≠ (k : Int)) :
    wp (variantMoveAssign C l r) (fun _ _ => True) (fun e _ => e.kind = .copyCtor k) w := by
  have hlt := hf.lt hl.obj
  obtain ⟨rfl, hb⟩ := hl.rep.backed_of_ne hw
  have key := wp_backedTarget (kr := k) hl.var hl.obj hf.flat hr.obj (by omega) hl.rep.lt hb hb
  obtain ⟨hb1, hb2, hb3⟩ := hb
  simp only [variantMoveAssign, wp_bind, wpx_getVar, hl.var, hr.var, hw, if_false, whichOf_natCast]
  rw [wp_iav_inPlace C hr.var hr.rep.lt hr.obj]
  simp only [moveAssigner, moveAssignerVisit, moveAssignImpl, RhsContent.nothrowCopy, RhsContent.nothrowMove, hb1, hb2, hb3, Bool.or_self,
    Bool.false_eq_true, if_false]
  exact wp_mono key (fun _ _ _ => trivial) (fun _ _ h => h.1)

end

end BVariant
