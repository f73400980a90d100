/-
Visiting a properly represented variant.
-/
import Verif.Lemmas.Wp
import Verif.Lemmas.Visitation
import Verif.Spec.Invariant

namespace BVariant

section
variable {V α : Type} (C : Cfg V) {w : World V}

@[simp] theorem whichOf_natCast (k : Nat) : whichOf (k : Int) = k := by
  simp only [whichOf, usingBackup]
  have : ¬ ((k : Int) < 0) := by omega
  simp [this]

@[simp] theorem whichOf_backup (k : Nat) : whichOf (-((k : Int) + 1)) = k := by
  simp only [whichOf, usingBackup]
  have : (-((k : Int) + 1) < 0) := by omega
  simp only [this, decide_true, if_true]
  omega

theorem visitation_range (L n k : Nat) (hk : k < n) {β : Type} (f : Nat → β) (forced : β) :
    visitationImpl L (k : Int) 0 (List.range n) f forced = f k := by
  have := visitationImpl_lookup L f forced (List.range n) 0 k
  simp only [Nat.zero_add] at this
  rw [this]
  simp [hk]

theorem Rep.lt {s : VarSt} {id : ObjId} {k : TyIx} (h : Rep C s id k) : k < C.n := by
  cases h <;> assumption

theorem Rep.which {s : VarSt} {id : ObjId} {k : TyIx} (h : Rep C s id k) : whichOf s.which_ = k := by
  cases h <;> simp

theorem Rep.contentId {s : VarSt} {id : ObjId} {k : TyIx} (h : Rep C s id k) : s.contentId = some id := by
  cases h <;> rfl

theorem castObj_eq {x : VarId} {k : TyIx} {id : ObjId} {i : Int} {v : V}
    (hx : w.vars x = some ⟨i, .obj id⟩) (ho : w.objs id = some (k, v)) :
    castObj x k w = .ok id w := by
  simp only [castObj, bind, M.bind, getVar, hx, readAs, ho, if_true]
  rfl

theorem castHolder_eq {x : VarId} {k : TyIx} {p : Option ObjId} {i : Int}
    (hx : w.vars x = some ⟨i, .holder k p⟩) :
    castHolder x k w = .ok p w := by
  simp only [castHolder, bind, M.bind, getVar, hx, if_true]
  rfl

theorem iav_inPlace {x : VarId} {k : TyIx} {id : ObjId} {v : V} (vis : Visitor V α)
    (hx : w.vars x = some ⟨(k : Int), .obj id⟩) (hk : k < C.n) (ho : w.objs id = some (k, v)) :
    internalApplyVisitor C x vis w = vis.onObj k id w := by
  simp only [internalApplyVisitor, bind, M.bind, getVar, hx, whichOf_natCast]
  rw [visitation_range _ _ _ hk]
  have h1 : ((k : Int) ≥ 0) := by omega
  simp only [visitationInvoke, h1, if_true, ite_self]
  simp only [bind, M.bind, castObj_eq hx ho]

theorem iav_backup {x : VarId} {k : TyIx} {p : Option ObjId} (vis : Visitor V α)
    (hx : w.vars x = some ⟨-((k : Int) + 1), .holder k p⟩) (hk : k < C.n) (hb : C.mayBackup k) :
    internalApplyVisitor C x vis w = vis.onHolder k p w := by
  have h0 : ¬ (-((k : Int) + 1) ≥ 0) := by omega
  obtain ⟨h1, h2, h3⟩ := hb
  simp only [internalApplyVisitor, bind, M.bind, getVar, hx, whichOf_backup]
  rw [visitation_range _ _ _ hk]
  simp only [visitationInvoke, neverUsesBackup, h1, h2, h3, Bool.or_self, Bool.false_eq_true, if_false,
    h0, bind, M.bind, castHolder_eq hx]

theorem wp_iav_inPlace {Q : α → World V → Prop} {E : Exc → World V → Prop} {x : VarId} {k : TyIx}
    {id : ObjId} {v : V} {vis : Visitor V α}
    (hx : w.vars x = some ⟨(k : Int), .obj id⟩) (hk : k < C.n) (ho : w.objs id = some (k, v)) :
    wp (internalApplyVisitor C x vis) Q E w = wp (vis.onObj k id) Q E w := by
  simp only [wp, iav_inPlace C vis hx hk ho]

theorem wp_iav_backup {Q : α → World V → Prop} {E : Exc → World V → Prop} {x : VarId} {k : TyIx}
    {p : Option ObjId} {vis : Visitor V α}
    (hx : w.vars x = some ⟨-((k : Int) + 1), .holder k p⟩) (hk : k < C.n) (hb : C.mayBackup k) :
    wp (internalApplyVisitor C x vis) Q E w = wp (vis.onHolder k p) Q E w := by
  simp only [wp, iav_backup C vis hx hk hb]

/-- A user visitor is called on the owned object, whatever the representation. -/
theorem applyVisitor_eq {x : VarId} {s : VarSt} {k : TyIx} {id : ObjId} {v : V} (f : TyIx → ObjId → M V α)
    (hx : w.vars x = some s) (hr : Rep C s id k) (ho : w.objs id = some (k, v)) :
    applyVisitor C x f w = f k id w := by
  cases hr with
  | inPlace _ _ hk => exact iav_inPlace C _ hx hk ho
  | inBackup _ _ hk hb => exact iav_backup C _ hx hk hb

theorem wp_applyVisitor {Q : α → World V → Prop} {E : Exc → World V → Prop} {x : VarId} {s : VarSt} {k : TyIx}
    {id : ObjId} {v : V} {f : TyIx → ObjId → M V α}
    (hx : w.vars x = some s) (hr : Rep C s id k) (ho : w.objs id = some (k, v)) :
    wp (applyVisitor C x f) Q E w = wp (f k id) Q E w := by
  simp only [wp, applyVisitor_eq C f hx hr ho]

end

end BVariant
