/-
Unconditional forms of the weakest-precondition rules, for symbolic execution with `simp`.
-/
import Verif.Lemmas.Visit

namespace BVariant

section
variable {V α : Type} {Q : α → World V → Prop} {E : Exc → World V → Prop} {w : World V} (C : Cfg V)

theorem wpx_readAs {Q : V → World V → Prop} (ty : TyIx) (id : ObjId) :
    wp (readAs ty id) Q E w =
      match w.objs id with
      | some p => if p.1 = ty then Q p.2 w else False
      | none => False := by
  simp only [wp, readAs]
  cases w.objs id with
  | none => rfl
  | some p => simp only; by_cases h : p.1 = ty <;> simp [h]

theorem wpx_getVar {Q : VarSt → World V → Prop} (x : VarId) :
    wp (getVar x) Q E w = match w.vars x with | some s => Q s w | none => False := by
  simp only [wp, getVar]
  cases w.vars x <;> rfl

theorem wpx_setSlot {Q : Unit → World V → Prop} (x : VarId) (t : Slot) :
    wp (setSlot x t) Q E w = match w.vars x with
      | some s => Q () { w with vars := upd w.vars x (some { s with slot := t }) }
      | none => False := by
  simp only [setSlot, wp_bind, wpx_getVar, wp_modify]

theorem wpx_setWhich {Q : Unit → World V → Prop} (x : VarId) (i : Int) :
    wp (setWhich x i) Q E w = match w.vars x with
      | some s => Q () { w with vars := upd w.vars x (some { s with which_ := i }) }
      | none => False := by
  simp only [setWhich, wp_bind, wpx_getVar, wp_modify]

theorem wpx_which {Q : Int → World V → Prop} (x : VarId) :
    wp (which x) Q E w = match w.vars x with
      | some s => Q (whichOf s.which_) w
      | none => False := by
  simp only [which, wp_bind, wpx_getVar, wp_pure]

theorem upd_upd_same {α β : Type} [DecidableEq α] (f : α → β) (a : α) (b c : β) :
    upd (upd f a b) a c = upd f a c := by
  funext x; simp only [upd]; split <;> rfl

theorem upd_self {α β : Type} [DecidableEq α] (f : α → β) (a : α) (b : β) (h : f a = b) :
    upd f a b = f := by
  funext x; simp only [upd]; split
  · rename_i hx; rw [hx, h]
  · rfl

theorem wpx_destroyObj {Q : Unit → World V → Prop} (hf : ∀ i, w.sub i = []) (ty : TyIx) (id : ObjId) :
    wp (destroyObj ty id) Q E w =
      match w.objs id with
      | some p => if p.1 = ty then Q () { w with objs := upd w.objs id none } else False
      | none => False := by
  simp only [destroyObj, wp_bind, wpx_readAs, wp_modify, hf, List.not_mem_nil, or_false]
  rfl

theorem wpx_copyCtor {Q : ObjId → World V → Prop} (ty : TyIx) (src : ObjId) :
    wp (copyCtor C ty src) Q E w =
      match w.objs src with
      | some p =>
        if p.1 = ty then
          if (C.tr ty).nothrowCopy = false ∧ C.throws w.tick = true then
            E ⟨.copyCtor ty, w.tick⟩ { w with tick := w.tick + 1 }
          else Q w.next { w with objs := upd w.objs w.next (some (ty, C.ops.copy ty p.2)), next := w.next + 1,
                                 tick := w.tick + 1 }
        else False
      | none => False := by
  simp only [copyCtor, wp_bind, wpx_readAs, wp_mayThrow, wp_newObj, id]

theorem wpx_moveCtor {Q : ObjId → World V → Prop} (ty : TyIx) (src : ObjId) :
    wp (moveCtor C ty src) Q E w =
      match w.objs src with
      | some p =>
        if p.1 = ty then
          if (C.tr ty).nothrowMove = false ∧ C.throws w.tick = true then
            E ⟨.moveCtor ty, w.tick⟩
              { w with objs := upd w.objs src (some (ty, C.ops.moveFailSrc ty p.2)), tick := w.tick + 1 }
          else Q w.next { w with objs := upd (upd w.objs src (some (ty, C.ops.movedFrom ty p.2))) w.next
                                          (some (ty, C.ops.move ty p.2)),
                                 next := w.next + 1, tick := w.tick + 1 }
        else False
      | none => False := by
  simp only [moveCtor, wp_bind, wpx_readAs, wp_mayThrow, wp_modify, wp_newObj, setVal]

theorem wpx_heapCopy {Q : ObjId → World V → Prop} (ty : TyIx) (src : ObjId) :
    wp (heapCopy C ty src) Q E w =
      if C.throws w.tick = true then
        E ⟨.badAlloc, w.tick⟩ { w with allocs := w.allocs + 1, tick := w.tick + 1 }
      else match w.objs src with
      | some p =>
        if p.1 = ty then
          if (C.tr ty).nothrowCopy = false ∧ C.throws (w.tick + 1) = true then
            E ⟨.copyCtor ty, w.tick + 1⟩ { w with allocs := w.allocs + 1, tick := w.tick + 1 + 1 }
          else Q w.next { w with objs := upd w.objs w.next (some (ty, C.ops.copy ty p.2)), next := w.next + 1,
                                 tick := w.tick + 1 + 1, allocs := w.allocs + 1 }
        else False
      | none => False := by
  simp only [heapCopy, wp_bind, wp_modify, wp_mayThrow, id, true_and, wpx_copyCtor]

theorem wpx_assignObj {Q : Unit → World V → Prop} (ty : TyIx) {l r : ObjId} {vl vr : V}
    (hl : w.objs l = some (ty, vl)) (hr : w.objs r = some (ty, vr)) :
    wp (assignObj C ty l r) Q E w =
      if C.throws w.tick = true then
        E ⟨.copyAssign ty, w.tick⟩
          { w with objs := upd w.objs l (some (ty, C.ops.assignFail ty vl vr)), tick := w.tick + 1 }
      else Q () { w with objs := upd w.objs l (some (ty, C.ops.assign ty vl vr)), tick := w.tick + 1 } := by
  simp only [assignObj, wp_bind, wpx_readAs, wp_mayThrow, wp_modify, setVal, hl, hr, true_and, if_true]

theorem wpx_moveAssignObj_self {Q : Unit → World V → Prop} (ty : TyIx) {l : ObjId} {vl : V}
    (hl : w.objs l = some (ty, vl)) :
    wp (moveAssignObj C ty l l) Q E w =
      if (C.tr ty).nothrowMoveAssign = false ∧ C.throws w.tick = true then
        E ⟨.moveAssign ty, w.tick⟩
          { w with objs := upd w.objs l (some (ty, C.ops.selfMoveFail ty vl)), tick := w.tick + 1 }
      else Q () { w with objs := upd w.objs l (some (ty, C.ops.selfMove ty vl)), tick := w.tick + 1 } := by
  simp only [moveAssignObj, wp_bind, wpx_readAs, wp_mayThrow, wp_modify, setVal, hl, if_true]

theorem wpx_moveAssignObj {Q : Unit → World V → Prop} (ty : TyIx) {l r : ObjId} {vl vr : V} (hne : l ≠ r)
    (hl : w.objs l = some (ty, vl)) (hr : w.objs r = some (ty, vr)) :
    wp (moveAssignObj C ty l r) Q E w =
      if (C.tr ty).nothrowMoveAssign = false ∧ C.throws w.tick = true then
        E ⟨.moveAssign ty, w.tick⟩
          { w with objs := upd (upd w.objs l (some (ty, C.ops.moveAssignFail ty vl vr))) r
                      (some (ty, C.ops.moveAssignFailSrc ty vl vr)), tick := w.tick + 1 }
      else Q () { w with objs := upd (upd w.objs l (some (ty, C.ops.moveAssign ty vl vr))) r
                                  (some (ty, C.ops.moveAssignSrc ty vl vr)), tick := w.tick + 1 } := by
  simp only [moveAssignObj, wp_bind, wpx_readAs, wp_mayThrow, wp_modify, setVal, hl, hr, hne, if_true, if_false]

theorem wpx_swapObj_self {Q : Unit → World V → Prop} (ty : TyIx) {l : ObjId} {vl : V}
    (hl : w.objs l = some (ty, vl)) :
    wp (swapObj C ty l l) Q E w =
      if C.throws w.tick = true then
        E ⟨.swap ty, w.tick⟩ { w with objs := upd w.objs l (some (ty, C.ops.selfSwapFail ty vl)), tick := w.tick + 1 }
      else Q () { w with objs := upd w.objs l (some (ty, C.ops.selfSwap ty vl)), tick := w.tick + 1 } := by
  simp only [swapObj, wp_bind, wpx_readAs, wp_mayThrow, wp_modify, setVal, hl, if_true, true_and]

theorem wpx_swapObj {Q : Unit → World V → Prop} (ty : TyIx) {l r : ObjId} {vl vr : V} (hne : l ≠ r)
    (hl : w.objs l = some (ty, vl)) (hr : w.objs r = some (ty, vr)) :
    wp (swapObj C ty l r) Q E w =
      if C.throws w.tick = true then
        E ⟨.swap ty, w.tick⟩
          { w with objs := upd (upd w.objs l (some (ty, C.ops.swapFailL ty vl vr))) r
                      (some (ty, C.ops.swapFailR ty vl vr)), tick := w.tick + 1 }
      else Q () { w with objs := upd (upd w.objs l (some (ty, C.ops.swapL ty vl vr))) r
                                  (some (ty, C.ops.swapR ty vl vr)), tick := w.tick + 1 } := by
  simp only [swapObj, wp_bind, wpx_readAs, wp_mayThrow, wp_modify, setVal, hl, hr, hne, if_true, if_false,
    true_and]

end

end BVariant
