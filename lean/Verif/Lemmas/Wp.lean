/-
Weakest preconditions for the code monad.
-/
import Verif.Core.Variant

namespace BVariant
open M

/-- `m` run in `w` does not fault, satisfies `Q` if it returns and `E` if it throws. -/
def wp {V α : Type} (m : M V α) (Q : α → World V → Prop) (E : Exc → World V → Prop) (w : World V) : Prop :=
  match m w with
  | .ok a w' => Q a w'
  | .exc e w' => E e w'
  | .fault _ => False

section
variable {V α β : Type} {Q : α → World V → Prop} {E : Exc → World V → Prop} {w : World V}

theorem wp_pure (a : α) : wp (Pure.pure a : M V α) Q E w = Q a w := rfl

theorem wp_bind (m : M V β) (f : β → M V α) :
    wp (m >>= f) Q E w = wp m (fun b w' => wp (f b) Q E w') E w := by
  simp only [wp, Bind.bind, M.bind]
  cases m w <;> rfl

theorem wp_modify {Q : Unit → World V → Prop} (f : World V → World V) :
    wp (M.modify f) Q E w = Q () (f w) := rfl

theorem wp_fail (f : Fault) : wp (M.fail f : M V α) Q E w = False := rfl

theorem wp_onExc (m : M V α) (h : M V Unit) :
    wp (M.onExc m h) Q E w = wp m Q (fun e w' => wp h (fun _ w'' => E e w'') E w') w := by
  simp only [wp, M.onExc]
  cases m w with
  | ok a w' => rfl
  | exc e w' => simp only; cases h w' <;> rfl
  | fault f => rfl

theorem wp_withLocal (m : M V α) (d : M V Unit) :
    wp (M.withLocal m d) Q E w =
      wp m (fun a w' => wp d (fun _ w'' => Q a w'') E w')
        (fun e w' => wp d (fun _ w'' => E e w'') (fun _ _ => False) w') w := by
  simp only [wp, M.withLocal]
  cases m w with
  | ok a w' => simp only; cases d w' <;> rfl
  | exc e w' => simp only; cases d w' <;> rfl
  | fault f => rfl

theorem wp_noexceptIf (b : Bool) (m : M V α) :
    wp (M.noexceptIf b m) Q E w = wp m Q (fun e w' => b = false ∧ E e w') w := by
  simp only [wp, M.noexceptIf]
  cases m w with
  | ok a w' => rfl
  | exc e w' => cases b <;> simp
  | fault f => rfl

theorem wp_ite (c : Prop) [Decidable c] (m n : M V α) :
    wp (if c then m else n) Q E w = if c then wp m Q E w else wp n Q E w := by
  split <;> rfl

theorem wp_mayThrow {Q : Unit → World V → Prop} (C : Cfg V) (nt : Bool) (k : ExcKind) (g : World V → World V) :
    wp (mayThrow C nt k g) Q E w =
      if nt = false ∧ C.throws w.tick = true then
        E ⟨k, w.tick⟩ (g { w with tick := w.tick + 1 })
      else Q () { w with tick := w.tick + 1 } := by
  simp only [wp, mayThrow]
  cases nt <;> cases C.throws w.tick <;> simp

theorem wp_readAs {Q : V → World V → Prop} {ty : TyIx} {id : ObjId} {v : V}
    (h : w.objs id = some (ty, v)) : wp (readAs ty id) Q E w = Q v w := by
  simp [wp, readAs, h]

theorem wp_newObj {Q : ObjId → World V → Prop} (ty : TyIx) (v : V) :
    wp (newObj ty v) Q E w =
      Q w.next { w with objs := upd w.objs w.next (some (ty, v)), next := w.next + 1 } := rfl

theorem wp_getVar {Q : VarSt → World V → Prop} {x : VarId} {s : VarSt} (h : w.vars x = some s) :
    wp (getVar x) Q E w = Q s w := by
  simp [wp, getVar, h]

theorem wp_setSlot {Q : Unit → World V → Prop} {x : VarId} {s : VarSt} {t : Slot} (h : w.vars x = some s) :
    wp (setSlot x t) Q E w = Q () { w with vars := upd w.vars x (some { s with slot := t }) } := by
  simp only [setSlot, wp_bind, wp_getVar h, wp_modify]

theorem wp_setWhich {Q : Unit → World V → Prop} {x : VarId} {s : VarSt} {i : Int} (h : w.vars x = some s) :
    wp (setWhich x i) Q E w = Q () { w with vars := upd w.vars x (some { s with which_ := i }) } := by
  simp only [setWhich, wp_bind, wp_getVar h, wp_modify]

theorem wp_which {Q : Int → World V → Prop} {x : VarId} {s : VarSt} (h : w.vars x = some s) :
    wp (which x) Q E w = Q (whichOf s.which_) w := by
  simp only [which, wp_bind, wp_getVar h, wp_pure]

theorem wp_beginVar {Q : Unit → World V → Prop} {x : VarId} {s : VarSt} :
    wp (beginVar x s) Q E w = Q () { w with vars := upd w.vars x (some s) } := rfl

/-- Consequence. -/
theorem wp_mono {m : M V α} {Q' : α → World V → Prop} {E' : Exc → World V → Prop}
    (h : wp m Q E w) (hQ : ∀ a w', Q a w' → Q' a w') (hE : ∀ e w', E e w' → E' e w') : wp m Q' E' w := by
  simp only [wp] at *
  cases hm : m w <;> simp_all

theorem wp_destroyObj {Q : Unit → World V → Prop} {ty : TyIx} {id : ObjId} {v : V}
    (h : w.objs id = some (ty, v)) (hs : w.sub id = []) :
    wp (destroyObj ty id) Q E w = Q () { w with objs := upd w.objs id none } := by
  simp only [destroyObj, wp_bind, wp_readAs h, wp_modify, hs]
  congr 1
  simp only [List.not_mem_nil, or_false]
  rfl

theorem wp_copyCtor {Q : ObjId → World V → Prop} (C : Cfg V) {ty : TyIx} {src : ObjId} {v : V}
    (h : w.objs src = some (ty, v)) :
    wp (copyCtor C ty src) Q E w =
      if (C.tr ty).nothrowCopy = false ∧ C.throws w.tick = true then
        E ⟨.copyCtor ty, w.tick⟩ { w with tick := w.tick + 1 }
      else Q w.next { w with objs := upd w.objs w.next (some (ty, C.ops.copy ty v)), next := w.next + 1,
                             tick := w.tick + 1 } := by
  simp only [copyCtor, wp_bind, wp_readAs h, wp_mayThrow, wp_newObj, id]

theorem wp_moveCtor {Q : ObjId → World V → Prop} (C : Cfg V) {ty : TyIx} {src : ObjId} {v : V}
    (h : w.objs src = some (ty, v)) :
    wp (moveCtor C ty src) Q E w =
      if (C.tr ty).nothrowMove = false ∧ C.throws w.tick = true then
        E ⟨.moveCtor ty, w.tick⟩
          { w with objs := upd w.objs src (some (ty, C.ops.moveFailSrc ty v)), tick := w.tick + 1 }
      else Q w.next { w with objs := upd (upd w.objs src (some (ty, C.ops.movedFrom ty v))) w.next
                                      (some (ty, C.ops.move ty v)),
                             next := w.next + 1, tick := w.tick + 1 } := by
  simp only [moveCtor, wp_bind, wp_readAs h, wp_mayThrow, wp_modify, wp_newObj, setVal]

theorem wp_heapCopy {Q : ObjId → World V → Prop} (C : Cfg V) {ty : TyIx} {src : ObjId} {v : V}
    (h : w.objs src = some (ty, v)) :
    wp (heapCopy C ty src) Q E w =
      if C.throws w.tick = true then
        E ⟨.badAlloc, w.tick⟩ { w with allocs := w.allocs + 1, tick := w.tick + 1 }
      else if (C.tr ty).nothrowCopy = false ∧ C.throws (w.tick + 1) = true then
        E ⟨.copyCtor ty, w.tick + 1⟩ { w with allocs := w.allocs + 1, tick := w.tick + 1 + 1 }
      else Q w.next { w with objs := upd w.objs w.next (some (ty, C.ops.copy ty v)), next := w.next + 1,
                             tick := w.tick + 1 + 1, allocs := w.allocs + 1 } := by
  simp only [heapCopy, wp_bind, wp_modify, wp_mayThrow, id, true_and]
  split
  · rfl
  · exact wp_copyCtor (w := { w with allocs := w.allocs + 1, tick := w.tick + 1 }) C h

theorem wp_defaultCtor {Q : ObjId → World V → Prop} (C : Cfg V) (ty : TyIx) :
    wp (defaultCtor C ty) Q E w =
      if (C.tr ty).nothrowDefault = false ∧ C.throws w.tick = true then
        E ⟨.defaultCtor ty, w.tick⟩ { w with tick := w.tick + 1 }
      else Q w.next { w with objs := upd w.objs w.next (some (ty, C.ops.defaultInit ty)), next := w.next + 1,
                             tick := w.tick + 1 } := by
  simp only [defaultCtor, wp_bind, wp_mayThrow, wp_newObj, id]

theorem wp_valueCtor {Q : ObjId → World V → Prop} (C : Cfg V) (ty : TyIx) :
    wp (valueCtor C ty) Q E w =
      if (C.tr ty).nothrowDefault = false ∧ C.throws w.tick = true then
        E ⟨.defaultCtor ty, w.tick⟩ { w with tick := w.tick + 1 }
      else Q w.next { w with objs := upd w.objs w.next (some (ty, C.ops.valueInit ty)), next := w.next + 1,
                             tick := w.tick + 1 } := by
  simp only [valueCtor, wp_bind, wp_mayThrow, wp_newObj, id]

end

end BVariant
