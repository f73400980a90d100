/-
Exact outcomes of some operations, as equations.
-/
import Verif.Lemmas.Construct
import Verif.Lemmas.Outcome

namespace BVariant

section
variable {V α : Type} {C : Cfg V} {w : World V} {x y : VarId} {s : VarSt} {id : ObjId} {k : TyIx} {v : V}

theorem run_of_wp {m : M V α} {a : α} {w' : World V} (h : wp m (fun b w1 => b = a ∧ w1 = w') (fun _ _ => False) w) :
    m w = .ok a w' := by
  rcases wp_elim h with ⟨b, w1, hm, rfl, rfl⟩ | ⟨e, w1, hm, h⟩
  · exact hm
  · exact h.elim

theorem destroyObj_run (hf : ∀ i, w.sub i = []) (h : w.objs id = some (k, v)) :
    destroyObj k id w = .ok () { w with objs := upd w.objs id none } := by
  apply run_of_wp
  rw [wpx_destroyObj hf, h]
  simp

theorem destroyVar_run (h : Owns C w x s id k v) (hf : ∀ i, w.sub i = []) :
    destroyVar C x w = .ok () { w with objs := upd w.objs id none, vars := upd w.vars x none } := by
  apply run_of_wp
  rw [wp_destroyVar h hf]
  exact ⟨rfl, rfl⟩

theorem moveCtor_run (h : w.objs id = some (k, v)) :
    moveCtor C k id w = if (!(C.tr k).nothrowMove && C.throws w.tick) = true then
        .exc ⟨.moveCtor k, w.tick⟩ { w with tick := w.tick + 1, objs := upd w.objs id (some (k, C.ops.moveFailSrc k v)) }
      else .ok w.next { w with
        tick := w.tick + 1
        objs := upd (upd w.objs id (some (k, C.ops.movedFrom k v))) w.next (some (k, C.ops.move k v))
        next := w.next + 1 } := by
  simp only [moveCtor, bind, M.bind, readAs, h, if_true, mayThrow]
  by_cases ht : (!(C.tr k).nothrowMove && C.throws w.tick) = true
  · simp only [ht, if_true]; rfl
  · simp only [ht, Bool.false_eq_true, if_false]; rfl

theorem moveConstruct_run_owns (ho : Owns C w y s id k v) :
    moveConstruct C x y w =
      if (!(C.tr k).nothrowMove && C.throws w.tick) = true then
        .exc ⟨.moveCtor k, w.tick⟩ { w with tick := w.tick + 1, objs := upd w.objs id (some (k, C.ops.moveFailSrc k v)) }
      else .ok () { w with
        tick := w.tick + 1
        objs := upd (upd w.objs id (some (k, C.ops.movedFrom k v))) w.next (some (k, C.ops.move k v))
        next := w.next + 1
        vars := upd w.vars x (some ⟨(k : Int), .obj w.next⟩) } := by
  have hmv := moveCtor_run (C := C) ho.obj
  have hall : moveNoexceptConstructible C = true → (C.tr k).nothrowMove = true := by
    intro h
    have hk := ho.rep.lt
    rw [moveNoexceptConstructible, List.all_eq_true] at h
    have : C.tr k ∈ C.types := by
      simp only [Cfg.tr, Cfg.n] at hk ⊢
      simp [List.getD, List.getElem?_eq_getElem hk]
    exact h _ this
  have hiav : internalApplyVisitor C y (moveInto C) w = moveCtor C k id w := by
    obtain ⟨h1, h2, h3⟩ := ho
    cases h2 with
    | inPlace _ _ hk =>
      rw [iav_inPlace C _ h1 hk h3]
      show M.noexceptIf _ _ w = _
      simp only [M.noexceptIf, hmv]
      cases hnm : (C.tr k).nothrowMove with
      | true => simp
      | false => cases C.throws w.tick <;> simp
    | inBackup _ _ hk hb => rw [iav_backup C _ h1 hk hb]; rfl
  by_cases ht : (!(C.tr k).nothrowMove && C.throws w.tick) = true
  · have hne : moveNoexceptConstructible C = false := by
      cases hm : moveNoexceptConstructible C with
      | false => rfl
      | true => simp [hall hm] at ht
    simp only [moveConstruct, M.noexceptIf, bind, M.bind, hiav, hmv, ht, if_true, hne, Bool.false_eq_true, if_false]
  · simp only [moveConstruct, M.noexceptIf, bind, M.bind, hiav, hmv, ht, Bool.false_eq_true, if_false, which, getVar, ho.var,
      pure, M.pure, beginVar, M.modify, ho.rep.which, indicateWhich]

theorem copyCtor_run (h : w.objs id = some (k, v)) :
    copyCtor C k id w = if (!(C.tr k).nothrowCopy && C.throws w.tick) = true then
        .exc ⟨.copyCtor k, w.tick⟩ { w with tick := w.tick + 1 }
      else .ok w.next { w with
        tick := w.tick + 1
        objs := upd w.objs w.next (some (k, C.ops.copy k v))
        next := w.next + 1 } := by
  simp only [copyCtor, bind, M.bind, readAs, h, if_true, mayThrow]
  by_cases ht : (!(C.tr k).nothrowCopy && C.throws w.tick) = true
  · simp only [ht, if_true]; rfl
  · simp only [ht, Bool.false_eq_true, if_false]; rfl

theorem copyConstruct_run_owns (ho : Owns C w y s id k v) :
    copyConstruct C x y w =
      if (!(C.tr k).nothrowCopy && C.throws w.tick) = true then
        .exc ⟨.copyCtor k, w.tick⟩ { w with tick := w.tick + 1 }
      else .ok () { w with
        tick := w.tick + 1
        objs := upd w.objs w.next (some (k, C.ops.copy k v))
        next := w.next + 1
        vars := upd w.vars x (some ⟨(k : Int), .obj w.next⟩) } := by
  have hcp := copyCtor_run (C := C) ho.obj
  have hiav : internalApplyVisitor C y (copyInto C) w = copyCtor C k id w := by
    obtain ⟨h1, h2, h3⟩ := ho
    cases h2 with
    | inPlace _ _ hk => rw [iav_inPlace C _ h1 hk h3]; rfl
    | inBackup _ _ hk hb => rw [iav_backup C _ h1 hk hb]; rfl
  by_cases ht : (!(C.tr k).nothrowCopy && C.throws w.tick) = true
  · simp only [copyConstruct, bind, M.bind, hiav, hcp, ht, if_true]
  · simp only [copyConstruct, bind, M.bind, hiav, hcp, ht, Bool.false_eq_true, if_false, which, getVar, ho.var,
      pure, M.pure, beginVar, M.modify, ho.rep.which, indicateWhich]

end

end BVariant
