/-
Effect of constructors and of the destructor.
-/
import Verif.Lemmas.Backed

set_option linter.unusedSimpArgs false

namespace BVariant

section
variable {V : Type} {C : Cfg V} {w : World V} {x y : VarId} {s : VarSt} {id : ObjId} {k : TyIx} {v : V}

/-- Visiting the content for copying or moving is the same in place and in a backup. -/
theorem wp_iav_copyInto {Q : ObjId → World V → Prop} {E : Exc → World V → Prop} (h : Owns C w y s id k v) :
    wp (internalApplyVisitor C y (copyInto C)) Q E w = wp (copyCtor C k id) Q E w := by
  obtain ⟨hx, hr, ho⟩ := h
  cases hr with
  | inPlace _ _ hk => rw [wp_iav_inPlace C hx hk ho]; rfl
  | inBackup _ _ hk hb => rw [wp_iav_backup C hx hk hb]; rfl

theorem wp_iav_moveInto {Q : ObjId → World V → Prop} {E : Exc → World V → Prop} (h : Owns C w y s id k v) :
    wp (internalApplyVisitor C y (moveInto C)) Q E w = wp (moveCtor C k id) Q E w := by
  obtain ⟨hx, hr, ho⟩ := h
  cases hr with
  | inPlace _ _ hk =>
    rw [wp_iav_inPlace C hx hk ho]
    simp only [moveInto, wp_noexceptIf, wpx_moveCtor, ho, if_true]
    cases hm : (C.tr k).nothrowMove <;> simp
  | inBackup _ _ hk hb => rw [wp_iav_backup C hx hk hb]; rfl

/-- Effect of the copy constructor. -/
theorem wp_copyConstruct (h : Owns C w y s id k v) (hf : Fresh w) :
    wp (copyConstruct C x y)
      (fun _ w' => Create C w w' w.objs x ⟨(k : Int), .obj w.next⟩ w.next k (C.ops.copy k v) ∧
        w'.allocs = w.allocs)
      (fun e w' => e.kind = .copyCtor k ∧ (C.tr k).nothrowCopy = false ∧ Thrown C w w' e ∧
        w' = { w with tick := w.tick + 1 }) w := by
  have hlt := hf.lt h.obj
  have hfr := hf.fresh
  simp only [copyConstruct, wp_bind, wp_iav_copyInto h]
  simp only [wpx_copyCtor, h.obj, if_true, wpx_which, h.var, Rep.which C h.rep, wp_beginVar, indicateWhich]
  have hk := Rep.lt C h.rep
  split
  · rename_i hth
    exact ⟨by trivial, hth.1, ⟨by simp, by simp, hth.2⟩, by trivial⟩
  · refine ⟨?_, by trivial⟩
    frame_tac

/-- Effect of the move constructor. -/
theorem wp_moveConstruct (h : Owns C w y s id k v) (hf : Fresh w) :
    wp (moveConstruct C x y)
      (fun _ w' => Create C w w' (upd w.objs id (some (k, C.ops.movedFrom k v))) x ⟨(k : Int), .obj w.next⟩
        w.next k (C.ops.move k v) ∧ w'.allocs = w.allocs)
      (fun e w' => e.kind = .moveCtor k ∧ (C.tr k).nothrowMove = false ∧ Thrown C w w' e ∧
        moveNoexceptConstructible C = false ∧
        w' = { w with tick := w.tick + 1, objs := upd w.objs id (some (k, C.ops.moveFailSrc k v)) }) w := by
  have hlt := hf.lt h.obj
  have hfr := hf.fresh
  have hk := Rep.lt C h.rep
  simp only [moveConstruct, wp_noexceptIf, wp_bind, wp_iav_moveInto h]
  simp only [wpx_moveCtor, h.obj, if_true, wpx_which, h.var, Rep.which C h.rep, wp_beginVar, indicateWhich]
  split
  · rename_i hth
    have hb : moveNoexceptConstructible C = false := by
      cases hb : moveNoexceptConstructible C with
      | false => rfl
      | true => have := tr_of_all hb hk; simp [hth.1] at this
    exact ⟨hb, by trivial, hth.1, ⟨by simp, by simp, hth.2⟩, hb, by trivial⟩
  · refine ⟨?_, by trivial⟩
    frame_tac

/-- Effect of the default constructor. -/
theorem wp_defaultConstruct (hf : Fresh w) (hn : 0 < C.n) :
    wp (defaultConstruct C x)
      (fun _ w' => Create C w w' w.objs x ⟨0, .obj w.next⟩ w.next 0 (C.ops.valueInit 0) ∧ w'.allocs = w.allocs)
      (fun e w' => e.kind = .defaultCtor 0 ∧ (C.tr 0).nothrowDefault = false ∧ Thrown C w w' e ∧
        w' = { w with tick := w.tick + 1 }) w := by
  have hfr := hf.fresh
  simp only [defaultConstruct, wp_noexceptIf, wp_bind, wp_valueCtor, wp_beginVar, indicateWhich]
  split
  · rename_i hth
    exact ⟨hth.1, by trivial, hth.1, ⟨by simp, by simp, hth.2⟩, by trivial⟩
  · refine ⟨?_, by trivial⟩
    have hrep : Rep C ⟨0, .obj w.next⟩ w.next 0 := Rep.inPlace w.next 0 hn
    frame_tac

/-- Effect of the destructor. -/
theorem wp_destroyVar {Q : Unit → World V → Prop} {E : Exc → World V → Prop} (h : Owns C w x s id k v)
    (hf : ∀ i, w.sub i = []) :
    wp (destroyVar C x) Q E w =
      Q () { w with objs := upd w.objs id none, vars := upd w.vars x none } := by
  simp only [destroyVar, wp_bind]
  rw [wp_destroyContent h hf]
  simp only [wp_modify, upd_upd_same]

theorem wp_destroyVar_intro {Q : Unit → World V → Prop} {E : Exc → World V → Prop} (h : Owns C w x s id k v)
    (hf : ∀ i, w.sub i = [])
    (hq : Q () { w with objs := upd w.objs id none, vars := upd w.vars x none }) :
    wp (destroyVar C x) Q E w := by
  rw [wp_destroyVar h hf]; exact hq

/-- The value converting construction gives, and what it leaves of its operand. -/
def Src.result (C : Cfg V) : Src V → (ObjId → Option (TyIx × V)) → Option V
  | .lref k id _, o => (o id).map fun p => C.ops.copy k p.2
  | .rref k id _, o => (o id).map fun p => C.ops.move k p.2
  | .conv k v, _ => some (C.ops.move k v)

/-- What converting construction leaves of its operand. -/
def Src.after (C : Cfg V) : Src V → (ObjId → Option (TyIx × V)) → (ObjId → Option (TyIx × V))
  | .rref k id _, o => upd o id ((o id).map fun p => (k, C.ops.movedFrom k p.2))
  | _, o => o

/-- What failing converting construction leaves of its operand. -/
def Src.afterExc (C : Cfg V) : Src V → (ObjId → Option (TyIx × V)) → (ObjId → Option (TyIx × V))
  | .rref k id _, o => upd o id ((o id).map fun p => (k, C.ops.moveFailSrc k p.2))
  | _, o => o

/-- The operand is a live object of the bounded type. -/
def Src.live (w : World V) : Src V → Prop
  | .lref k id _ => ∃ v, w.objs id = some (k, v)
  | .rref k id _ => ∃ v, w.objs id = some (k, v)
  | .conv _ _ => True

/-- What may be thrown when the new content is constructed from the operand. -/
def Src.excKind : Src V → ExcKind → Prop
  | .lref k _ _, e => e = .copyCtor k
  | .rref k _ _, e => e = .moveCtor k
  | .conv k _, e => e = .convert k ∨ e = .moveCtor k

/-- Effect of converting construction. -/
theorem wp_convertConstruct (src : Src V) (hlive : src.live w) (hk : src.ty < C.n) (hf : Fresh w) :
    wp (convertConstruct C x src)
      (fun _ w' => ∃ id' v', w.next ≤ id' ∧ src.result C w.objs = some v' ∧
        Create C w w' (src.after C w.objs) x ⟨(src.ty : Int), .obj id'⟩ id' src.ty v' ∧ w'.allocs = w.allocs ∧
        w.tick ≤ w'.tick)
      (fun e w' => src.excKind e.kind ∧ Thrown C w w' e ∧ w'.vars = w.vars ∧ w'.sub = w.sub ∧
        w'.allocs = w.allocs ∧ w.next ≤ w'.next ∧ ∀ i, w'.objs i = src.afterExc C w.objs i) w := by
  have hfr := hf.fresh
  have hfl := hf.flat
  cases src with
  | lref ty id f =>
    obtain ⟨v, ho⟩ := hlive
    have hlt := hf.lt ho
    simp only [Src.ty] at hk
    simp only [convertConstruct, initializeFrom, wp_bind, wpx_copyCtor, ho, if_true, wp_pure, wp_beginVar, indicateWhich]
    split
    · rename_i hth
      exact ⟨by trivial, ⟨by simp, by simp, hth.2⟩, by trivial, by trivial, by trivial, by simp, by simp [Src.afterExc]⟩
    · refine ⟨w.next, C.ops.copy ty v, by simp, by simp [Src.result, ho], ?_, by trivial, by simp⟩
      simp only [Src.after, Src.ty]
      frame_tac
  | rref ty id f =>
    obtain ⟨v, ho⟩ := hlive
    have hlt := hf.lt ho
    simp only [Src.ty] at hk
    simp only [convertConstruct, initializeFrom, wp_bind, wpx_moveCtor, ho, if_true, wp_pure, wp_beginVar, indicateWhich]
    split
    · rename_i hth
      refine ⟨by trivial, ⟨by simp, by simp, hth.2⟩, by trivial, by trivial, by trivial, by simp, ?_⟩
      simp [Src.afterExc, ho]
    · refine ⟨w.next, C.ops.move ty v, by simp, by simp [Src.result, ho], ?_, by trivial, by simp⟩
      simp only [Src.after, Src.ty, ho, Option.map]
      frame_tac
  | conv ty v =>
    simp only [Src.ty] at hk
    have n5 : w.next ≠ w.next + 1 := by omega
    simp only [convertConstruct, initializeFrom, wp_bind, wp_mayThrow, wp_newObj, wp_withLocal, wpx_moveCtor,
      upd_same, if_true, wpx_destroyObj, hfl, implies_true, upd_upd_same, upd_ne _ _ n5, wp_pure, wp_beginVar,
      indicateWhich, id]
    split
    · rename_i hth
      exact ⟨Or.inl (by trivial), ⟨by simp, by simp, hth.2⟩, by trivial, by trivial, by trivial, by simp,
        by simp [Src.afterExc]⟩
    split
    · rename_i hth
      refine ⟨Or.inr (by trivial), ⟨by simp, by simp, hth.2⟩, by trivial, by trivial, by trivial, by simp, ?_⟩
      intro i
      simp only [Src.afterExc, upd]
      split
      · rename_i hi; rw [hi, hfr _ (Nat.le_refl _)]
      · rfl
    · refine ⟨w.next + 1, C.ops.move ty v, by omega, by simp [Src.result], ?_, by trivial, by omega⟩
      simp only [Src.after, Src.ty]
      frame_tac

end

end BVariant
