/-
Effect of assignment of a value.
-/
import Verif.Lemmas.Construct

set_option linter.unusedSimpArgs false

namespace BVariant

section
variable {V : Type} {C : Cfg V} {w w1 w2 : World V}

theorem Create.fresh' {base : ObjId → Option (TyIx × V)} {x : VarId} {s' : VarSt} {id' : ObjId} {k' : TyIx} {v' : V}
    (h : Create C w w1 base x s' id' k' v') (hf : Fresh w) : Fresh w1 := by
  constructor
  · intro i hi
    have := h.idLt; have := h.next
    exact h.gone i (by omega) (by omega)
  · intro i; rw [h.sub]; exact hf.flat i

theorem Replace.fresh' {base : ObjId → Option (TyIx × V)} {l : VarId} {old : ObjId} {s' : VarSt} {id' : ObjId}
    {k' : TyIx} {v' : V} (h : Replace C w w1 base l old s' id' k' v') (hf : Fresh w) : Fresh w1 := by
  constructor
  · intro i hi
    have := h.idLt; have := h.next
    exact h.gone i (by omega) (by omega)
  · intro i; rw [h.sub]; exact hf.flat i

/-- An assignment made through a temporary variant that is then destroyed. -/
theorem Replace.through_tmp {base : ObjId → Option (TyIx × V)} {t l : VarId} {s1 s' : VarSt} {id1 idl id' : ObjId}
    {k1 k' : TyIx} {v1 v' : V} {q : Option (TyIx × V)}
    (hc : Create C w w1 base t s1 id1 k1 v1)
    (hr : Replace C w1 w2 (upd w1.objs id1 q) l idl s' id' k' v')
    (hidl : idl < w.next) (hlt : l ≠ t) (htn : w.vars t = none) :
    Replace C w { w2 with objs := upd w2.objs id1 none, vars := upd w2.vars t none } base l idl s' id' k' v' := by
  obtain ⟨c1, c2, c3, c4, c5, c6, c7, c8, c9, c10⟩ := hc
  obtain ⟨r1, r2, r3, r4, r5, r6, r7, r8, r9, r10⟩ := hr
  have hne : id' ≠ id1 := by omega
  constructor
  · intro y
    simp only [upd]
    grind
  · exact r2
  · simp only [upd]; grind
  · omega
  · exact r5
  · intro i hi hni
    have : i ≠ id1 := by omega
    have e1 := r6 i (by omega) hni
    have e2 := c6 i hi
    simp only [upd, this, if_false] at *
    rw [e1, e2]
  · intro i hi hni
    simp only [upd]
    split
    · rfl
    · rename_i hne1
      by_cases hc : i = idl ∨ w1.next ≤ i
      · exact r7 i hc hni
      · have hio : i ≠ idl := fun h => hc (Or.inl h)
        have e1 := r6 i (by omega) hio
        simp only [upd, hne1, if_false] at e1
        rw [e1]; exact c7 i (by omega) hne1
  · simp only; omega
  · simp only [r9, c9]
  · simp only; omega

/-- A failed assignment made through a temporary variant that is then destroyed. -/
theorem AssignExc0.through_tmp {base : ObjId → Option (TyIx × V)} {t l : VarId} {s1 sl : VarSt} {id1 idl : ObjId}
    {k1 kl kr : TyIx} {v1 vl : V} {q : Option (TyIx × V)} {e : Exc}
    (hc : Create C w w1 base t s1 id1 k1 v1)
    (hr : AssignExc0 C w1 w2 (upd w1.objs id1 q) l sl idl kl vl kr e) (hidl : idl < w.next) (hlt : l ≠ t) (htn : w.vars t = none) :
    AssignExc0 C w { w2 with objs := upd w2.objs id1 none, vars := upd w2.vars t none } base l sl idl kl vl kr e := by
  have hc' := hc
  obtain ⟨c1, c2, c3, c4, c5, c6, c7, c8, c9, c10⟩ := hc
  obtain ⟨r1, r2, r3, r4, r5, r6⟩ := hr
  refine ⟨⟨by have := r1.1; omega, r1.2⟩, ?_, ?_, by simp only; omega, by simp only [r5, c9], ?_⟩
  · intro y hy
    simp only [upd]
    split
    · rename_i h; rw [h, htn]
    · rename_i h; rw [r2 y hy, c1]; simp [h]
  · intro i hi hne
    have h1 : i ≠ id1 := by omega
    simp only [upd_ne _ _ h1]
    rw [r3 i (by omega) hne, upd_ne _ _ h1, c6 i hi]
  · rcases r6 with ⟨s, h1, h2⟩ | ⟨s', id', k', v', h, hlo⟩
    · exact .inl ⟨s, by simp only [upd_ne _ _ hlt]; exact h1, h2⟩
    · exact .inr ⟨s', id', k', v', h.through_tmp hc' hidl hlt htn, hlo⟩

/-- The operand is not the held object itself. -/
def Src.apart (idl : ObjId) : Src V → Prop
  | .lref _ _ _ => True
  | .rref _ id _ => id ≠ idl
  | .conv _ _ => True

/-- The held type is exactly the operand's type. -/
def Src.holds (kl : TyIx) : Src V → Prop
  | .lref k _ foreign => foreign = false ∧ kl = k
  | .rref k _ foreign => foreign = false ∧ kl = k
  | .conv _ _ => False

/-- The value after direct assignment to a held object of the operand's type. -/
def Src.assigned (C : Cfg V) (vl : V) : Src V → (ObjId → Option (TyIx × V)) → Option V
  | .lref k id _, o => (o id).map fun p => C.ops.assign k vl p.2
  | .rref k id _, o => (o id).map fun p => C.ops.moveAssign k vl p.2
  | .conv _ _, _ => none

/-- What direct assignment leaves of the operand. -/
def Src.afterAssigned (C : Cfg V) (vl : V) : Src V → (ObjId → Option (TyIx × V)) → (ObjId → Option (TyIx × V))
  | .rref k id _, o => upd o id ((o id).map fun p => (k, C.ops.moveAssignSrc k vl p.2))
  | _, o => o

@[inherit_doc Src.assigned]
def Src.assignedExc (C : Cfg V) (vl : V) : Src V → (ObjId → Option (TyIx × V)) → Option V
  | .lref k id _, o => (o id).map fun p => C.ops.assignFail k vl p.2
  | .rref k id _, o => (o id).map fun p => C.ops.moveAssignFail k vl p.2
  | .conv _ _, _ => none

@[inherit_doc Src.afterAssigned]
def Src.afterAssignedExc (C : Cfg V) (vl : V) : Src V → (ObjId → Option (TyIx × V)) → (ObjId → Option (TyIx × V))
  | .rref k id _, o => upd o id ((o id).map fun p => (k, C.ops.moveAssignFailSrc k vl p.2))
  | _, o => o

/-- What a failing direct assignment throws. -/
def Src.assignKind : Src V → ExcKind → Prop
  | .lref k _ _, e => e = .copyAssign k
  | .rref k _ _, e => e = .moveAssign k
  | .conv _ _, _ => False

/-- Everything `x = t` can do. -/
inductive ValueAssignOk (C : Cfg V) (w w' : World V) (l : VarId) (sl : VarSt) (idl : ObjId) (kl : TyIx) (vl : V)
    (src : Src V) : Prop
  /-- the held object has the operand's type and is assigned to -/
  | direct (v' : V) (hh : src.holds kl) (hv : src.assigned C vl w.objs = some v')
      (hr : Replace C w w' (src.afterAssigned C vl w.objs) l idl sl idl kl v') (ha : w'.allocs = w.allocs)
  /-- a temporary of the chosen type is made and move-assigned to the held object, which has that type -/
  | sameType (v' : V) (hh : ¬ src.holds kl) (hk : sl.which_ = (src.ty : Int))
      (hv : src.result C w.objs = some v')
      (hr : Replace C w w' (src.after C w.objs) l idl sl idl kl (C.ops.moveAssign kl vl v'))
      (ha : w'.allocs = w.allocs)
  /-- a temporary of the chosen type is made and becomes the new content -/
  | newType (v' : V) (hh : ¬ src.holds kl) (hk : sl.which_ ≠ (src.ty : Int))
      (hv : src.result C w.objs = some v')
      (hr : AssignOk C w w' (src.after C w.objs) l idl src.ty (moveAssignVal C src.ty v'))
      (ha : Sane C → AllocBound C w w' kl src.ty)

@[inherit_doc ValueAssignOk]
inductive ValueAssignExc (C : Cfg V) (w w' : World V) (l : VarId) (sl : VarSt) (idl : ObjId) (kl : TyIx) (vl : V)
    (src : Src V) (e : Exc) : Prop
  | direct (v' : V) (hh : src.holds kl) (hk : src.assignKind e.kind)
      (hv : src.assignedExc C vl w.objs = some v')
      (hr : Replace C w w' (src.afterAssignedExc C vl w.objs) l idl sl idl kl v') (ha : w'.allocs = w.allocs)
  /-- constructing the temporary failed -/
  | convert (hh : ¬ src.holds kl) (hk : src.excKind e.kind)
      (hr : Replace C w w' (src.afterExc C w.objs) l idl sl idl kl vl) (ha : w'.allocs = w.allocs)
  | sameType (v' : V) (hh : ¬ src.holds kl) (hw : sl.which_ = (src.ty : Int)) (hk : e.kind = .moveAssign kl)
      (hv : src.result C w.objs = some v')
      (hr : Replace C w w' (src.after C w.objs) l idl sl idl kl (C.ops.moveAssignFail kl vl v'))
      (ha : w'.allocs = w.allocs)
  | newType (hh : ¬ src.holds kl) (hw : sl.which_ ≠ (src.ty : Int))
      (hk : MoveKind C kl src.ty e.kind ∧ (kl = src.ty → e.kind = .copyCtor kl))
      (h0 : AssignExc0 C w w' (src.after C w.objs) l sl idl kl vl src.ty e)
      (hr : Sane C → AssignExc C w w' (src.after C w.objs) l sl idl kl vl src.ty e)
      (ha : Sane C → AllocBound C w w' kl src.ty)

variable {l : VarId} {sl : VarSt} {idl : ObjId} {kl : TyIx} {vl : V}

/-- The direct part of value assignment. -/
theorem wp_directAssign (src : Src V) (hl : Owns C w l sl idl kl vl) (hf : Fresh w) (hlive : src.live w)
    (hap : src.apart idl) :
    wp (directAssign C l src)
      (fun b w' => (b = true ∧ ValueAssignOk C w w' l sl idl kl vl src) ∨ (b = false ∧ ¬ src.holds kl ∧ w' = w))
      (fun e w' => Thrown C w w' e ∧ ValueAssignExc C w w' l sl idl kl vl src e) w := by
  have hlt1 := hf.lt hl.obj
  have hfr := hf.fresh
  simp only [directAssign]
  rw [wp_applyVisitor C hl.var hl.rep hl.obj]
  obtain ⟨hx, hr, ho⟩ := hl
  cases src with
  | lref k r f =>
    obtain ⟨vr, hor⟩ := hlive
    have hlt2 := hf.lt hor
    by_cases hk : f = false ∧ kl = k
    · obtain ⟨rfl, rfl⟩ := hk
      simp only [and_self, if_true, wp_bind]
      rw [wpx_assignObj C kl ho hor]
      split
      · rename_i hth
        refine ⟨⟨by simp, by simp, hth⟩, .direct (C.ops.assignFail kl vl vr) ⟨rfl, rfl⟩ rfl
          (by simp [Src.assignedExc, hor]) ?_ rfl⟩
        simp only [Src.afterAssignedExc]
        frame_tac
      · refine Or.inl ⟨rfl, .direct (C.ops.assign kl vl vr) ⟨rfl, rfl⟩ (by simp [Src.assigned, hor]) ?_ rfl⟩
        simp only [Src.afterAssigned]
        frame_tac
    · simp only [hk, if_false, wp_pure]
      exact Or.inr ⟨by trivial, hk, by trivial⟩
  | rref k r f =>
    obtain ⟨vr, hor⟩ := hlive
    have hlt2 := hf.lt hor
    have hne : idl ≠ r := fun h => hap h.symm
    by_cases hk : f = false ∧ kl = k
    · obtain ⟨rfl, rfl⟩ := hk
      simp only [and_self, if_true, wp_bind]
      rw [wpx_moveAssignObj C kl hne ho hor]
      split
      · rename_i hth
        refine ⟨⟨by simp, by simp, hth.2⟩, .direct (C.ops.moveAssignFail kl vl vr) ⟨rfl, rfl⟩ rfl
          (by simp [Src.assignedExc, hor]) ?_ rfl⟩
        simp only [Src.afterAssignedExc, hor, Option.map]
        frame_tac
      · refine Or.inl ⟨rfl, .direct (C.ops.moveAssign kl vl vr) ⟨rfl, rfl⟩ (by simp [Src.assigned, hor]) ?_ rfl⟩
        simp only [Src.afterAssigned, hor, Option.map]
        frame_tac
    · simp only [hk, if_false, wp_pure]
      exact Or.inr ⟨by trivial, hk, by trivial⟩
  | conv k v =>
    simp only [wp_pure]
    exact Or.inr ⟨by trivial, id, by trivial⟩

/-- Value assignment. -/
theorem wp_assignValue (hb : BlankOk C) (src : Src V) (hl : Owns C w l sl idl kl vl) (hf : Fresh w)
    (hlive : src.live w) (hap : src.apart idl) (hk : src.ty < C.n) (hlt : l ≠ .tmp 0)
    (htn : w.vars (.tmp 0) = none) :
    wp (assignValue C l src) (fun _ w' => ValueAssignOk C w w' l sl idl kl vl src)
      (fun e w' => Thrown C w w' e ∧ ValueAssignExc C w w' l sl idl kl vl src e) w := by
  have hlt1 := hf.lt hl.obj
  have hfr := hf.fresh
  simp only [assignValue, wp_bind]
  refine wp_mono (wp_directAssign src hl hf hlive hap) ?_ (fun _ _ h => h)
  rintro b w0 (⟨rfl, h⟩ | ⟨rfl, hh, rfl⟩)
  · simp only [if_true, wp_pure]; exact h
  simp only [Bool.false_eq_true, if_false, wp_bind]
  refine wp_mono (wp_convertConstruct src hlive hk hf) ?_ ?_
  · rintro _ w1 ⟨id1, v1, hid1, hv1, hc, ha1, ht1⟩
    rw [wp_withLocal]
    have hf1 := hc.fresh' hf
    have hidne : id1 ≠ idl := by omega
    -- the content of `l` is not the operand
    have hbase : src.after C w0.objs idl = some (kl, vl) := by
      cases src with
      | lref k r f => exact hl.obj
      | conv k v => exact hl.obj
      | rref k r f =>
        have : idl ≠ r := fun h => hap h.symm
        simp only [Src.after, upd_ne _ _ this]; exact hl.obj
    have hl1 : Owns C w1 l sl idl kl vl :=
      ⟨by rw [hc.vars]; simp [hlt, hl.var], hl.rep, by rw [hc.keep idl hlt1, hbase]⟩
    have ht1' : Owns C w1 (.tmp 0) ⟨(src.ty : Int), .obj id1⟩ id1 src.ty v1 :=
      ⟨by rw [hc.vars]; simp, hc.rep, hc.obj⟩
    have fin : ∀ {w2 : World V} {s' : VarSt} {id' : ObjId} {k' : TyIx} {v' q : V} {Q : Unit → World V → Prop}
        {E : Exc → World V → Prop},
        Replace C w1 w2 (upd w1.objs id1 (some (src.ty, q))) l idl s' id' k' v' →
        (Replace C w0 { w2 with objs := upd w2.objs id1 none, vars := upd w2.vars (.tmp 0) none }
          (src.after C w0.objs) l idl s' id' k' v' →
          Q () { w2 with objs := upd w2.objs id1 none, vars := upd w2.vars (.tmp 0) none }) →
        wp (destroyVar C (.tmp 0)) Q E w2 := by
      intro w2 s' id' k' v' q Q E hr hq
      refine wp_destroyVar_intro (s := ⟨(src.ty : Int), .obj id1⟩) (k := src.ty) (v := q) ⟨?_, hc.rep, ?_⟩ ?_ ?_
      · rw [hr.vars, hc.vars]; simp [hlt.symm]
      · rw [hr.keep id1 hc.idLt hidne]; simp
      · rw [hr.sub, hc.sub]; exact hf.flat
      · exact hq (Replace.through_tmp hc hr hlt1 hlt htn)
    have hbk : wp (variantMoveAssign C l (.tmp 0)) (fun _ _ => True)
        (fun e _ => sl.which_ ≠ (src.ty : Int) → kl = src.ty → e.kind = .copyCtor kl) w1 := by
      by_cases h : sl.which_ ≠ (src.ty : Int) ∧ kl = src.ty
      · obtain ⟨hw, hkk⟩ := h
        subst hkk
        exact wp_mono (wp_variantMoveAssign_backed hl1 ht1' hf1 hw) (fun _ _ _ => trivial) (fun _ _ h _ _ => h)
      · exact wp_mono (wp_variantMoveAssign_gen hb hl1 ht1' (Or.inr ⟨hlt, fun h => hidne h.symm⟩) hf1 (Or.inr (by simp)))
          (fun _ _ _ => trivial) (fun _ _ _ h1 h2 => absurd ⟨h1, h2⟩ h)
    refine wp_mono (wp_and (wp_variantMoveAssign_gen hb hl1 ht1' (Or.inr ⟨hlt, fun h => hidne h.symm⟩) hf1
      (Or.inr (by simp))) hbk) ?_ ?_
    · rintro _ w2 ⟨⟨⟨h, _⟩ | ⟨_, hw, hkk, hr, ha⟩ | ⟨_, hw, ⟨id', hid', hr⟩⟩, hsane⟩, -⟩
      · exact absurd h hlt
      · refine fin hr fun hr' => .sameType v1 hh hw hv1 hr' ?_
        simp only [ha, ha1]
      · refine fin hr fun hr' => .newType v1 hh hw hv1 ⟨id', ?_, hr'⟩ ?_
        · have := hc.next; omega
        · intro hs
          rcases hsane hs with ⟨h, _⟩ | ⟨_, h, _⟩ | ⟨_, _, _, ha⟩
          · exact absurd h hlt
          · exact absurd h hw
          · simp only [AllocBound, ha1] at ha; exact ha
    · rintro e w2 ⟨⟨⟨h, _⟩ | ⟨_, hw, hkk, hek, _, hth, hr, ha⟩ | ⟨_, hw, hek, h0⟩, hsane⟩, hback⟩
      · exact absurd h hlt
      · refine fin hr fun hr' => ⟨⟨?_, hth.2⟩, .sameType v1 hh hw hek hv1 hr' ?_⟩
        · have := hth.1; omega
        · simp only [ha, ha1]
      · have hth' : ∀ o v, Thrown C w0 { w2 with objs := o, vars := v } e :=
          fun _ _ => ⟨by have := h0.thrown.1; omega, h0.thrown.2⟩
        have hown : Owns C w2 (.tmp 0) ⟨(src.ty : Int), .obj id1⟩ id1 src.ty _ :=
          ⟨by rw [h0.vars _ hlt.symm]; exact ht1'.var, hc.rep, by rw [h0.keep id1 hc.idLt hidne]; exact upd_same _ _ _⟩
        refine wp_destroyVar_intro hown (by rw [h0.sub]; exact hf1.flat) ?_
        refine ⟨hth' _ _, .newType hh hw ⟨hek.kind, hback hw⟩ (h0.through_tmp hc hlt1 hlt htn) ?_ ?_⟩
        all_goals
          intro hs
          rcases hsane hs with ⟨h, _⟩ | ⟨_, h, _⟩ | ⟨_, _, _, ⟨hth, s', id', k', v', hr, hlo⟩, ha⟩
          · exact absurd h hlt
          · exact absurd h hw
        · exact ⟨hth' _ _, s', id', k', v', Replace.through_tmp hc hr hlt1 hlt htn, hlo⟩
        · simp only [AllocBound, ha1] at ha; exact ha
  · rintro e w1 ⟨hek, hth, hv, hsub, ha, hnx, hob⟩
    refine ⟨hth, .convert hh hek ?_ ha⟩
    have hbase : src.afterExc C w0.objs idl = some (kl, vl) := by
      cases src with
      | lref k r f => exact hl.obj
      | conv k v => exact hl.obj
      | rref k r f =>
        have : idl ≠ r := fun h => hap h.symm
        simp only [Src.afterExc, upd_ne _ _ this]; exact hl.obj
    have hnone : ∀ i, w0.next ≤ i → src.afterExc C w0.objs i = none := by
      intro i hi
      cases src with
      | lref k r f => exact hfr i hi
      | conv k v => exact hfr i hi
      | rref k r f =>
        obtain ⟨vr, hor⟩ := hlive
        have := hf.lt hor
        have hir : i ≠ r := by omega
        simp only [Src.afterExc, upd_ne _ _ hir]; exact hfr i hi
    constructor
    · intro y; rw [hv]; split
      · rename_i h; rw [h]; exact hl.var
      · rfl
    · exact hl.rep
    · rw [hob, hbase]
    · exact Or.inl rfl
    · omega
    · intro i hi _; exact hob i
    · intro i hi hni; rw [hob]; exact hnone i (hi.resolve_left hni)
    · exact hnx
    · exact hsub
    · have := hth.1; have := hth.2.1; omega

end

end BVariant
