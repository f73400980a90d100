/-
Effect of statements that construct a variant from, or assign to it, a reference into the content of a variant.
-/
import Verif.Lemmas.ValueCmd

set_option linter.unusedSimpArgs false

namespace BVariant

section
variable {V : Type} {C : Cfg V} {w w' : World V}

/-- The objects when object `iy` of type `ky`, if it was moved from, has the value `m`. -/
def getBase (rv : Bool) (o : ObjId → Option (TyIx × V)) (iy : ObjId) (ky : TyIx) (m : V) : ObjId → Option (TyIx × V) :=
  if rv then upd o iy (some (ky, m)) else o

/-- Everything `x = get<T>(y)` that returns can do. -/
inductive GetOk (C : Cfg V) (w w' : World V) (rv : Bool) (l r : VarId) (sl : VarSt) (idl : ObjId) (kl : TyIx) (vl : V)
    (idr : ObjId) (kr : TyIx) (vr : V) : Prop
  /-- the content is move-assigned to itself -/
  | self (he : l = r) (hrv : rv = true) (hr : Replace C w w' w.objs l idl sl idl kl (C.ops.selfMove kl vl))
      (ha : w'.allocs = w.allocs)
  | direct (hk : kl = kr) (hn : rv = true → l ≠ r)
      (hr : Replace C w w' (getBase rv w.objs idr kr (C.ops.moveAssignSrc kr vl vr)) l idl sl idl kl
        (if rv then C.ops.moveAssign kr vl vr else C.ops.assign kr vl vr))
      (ha : w'.allocs = w.allocs)
  | newType (hk : kl ≠ kr) (hn : l ≠ r)
      (hr : AssignOk C w w' (getBase rv w.objs idr kr (C.ops.movedFrom kr vr)) l idl kr
        (moveAssignVal C kr (if rv then C.ops.move kr vr else C.ops.copy kr vr)))
      (ha : Sane C → AllocBound C w w' kl kr)

/-- Everything `x = get<T>(y)` that throws can do. -/
inductive GetExc (C : Cfg V) (w w' : World V) (rv : Bool) (l r : VarId) (sl : VarSt) (idl : ObjId) (kl : TyIx) (vl : V)
    (idr : ObjId) (kr : TyIx) (vr : V) (e : Exc) : Prop
  | self (he : l = r) (hrv : rv = true) (hek : e.kind = .moveAssign kl)
      (hr : Replace C w w' w.objs l idl sl idl kl (C.ops.selfMoveFail kl vl)) (ha : w'.allocs = w.allocs)
  | direct (hk : kl = kr) (hn : rv = true → l ≠ r) (hek : e.kind = if rv then .moveAssign kr else .copyAssign kr)
      (hr : Replace C w w' (getBase rv w.objs idr kr (C.ops.moveAssignFailSrc kr vl vr)) l idl sl idl kl
        (if rv then C.ops.moveAssignFail kr vl vr else C.ops.assignFail kr vl vr))
      (ha : w'.allocs = w.allocs)
  | convert (hk : kl ≠ kr) (hn : l ≠ r) (hek : e.kind = if rv then .moveCtor kr else .copyCtor kr)
      (hr : Replace C w w' (getBase rv w.objs idr kr (C.ops.moveFailSrc kr vr)) l idl sl idl kl vl)
      (ha : w'.allocs = w.allocs)
  | newType (hk : kl ≠ kr) (hn : l ≠ r)
      (hek : MoveKind C kl kr e.kind)
      (h0 : AssignExc0 C w w' (getBase rv w.objs idr kr (C.ops.movedFrom kr vr)) l sl idl kl vl kr e)
      (hr : Sane C → AssignExc C w w' (getBase rv w.objs idr kr (C.ops.movedFrom kr vr)) l sl idl kl vl kr e)
      (ha : Sane C → AllocBound C w w' kl kr)

variable {l r : VarId} {sl sr : VarSt} {idl idr : ObjId} {kl kr : TyIx} {vl vr : V}

theorem which_ne_of_ty (h : Rep C sl idl kl) (hk : kl ≠ kr) : sl.which_ ≠ (kr : Int) := by
  cases h with
  | inPlace => intro he; exact hk (Int.ofNat.inj he)
  | inBackup => intro he; simp at he; omega

/-- Assignment of a reference into the content of a variant. -/
theorem wp_assignGet (hb : BlankOk C) (rv : Bool) (hl : Owns C w l sl idl kl vl) (hr : Owns C w r sr idr kr vr)
    (hd : Distinct l r idl idr) (hf : Fresh w) (hlt : l ≠ .tmp 0) (htn : w.vars (.tmp 0) = none) :
    wp (applyVisitor C r fun k id => assignValue C l (refSrc rv k id))
      (fun _ w' => GetOk C w w' rv l r sl idl kl vl idr kr vr)
      (fun e w' => Thrown C w w' e ∧ GetExc C w w' rv l r sl idl kl vl idr kr vr e) w := by
  rw [wp_applyVisitor C hr.var hr.rep hr.obj]
  have hk := Rep.lt C hr.rep
  by_cases hself : l = r ∧ rv = true
  · obtain ⟨rfl, rfl⟩ := hself
    have h1 : idl = idr := by
      have h1 := hl.rep.contentId; have h2 := hr.rep.contentId
      have h3 := hl.var; rw [hr.var] at h3; cases h3
      rw [h1] at h2; cases h2; rfl
    subst h1
    have h2 := hl.obj; rw [hr.obj] at h2; cases h2
    have hlt1 := hf.lt hl.obj
    have hfr := hf.fresh
    simp only [refSrc, if_true, assignValue, wp_bind, directAssign]
    rw [wp_applyVisitor C hl.var hl.rep hl.obj]
    obtain ⟨hx, hrp, ho⟩ := hl
    simp only [and_self, if_true, wp_bind]
    rw [wpx_moveAssignObj_self C kl ho]
    split
    · rename_i hth
      refine ⟨⟨by simp, by simp, hth.2⟩, .self rfl rfl rfl ?_ rfl⟩
      constructor <;> first | grind [upd] | exact hrp | assumption
    · simp only [wp_pure, if_true]
      refine .self rfl rfl ?_ rfl
      constructor <;> first | grind [upd] | exact hrp | assumption
  · have hap : (refSrc (V := V) rv kr idr).apart idl := by
      cases rv with
      | false => trivial
      | true =>
        rcases hd with ⟨he, _⟩ | ⟨_, hne⟩
        · exact absurd ⟨he, rfl⟩ hself
        · exact fun he => hne he.symm
    have hn : rv = true → l ≠ r := fun h1 h2 => hself ⟨h2, h1⟩
    have hn2 : kl ≠ kr → l ≠ r := by
      rintro hne rfl
      have h3 := hl.content; rw [hr.content] at h3; cases h3; exact hne rfl
    have hlive : (refSrc (V := V) rv kr idr).live w := by cases rv <;> exact ⟨_, hr.obj⟩
    have hty : (refSrc (V := V) rv kr idr).ty = kr := by cases rv <;> rfl
    have hho : (refSrc (V := V) rv kr idr).holds kl ↔ kl = kr := by cases rv <;> simp [refSrc, Src.holds]
    refine wp_mono (wp_assignValue hb (refSrc rv kr idr) hl hf hlive hap (by rw [hty]; exact hk) hlt htn) ?_ ?_
    · intro _ w' h
      cases h with
      | direct v' hh hv hr' ha =>
        rw [hho] at hh
        cases rv <;> simp only [refSrc, Bool.false_eq_true, if_true, if_false, Src.assigned, Src.afterAssigned, hr.obj,
          Option.map_some, Option.some.injEq] at hv hr' <;> subst hv <;>
        · refine .direct hh hn ?_ ha
          simpa only [getBase, Bool.false_eq_true, if_true, if_false] using hr'
      | sameType v' hh hw =>
        rw [hho] at hh; rw [hty] at hw; exact absurd hw (which_ne_of_ty hl.rep hh)
      | newType v' hh hw hv hr' ha =>
        rw [hho] at hh; rw [hty] at ha hr'
        cases rv <;> simp only [refSrc, Bool.false_eq_true, if_true, if_false, Src.result, Src.after, hr.obj,
          Option.map_some, Option.some.injEq] at hv hr' <;> subst hv <;>
        · refine .newType hh (hn2 hh) ?_ ha
          simpa only [getBase, Bool.false_eq_true, if_true, if_false] using hr'
    · rintro e w' ⟨hth, h⟩
      refine ⟨hth, ?_⟩
      cases h with
      | direct v' hh hk' hv hr' ha =>
        rw [hho] at hh
        cases rv <;> simp only [refSrc, Bool.false_eq_true, if_true, if_false, Src.assignedExc, Src.afterAssignedExc,
          Src.assignKind, hr.obj, Option.map_some, Option.some.injEq] at hk' hv hr' <;> subst hv <;>
        · refine .direct hh hn (by simpa using hk') ?_ ha
          simpa only [getBase, Bool.false_eq_true, if_true, if_false] using hr'
      | convert hh hk' hr' ha =>
        rw [hho] at hh
        cases rv <;> simp only [refSrc, Bool.false_eq_true, if_true, if_false, Src.afterExc, Src.excKind, hr.obj,
          Option.map_some] at hk' hr' <;>
        · refine .convert hh (hn2 hh) (by simpa using hk') ?_ ha
          simpa only [getBase, Bool.false_eq_true, if_true, if_false] using hr'
      | sameType v' hh hw =>
        rw [hho] at hh; rw [hty] at hw; exact absurd hw (which_ne_of_ty hl.rep hh)
      | newType hh hw hk' h0 hr' ha =>
        rw [hho] at hh; rw [hty] at ha h0 hr' hk'
        cases rv <;> simp only [refSrc, Bool.false_eq_true, if_true, if_false, Src.after, hr.obj,
          Option.map_some] at h0 hr' <;>
        · refine .newType hh (hn2 hh) hk'.1 ?_ ?_ ha
          · simpa only [getBase, Bool.false_eq_true, if_true, if_false] using h0
          · simpa only [getBase, Bool.false_eq_true, if_true, if_false] using hr'

/-- Variables are as before and the objects are those of `base`. -/
structure Revalued (w w' : World V) (base : ObjId → Option (TyIx × V)) : Prop where
  vars : w'.vars = w.vars
  objs : w'.objs = base
  next : w.next ≤ w'.next
  sub : w'.sub = w.sub

theorem Revalued.wf {base : ObjId → Option (TyIx × V)} (hw : WF C w) (hb : SameTypes w.objs base)
    (h : Revalued w w' base) : WF C w' := by
  have h1 : WF C { w' with next := w.next } := Revalue.wf hw hb ⟨h.vars, h.objs, rfl, h.sub⟩
  refine ⟨h1.rep, h1.inj, h1.noLeak, fun i hi => h1.fresh i ?_, h1.flat⟩
  have := h.next
  simp only; omega

theorem sameTypes_getBase (rv : Bool) (hr : w.objs idr = some (kr, vr)) (m : V) :
    SameTypes w.objs (getBase rv w.objs idr kr m) := by
  cases rv
  · exact SameTypes.refl _
  · exact SameTypes.upd _ _ hr

/-- The content of any variant other than the one moved from is as before. -/
theorem getBase_other (hw : WF C w) (rv : Bool) (hr : Owns C w r sr idr kr vr) {m : V} {y : VarId} (hne : rv = true → y ≠ r) :
    ∀ s id, w.vars y = some s → s.contentId = some id → getBase rv w.objs idr kr m id = w.objs id := by
  cases rv
  · exact fun _ _ _ _ => rfl
  · exact hw.upd_other hr (hne rfl)

/-- What becomes of the objects other than the target's content: at most the object referred to is moved from, and only if the
statement moves and the target is another variant. -/
def GetOthers (w : World V) (rv : Bool) (l r : VarId) (idr : ObjId) (kr : TyIx) (base : ObjId → Option (TyIx × V)) : Prop :=
  ∃ b m, base = getBase b w.objs idr kr m ∧ (b = true → rv = true ∧ l ≠ r)

theorem GetOk.replace {rv : Bool} (h : GetOk C w w' rv l r sl idl kl vl idr kr vr) :
    ∃ base s' id' k' v', GetOthers w rv l r idr kr base ∧ Replace C w w' base l idl s' id' k' v' ∧
      (s' = sl ∨ 0 ≤ s'.which_) := by
  cases h with
  | self he hrv h => exact ⟨_, _, _, _, _, ⟨false, vr, rfl, by simp⟩, h, .inl rfl⟩
  | direct hk hn h => exact ⟨_, _, _, _, _, ⟨rv, _, rfl, fun h => ⟨h, hn h⟩⟩, h, .inl rfl⟩
  | newType hk hn h =>
    obtain ⟨id', -, h⟩ := h
    exact ⟨_, _, _, _, _, ⟨rv, _, rfl, fun h => ⟨h, hn⟩⟩, h, .inr (by simp)⟩

theorem GetExc.replace (hs : Sane C) {rv : Bool} {e : Exc} (h : GetExc C w w' rv l r sl idl kl vl idr kr vr e) :
    ∃ base s' id' k' v', GetOthers w rv l r idr kr base ∧ Replace C w w' base l idl s' id' k' v' := by
  cases h with
  | self he hrv _ h => exact ⟨_, _, _, _, _, ⟨false, vr, rfl, by simp⟩, h⟩
  | direct hk hn _ h => exact ⟨_, _, _, _, _, ⟨rv, _, rfl, fun h => ⟨h, hn h⟩⟩, h⟩
  | convert hk hn _ h => exact ⟨_, _, _, _, _, ⟨rv, _, rfl, fun h => ⟨h, hn⟩⟩, h⟩
  | newType hk hn _ _ h =>
    obtain ⟨-, _, _, _, _, h, -⟩ := h hs
    exact ⟨_, _, _, _, _, ⟨rv, _, rfl, fun h => ⟨h, hn⟩⟩, h⟩

theorem GetExc.left {rv : Bool} {e : Exc} (h : GetExc C w w' rv l r sl idl kl vl idr kr vr e) :
    w'.broken C l ∨ ∃ base s' id' k' v', GetOthers w rv l r idr kr base ∧ Replace C w w' base l idl s' id' k' v' := by
  cases h with
  | self he hrv _ h => exact .inr ⟨_, _, _, _, _, ⟨false, vr, rfl, by simp⟩, h⟩
  | direct hk hn _ h => exact .inr ⟨_, _, _, _, _, ⟨rv, _, rfl, fun h => ⟨h, hn h⟩⟩, h⟩
  | convert hk hn _ h => exact .inr ⟨_, _, _, _, _, ⟨rv, _, rfl, fun h => ⟨h, hn⟩⟩, h⟩
  | newType hk hn _ h0 _ =>
    rcases h0.left with h | ⟨_, _, _, _, h, -⟩
    · exact .inl h
    · exact .inr ⟨_, _, _, _, _, ⟨rv, _, rfl, fun h => ⟨h, hn⟩⟩, h⟩

theorem GetOthers.sameTypes {rv : Bool} {base : ObjId → Option (TyIx × V)} (h : GetOthers w rv l r idr kr base)
    (hr : w.objs idr = some (kr, vr)) : SameTypes w.objs base := by
  obtain ⟨b, m, rfl, -⟩ := h
  exact sameTypes_getBase b hr m

theorem GetOthers.other (hw : WF C w) (hr : Owns C w r sr idr kr vr) {rv : Bool} {base : ObjId → Option (TyIx × V)}
    (h : GetOthers w rv l r idr kr base) {y : VarId} (hne : rv = true → l ≠ r → y ≠ r) :
    ∀ s id, w.vars y = some s → s.contentId = some id → base id = w.objs id := by
  obtain ⟨b, m, rfl, hb⟩ := h
  exact getBase_other hw b hr fun h => hne (hb h).1 (hb h).2

/-- Variants other than the target, and other than the one moved from, are left alone. -/
theorem GetExc.unchanged (hw : WF C w) (hl : Owns C w l sl idl kl vl) (hr : Owns C w r sr idr kr vr) {rv : Bool} {e : Exc}
    (h : GetExc C w w' rv l r sl idl kl vl idr kr vr e) {y : VarId} (hyl : y ≠ l) (hyr : rv = true → y ≠ r) :
    Unchanged w w' y := by
  cases h with
  | self he hrv _ h => exact h.unchanged hw hl hyl (fun _ _ _ _ => rfl)
  | direct hk hn _ h => exact h.unchanged hw hl hyl (getBase_other hw rv hr hyr)
  | convert hk hn _ h => exact h.unchanged hw hl hyl (getBase_other hw rv hr hyr)
  | newType hk hn _ h => exact h.unchanged hw hl hyl (getBase_other hw rv hr hyr)

/-- Construction from a reference into the content of a variant. -/
theorem wp_constructGet (rv : Bool) (x : VarId) (hr : Owns C w r sr idr kr vr) (hf : Fresh w) :
    wp (applyVisitor C r fun k id => convertConstruct C x (refSrc rv k id))
      (fun _ w' => (∃ id', w.next ≤ id' ∧ Create C w w' (getBase rv w.objs idr kr (C.ops.movedFrom kr vr)) x
        ⟨(kr : Int), .obj id'⟩ id' kr (if rv then C.ops.move kr vr else C.ops.copy kr vr)) ∧ w'.allocs = w.allocs)
      (fun e w' => e.kind = (if rv then .moveCtor kr else .copyCtor kr) ∧ Thrown C w w' e ∧
        Revalued w w' (getBase rv w.objs idr kr (C.ops.moveFailSrc kr vr)) ∧ w'.allocs = w.allocs) w := by
  rw [wp_applyVisitor C hr.var hr.rep hr.obj]
  have hk := Rep.lt C hr.rep
  have hlive : (refSrc (V := V) rv kr idr).live w := by cases rv <;> exact ⟨_, hr.obj⟩
  have hty : (refSrc (V := V) rv kr idr).ty = kr := by cases rv <;> rfl
  refine wp_mono (wp_convertConstruct (refSrc rv kr idr) hlive (by rw [hty]; exact hk) hf) ?_ ?_
  · rintro _ w' ⟨id', v', h1, h2, h3, h4, -⟩
    rw [hty] at h3
    refine ⟨⟨id', h1, ?_⟩, h4⟩
    cases rv <;> simp only [refSrc, Bool.false_eq_true, if_true, if_false, Src.result, Src.after, hr.obj,
      Option.map_some, Option.some.injEq] at h2 h3 <;> subst h2 <;>
      simpa only [getBase, Bool.false_eq_true, if_true, if_false] using h3
  · rintro e w' ⟨h1, h2, h3, h4, h5, h6, h7⟩
    refine ⟨?_, h2, ⟨h3, ?_, h6, h4⟩, h5⟩
    · cases rv <;> simpa [refSrc, Src.excKind] using h1
    · funext i
      rw [h7 i]
      cases rv <;> simp [refSrc, Src.afterExc, hr.obj, getBase]

end

end BVariant
