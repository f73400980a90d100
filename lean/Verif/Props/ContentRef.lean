/-
C53: construction and assignment from a reference into the content of a variant, the variant itself included; the parts of
C11, C12, C15 and C19 that concern it.
-/
import Verif.Props.ValueAssign

namespace BVariant

section
variable {V : Type} {C : Cfg V} {w w' : World V} {x y : Nat} {kx ky k : TyIx} {vx vy v : V} {rv : Bool}

/-- The variant `y` whose content a statement referred to, afterwards: it has its storage state and its object, and that
object still has type `k`; if the statement did not move, also the value `v`; if it did, value `m`. -/
def ReferredTo (w w' : World V) (rv : Bool) (y : Nat) (k : TyIx) (v m : V) : Prop :=
  w'.vars (.user y) = w.vars (.user y) ∧ w'.objOf y = w.objOf y ∧ w'.holds y k (if rv then m else v)

theorem referredTo_of {sy : VarSt} {iy : ObjId} {m : V} (hy : Owns C w (.user y) sy iy k v)
    (hv : w'.vars (.user y) = w.vars (.user y)) (ho : w'.objs iy = getBase rv w.objs iy k m iy) :
    ReferredTo w w' rv y k v m := by
  have : Owns C w' (.user y) sy iy k (if rv then m else v) := by
    refine ⟨by rw [hv]; exact hy.var, hy.rep, ?_⟩
    rw [ho]
    cases rv
    · simp [getBase, hy.obj]
    · simp [getBase]
  exact ⟨hv, by rw [this.objOf, hy.objOf], this.holds⟩

theorem Replace.referredTo {sx sy s' : VarSt} {ix iy id' : ObjId} {k' : TyIx} {v' m : V} (hg : Good C w)
    (hx : Owns C w (.user x) sx ix kx vx) (hy : Owns C w (.user y) sy iy ky vy) (hxy : x ≠ y)
    (h : Replace C w w' (getBase rv w.objs iy ky m) (.user x) ix s' id' k' v') : ReferredTo w w' rv y ky vy m := by
  have hne : VarId.user y ≠ VarId.user x := fun he => hxy (VarId.user.inj he).symm
  have hid : iy ≠ ix := by
    rcases hg.wf.distinct hx hy with ⟨h1, -⟩ | ⟨-, h2⟩
    · exact absurd h1.symm hne
    · exact fun he => h2 he.symm
  refine referredTo_of hy ?_ (h.keep iy (hg.wf.toFresh.lt hy.obj) hid)
  rw [h.vars]; simp [hne]

theorem Replace.rest {sx sy s' : VarSt} {ix iy id' : ObjId} {k' : TyIx} {v' m : V} (hg : Good C w)
    (hx : Owns C w (.user x) sx ix kx vx) (hy : Owns C w (.user y) sy iy ky vy)
    (h : Replace C w w' (getBase rv w.objs iy ky m) (.user x) ix s' id' k' v') : Rest w w' [x, y] := by
  intro z hz
  simp only [List.mem_cons, List.not_mem_nil, or_false, not_or] at hz
  exact h.unchanged hg.wf hx (fun he => hz.1 (VarId.user.inj he))
    (getBase_other hg.wf rv hy fun _ he => hz.2 (VarId.user.inj he))

theorem Replace.sameVars {base : ObjId → Option (TyIx × V)} {l : VarId} {sx : VarSt} {ix ix' : ObjId} {k k' : TyIx} {v v' : V}
    (hx : Owns C w l sx ix k v) (h : Replace C w w' base l ix sx ix' k' v') : w'.vars = w.vars := by
  funext z
  rw [h.vars]
  split
  · rename_i he; rw [he, hx.var]
  · rfl

/-! ### C53 -/

/-- C53, construction: `variant x(get<T>(y))` gives `x` a new object in its own storage, copied (or, with `std::move`, moved)
from the content of `y`, in whichever storage state `y` is; `y` keeps its storage state and its object. If it throws, it
is what the element's constructor threw, and there is no `x`. -/
theorem C53_construction (hg : Good C w) (hx : w.vars (.user x) = none) (hy : w.holds y k v) :
    Ends ((Cmd.constructGet rv x y).code C) w
      (fun _ w' => BuiltInPlace w w' x k (if rv then C.ops.move k v else C.ops.copy k v) ∧ WhichIs w' x k ∧
        ReferredTo w w' rv y k v (C.ops.movedFrom k v) ∧ Rest w w' [x, y] ∧ w'.allocs = w.allocs ∧ Good C w')
      (fun e w' => e.kind = (if rv then .moveCtor k else .copyCtor k) ∧ Thrown C w w' e ∧ w'.vars = w.vars ∧
        ReferredTo w w' rv y k v (C.ops.moveFailSrc k v) ∧ Rest w w' [y] ∧ w'.allocs = w.allocs ∧ Good C w') := by
  obtain ⟨sy, iy, ho⟩ := hg.holds hy
  have hne : VarId.user y ≠ VarId.user x := by
    intro he; rw [← he, ho.var] at hx; cases hx
  refine Ends.of_wp (wp_constructGet rv (.user x) ho hg.wf.toFresh) ?_ ?_
  · rintro _ w' ⟨⟨id', hid, h⟩, ha⟩
    refine ⟨⟨id', hg.wf.fresh _ hid, h.owns.var, h.owns.obj⟩, h.owns.whichIs, referredTo_of ho ?_ ?_, ?_, ha,
      h.good hg hx (sameTypes_getBase rv ho.obj _)⟩
    · rw [h.vars]; simp [hne]
    · exact h.keep iy (hg.wf.toFresh.lt ho.obj)
    · intro z hz
      simp only [List.mem_cons, List.not_mem_nil, or_false, not_or] at hz
      exact h.unchanged hg.wf (fun he => hz.1 (VarId.user.inj he))
        (getBase_other hg.wf rv ho fun _ he => hz.2 (VarId.user.inj he))
  · rintro e w' ⟨hk, hth, hr, ha⟩
    refine ⟨hk, hth, hr.vars, referredTo_of ho (by rw [hr.vars]) (by rw [hr.objs]), ?_, ha,
      ⟨hr.wf hg.wf (sameTypes_getBase rv ho.obj _), fun n => by rw [hr.vars]; exact hg.noTmp n⟩⟩
    intro z hz
    refine ⟨by rw [hr.vars], ?_⟩
    rw [hr.objs]; exact getBase_other hg.wf rv ho fun _ => user_ne hz

/-- C53, the held type: `x` and another variant `y` hold the same type. `x = get<T>(y)` runs the element's own assignment on
the held object, wherever the two are stored: `x` and `y` keep storage states and objects, nothing is allocated. -/
theorem C53_assignment_held_type (hb : BlankOk C) (hg : Good C w) (hxy : x ≠ y) (hx : w.holds x k vx) (hy : w.holds y k vy) :
    Ends ((Cmd.assignGet rv x y).code C) w
      (fun _ w' => w'.vars = w.vars ∧ w'.objOf x = w.objOf x ∧
        w'.holds x k (if rv then C.ops.moveAssign k vx vy else C.ops.assign k vx vy) ∧
        ReferredTo w w' rv y k vy (C.ops.moveAssignSrc k vx vy) ∧ Rest w w' [x, y] ∧ w'.allocs = w.allocs ∧ Good C w')
      (fun e w' => e.kind = (if rv then .moveAssign k else .copyAssign k) ∧ Thrown C w w' e ∧ w'.vars = w.vars ∧
        w'.objOf x = w.objOf x ∧
        w'.holds x k (if rv then C.ops.moveAssignFail k vx vy else C.ops.assignFail k vx vy) ∧
        ReferredTo w w' rv y k vy (C.ops.moveAssignFailSrc k vx vy) ∧ Rest w w' [x, y] ∧ w'.allocs = w.allocs ∧
        Good C w') := by
  obtain ⟨sx, ix, hxo⟩ := hg.holds hx
  obtain ⟨sy, iy, hyo⟩ := hg.holds hy
  refine Ends.of_wp (wp_assignGet hb rv hxo hyo (hg.wf.distinct hxo hyo) hg.wf.toFresh (by simp) (hg.noTmp 0)) ?_ ?_
  · rintro _ w' (⟨he, _⟩ | ⟨_, _, hr, ha⟩ | ⟨hne, _⟩)
    · exact absurd (VarId.user.inj he) hxy
    · exact ⟨hr.sameVars hxo, by rw [hr.owns.objOf, hxo.objOf], hr.owns.holds, hr.referredTo hg hxo hyo hxy,
        hr.rest hg hxo hyo, ha, hr.good hg hxo (sameTypes_getBase rv hyo.obj _)⟩
    · exact absurd rfl hne
  · rintro e w' ⟨hth, (⟨he, _⟩ | ⟨_, _, hek, hr, ha⟩ | ⟨hne, _⟩ | ⟨hne, _⟩)⟩
    · exact absurd (VarId.user.inj he) hxy
    · exact ⟨hek, hth, hr.sameVars hxo, by rw [hr.owns.objOf, hxo.objOf], hr.owns.holds, hr.referredTo hg hxo hyo hxy,
        hr.rest hg hxo hyo, ha, hr.good hg hxo (sameTypes_getBase rv hyo.obj _)⟩
    · exact absurd rfl hne
    · exact absurd rfl hne

/-- C53, another type: `x` and `y` hold different types. When `x = get<T>(y)` returns, `x` holds in its own storage a new
object of `y`'s type, moved or copied from an object that was copied (or moved) from the content of `y`; the old object
is destroyed; `y` keeps its storage state and object, in whichever state it is. -/
theorem C53_assignment_new_type (hb : BlankOk C) (hg : Good C w) (hx : w.holds x kx vx) (hy : w.holds y ky vy) (hne : kx ≠ ky)
    (h : (Cmd.assignGet rv x y).code C w = .ok () w') :
    (∃ b v', b = (if rv then C.ops.move ky vy else C.ops.copy ky vy) ∧ (v' = C.ops.move ky b ∨ v' = C.ops.copy ky b) ∧
        BuiltInPlace w w' x ky v') ∧
      WhichIs w' x ky ∧ (∀ id, w.objOf x = some id → w'.objs id = none) ∧
      ReferredTo w w' rv y ky vy (C.ops.movedFrom ky vy) ∧ Rest w w' [x, y] ∧ Good C w' := by
  obtain ⟨sx, ix, hxo⟩ := hg.holds hx
  obtain ⟨sy, iy, hyo⟩ := hg.holds hy
  have hxy : x ≠ y := by rintro rfl; rw [World.holds, hx] at hy; cases hy; exact hne rfl
  rcases wp_ok (wp_assignGet hb rv hxo hyo (hg.wf.distinct hxo hyo) hg.wf.toFresh (by simp) (hg.noTmp 0)) h with
    ⟨he, _⟩ | ⟨he, _⟩ | ⟨_, _, ⟨id', hid, hr⟩, _⟩
  · exact absurd (VarId.user.inj he) hxy
  · exact absurd he hne
  · refine ⟨⟨_, _, rfl, moveAssignVal_cases _ _ _, id', hg.wf.fresh _ hid, hr.owns.var, hr.owns.obj⟩, hr.owns.whichIs,
      fun id hi => ?_, hr.referredTo hg hxo hyo hxy, hr.rest hg hxo hyo, hr.good hg hxo (sameTypes_getBase rv hyo.obj _)⟩
    rw [hxo.objOf] at hi; cases hi
    have hlt := hg.wf.toFresh.lt hxo.obj
    exact hr.gone _ (Or.inl rfl) (by omega)

/-- C53, the variant itself: `x = get<T>(x)`, and with `std::move`, is the element's assignment to itself: no variant changes
its storage state or object, none but `x` its value, and nothing is allocated or destroyed. -/
theorem C53_self_assignment (hb : BlankOk C) (hg : Good C w) (hx : w.holds x k vx) :
    Ends ((Cmd.assignGet rv x x).code C) w
      (fun _ w' => w'.vars = w.vars ∧ w'.objOf x = w.objOf x ∧
        w'.holds x k (if rv then C.ops.selfMove k vx else C.ops.assign k vx vx) ∧ SameObjects w w' ∧ Rest w w' [x] ∧
        w'.allocs = w.allocs ∧ Good C w')
      (fun e w' => e.kind = (if rv then .moveAssign k else .copyAssign k) ∧ Thrown C w w' e ∧ w'.vars = w.vars ∧
        w'.objOf x = w.objOf x ∧
        w'.holds x k (if rv then C.ops.selfMoveFail k vx else C.ops.assignFail k vx vx) ∧ SameObjects w w' ∧ Rest w w' [x] ∧
        w'.allocs = w.allocs ∧ Good C w') := by
  obtain ⟨sx, ix, hxo⟩ := hg.holds hx
  have key : ∀ {w' : World V} {v'}, Replace C w w' w.objs (.user x) ix sx ix k v' →
      w'.vars = w.vars ∧ w'.objOf x = w.objOf x ∧ w'.holds x k v' ∧ SameObjects w w' ∧ Rest w w' [x] ∧ Good C w' := by
    intro w' v' hr
    refine ⟨hr.sameVars hxo, by rw [hr.owns.objOf, hxo.objOf], hr.owns.holds, fun i => ?_,
      fun z hz => hr.unchanged hg.wf hxo (user_ne hz) (fun _ _ _ _ => rfl), hr.good hg hxo (SameTypes.refl _)⟩
    by_cases hi : i = ix
    · subst hi; rw [hr.owns.obj, hxo.obj]; simp
    · by_cases hlt : i < w.next
      · rw [hr.keep i hlt hi]
      · rw [hr.gone i (Or.inr (by omega)) hi, hg.wf.fresh i (by omega)]
  refine Ends.of_wp (wp_assignGet hb rv hxo hxo (hg.wf.distinct hxo hxo) hg.wf.toFresh (by simp) (hg.noTmp 0)) ?_ ?_
  · rintro _ w' (⟨_, rfl, hr, ha⟩ | ⟨_, hn, hr, ha⟩ | ⟨hne, _⟩)
    · obtain ⟨h1, h2, h3, h4, h5, h6⟩ := key hr
      exact ⟨h1, h2, h3, h4, h5, ha, h6⟩
    · cases rv with
      | true => exact absurd rfl (hn rfl)
      | false =>
        obtain ⟨h1, h2, h3, h4, h5, h6⟩ := key hr
        exact ⟨h1, h2, h3, h4, h5, ha, h6⟩
    · exact absurd rfl hne
  · rintro e w' ⟨hth, (⟨_, rfl, hek, hr, ha⟩ | ⟨_, hn, hek, hr, ha⟩ | ⟨hne, _⟩ | ⟨hne, _⟩)⟩
    · obtain ⟨h1, h2, h3, h4, h5, h6⟩ := key hr
      exact ⟨hek, hth, h1, h2, h3, h4, h5, ha, h6⟩
    · cases rv with
      | true => exact absurd rfl (hn rfl)
      | false =>
        obtain ⟨h1, h2, h3, h4, h5, h6⟩ := key hr
        exact ⟨hek, hth, h1, h2, h3, h4, h5, ha, h6⟩
    · exact absurd rfl hne
    · exact absurd rfl hne

/-- C53: it ends, normally or with an exception of an operation it performed, from every state. (So, unlike `x = y`, also when
`y` is in the heap-backup state: finding F1 does not concern it.) -/
theorem C53_no_fault (hb : BlankOk C) (hg : Good C w) (hx : w.alive x) (hy : w.alive y) :
    Ends ((Cmd.assignGet rv x y).code C) w (fun _ w' => Good C w' ∧ Rest w w' [x, y])
      (fun e w' => Thrown C w w' e ∧ Rest w w' [x, y]) := by
  have hv : (Cmd.assignGet (V := V) rv x y).valid C w = true := by
    simp only [Cmd.valid, Bool.and_eq_true]; exact ⟨hx, hy⟩
  exact Ends.of_wp (wp_step_gen hb hg _ hv rfl) (fun _ _ h => h) (fun _ _ h => ⟨h.2.2.1, h.2.1⟩)

/-- C53 for element types whose operations preserve values: after `x = get<T>(y)`, `x` holds the type and value `y` held, and
so does `y` itself, unless it was moved from. -/
theorem C53_assignment_value (hl : C.ops.Lawful) (hb : BlankOk C) (hg : Good C w) (hx : w.holds x kx vx)
    (hy : w.holds y ky vy) (hself : x = y → rv = false) (h : (Cmd.assignGet rv x y).code C w = .ok () w') :
    w'.holds x ky vy ∧ (rv = false → w'.holds y ky vy) ∧ ∃ m, w'.holds y ky m := by
  by_cases hxy : x = y
  · subst hxy
    have := hself rfl; subst this
    have he : w.content (.user x) = some (ky, vy) := hy
    rw [show w.content (.user x) = _ from hx] at he; cases he
    rcases C53_self_assignment (rv := false) hb hg hx with ⟨a, w1, h1, -, -, h2, -⟩ | ⟨e, w1, h1, -⟩
    · rw [h] at h1; cases h1
      simp only [Bool.false_eq_true, if_false, hl.assign_eq] at h2
      exact ⟨h2, fun _ => h2, _, h2⟩
    · rw [h] at h1; cases h1
  · by_cases hk : kx = ky
    · subst hk
      rcases C53_assignment_held_type (rv := rv) hb hg hxy hx hy with ⟨a, w1, h1, -, -, h2, ⟨-, -, h3⟩, -⟩ | ⟨e, w1, h1, -⟩
      · rw [h] at h1; cases h1
        simp only [hl.assign_eq, hl.moveAssign_eq, ite_self] at h2
        exact ⟨h2, fun hr => by simpa [hr] using h3, _, h3⟩
      · rw [h] at h1; cases h1
    · obtain ⟨⟨b, v', hb', hv', id, -, h1, h2⟩, -, -, ⟨-, -, h3⟩, -⟩ := C53_assignment_new_type hb hg hx hy hk h
      have hbv : b = vy := by rw [hb']; simp [hl.copy_eq, hl.move_eq]
      have : v' = vy := by rcases hv' with rfl | rfl <;> simp [hl.copy_eq, hl.move_eq, hbv]
      subst this
      refine ⟨?_, fun hr => by simpa [hr] using h3, _, h3⟩
      simp only [World.inPlace] at h1
      simp [World.holds, World.content, h1, VarSt.contentId, h2]

/-! ### C11, C12, C15, C19 -/

/-- C11: without a fallback type, an `x = get<T>(y)` that would change the type of `x` and throws leaves `x` with its type
and its value (possibly copied, or moved away and back); `y` keeps its storage state, its object and its type, and, if
it was not to be moved, its value. Missing for the full claim: the configurations of finding F2, for which it is false. -/
theorem C11_content_assignment_rolled_back_partial (hb : BlankOk C) (hc : NoCopyOnly C) (hnf : C.hasFallback = false)
    (hg : Good C w) (hx : w.holds x kx vx) (hy : w.holds y ky vy) (hne : kx ≠ ky) {e : Exc}
    (h : (Cmd.assignGet rv x y).code C w = .exc e w') :
    WhichIs w' x kx ∧ (∃ v', w'.holds x kx v' ∧ Restored C kx vx v') ∧ (C.ops.Lawful → w'.holds x kx vx) ∧
      (∃ m, ReferredTo w w' rv y ky vy m) ∧ Rest w w' [x, y] ∧ Good C w' := by
  obtain ⟨sx, ix, hxo⟩ := hg.holds hx
  obtain ⟨sy, iy, hyo⟩ := hg.holds hy
  have hxy : x ≠ y := by rintro rfl; rw [World.holds, hx] at hy; cases hy; exact hne rfl
  have key : ∀ {s' id' v' m}, Replace C w w' (getBase rv w.objs iy ky m) (.user x) ix s' id' kx v' → Restored C kx vx v' →
      WhichIs w' x kx ∧ (∃ v', w'.holds x kx v' ∧ Restored C kx vx v') ∧ (C.ops.Lawful → w'.holds x kx vx) ∧
      (∃ m, ReferredTo w w' rv y ky vy m) ∧ Rest w w' [x, y] ∧ Good C w' := fun hr hv =>
    ⟨hr.owns.whichIs, ⟨_, hr.owns.holds, hv⟩, fun hl => hv.eq hl ▸ hr.owns.holds, ⟨_, hr.referredTo hg hxo hyo hxy⟩,
      hr.rest hg hxo hyo, hr.good hg hxo (sameTypes_getBase rv hyo.obj _)⟩
  rcases (wp_exc (wp_assignGet hb rv hxo hyo (hg.wf.distinct hxo hyo) hg.wf.toFresh (by simp) (hg.noTmp 0)) h).2 with
    ⟨he, _⟩ | ⟨he, _⟩ | ⟨_, _, _, hr, _⟩ | ⟨_, _, _, _, hr, _⟩
  · exact absurd (VarId.user.inj he) hxy
  · exact absurd he hne
  · exact key hr (Or.inl rfl)
  · obtain ⟨-, s', id', k', v', hr', hlo⟩ := hr ⟨hb, hc, FallbackBuilt.of_none hnf⟩
    obtain ⟨rfl, hv⟩ := hlo.restored_of hnf
    exact key hr' hv

/-- C12, for `x = get<T>(y)`. Missing for the full claim: the configurations of finding F10, for which it is false. -/
theorem C12_content_assignment_fallback_partial (hb : BlankOk C) (hfc : FallbackBuilt C) {fb : TyIx}
    (hfb : C.fallback = some fb) (hg : Good C w) (hx : w.holds x kx vx) (hy : w.holds y ky vy) (hne : kx ≠ ky) {e : Exc}
    (h : (Cmd.assignGet rv x y).code C w = .exc e w') :
    AsBeforeOrFallback C w w' x fb ∧ (∃ m, ReferredTo w w' rv y ky vy m) ∧ Rest w w' [x, y] ∧ w'.allocs = w.allocs ∧
      AllInPlace w' ∧ Good C w' := by
  have ht : C.hasFallback = true := by simp [Cfg.hasFallback, hfb]
  obtain ⟨sx, ix, hxo⟩ := hg.holds hx
  obtain ⟨sy, iy, hyo⟩ := hg.holds hy
  have hxy : x ≠ y := by rintro rfl; rw [World.holds, hx] at hy; cases hy; exact hne rfl
  have hq := Quiet.code ht (Cmd.assignGet rv x y) w (hg.allInPlace ht)
  rw [h] at hq
  have key : ∀ {s' id' k' v' m}, Replace C w w' (getBase rv w.objs iy ky m) (.user x) ix s' id' k' v' →
      Leftover C sx ix kx vx ky s' id' k' v' →
      AsBeforeOrFallback C w w' x fb ∧ (∃ m, ReferredTo w w' rv y ky vy m) ∧ Rest w w' [x, y] ∧ w'.allocs = w.allocs ∧
        AllInPlace w' ∧ Good C w' := fun hr hlo =>
    ⟨hlo.fallback_of hg.wf hxo hfb hr, ⟨_, hr.referredTo hg hxo hyo hxy⟩, hr.rest hg hxo hyo,
      hq.1, hq.2, hr.good hg hxo (sameTypes_getBase rv hyo.obj _)⟩
  rcases (wp_exc (wp_assignGet hb rv hxo hyo (hg.wf.distinct hxo hyo) hg.wf.toFresh (by simp) (hg.noTmp 0)) h).2 with
    ⟨he, _⟩ | ⟨he, _⟩ | ⟨_, _, _, hr, _⟩ | ⟨_, _, _, _, hr, _⟩
  · exact absurd (VarId.user.inj he) hxy
  · exact absurd he hne
  · exact key hr .same
  · obtain ⟨-, s', id', k', v', hr, hlo⟩ := hr ⟨hb, NoCopyOnly.of_fallback ht, hfc⟩
    exact key hr hlo

/-- C15, for `x = get<T>(y)` with different types: every exception it can throw. -/
theorem C15_content_assignment_throws (hb : BlankOk C) (hg : Good C w) (hx : w.holds x kx vx) (hy : w.holds y ky vy)
    (hne : kx ≠ ky) {e : Exc} (h : (Cmd.assignGet rv x y).code C w = .exc e w') :
    e.kind = .moveCtor ky ∨ e.kind = .copyCtor ky ∨
      ((e.kind = .copyCtor kx ∨ e.kind = .badAlloc) ∧ C.mayBackup ky ∧ (C.tr kx).nothrowMove = false) := by
  obtain ⟨sx, ix, hxo⟩ := hg.holds hx
  obtain ⟨sy, iy, hyo⟩ := hg.holds hy
  have hxy : x ≠ y := by rintro rfl; rw [World.holds, hx] at hy; cases hy; exact hne rfl
  rcases (wp_exc (wp_assignGet hb rv hxo hyo (hg.wf.distinct hxo hyo) hg.wf.toFresh (by simp) (hg.noTmp 0)) h).2 with
    ⟨he, _⟩ | ⟨he, _⟩ | ⟨_, _, hek, _⟩ | ⟨_, _, hek, _⟩
  · exact absurd (VarId.user.inj he) hxy
  · exact absurd he hne
  · cases rv
    · exact Or.inr (Or.inl hek)
    · exact Or.inl hek
  · rcases hek with ⟨h1, -⟩ | ⟨h3, h1 | ⟨h1, h2⟩⟩
    · exact Or.inl h1
    · exact Or.inr (Or.inl h1)
    · exact Or.inr (Or.inr ⟨h1, h3, h2⟩)

/-- C19, for `x = get<T>(y)`: after it returns, `x` is in the heap-backup state only if it was before and holds the same type.
Missing for the full claim: it is false in that case (finding F7). -/
theorem C19_content_assignment_in_place_partial (hb : BlankOk C) (hg : Good C w) (hx : w.holds x kx vx) (hy : w.holds y ky vy)
    (h : (Cmd.assignGet rv x y).code C w = .ok () w') (hbk : w'.backedUp x = true) : w.backedUp x = true ∧ kx = ky := by
  obtain ⟨sx, ix, hxo⟩ := hg.holds hx
  obtain ⟨sy, iy, hyo⟩ := hg.holds hy
  rcases wp_ok (wp_assignGet hb rv hxo hyo (hg.wf.distinct hxo hyo) hg.wf.toFresh (by simp) (hg.noTmp 0)) h with
    ⟨he, _, hr, _⟩ | ⟨he, _, hr, _⟩ | ⟨_, _, ⟨id', hid, hr⟩, _⟩
  · have := VarId.user.inj he; subst this
    rw [hr.owns.backedUp] at hbk
    refine ⟨by rw [hxo.backedUp, hbk], ?_⟩
    rw [World.holds, hx] at hy; cases hy; rfl
  · rw [hr.owns.backedUp] at hbk
    exact ⟨by rw [hxo.backedUp, hbk], he⟩
  · rw [hr.owns.backedUp] at hbk; simp at hbk; omega

end

/-! ### Non-vacuity -/

/-- C53: construction and assignment from a reference into a heap backup. -/
example := C53_construction (rv := true) (x := 2) exBackup_good (by decide +kernel) exBackup_facts.2.1
example : ∃ w', (Cmd.assignGet false 1 0).code exTwo exBackup = .ok () w' ∧ w'.holds 1 0 5 ∧ w'.holds 0 0 5 := by
  obtain ⟨w', h⟩ := of_endsOk (m := (Cmd.assignGet false 1 0).code exTwo) (w := exBackup) (by decide +kernel)
  have := C53_assignment_value natOps_lawful exTwo_blankOk exBackup_good exBackup_facts1 exBackup_facts.2.1 (by simp) h
  exact ⟨w', h, this.1, this.2.1 rfl⟩

/-- ... where the assignment of the variant itself fails (finding F1). -/
example : endsOk ((Cmd.assignGet false 1 0).code exTwo) exBackup = true ∧
    faults exTwo (exProg.take 3 ++ [.constructC 1 1 7, .copyAssign 1 0]) = true := by decide +kernel

/-- C53, the variant itself, in the heap-backup state. -/
example := C53_self_assignment (rv := true) exTwo_blankOk exBackup_good exBackup_facts.2.1

/-- C53, the held type. -/
example := C53_assignment_held_type (rv := true) (x := 0) (y := 2) (w := stateAfter exTwo (exProg.take 3 ++ [.constructC 2 0 8]))
  (k := 0) (vx := 5) (vy := 8) exTwo_blankOk (stateAfter_good exTwo_sane (by decide +kernel)) (by decide)
  (by unfold World.holds; decide +kernel) (by unfold World.holds; decide +kernel)

/-- C11 and C15: the assignment throws when the old content is to be backed up, or the new one put into place, and is rolled
back. -/
example : ∃ e w', (Cmd.assignGet true 0 1).code (exCfg [tThrowing, tThrowing] [7])
    (stateAfter (exCfg [tThrowing, tThrowing] [7]) [.constructC 0 0 5, .constructC 1 1 7]) = .exc e w' ∧ w'.holds 0 0 5 := by
  have hs : Sane (exCfg [tThrowing, tThrowing] [7]) := ⟨exTwo_sane.1, exTwo_sane.2, exTwo_sane.3⟩
  obtain ⟨e, w', h⟩ := of_endsExc (m := (Cmd.assignGet true 0 1).code (exCfg [tThrowing, tThrowing] [7]))
    (w := stateAfter (exCfg [tThrowing, tThrowing] [7]) [.constructC 0 0 5, .constructC 1 1 7]) (by decide +kernel)
  exact ⟨e, w', h, (C11_content_assignment_rolled_back_partial hs.1 hs.2 (by decide) (stateAfter_good hs (by decide +kernel))
    (kx := 0) (vx := 5) (ky := 1) (vy := 7) (by unfold World.holds; decide +kernel) (by unfold World.holds; decide +kernel)
    (by decide) h).2.2.1 natOps_lawful⟩

/-- C53, a new type: what becomes of the old content and of the object referred to. -/
example : ∃ w', (Cmd.assignGet true 1 0).code exTwo exBackup = .ok () w' ∧ WhichIs w' 1 0 ∧
    (∀ id, exBackup.objOf 1 = some id → w'.objs id = none) ∧ ReferredTo exBackup w' true 0 0 5 0 := by
  obtain ⟨w', h⟩ := of_endsOk (m := (Cmd.assignGet true 1 0).code exTwo) (w := exBackup) (by decide +kernel)
  have := C53_assignment_new_type exTwo_blankOk exBackup_good exBackup_facts1 exBackup_facts.2.1 (by decide) h
  exact ⟨w', h, this.2.1, this.2.2.1, this.2.2.2.1⟩

/-- C53: no fault, where the assignment of the variant would be one. -/
example := C53_no_fault (rv := true) (x := 1) (y := 0) exTwo_blankOk exBackup_good (by unfold World.alive; decide +kernel)
  (by unfold World.alive; decide +kernel)

/-- C12 and C15: with a fallback type. -/
example : ∃ e w', (Cmd.assignGet false 0 1).code (exCfg [tInt, tThrowing, tThrowing] [5])
    (stateAfter (exCfg [tInt, tThrowing, tThrowing] [5]) [.constructC 0 1 5, .constructC 1 2 7]) = .exc e w' ∧
    AsBeforeOrFallback (exCfg [tInt, tThrowing, tThrowing] [5])
      (stateAfter (exCfg [tInt, tThrowing, tThrowing] [5]) [.constructC 0 1 5, .constructC 1 2 7]) w' 0 0 ∧
    (e.kind = .moveCtor 2 ∨ e.kind = .copyCtor 2) := by
  have hs : Sane (exCfg [tInt, tThrowing, tThrowing] [5]) := ⟨exFall_sane.1, exFall_sane.2, exFall_sane.3⟩
  have hg : Good (exCfg [tInt, tThrowing, tThrowing] [5])
      (stateAfter (exCfg [tInt, tThrowing, tThrowing] [5]) [.constructC 0 1 5, .constructC 1 2 7]) :=
    stateAfter_good hs (by decide +kernel)
  have h0 : (stateAfter (exCfg [tInt, tThrowing, tThrowing] [5]) [.constructC 0 1 5, .constructC 1 2 7]).holds 0 1 5 := by
    unfold World.holds; decide +kernel
  have h1 : (stateAfter (exCfg [tInt, tThrowing, tThrowing] [5]) [.constructC 0 1 5, .constructC 1 2 7]).holds 1 2 7 := by
    unfold World.holds; decide +kernel
  obtain ⟨e, w', h⟩ := of_endsExc (m := (Cmd.assignGet false 0 1).code (exCfg [tInt, tThrowing, tThrowing] [5]))
    (w := stateAfter (exCfg [tInt, tThrowing, tThrowing] [5]) [.constructC 0 1 5, .constructC 1 2 7]) (by decide +kernel)
  refine ⟨e, w', h, (C12_content_assignment_fallback_partial hs.1 hs.3 (by decide) hg h0 h1 (by decide) h).1, ?_⟩
  rcases C15_content_assignment_throws hs.1 hg h0 h1 (by decide) h with h2 | h2 | h2
  · exact Or.inl h2
  · exact Or.inr h2
  · exact absurd h2.2.1.1 (by decide)

/-! ### Instances -/

/-- C19: `x = get<T>(x)` for a variable in its backup; it stays there. -/
example : (match (Cmd.assignGet false 0 0).code exTwo exBackup with | .ok _ w' => w'.backedUp 0 | _ => false) = true := by decide +kernel

/-- C19: the hypotheses, in the backup state: `x = get<T>(x)`, where the variable stays in its backup. -/
example (w' : World Nat) (h : (Cmd.assignGet false 0 0).code exTwo exBackup = .ok () w') (hb : w'.backedUp 0 = true) :
    exBackup.backedUp 0 = true ∧ (0 : Nat) = 0 :=
  C19_content_assignment_in_place_partial exTwo_blankOk exBackup_good exBackup_facts.2.1 exBackup_facts.2.1 h hb

end BVariant
