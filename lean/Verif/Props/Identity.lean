/-
C24 self-assignment and self-swap, C42 object identity.
-/
import Verif.Props.ValueAssign

set_option linter.unusedSimpArgs false

namespace BVariant

section
variable {V : Type} {C : Cfg V} {w w' : World V} {x y : Nat} {k kx ky : TyIx} {v vx vy : V} {id ix iy : ObjId}

theorem M.noexceptIf_eq {α : Type} {b : Bool} {m : M V α} (h : b = true → NoExc m) : M.noexceptIf b m w = m w := by
  simp only [M.noexceptIf]
  cases hm : m w with
  | ok a w1 => rfl
  | exc e w1 =>
    cases b with
    | true => exact absurd hm (h rfl _ _ _)
    | false => rfl
  | fault f => rfl

theorem NoExc.moveAssignObj {ty : TyIx} (h : (C.tr ty).nothrowMoveAssign = true) (l r : ObjId) :
    NoExc (moveAssignObj C ty l r) := by
  have hmt : ∀ k f, NoExc (mayThrow C true k f) := by
    intro k f w e w' he
    simp only [mayThrow] at he
    split at he <;> simp_all
  unfold BVariant.moveAssignObj
  refine NoExc.bind (NoExc.readAs _ _) fun _ => NoExc.bind (NoExc.readAs _ _) fun _ => ?_
  rw [h]
  split
  · exact NoExc.bind (hmt _ _) fun _ => NoExc.modify _
  · exact NoExc.bind (hmt _ _) fun _ => NoExc.modify _

/-- Two variants hold the same type in the same storage state. -/
theorem same_record {sx sy : VarSt} (hx : Owns C w (.user x) sx ix k vx)
    (hy : Owns C w (.user y) sy iy k vy) (hb : w.backedUp x = w.backedUp y) :
    (sx = ⟨(k : Int), .obj ix⟩ ∧ sy = ⟨(k : Int), .obj iy⟩) ∨
      (sx = ⟨-((k : Int) + 1), .holder k (some ix)⟩ ∧ sy = ⟨-((k : Int) + 1), .holder k (some iy)⟩ ∧ C.mayBackup k) := by
  rw [hx.backedUp, hy.backedUp] at hb
  cases hx.rep with
  | inPlace =>
    cases hy.rep with
    | inPlace => exact Or.inl ⟨rfl, rfl⟩
    | inBackup => simp at hb; omega
  | inBackup _ _ _ hm =>
    cases hy.rep with
    | inPlace => simp at hb; omega
    | inBackup => exact Or.inr ⟨rfl, rfl, hm⟩

/-- Copy assignment between variants that hold the same type in the same storage state is the element's own copy
assignment between the two content objects, and nothing else (C42; with `y = x`, C24). -/
theorem C42_copy_assignment_same_state_runs (hg : Good C w) (hx : w.holds x k vx) (hy : w.holds y k vy)
    (hb : w.backedUp x = w.backedUp y) (hix : w.objOf x = some ix) (hiy : w.objOf y = some iy) :
    copyAssign C (.user x) (.user y) w = assignObj C k ix iy w := by
  obtain ⟨sx, i, hxo⟩ := hg.holds hx
  obtain ⟨sy, j, hyo⟩ := hg.holds hy
  rw [hxo.objOf] at hix; cases hix
  rw [hyo.objOf] at hiy; cases hiy
  have hox := hxo.obj
  have hoy := hyo.obj
  rcases same_record hxo hyo hb with ⟨rfl, rfl⟩ | ⟨rfl, rfl, hm⟩
  · simp only [copyAssign, bind, M.bind, getVar, hxo.var, hyo.var, if_true]
    rw [iav_inPlace C _ hxo.var hxo.rep.lt hox]
    simp only [assignStorage, bind, M.bind, castObj_eq hyo.var hoy]
  · simp only [copyAssign, bind, M.bind, getVar, hxo.var, hyo.var, if_true]
    rw [iav_backup C _ hxo.var hxo.rep.lt hm]
    simp only [assignStorage, bind, M.bind, castHolder_eq hyo.var, holderGet, pure, M.pure]

/-- Move assignment between variants that hold the same type in the same storage state is the element's own move
assignment between the two content objects, and nothing else (C42; with `y = x`, C24). -/
theorem C42_move_assignment_same_state_runs (hg : Good C w) (hx : w.holds x k vx) (hy : w.holds y k vy)
    (hb : w.backedUp x = w.backedUp y) (hix : w.objOf x = some ix) (hiy : w.objOf y = some iy) :
    moveAssign C (.user x) (.user y) w = moveAssignObj C k ix iy w := by
  obtain ⟨sx, i, hxo⟩ := hg.holds hx
  obtain ⟨sy, j, hyo⟩ := hg.holds hy
  rw [hxo.objOf] at hix; cases hix
  rw [hyo.objOf] at hiy; cases hiy
  have hox := hxo.obj
  have hoy := hyo.obj
  have he : variantMoveAssign C (.user x) (.user y) w = moveAssignObj C k ix iy w := by
    rcases same_record hxo hyo hb with ⟨rfl, rfl⟩ | ⟨rfl, rfl, hm⟩
    · simp only [variantMoveAssign, bind, M.bind, getVar, hxo.var, hyo.var, if_true]
      rw [iav_inPlace C _ hxo.var hxo.rep.lt hox]
      simp only [moveStorage, bind, M.bind, castObj_eq hyo.var hoy]
    · simp only [variantMoveAssign, bind, M.bind, getVar, hxo.var, hyo.var, if_true]
      rw [iav_backup C _ hxo.var hxo.rep.lt hm]
      simp only [moveStorage, bind, M.bind, castHolder_eq hyo.var, holderGet, pure, M.pure]
  simp only [moveAssign, M.noexceptIf, he]
  cases hm : moveAssignObj C k ix iy w with
  | ok a w1 => rfl
  | fault f => rfl
  | exc e w1 =>
    cases hb : (moveNoexceptConstructible C && moveNoexceptAssignable C) with
    | false => rfl
    | true =>
      simp only [Bool.and_eq_true] at hb
      have := tr_of_all (p := (·.nothrowMoveAssign)) hb.2 hxo.rep.lt
      exact absurd hm (NoExc.moveAssignObj this _ _ _ _ _)

theorem Ends.congr {α : Type} {m m' : M V α} {Q : α → World V → Prop} {E : Exc → World V → Prop} (he : m w = m' w)
    (h : wp m' Q E w) : Ends m w Q E := by
  rcases wp_elim h with ⟨a, w', h1, h2⟩ | ⟨e, w', h1, h2⟩
  · exact Or.inl ⟨a, w', by rw [he, h1], h2⟩
  · exact Or.inr ⟨e, w', by rw [he, h1], h2⟩

/-- Effect on the variants of a change of the value of `x`'s content object. -/
theorem revalue_one {sx : VarSt} (hg : Good C w) (hxo : Owns C w (.user x) sx ix k vx) (q : V) (t : Nat) :
    let w' := { w with objs := upd w.objs ix (some (k, q)), tick := t }
    NothingBuilt w w' ∧ w'.objOf x = w.objOf x ∧ w'.holds x k q ∧ Rest w w' [x] :=
  ⟨⟨rfl, SameObjects.of_types (SameTypes.upd _ _ hxo.obj) rfl, rfl, rfl⟩, rfl,
    Owns.holds (C := C) ⟨hxo.var, hxo.rep, by simp⟩, fun _ hz => ⟨rfl, hg.wf.upd_other hxo (user_ne hz)⟩⟩

theorem revalue_two {sx sy : VarSt} (hg : Good C w) (hxo : Owns C w (.user x) sx ix k vx)
    (hyo : Owns C w (.user y) sy iy k vy) (hne : ix ≠ iy) (p q : V) (t : Nat) :
    let w' := { w with objs := upd (upd w.objs ix (some (k, p))) iy (some (k, q)), tick := t }
    NothingBuilt w w' ∧ w'.objOf x = w.objOf x ∧ w'.objOf y = w.objOf y ∧ w'.holds x k p ∧ w'.holds y k q ∧
      Rest w w' [x, y] := by
  have hst : SameTypes w.objs (upd (upd w.objs ix (some (k, p))) iy (some (k, q))) :=
    (SameTypes.upd w.objs p hxo.obj).trans (SameTypes.upd _ q (v := vy) (by rw [upd_ne _ _ hne.symm]; exact hyo.obj))
  refine ⟨⟨rfl, SameObjects.of_types hst rfl, rfl, rfl⟩, rfl, rfl,
    Owns.holds (C := C) ⟨hxo.var, hxo.rep, by simp [upd_ne _ _ hne]⟩, Owns.holds (C := C) ⟨hyo.var, hyo.rep, by simp⟩,
    fun z hz => ⟨rfl, fun s id h1 h2 => ?_⟩⟩
  show upd (upd w.objs ix (some (k, p))) iy (some (k, q)) id = w.objs id
  rw [upd_ne _ _ (hg.wf.content_ne hyo (user_ne2 hz) h1 h2), upd_ne _ _ (hg.wf.content_ne hxo (user_ne hz) h1 h2)]

/-- C42: copy assignment between variants that hold the same type in the same storage state keeps the content object,
and creates and destroys nothing, whether it returns or throws. (With `y = x` this is C24.) -/
theorem C42_copy_assignment_same_state (hg : Good C w) (hx : w.holds x k vx) (hy : w.holds y k vy)
    (hb : w.backedUp x = w.backedUp y) :
    Ends (copyAssign C (.user x) (.user y)) w
      (fun _ w' => NothingBuilt w w' ∧ w'.objOf x = w.objOf x ∧ w'.holds x k (C.ops.assign k vx vy) ∧ Rest w w' [x])
      (fun e w' => e.kind = .copyAssign k ∧ NothingBuilt w w' ∧ w'.objOf x = w.objOf x ∧
        w'.holds x k (C.ops.assignFail k vx vy) ∧ Rest w w' [x]) := by
  obtain ⟨sx, ix, hxo⟩ := hg.holds hx
  obtain ⟨sy, iy, hyo⟩ := hg.holds hy
  refine Ends.congr (C42_copy_assignment_same_state_runs hg hx hy hb hxo.objOf hyo.objOf) ?_
  rw [wpx_assignObj C k hxo.obj hyo.obj]
  split
  · exact ⟨rfl, revalue_one hg hxo _ _⟩
  · exact revalue_one hg hxo _ _

/-- C42: move assignment between different variants that hold the same type in the same storage state keeps both content
objects, and creates and destroys nothing, whether it returns or throws. -/
theorem C42_move_assignment_same_state (hg : Good C w) (hxy : x ≠ y) (hx : w.holds x k vx) (hy : w.holds y k vy)
    (hb : w.backedUp x = w.backedUp y) :
    Ends (moveAssign C (.user x) (.user y)) w
      (fun _ w' => NothingBuilt w w' ∧ w'.objOf x = w.objOf x ∧ w'.objOf y = w.objOf y ∧
        w'.holds x k (C.ops.moveAssign k vx vy) ∧ w'.holds y k (C.ops.moveAssignSrc k vx vy) ∧ Rest w w' [x, y])
      (fun e w' => e.kind = .moveAssign k ∧ NothingBuilt w w' ∧ w'.objOf x = w.objOf x ∧ w'.objOf y = w.objOf y ∧
        w'.holds x k (C.ops.moveAssignFail k vx vy) ∧ w'.holds y k (C.ops.moveAssignFailSrc k vx vy) ∧
        Rest w w' [x, y]) := by
  obtain ⟨sx, ix, hxo⟩ := hg.holds hx
  obtain ⟨sy, iy, hyo⟩ := hg.holds hy
  have hid : ix ≠ iy := by
    rcases hg.wf.distinct hxo hyo with ⟨he, -⟩ | ⟨-, h⟩
    · exact absurd (VarId.user.inj he) hxy
    · exact h
  refine Ends.congr (C42_move_assignment_same_state_runs hg hx hy hb hxo.objOf hyo.objOf) ?_
  rw [wpx_moveAssignObj C k hid hxo.obj hyo.obj]
  split
  · exact ⟨rfl, revalue_two hg hxo hyo hid _ _ _⟩
  · exact revalue_two hg hxo hyo hid _ _ _

/-! ### C24 -/

/-- C24: `x = x` is the element's own self-assignment, in any storage state. -/
theorem C24_self_copy_assignment_runs (hg : Good C w) (hx : w.holds x k v) (hi : w.objOf x = some id) :
    copyAssign C (.user x) (.user x) w = assignObj C k id id w :=
  C42_copy_assignment_same_state_runs hg hx hx rfl hi hi

/-- C24: `x = std::move(x)` is the element's own self-move-assignment, in any storage state. -/
theorem C24_self_move_assignment_runs (hg : Good C w) (hx : w.holds x k v) (hi : w.objOf x = some id) :
    moveAssign C (.user x) (.user x) w = moveAssignObj C k id id w :=
  C42_move_assignment_same_state_runs hg hx hx rfl hi hi

/-- C24: `x.swap(x)` is the element's own self-swap, in any storage state. -/
theorem C24_self_swap_runs (hg : Good C w) (hx : w.holds x k v) (hi : w.objOf x = some id) :
    swap C (.user x) (.user x) w = swapObj C k id id w := by
  obtain ⟨sx, i, hxo⟩ := hg.holds hx
  rw [hxo.objOf] at hi; cases hi
  simp only [swap, bind, M.bind, which, getVar, hxo.var, pure, M.pure, if_true]
  rw [applyVisitor_eq C _ hxo.var hxo.rep hxo.obj]
  simp only [swapWith, bind, M.bind]
  rw [applyVisitor_eq C _ hxo.var hxo.rep hxo.obj]
  simp [knownGet, pure, M.pure]

/-- C24: effect of `x = x`: nothing is constructed or destroyed, `x` keeps its object and type, nothing else changes. -/
theorem C24_self_copy_assignment (hg : Good C w) (hx : w.holds x k v) :
    Ends (copyAssign C (.user x) (.user x)) w
      (fun _ w' => NothingBuilt w w' ∧ w'.objOf x = w.objOf x ∧ w'.holds x k (C.ops.assign k v v) ∧ Rest w w' [x])
      (fun e w' => e.kind = .copyAssign k ∧ NothingBuilt w w' ∧ w'.objOf x = w.objOf x ∧
        w'.holds x k (C.ops.assignFail k v v) ∧ Rest w w' [x]) :=
  C42_copy_assignment_same_state hg hx hx rfl

/-- C24: effect of `x = std::move(x)`. -/
theorem C24_self_move_assignment (hg : Good C w) (hx : w.holds x k v) :
    Ends (moveAssign C (.user x) (.user x)) w
      (fun _ w' => NothingBuilt w w' ∧ w'.objOf x = w.objOf x ∧ w'.holds x k (C.ops.selfMove k v) ∧ Rest w w' [x])
      (fun e w' => e.kind = .moveAssign k ∧ NothingBuilt w w' ∧ w'.objOf x = w.objOf x ∧
        w'.holds x k (C.ops.selfMoveFail k v) ∧ Rest w w' [x]) := by
  obtain ⟨sx, ix, hxo⟩ := hg.holds hx
  refine Ends.congr (C24_self_move_assignment_runs hg hx hxo.objOf) ?_
  rw [wpx_moveAssignObj_self C k hxo.obj]
  split
  · exact ⟨rfl, revalue_one hg hxo _ _⟩
  · exact revalue_one hg hxo _ _

/-- C24: effect of `x.swap(x)`. -/
theorem C24_self_swap (hg : Good C w) (hx : w.holds x k v) :
    Ends (swap C (.user x) (.user x)) w
      (fun _ w' => NothingBuilt w w' ∧ w'.objOf x = w.objOf x ∧ w'.holds x k (C.ops.selfSwap k v) ∧ Rest w w' [x])
      (fun e w' => e.kind = .swap k ∧ NothingBuilt w w' ∧ w'.objOf x = w.objOf x ∧
        w'.holds x k (C.ops.selfSwapFail k v) ∧ Rest w w' [x]) := by
  obtain ⟨sx, ix, hxo⟩ := hg.holds hx
  refine Ends.congr (C24_self_swap_runs hg hx hxo.objOf) ?_
  rw [wpx_swapObj_self C k hxo.obj]
  split
  · exact ⟨rfl, revalue_one hg hxo _ _⟩
  · exact revalue_one hg hxo _ _

/-! ### C42, type-changing assignment and construction -/

/-- An assignment of the F1 kind that returns has destroyed the old content, too. -/
theorem assignImpl_holder_ok {l : VarId} {sl : VarSt} {idl : ObjId} {kl kr : TyIx} {vl : V} (hd : C.ndebug = true)
    (hl : Owns C w l sl idl kl vl) (hf : Fresh w) {i : Int} {p : Option ObjId}
    (h : assignImpl C l i (.holder kr p) false false false w = .ok () w') : w'.objs idl = none := by
  have hlt := hf.lt hl.obj
  have hfl := hf.flat
  have n1 : w.next ≠ idl := by omega
  have n2 : idl ≠ w.next := by omega
  have hwp : wp (assignImpl C l i (.holder kr p) false false false) (fun _ w' => w'.objs idl = none) (fun _ _ => True) w := by
    simp only [assignImpl, Bool.false_eq_true, if_false]
    obtain ⟨hx, hr, ho⟩ := hl
    cases hr with
    | inPlace _ _ hk =>
      rw [wp_iav_inPlace C hx hk ho]
      simp only [backupAssigner, wp_ite]
      split
      · rename_i hm
        simp only [wp_bind, wpx_moveCtor, ho, if_true, hm, Bool.true_eq_false, false_and, if_false, wp_withLocal,
          wpx_destroyObj, hfl, implies_true, upd_ne _ _ n2, upd_same, wp_onExc, copyRhsInto, copyRhs, holderCopyCtor,
          hd, wp_pure, wpx_setSlot, wpx_setWhich, hx, upd_ne _ _ n1]
      · simp only [wp_bind, wpx_heapCopy, ho, if_true]
        split
        · trivial
        · split
          · trivial
          · simp only [wpx_destroyObj, hfl, implies_true, upd_ne _ _ n2, ho, upd_same, if_true, wp_onExc, copyRhsInto, copyRhs,
              holderCopyCtor, hd, wp_pure, wp_bind, wpx_setSlot, wpx_setWhich, hx, upd_ne _ _ n1]
    | inBackup _ _ hk hm =>
      rw [wp_iav_backup C hx hk hm]
      simp only [backupAssigner, wp_bind, wpx_setSlot, wpx_setWhich, hx, upd_same, holderDtor, wp_pure, wp_onExc,
        copyRhsInto, copyRhs, holderCopyCtor, hd, if_true, wpx_destroyObj, hfl, implies_true, ho]
  exact wp_ok hwp h

/-- C42: an assignment between variants that changes the type and returns has destroyed the old content of the target:
no pointer to it stays valid. -/
theorem C42_type_change_destroys (hb : BlankOk C) (hg : Good C w) (hx : w.holds x kx vx) (hy : w.holds y ky vy)
    (hk : kx ≠ ky) (hi : w.objOf x = some id)
    (h : copyAssign C (.user x) (.user y) w = .ok () w' ∨ moveAssign C (.user x) (.user y) w = .ok () w') :
    w'.objs id = none := by
  obtain ⟨sx, ix, hxo⟩ := hg.holds hx
  obtain ⟨sy, iy, hyo⟩ := hg.holds hy
  obtain rfl : ix = id := by rw [hxo.objOf] at hi; exact Option.some.inj hi
  have hlt := hg.wf.toFresh.lt hxo.obj
  have hxy : VarId.user x ≠ VarId.user y := by
    intro he
    have h1 : w.content (.user y) = some (kx, vx) := by rw [← he]; exact hx
    rw [show w.content (.user y) = _ from hy] at h1; cases h1; exact hk rfl
  have key : (C.ndebug = false ∨ (w.backedUp y && w.recordsDiffer x y) = false) → w'.objs ix = none := by
    intro hz
    rcases h with h | h
    · rcases copyAssign_ok hb hg hxo hyo hz h with ⟨-, he, -⟩ | ⟨-, id', hid, hr⟩
      · exact absurd he hk
      · exact hr.gone _ (Or.inl rfl) (by omega)
    · rcases moveAssign_ok hb hg hxo hyo hz h with ⟨he, -⟩ | ⟨-, -, he, -⟩ | ⟨-, -, id', hid, hr⟩
      · exact absurd he hxy
      · exact absurd he hk
      · exact hr.gone _ (Or.inl rfl) (by omega)
  cases hd : C.ndebug with
  | false => exact key (Or.inl hd)
  | true =>
    rcases hazard_cases sx sy with hn | ⟨hne, hneg⟩
    · refine key (Or.inr ?_)
      rw [hyo.backedUp]
      simp only [World.recordsDiffer, hxo.var, hyo.var]
      rcases hn with hn | hn
      · simp [hn]
      · have : ¬ sy.which_ < 0 := by omega
        simp [this]
    · rcases h with h | h
      · rw [copyAssign_hazard_eq hxo hyo hne hneg] at h
        exact assignImpl_holder_ok hd hxo hg.wf.toFresh h
      · simp only [moveAssign, M.noexceptIf] at h
        rw [variantMoveAssign_hazard_eq hxo hyo hne hneg] at h
        split at h
        · rename_i h'; cases h; exact assignImpl_holder_ok hd hxo hg.wf.toFresh h'
        · split at h <;> cases h
        · cases h

/-- C42 (and the effect of C39's construction): constructing `x` from a `t` for which type `k` was chosen returns, and then
`x` holds in its own storage a new object constructed from `t`, and all other variants are as they were; or it throws
what constructing that object from `t` throws, and nothing has changed. -/
theorem C42_converting_construction (hg : Good C w) (m : Mode) (hk : k < C.n) (hx : w.vars (.user x) = none) :
    Ends (valueConstruct m (.user x) k v C) w
      (fun _ w' => (∃ b, BuiltFrom C m k v b ∧ BuiltInPlace w w' x k b) ∧ WhichIs w' x k ∧ Rest w w' [x] ∧ Good C w')
      (fun e w' => m.excKind k e.kind ∧ Thrown C w w' e ∧ w'.vars = w.vars ∧ w'.objs = w.objs) := by
  have hf := hg.wf.toFresh
  have ok : ∀ {w' : World V} {id' : ObjId}, Create C w w' w.objs (.user x) ⟨(k : Int), .obj id'⟩ id' k (m.built C k v) →
      (∃ b, BuiltFrom C m k v b ∧ BuiltInPlace w w' x k b) ∧ WhichIs w' x k ∧ Rest w w' [x] ∧ Good C w' := by
    intro w' id' hc
    exact ⟨⟨_, by cases m <;> rfl, id', hg.wf.fresh _ hc.idNew, hc.owns.var, hc.owns.obj⟩, hc.owns.whichIs,
      fun z hz => hc.unchanged hg.wf (user_ne hz) (fun _ _ _ _ => rfl), hc.good hg hx (SameTypes.refl _)⟩
  have elem : ∀ m', m' ≠ Mode.C → m' = m →
      Ends (withElem k v fun t => convertConstruct C (.user x) (m'.src k v t)) w
      (fun _ w' => (∃ b, BuiltFrom C m k v b ∧ BuiltInPlace w w' x k b) ∧ WhichIs w' x k ∧ Rest w w' [x] ∧ Good C w')
      (fun e w' => m.excKind k e.kind ∧ Thrown C w w' e ∧ w'.vars = w.vars ∧ w'.objs = w.objs) := by
    rintro _ hm rfl
    refine Ends.of_wp (wp_construct_elem _ hm (.user x) k v hf hk) ?_ ?_
    · rintro _ w' ⟨id', hc, -⟩; exact ok hc
    · rintro e w' ⟨h1, h2, h3, h4, -⟩; exact ⟨h1, h2, h3, h4⟩
  cases m with
  | L => exact elem .L (by simp) rfl
  | R => exact elem .R (by simp) rfl
  | VL => exact elem .VL (by simp) rfl
  | VR => exact elem .VR (by simp) rfl
  | C =>
    refine Ends.of_wp (wp_convertConstruct (.conv k v) trivial hk hf) ?_ ?_
    · rintro _ w' ⟨id', v', hid, hv, hc, -⟩
      cases hv
      exact ok hc
    · rintro e w' ⟨h1, h2, h3, -, -, -, h4⟩
      exact ⟨h1, h2, h3, funext h4⟩

end

/-! ### Non-vacuity -/

/-- C24 in the heap-backup state. -/
example := C24_self_copy_assignment exBackup_good exBackup_facts.2.1
example := C24_self_move_assignment exBackup_good exBackup_facts.2.1
example := C24_self_swap exBackup_good exBackup_facts.2.1

/-- Two variants that hold the same type in the heap-backup state. -/
def exBoth : Cfg Nat := exCfg [tThrowing, tThrowing] [8, 11]

def exBothSt : World Nat := stateAfter exBoth
  [.constructC 0 0 5, .constructC 1 0 6, .constructC 2 1 7, .copyAssign 0 2, .copyAssign 1 2]

theorem exBoth_sane : Sane exBoth where
  blank := exTwo_sane.blank
  copyMove := exTwo_sane.copyMove
  fallback := exTwo_sane.fallback

theorem exBothSt_good : Good exBoth exBothSt := stateAfter_good exBoth_sane (by decide +kernel)

theorem exBothSt_facts : exBothSt.holds 0 0 5 ∧ exBothSt.holds 1 0 6 ∧ exBothSt.backedUp 0 = true ∧
    exBothSt.backedUp 1 = true := by unfold World.holds; decide +kernel

/-- C42, same type and same storage state, both in the heap-backup state. -/
example := C42_copy_assignment_same_state exBothSt_good exBothSt_facts.1 exBothSt_facts.2.1
  (exBothSt_facts.2.2.1.trans exBothSt_facts.2.2.2.symm)
example := C42_move_assignment_same_state exBothSt_good (by decide) exBothSt_facts.1 exBothSt_facts.2.1
  (exBothSt_facts.2.2.1.trans exBothSt_facts.2.2.2.symm)

/-- C42, type change of a variant in the heap-backup state. -/
example : ∃ w' id, copyAssign exTwo (.user 0) (.user 1) exBackup = .ok () w' ∧ exBackup.objOf 0 = some id ∧
    w'.objs id = none := by
  obtain ⟨w', h⟩ := of_endsOk (m := copyAssign exTwo (.user 0) (.user 1)) (w := exBackup) (by decide +kernel)
  have hi : (exBackup.objOf 0).isSome = true := by decide +kernel
  obtain ⟨id, hid⟩ := Option.isSome_iff_exists.mp hi
  exact ⟨w', id, h, hid, C42_type_change_destroys exTwo_blankOk exBackup_good exBackup_facts.2.1 exBackup_facts1
    (by decide) hid (Or.inl h)⟩

/-- C42, construction. -/
example := C42_converting_construction (C := exTwo) exBackup_good .R (k := 1) (v := 3) (by decide) exBackup_facts.1

/-- C24: each is the element's own operation on the object in the heap backup. -/
example : ∃ id, copyAssign exTwo (.user 0) (.user 0) exBackup = assignObj exTwo 0 id id exBackup ∧
    moveAssign exTwo (.user 0) (.user 0) exBackup = moveAssignObj exTwo 0 id id exBackup ∧
    swap exTwo (.user 0) (.user 0) exBackup = swapObj exTwo 0 id id exBackup := by
  have : (exBackup.objOf 0).isSome = true := by decide +kernel
  obtain ⟨id, hi⟩ := Option.isSome_iff_exists.mp this
  exact ⟨id, C24_self_copy_assignment_runs exBackup_good exBackup_facts.2.1 hi,
    C24_self_move_assignment_runs exBackup_good exBackup_facts.2.1 hi, C24_self_swap_runs exBackup_good exBackup_facts.2.1 hi⟩

/-- C42: both variants in the heap-backup state. -/
example : ∃ ix iy, copyAssign exBoth (.user 0) (.user 1) exBothSt = assignObj exBoth 0 ix iy exBothSt ∧
    moveAssign exBoth (.user 0) (.user 1) exBothSt = moveAssignObj exBoth 0 ix iy exBothSt := by
  have h0 : (exBothSt.objOf 0).isSome = true := by decide +kernel
  have h1 : (exBothSt.objOf 1).isSome = true := by decide +kernel
  have hb : exBothSt.backedUp 0 = exBothSt.backedUp 1 := by decide +kernel
  obtain ⟨ix, hx⟩ := Option.isSome_iff_exists.mp h0
  obtain ⟨iy, hy⟩ := Option.isSome_iff_exists.mp h1
  exact ⟨ix, iy, C42_copy_assignment_same_state_runs exBothSt_good exBothSt_facts.1 exBothSt_facts.2.1 hb hx hy,
    C42_move_assignment_same_state_runs exBothSt_good exBothSt_facts.1 exBothSt_facts.2.1 hb hx hy⟩

end BVariant
