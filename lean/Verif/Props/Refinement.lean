/-
C44: programs over variants behave like programs over a plain store of (type, value) pairs.
-/
import Verif.Spec.Store
import Verif.Props.Observe
import Verif.Props.ContentRef

namespace BVariant

/-- The abstraction: type and value of the content of each variable. -/
def World.store {V : Type} (w : World V) : Store V := fun x => w.content (.user x)

section
variable {V : Type} {C : Cfg V} {w w' : World V}

theorem store_upd {x : Nat} {r : Option (TyIx × V)} (h : Rest w w' [x]) (hx : w'.content (.user x) = r) :
    w'.store = upd w.store x r := by
  funext z
  by_cases hz : z = x
  · subst hz; simp [World.store, hx]
  · simp only [World.store, upd_ne _ _ hz]
    exact (h z (by simpa using hz)).content

theorem store_upd2 {x y : Nat} {a b : Option (TyIx × V)} (h : Rest w w' [x, y]) (hxy : x = y → a = b)
    (hx : w'.content (.user x) = a) (hy : w'.content (.user y) = b) : w'.store = upd (upd w.store y b) x a := by
  funext z
  by_cases hz : z = x
  · subst hz; simp [World.store, hx]
  · rw [upd_ne _ _ hz]
    by_cases hz' : z = y
    · subst hz'; simp [World.store, hy]
    · rw [upd_ne _ _ hz']
      exact (h z (by simp [hz, hz'])).content

theorem store_same (hv : w'.vars = w.vars) (ho : w'.objs = w.objs) : w'.store = w.store := by
  funext z; simp [World.store, World.content, hv, ho]

theorem store_none (hg : Good C w) (x : Nat) : w.store x = none ↔ w.vars (.user x) = none := by
  constructor
  · intro h
    cases hs : w.vars (.user x) with
    | none => rfl
    | some s =>
      obtain ⟨id, k, v, ho⟩ := hg.wf.owns hs
      rw [World.store, ho.content] at h; cases h
  · intro h; simp [World.store, World.content, h]

theorem valid_iff (hg : Good C w) (c : Cmd V) : c.valid C w = true ↔ c.validIn C w.store := by
  have h1 : ∀ x, (w.vars (.user x)).isNone = true ↔ w.store x = none := by
    intro x; rw [store_none hg]; simp
  have h2 : ∀ x, (w.vars (.user x)).isSome = true ↔ w.store x ≠ none := by
    intro x; rw [Ne, store_none hg]; simp [Option.isSome_iff_ne_none]
  cases c <;> simp only [Cmd.valid, Cmd.validIn, Bool.and_eq_true, decide_eq_true_eq, h1, h2]

theorem holds_of_valid (hg : Good C w) {x : Nat} (h : (w.vars (.user x)).isSome = true) :
    ∃ k v, w.holds x k v := by
  obtain ⟨s, id, k, v, ho⟩ := hg.owns h
  exact ⟨k, v, ho.holds⟩

theorem valueAssign_done (hl : C.ops.Lawful) (hb : BlankOk C) (hg : Good C w) (m : Mode) {x : Nat} {k : TyIx} {v : V}
    (hv : (w.vars (.user x)).isSome = true) (hk : k < C.n) (h : (valueAssign m x k v).code C w = .ok () w')
    (hR : Rest w w' [x]) : w'.store = upd w.store x (some (k, v)) := by
  obtain ⟨kx, vx, hx⟩ := holds_of_valid hg hv
  exact store_upd hR (C22_value_assignment_value hl hb hg m hk hx h)

/-- A statement that succeeds does what it does to a plain store. -/
theorem done_refines (hl : C.ops.Lawful) (hb : BlankOk C) (hg : Good C w) (c : Cmd V) (hv : c.valid C w = true)
    (hz : c.readsBackup w = false) (h : c.code C w = .ok () w') : c.doneBy C w.store w'.store := by
  have hrest : Rest w w' c.names := (wp_ok (wp_step_gen hb hg c hv hz) h).2
  cases c with
  | defaultConstruct x =>
    simp only [Cmd.valid, Bool.and_eq_true, decide_eq_true_eq, Option.isNone_iff_eq_none] at hv
    rcases C45_default_construction hg hv.2 hv.1 with ⟨a, w1, h1, ⟨id, -, h2, h3⟩, -⟩ | ⟨e, w1, h1, -⟩
    · rw [show defaultConstruct C (.user x) w = _ from h] at h1; cases h1
      exact store_upd hrest (by rw [World.content, h2]; simp [VarSt.contentId, h3])
    · rw [show defaultConstruct C (.user x) w = _ from h] at h1; cases h1
  | copyConstruct x y =>
    simp only [Cmd.valid, Bool.and_eq_true, Option.isNone_iff_eq_none] at hv
    obtain ⟨k, v, hy⟩ := holds_of_valid hg hv.2
    rcases C07_copy_construction hg hv.1 hy with ⟨a, w1, h1, ⟨id, -, h2, h3⟩, -, h4, -⟩ | ⟨e, w1, h1, -⟩
    · rw [show copyConstruct C (.user x) (.user y) w = _ from h] at h1; cases h1
      refine store_upd h4 ?_
      rw [World.content, h2]; simp [VarSt.contentId, h3, World.store, show w.content (.user y) = _ from hy, hl.copy_eq]
    · rw [show copyConstruct C (.user x) (.user y) w = _ from h] at h1; cases h1
  | moveConstruct x y =>
    simp only [Cmd.valid, Bool.and_eq_true, Option.isNone_iff_eq_none] at hv
    obtain ⟨k, v, hy⟩ := holds_of_valid hg hv.2
    have hxy : x ≠ y := by rintro rfl; rw [hv.1] at hv; cases hv.2
    rcases C08_move_construction hg hv.1 hy with ⟨a, w1, h1, ⟨id, -, h2, h3⟩, -, h4, -, h5, -⟩ | ⟨e, w1, h1, -⟩
    · rw [show moveConstruct C (.user x) (.user y) w = _ from h] at h1; cases h1
      refine ⟨k, v, C.ops.movedFrom k v, hy, store_upd2 h4 (fun he => absurd he hxy) ?_ h5⟩
      rw [World.content, h2]; simp [VarSt.contentId, h3, hl.move_eq]
    · rw [show moveConstruct C (.user x) (.user y) w = _ from h] at h1; cases h1
  | constructL x k v =>
    simp only [Cmd.valid, Bool.and_eq_true, decide_eq_true_eq, Option.isNone_iff_eq_none] at hv
    obtain ⟨id, h1, -⟩ := wp_ok (wp_construct_elem .L (by decide) (.user x) k v hg.wf.toFresh hv.2) h
    exact store_upd hrest (by rw [h1.owns.content]; simp [Mode.built, hl.copy_eq])
  | constructR x k v =>
    simp only [Cmd.valid, Bool.and_eq_true, decide_eq_true_eq, Option.isNone_iff_eq_none] at hv
    obtain ⟨id, h1, -⟩ := wp_ok (wp_construct_elem .R (by decide) (.user x) k v hg.wf.toFresh hv.2) h
    exact store_upd hrest (by rw [h1.owns.content]; simp [Mode.built, hl.move_eq])
  | constructC x k v =>
    simp only [Cmd.valid, Bool.and_eq_true, decide_eq_true_eq, Option.isNone_iff_eq_none] at hv
    obtain ⟨id, v', -, h2, h1, -⟩ := wp_ok (wp_convertConstruct (.conv k v) trivial hv.2 hg.wf.toFresh) h
    cases h2
    exact store_upd hrest (by rw [h1.owns.content]; simp [Src.ty, hl.move_eq])
  | destroy x =>
    simp only [Cmd.valid] at hv
    obtain ⟨s, id, k, v, ho⟩ := hg.owns hv
    have := wp_ok (wp_destroyVar_intro (Q := fun _ w' => w'.vars (.user x) = none) (E := fun _ _ => False) ho hg.wf.flat
      (by simp)) h
    exact store_upd hrest (by simp [World.content, this])
  | copyAssign x y =>
    simp only [Cmd.valid, Bool.and_eq_true] at hv
    obtain ⟨kx, vx, hx⟩ := holds_of_valid hg hv.1
    obtain ⟨ky, vy, hy⟩ := holds_of_valid hg hv.2
    obtain ⟨-, -, h1, -⟩ := C09_copy_assignment_partial hb hg hx hy (Or.inr hz) h
    refine store_upd h1 ?_
    rw [show w'.content (.user x) = _ from C09_copy_assignment_value_partial hl hb hg hx hy (Or.inr hz) h]
    exact hy.symm
  | moveAssign x y =>
    simp only [Cmd.valid, Bool.and_eq_true] at hv
    obtain ⟨kx, vx, hx⟩ := holds_of_valid hg hv.1
    obtain ⟨ky, vy, hy⟩ := holds_of_valid hg hv.2
    by_cases hxy : x = y
    · subst hxy
      simp only [Cmd.doneBy, if_true]
      obtain ⟨sx, ix, hxo⟩ := hg.holds hx
      rcases moveAssign_ok hb hg hxo hxo (Or.inr hz) h with ⟨-, hr, -⟩ | ⟨hne, -⟩ | ⟨hne, -⟩
      · refine ⟨kx, vx, C.ops.selfMove kx vx, hx, store_upd (fun z hz => hrest z ?_) hr.owns.content⟩
        simpa [Cmd.names] using hz
      · exact absurd rfl hne
      · exact absurd rfl hne
    · simp only [Cmd.doneBy, hxy, if_false]
      obtain ⟨-, -, h1, ⟨-, v', h2⟩, -⟩ := C10_move_assignment_partial hb hg hxy hx hy (Or.inr hz) h
      exact ⟨ky, vy, v', hy, store_upd2 h1 (fun he => absurd he hxy)
        (C10_move_assignment_value_partial hl hb hg hxy hx hy (Or.inr hz) h) h2⟩
  | assignL x k v =>
    simp only [Cmd.valid, Bool.and_eq_true, decide_eq_true_eq] at hv
    exact valueAssign_done hl hb hg .L hv.1 hv.2 h hrest
  | assignR x k v =>
    simp only [Cmd.valid, Bool.and_eq_true, decide_eq_true_eq] at hv
    exact valueAssign_done hl hb hg .R hv.1 hv.2 h hrest
  | assignC x k v =>
    simp only [Cmd.valid, Bool.and_eq_true, decide_eq_true_eq] at hv
    exact valueAssign_done hl hb hg .C hv.1 hv.2 h hrest
  | assignVL x k v =>
    simp only [Cmd.valid, Bool.and_eq_true, decide_eq_true_eq] at hv
    exact valueAssign_done hl hb hg .VL hv.1 hv.2 h hrest
  | assignVR x k v =>
    simp only [Cmd.valid, Bool.and_eq_true, decide_eq_true_eq] at hv
    exact valueAssign_done hl hb hg .VR hv.1 hv.2 h hrest
  | swap x y =>
    simp only [Cmd.valid, Bool.and_eq_true] at hv
    obtain ⟨kx, vx, hx⟩ := holds_of_valid hg hv.1
    obtain ⟨ky, vy, hy⟩ := holds_of_valid hg hv.2
    have hx' : w.store x = some (kx, vx) := hx
    have hy' : w.store y = some (ky, vy) := hy
    by_cases hxy : x = y
    · subst hxy
      obtain ⟨-, -, h1, h2⟩ := C20_self_swap hb hg hx h
      simp only [Cmd.doneBy]
      rw [store_upd h2 (h1 hl), hx']
      funext z; by_cases hz : z = x <;> simp [hz]
    · obtain ⟨h1, h2⟩ := C20_swap_exchanges_values_partial hl hb hg hxy hx hy (Or.inr hz) h
      simp only [Cmd.doneBy, hx', hy']
      exact store_upd2 (fun z hz => hrest z (by simp [Cmd.names] at hz ⊢; exact ⟨hz.2, hz.1⟩)) (fun he => absurd he.symm hxy) h2 h1
  | mutate x v =>
    simp only [Cmd.valid] at hv
    obtain ⟨s, id, k, v0, ho⟩ := hg.owns hv
    refine ⟨k, v0, ho.content, store_upd hrest ?_⟩
    have h1 : applyVisitor C (.user x) (fun ty id => M.modify (setVal ty id v)) w = .ok () w' := h
    rw [ho.apply] at h1
    cases h1
    simp [World.content, setVal, ho.var, ho.rep.contentId]
  | constructGet rv x y =>
    simp only [Cmd.valid, Bool.and_eq_true, Option.isNone_iff_eq_none] at hv
    obtain ⟨k, v, hy⟩ := holds_of_valid hg hv.2
    have hxy : x ≠ y := by rintro rfl; rw [hv.1] at hv; cases hv.2
    rcases C53_construction (rv := rv) hg hv.1 hy with ⟨a, w1, h1, ⟨id, -, h2, h3⟩, -, ⟨-, -, h4⟩, h5, -⟩ | ⟨e, w1, h1, -⟩
    · rw [h] at h1; cases h1
      have hcx : w'.content (.user x) = some (k, v) := by
        rw [World.content, h2]; simp [VarSt.contentId, h3, hl.copy_eq, hl.move_eq]
      cases rv with
      | false =>
        simp only [Cmd.doneBy]
        rw [store_upd2 h5 (fun he => absurd he hxy) hcx h4, show w.store y = some (k, v) from hy]
        funext z; by_cases hz : z = x <;> simp [upd, hz]
        rintro rfl; exact hy.symm
      | true => exact ⟨k, v, _, hy, store_upd2 h5 (fun he => absurd he hxy) hcx h4⟩
    · rw [h] at h1; cases h1
  | assignGet rv x y =>
    simp only [Cmd.valid, Bool.and_eq_true] at hv
    obtain ⟨kx, vx, hx⟩ := holds_of_valid hg hv.1
    obtain ⟨ky, vy, hy⟩ := holds_of_valid hg hv.2
    by_cases hself : x = y ∧ rv = true
    · obtain ⟨rfl, rfl⟩ := hself
      simp only [Cmd.doneBy, if_true]
      rcases C53_self_assignment (rv := true) hb hg hx with ⟨a, w1, h1, -, -, h2, -, h3, -⟩ | ⟨e, w1, h1, -⟩
      · rw [h] at h1; cases h1
        exact ⟨kx, vx, _, hx, store_upd h3 h2⟩
      · rw [h] at h1; cases h1
    · obtain ⟨h1, h2, m, h3⟩ := C53_assignment_value hl hb hg hx hy (fun he => by
        cases rv with
        | false => rfl
        | true => exact absurd ⟨he, rfl⟩ hself) h
      cases rv with
      | false =>
        have h2 := h2 rfl
        simp only [Cmd.doneBy]
        rw [store_upd2 hrest (fun _ => rfl) h1 h2, show w.store y = some (ky, vy) from hy]
        funext z; by_cases hz : z = x <;> simp [upd, hz]
        rintro rfl; exact hy.symm
      | true =>
        have hxy : x ≠ y := fun he => hself ⟨he, rfl⟩
        simp only [Cmd.doneBy, hxy, if_false]
        exact ⟨ky, vy, m, hy, store_upd2 hrest (fun he => absurd he hxy) h1 h3⟩

theorem documented_same {kx k : TyIx} {vx v' : V} (h : k = kx) : Documented C (kx, vx) k (kx, v') :=
  Or.inr (Or.inl ⟨h, rfl⟩)

theorem Leftover.documented (hl : C.ops.Lawful) {sx s' : VarSt} {ix id' : ObjId} {kx k k' : TyIx} {vx v' : V}
    (h : Leftover C sx ix kx vx k s' id' k' v') (hk : k = kx → C.hasFallback = false) : Documented C (kx, vx) k (k', v') := by
  cases h with
  | same => exact Or.inl rfl
  | restored => exact Or.inl (by simp [hl.move_eq])
  | backup => exact Or.inl (by simp [hl.copy_eq])
  | fallback fb _ _ hfb =>
    by_cases he : k = kx
    · have := hk he; simp [Cfg.hasFallback, hfb] at this
    · exact Or.inr (Or.inr ⟨he, _, hfb, rfl⟩)

/-- Two variants that hold the same type and have different records: there is no fallback type. -/
theorem noFallback_of_records {sx sy : VarSt} {ix iy : ObjId} {k : TyIx} {vx vy : V} {x y : VarId}
    (hx : Owns C w x sx ix k vx) (hy : Owns C w y sy iy k vy) (h : sx.which_ ≠ sy.which_) : C.hasFallback = false := by
  obtain ⟨-, hx, -⟩ := hx
  obtain ⟨-, hy, -⟩ := hy
  cases hx with
  | inPlace =>
    cases hy with
    | inPlace => exact absurd rfl h
    | inBackup _ _ _ hm => exact hm.1
  | inBackup _ _ _ hm => exact hm.1

theorem valueAssign_failed (hl : C.ops.Lawful) (hs : BlankOk C) (hg : Good C w) (m : Mode) {x : Nat} {k : TyIx} {v : V}
    (hv : (w.vars (.user x)).isSome = true) (hk : k < C.n) {e : Exc} (h : (valueAssign m x k v).code C w = .exc e w')
    (hR : Rest w w' [x]) : (∃ old r, w.store x = some old ∧ Documented C old k r ∧ w'.store = upd w.store x (some r)) ∨
      w'.broken C (.user x) := by
  obtain ⟨sx, ix, kx, vx, hxo⟩ := hg.owns hv
  have hexc : ValExc C w w' (.user x) sx ix kx vx m k v e := by
    cases m with
    | L => exact (wp_exc (wp_assign_elem hs .L (by decide) k v hxo hg.wf.toFresh hk (by simp) (hg.noTmp 0)) h).2
    | R => exact (wp_exc (wp_assign_elem hs .R (by decide) k v hxo hg.wf.toFresh hk (by simp) (hg.noTmp 0)) h).2
    | VL => exact (wp_exc (wp_assign_elem hs .VL (by decide) k v hxo hg.wf.toFresh hk (by simp) (hg.noTmp 0)) h).2
    | VR => exact (wp_exc (wp_assign_elem hs .VR (by decide) k v hxo hg.wf.toFresh hk (by simp) (hg.noTmp 0)) h).2
    | C => exact (wp_exc (wp_assign_conv hs k v hxo hg.wf.toFresh hk (by simp) (hg.noTmp 0)) h).2
  cases hexc with
  | direct _ hk' _ hr => exact .inl ⟨(kx, vx), _, hxo.content, documented_same hk'.symm, store_upd hR hr.owns.content⟩
  | convert _ _ hr => exact .inl ⟨(kx, vx), _, hxo.content, Or.inl rfl, store_upd hR hr.owns.content⟩
  | sameType _ hk' _ hr =>
    have : kx = k := by
      have := hxo.rep
      cases this with
      | inPlace => simpa using Int.ofNat.inj hk'
      | inBackup => simp at hk'; omega
    exact .inl ⟨(kx, vx), _, hxo.content, documented_same this.symm, store_upd hR hr.owns.content⟩
  | newType _ hk' _ h0 =>
    rcases h0.left with hbr | ⟨s', id', k', v', hr, hlo⟩
    · exact .inr hbr
    refine .inl ⟨(kx, vx), (k', v'), hxo.content, hlo.documented hl ?_, store_upd hR hr.owns.content⟩
    rintro rfl
    have := hxo.rep
    cases this with
    | inPlace => exact absurd rfl hk'
    | inBackup _ _ _ hm => exact hm.1

/-- A statement that throws leaves one of the documented states, or a variant that is broken. -/
theorem failed_refines_gen (hl : C.ops.Lawful) (hs : BlankOk C) (hg : Good C w) (c : Cmd V) (hv : c.valid C w = true)
    (hz : c.readsBackup w = false) {e : Exc} (h : c.code C w = .exc e w') :
    c.failedBy C w.store w'.store ∨ ∃ x ∈ c.names, w'.broken C (.user x) := by
  have hrest : Rest w w' c.names := (wp_exc (wp_step_gen hs hg c hv hz) h).2.1
  cases c with
  | defaultConstruct x =>
    simp only [Cmd.valid, Bool.and_eq_true, decide_eq_true_eq, Option.isNone_iff_eq_none] at hv
    rcases C45_default_construction hg hv.2 hv.1 with ⟨a, w1, h1, -⟩ | ⟨e, w1, h1, -, -, -, h2, h3, -⟩
    · rw [show defaultConstruct C (.user x) w = _ from h] at h1; cases h1
    · rw [show defaultConstruct C (.user x) w = _ from h] at h1; cases h1
      exact .inl (store_same h2 h3)
  | copyConstruct x y =>
    simp only [Cmd.valid, Bool.and_eq_true, Option.isNone_iff_eq_none] at hv
    obtain ⟨k, v, hy⟩ := holds_of_valid hg hv.2
    rcases C07_copy_construction hg hv.1 hy with ⟨a, w1, h1, -⟩ | ⟨e, w1, h1, -, -, h2, h3, -⟩
    · rw [show copyConstruct C (.user x) (.user y) w = _ from h] at h1; cases h1
    · rw [show copyConstruct C (.user x) (.user y) w = _ from h] at h1; cases h1
      exact .inl (store_same h2 h3)
  | moveConstruct x y =>
    simp only [Cmd.valid, Bool.and_eq_true, Option.isNone_iff_eq_none] at hv
    obtain ⟨k, v, hy⟩ := holds_of_valid hg hv.2
    rcases C08_move_construction hg hv.1 hy with ⟨a, w1, h1, -⟩ | ⟨e, w1, h1, -, -, -, h2, h3, -⟩
    · rw [show moveConstruct C (.user x) (.user y) w = _ from h] at h1; cases h1
    · rw [show moveConstruct C (.user x) (.user y) w = _ from h] at h1; cases h1
      exact .inl ⟨k, v, C.ops.moveFailSrc k v, hy, store_upd h2 h3⟩
  | constructL x k v =>
    simp only [Cmd.valid, Bool.and_eq_true, decide_eq_true_eq, Option.isNone_iff_eq_none] at hv
    obtain ⟨-, -, h1, h2, -⟩ := wp_exc (wp_construct_elem .L (by decide) (.user x) k v hg.wf.toFresh hv.2) h
    exact .inl (store_same h1 h2)
  | constructR x k v =>
    simp only [Cmd.valid, Bool.and_eq_true, decide_eq_true_eq, Option.isNone_iff_eq_none] at hv
    obtain ⟨-, -, h1, h2, -⟩ := wp_exc (wp_construct_elem .R (by decide) (.user x) k v hg.wf.toFresh hv.2) h
    exact .inl (store_same h1 h2)
  | constructC x k v =>
    simp only [Cmd.valid, Bool.and_eq_true, decide_eq_true_eq, Option.isNone_iff_eq_none] at hv
    obtain ⟨-, -, h1, -, -, -, h2⟩ := wp_exc (wp_convertConstruct (.conv k v) trivial hv.2 hg.wf.toFresh) h
    exact .inl (store_same h1 (funext h2))
  | destroy x =>
    simp only [Cmd.valid] at hv
    obtain ⟨s, id, k, v, ho⟩ := hg.owns hv
    exact .inl (wp_exc (wp_destroyVar_intro (Q := fun _ _ => True) (E := fun _ _ => False) ho hg.wf.flat trivial) h)
  | copyAssign x y =>
    simp only [Cmd.valid, Bool.and_eq_true] at hv
    obtain ⟨sx, ix, kx, vx, hxo⟩ := hg.owns hv.1
    obtain ⟨sy, iy, ky, vy, hyo⟩ := hg.owns hv.2
    have hR : Rest w w' [x] := by
      intro z hzx
      rcases wp_exc (wp_copyAssign_gen hs hxo hyo (hg.wf.distinct hxo hyo) hg.wf.toFresh
        (noHazard_of hxo.var hyo.var hz)) h with ⟨⟨-, -, -, -, hr, -⟩ | ⟨-, -, hr⟩, -⟩
      · exact hr.unchanged hg.wf hxo (user_ne hzx) (fun _ _ _ _ => rfl)
      · exact hr.unchanged hg.wf hxo (user_ne hzx) (fun _ _ _ _ => rfl)
    rcases (wp_exc (wp_copyAssign_gen hs hxo hyo (hg.wf.distinct hxo hyo) hg.wf.toFresh (noHazard_of hxo.var hyo.var hz)) h).1 with
      ⟨-, hk, -, -, hr, -⟩ | ⟨hne, -, h0⟩
    · exact .inl ⟨_, _, _, _, hxo.content, hyo.content, documented_same hk.symm, store_upd hR hr.owns.content⟩
    · rcases h0.left with hbr | ⟨s', id', k', v', hr, hlo⟩
      · exact .inr ⟨x, by simp [Cmd.names], hbr⟩
      refine .inl ⟨_, _, _, _, hxo.content, hyo.content, hlo.documented hl ?_, store_upd hR hr.owns.content⟩
      rintro rfl; exact noFallback_of_records hxo hyo hne
  | moveAssign x y =>
    simp only [Cmd.valid, Bool.and_eq_true] at hv
    obtain ⟨sx, ix, kx, vx, hxo⟩ := hg.owns hv.1
    obtain ⟨sy, iy, ky, vy, hyo⟩ := hg.owns hv.2
    rcases (wp_exc (wp_moveAssign_gen hs hxo hyo (hg.wf.distinct hxo hyo) hg.wf.toFresh (noHazard_of hxo.var hyo.var hz)) h).2.1 with
      ⟨he, -, -, -, hr, -⟩ | ⟨hxy, -, hk, -, -, -, hr, -⟩ | ⟨hxy, hne, -, h0⟩
    · cases he
      have h1 := hxo.content; rw [hyo.content] at h1; cases h1
      exact .inl ⟨_, _, _, _, _, hxo.content, hyo.content, documented_same rfl,
        store_upd2 hrest (fun _ => rfl) hr.owns.content hr.owns.content⟩
    · have hy' := hr.owns_other hg.wf hxo hyo (fun he => hxy he.symm) (upd_same _ _ _)
      exact .inl ⟨_, _, _, _, _, hxo.content, hyo.content, documented_same hk.symm,
        store_upd2 hrest (fun he => absurd (congrArg VarId.user he) hxy) hr.owns.content hy'.content⟩
    · rcases h0.left with hbr | ⟨s', id', k', v', hr, hlo⟩
      · exact .inr ⟨x, by simp [Cmd.names], hbr⟩
      have hy' := hr.owns_other hg.wf hxo hyo (fun he => hxy he.symm) (upd_same _ _ _)
      refine .inl ⟨_, _, _, _, _, hxo.content, hyo.content, hlo.documented hl ?_,
        store_upd2 hrest (fun he => absurd (congrArg VarId.user he) hxy) hr.owns.content hy'.content⟩
      rintro rfl; exact noFallback_of_records hxo hyo hne
  | assignL x k v =>
    simp only [Cmd.valid, Bool.and_eq_true, decide_eq_true_eq] at hv
    exact (valueAssign_failed hl hs hg .L hv.1 hv.2 h hrest).imp id fun hb => ⟨x, by simp [Cmd.names], hb⟩
  | assignR x k v =>
    simp only [Cmd.valid, Bool.and_eq_true, decide_eq_true_eq] at hv
    exact (valueAssign_failed hl hs hg .R hv.1 hv.2 h hrest).imp id fun hb => ⟨x, by simp [Cmd.names], hb⟩
  | assignC x k v =>
    simp only [Cmd.valid, Bool.and_eq_true, decide_eq_true_eq] at hv
    exact (valueAssign_failed hl hs hg .C hv.1 hv.2 h hrest).imp id fun hb => ⟨x, by simp [Cmd.names], hb⟩
  | assignVL x k v =>
    simp only [Cmd.valid, Bool.and_eq_true, decide_eq_true_eq] at hv
    exact (valueAssign_failed hl hs hg .VL hv.1 hv.2 h hrest).imp id fun hb => ⟨x, by simp [Cmd.names], hb⟩
  | assignVR x k v =>
    simp only [Cmd.valid, Bool.and_eq_true, decide_eq_true_eq] at hv
    exact (valueAssign_failed hl hs hg .VR hv.1 hv.2 h hrest).imp id fun hb => ⟨x, by simp [Cmd.names], hb⟩
  | swap x y =>
    simp only [Cmd.valid, Bool.and_eq_true] at hv
    obtain ⟨sx, ix, kx, vx, hxo⟩ := hg.owns hv.1
    obtain ⟨sy, iy, ky, vy, hyo⟩ := hg.owns hv.2
    rcases (wp_exc (wp_swap_gen hs hg.wf hxo hyo (by simp) (by simp) (hg.noTmp 0) (swapHazard_of hxo hyo hz)) h).2.2.2 with
      ⟨-, hse⟩ | hbr | hbr
    rotate_left
    · exact .inr ⟨x, by simp [Cmd.names], hbr⟩
    · exact .inr ⟨y, by simp [Cmd.names], hbr⟩
    obtain ⟨⟨k1, v1, h1, h2⟩, ⟨k3, v3, h3, h4⟩⟩ := swapExc_holds hg hxo hyo hse
    refine .inl ⟨(kx, vx), (ky, vy), (k1, v1), (k3, v3), hxo.content, hyo.content, h2, h4,
      store_upd2 (fun z hz => hrest z (by simp [Cmd.names] at hz ⊢; exact ⟨hz.2, hz.1⟩)) ?_ h3 h1⟩
    rintro rfl; exact h3.symm.trans h1
  | mutate x v =>
    simp only [Cmd.valid] at hv
    obtain ⟨s, id, k, v0, ho⟩ := hg.owns hv
    have h1 : applyVisitor C (.user x) (fun ty id => M.modify (setVal ty id v)) w = .exc e w' := h
    rw [ho.apply] at h1
    cases h1
  | constructGet rv x y =>
    simp only [Cmd.valid, Bool.and_eq_true, Option.isNone_iff_eq_none] at hv
    obtain ⟨k, v, hy⟩ := holds_of_valid hg hv.2
    rcases C53_construction (rv := rv) hg hv.1 hy with ⟨a, w1, h1, -⟩ | ⟨e, w1, h1, -, -, -, ⟨-, -, h3⟩, h2, -⟩
    · rw [h] at h1; cases h1
    · rw [h] at h1; cases h1
      cases rv with
      | false =>
        refine .inl ?_
        simp only [Cmd.failedBy]
        rw [store_upd h2 h3]
        funext z; simp only [upd]; split
        · rename_i hz; rw [hz]; exact hy.symm
        · rfl
      | true => exact .inl ⟨k, v, _, hy, store_upd h2 h3⟩
  | assignGet rv x y =>
    simp only [Cmd.valid, Bool.and_eq_true] at hv
    obtain ⟨sx, ix, kx, vx, hxo⟩ := hg.owns hv.1
    obtain ⟨sy, iy, ky, vy, hyo⟩ := hg.owns hv.2
    have fin : ∀ {a : TyIx × V} {m : V}, w'.content (.user x) = some a → w'.content (.user y) = some (ky, if rv then m else vy) →
        (x ≠ y) → Documented C (kx, vx) ky a → (Cmd.assignGet rv x y).failedBy C w.store w'.store := by
      intro a m h1 h2 hxy hd
      have hst := store_upd2 hrest (fun he => absurd he hxy) h1 h2
      cases rv with
      | false =>
        refine ⟨_, _, _, _, hxo.content, hyo.content, hd, ?_⟩
        rw [hst]
        congr 1
        funext z; simp only [upd]; split
        · rename_i hz; rw [hz]; exact hyo.content.symm
        · rfl
      | true => exact ⟨_, _, _, _, _, hxo.content, hyo.content, hd, hst⟩
    have hself : x = y → kx = ky ∧ vx = vy := by
      rintro rfl
      have := hxo.content; rw [hyo.content] at this; cases this; exact ⟨rfl, rfl⟩
    rcases (wp_exc (wp_assignGet hs rv hxo hyo (hg.wf.distinct hxo hyo) hg.wf.toFresh (by simp) (hg.noTmp 0)) h).2 with
      ⟨he, hrv, -, hr, -⟩ | ⟨hk, hn, -, hr, -⟩ | ⟨hne, hn, -, hr, -⟩ | ⟨hne, hn, -, h0, -, -⟩
    · cases he; subst hrv
      obtain ⟨rfl, rfl⟩ := hself rfl
      exact .inl ⟨_, _, _, _, _, hxo.content, hyo.content, documented_same rfl,
        store_upd2 hrest (fun _ => rfl) hr.owns.content hr.owns.content⟩
    · by_cases hxy : x = y
      · subst hxy
        cases rv with
        | true => exact absurd rfl (hn rfl)
        | false =>
          obtain ⟨rfl, rfl⟩ := hself rfl
          refine .inl ⟨_, _, _, _, hxo.content, hyo.content, documented_same rfl, store_upd (fun z hz => hrest z ?_) hr.owns.content⟩
          simpa [Cmd.names] using hz
      · exact .inl <| fin hr.owns.content (hr.referredTo hg hxo hyo hxy).2.2 hxy (documented_same hk.symm)
    · have hxy : x ≠ y := fun he => hn (congrArg VarId.user he)
      exact .inl <| fin hr.owns.content (hr.referredTo hg hxo hyo hxy).2.2 hxy (Or.inl rfl)
    · have hxy : x ≠ y := fun he => hn (congrArg VarId.user he)
      rcases h0.left with hbr | ⟨s', id', k', v', hr, hlo⟩
      · exact .inr ⟨x, by simp [Cmd.names], hbr⟩
      exact .inl <| fin hr.owns.content (hr.referredTo hg hxo hyo hxy).2.2 hxy (hlo.documented hl fun he => absurd he.symm hne)

theorem Rep.not_broken {s : VarSt} {id : ObjId} {k : TyIx} (h : Rep C s id k) : ¬ Broken C s := by
  intro hb
  cases h with
  | inPlace =>
    generalize hw : (⟨(k : Int), .obj id⟩ : VarSt) = s at hb
    cases hb with
    | inPlace _ _ _ ht => cases hw; exact ht _ rfl
    | inBackup => injection hw with h1 h2; omega
  | inBackup _ _ hk hm =>
    generalize hw : (⟨-((k : Int) + 1), .holder k (some id)⟩ : VarSt) = s at hb
    cases hb with
    | inPlace => injection hw with h1 h2; omega
    | inBackup k' _ _ hn =>
      injection hw with h1 h2
      obtain rfl : k' = k := by omega
      have hf := hm.1
      cases hf' : C.fallback <;> simp_all [Cfg.hasFallback, Cfg.mayBackup]

theorem Good.not_broken (hg : Good C w) (x : VarId) : ¬ w.broken C x := by
  rintro ⟨s, hs, hb⟩
  obtain ⟨id, k, v, hr, -⟩ := hg.wf.rep _ _ hs
  exact hr.not_broken hb

/-- A statement that throws leaves one of the documented states. -/
theorem failed_refines (hl : C.ops.Lawful) (hs : Sane C) (hg : Good C w) (c : Cmd V) (hv : c.valid C w = true)
    (hz : c.readsBackup w = false) {e : Exc} (h : c.code C w = .exc e w') : c.failedBy C w.store w'.store := by
  rcases failed_refines_gen hl hs.1 hg c hv hz h with h1 | ⟨x, -, hb⟩
  · exact h1
  · exact absurd hb ((wp_exc (wp_step hs hg c hv hz) h).1.not_broken _)

theorem run_refines (hl : C.ops.Lawful) (hs : Sane C) (cs : List (Cmd V)) (w : World V) (hg : Good C w)
    (ha : avoidsBackupReads C cs w = true) :
    ∃ w', run C cs w = some w' ∧ Good C w' ∧ StoreRun C cs w.store (fates C cs w) w'.store := by
  induction cs generalizing w with
  | nil => exact ⟨w, rfl, hg, .nil _⟩
  | cons c cs ih =>
    simp only [run, fates]
    simp only [avoidsBackupReads] at ha
    cases hv : c.valid C w with
    | false =>
      simp only [hv, Bool.false_eq_true, if_false] at ha ⊢
      obtain ⟨w', h1, h2, h3⟩ := ih w hg ha
      exact ⟨w', h1, h2, .skip (fun hv' => by rw [(valid_iff hg c).mpr hv'] at hv; cases hv) h3⟩
    | true =>
      simp only [hv, if_true, Bool.and_eq_true, Bool.not_eq_true'] at ha ⊢
      have hv' := (valid_iff hg c).mp hv
      rcases wp_elim (wp_step hs hg c hv ha.1) with ⟨a, w1, hm, hg', _⟩ | ⟨e, w1, hm, hg', _, _⟩
      · rw [hm] at ha ⊢
        obtain ⟨w', h1, h2, h3⟩ := ih w1 hg' ha.2
        exact ⟨w', h1, h2, .done hv' (done_refines hl hs.1 hg c hv ha.1 hm) h3⟩
      · rw [hm] at ha ⊢
        obtain ⟨w', h1, h2, h3⟩ := ih w1 hg' ha.2
        exact ⟨w', h1, h2, .fail hv' (failed_refines hl hs hg c hv ha.1 hm) h3⟩

/-- C44: any program outside findings F1, F2 and F10, with failures anywhere, runs to its end, and the contents of its
variables evolve as in a run of the same program over a plain store in which the same statements fail.
Missing for the full claim: the runs and configurations of those findings, for which it is false (see the counterexamples
of C01). -/
theorem C44_refinement_partial (hl : C.ops.Lawful) (hs : Sane C) (cs : List (Cmd V))
    (ha : avoidsBackupReads C cs (World.init V) = true) :
    ∃ w, run C cs (World.init V) = some w ∧
      StoreRun C cs (fun _ => none) (fates C cs (World.init V)) (fun x => w.content (.user x)) := by
  obtain ⟨w, h1, -, h3⟩ := run_refines hl hs cs _ good_init ha
  exact ⟨w, h1, h3⟩

/-- The same for configurations in which the backup state cannot arise, and all programs.
Missing for the full claim: finding F10, and the other configurations. -/
theorem C44_refinement_single_storage_partial (hl : C.ops.Lawful) (hb : BlankOk C) (hss : BackupFree C)
    (hf : FallbackBuilt C) (cs : List (Cmd V)) :
    ∃ w, run C cs (World.init V) = some w ∧
      StoreRun C cs (fun _ => none) (fates C cs (World.init V)) (fun x => w.content (.user x)) := by
  have hs : Sane C := ⟨hb, hss.copyMove, hf⟩
  refine C44_refinement_partial hl hs cs ?_
  suffices h : ∀ (cs : List (Cmd V)) (w : World V), Good C w → AllInPlace w → avoidsBackupReads C cs w = true from
    h cs _ good_init allInPlace_init
  intro cs
  induction cs with
  | nil => intros; rfl
  | cons c cs ih =>
    intro w hg ha
    simp only [avoidsBackupReads]
    cases hv : c.valid C w with
    | false => simp only [Bool.false_eq_true, if_false]; exact ih w hg ha
    | true =>
      simp only [if_true, ha.readsBackup c, Bool.not_false, Bool.true_and]
      rcases wp_elim (wp_and (wp_step hs hg c hv (ha.readsBackup c)) (wp_step_inPlace hs hss hg ha c hv)) with
        ⟨a, w1, hm, ⟨hg', -⟩, ha', -⟩ | ⟨e, w1, hm, ⟨hg', -⟩, ha', -⟩
      · rw [hm]; exact ih w1 hg' ha'
      · rw [hm]; exact ih w1 hg' ha'

theorem allInPlace_of_rest {xs : List Nat} (ha : AllInPlace w) (hg' : Good C w') (h : Rest w w' xs)
    (hx : ∀ x, x ∈ xs → w'.backedUp x = false) : AllInPlace w' := by
  intro z s hs
  cases z with
  | user z =>
    by_cases hz : z ∈ xs
    · have := hx z hz
      simp only [World.backedUp, hs, decide_eq_false_iff_not] at this; omega
    · rw [(h z hz).1] at hs; exact ha _ _ hs
  | tmp n => rw [hg'.noTmp n] at hs; cases hs

theorem AllInPlace.not_backedUp (ha : AllInPlace w) (x : Nat) : w.backedUp x = false := by
  unfold World.backedUp
  cases hs : w.vars (.user x) with
  | none => rfl
  | some s => have := ha _ _ hs; simp; omega

theorem backedUp_of_vars {x : Nat} (h : w'.vars (.user x) = w.vars (.user x)) : w'.backedUp x = w.backedUp x := by
  unfold World.backedUp; rw [h]

theorem inPlace_not_backedUp {x : Nat} {k : TyIx} {id : ObjId} (h : w'.inPlace (.user x) k id) : w'.backedUp x = false := by
  simp [World.backedUp, show w'.vars (.user x) = _ from h]

theorem valueAssign_done_inPlace (hb : BlankOk C) (hg : Good C w) (ha : AllInPlace w) (m : Mode) {x : Nat} {k : TyIx} {v : V}
    (hv : (w.vars (.user x)).isSome = true) (hk : k < C.n) (h : (valueAssign m x k v).code C w = .ok () w') :
    w'.backedUp x = false := by
  obtain ⟨kx, vx, hx⟩ := holds_of_valid hg hv
  cases hbk : w'.backedUp x with
  | false => rfl
  | true =>
    have := (C19_value_assignment_in_place_partial hb hg m hk hx h hbk).1
    rw [ha.not_backedUp] at this; cases this

/-- A statement that succeeds creates no backup. -/
theorem done_inPlace (hb : BlankOk C) (hg : Good C w) (ha : AllInPlace w) (c : Cmd V) (hv : c.valid C w = true)
    (h : c.code C w = .ok () w') : AllInPlace w' := by
  have hz := ha.readsBackup c
  obtain ⟨hg', hrest⟩ := wp_ok (wp_step_gen hb hg c hv hz) h
  refine allInPlace_of_rest ha hg' hrest ?_
  cases c with
  | defaultConstruct x =>
    simp only [Cmd.valid, Bool.and_eq_true, decide_eq_true_eq, Option.isNone_iff_eq_none] at hv
    rcases C45_default_construction hg hv.2 hv.1 with ⟨a, w1, h1, ⟨id, -, h2, h3⟩, -⟩ | ⟨e, w1, h1, -⟩
    · rw [show defaultConstruct C (.user x) w = _ from h] at h1; cases h1
      simpa [Cmd.names] using inPlace_not_backedUp h2
    · rw [show defaultConstruct C (.user x) w = _ from h] at h1; cases h1
  | copyConstruct x y =>
    simp only [Cmd.valid, Bool.and_eq_true, Option.isNone_iff_eq_none] at hv
    obtain ⟨k, v, hy⟩ := holds_of_valid hg hv.2
    have hxy : y ≠ x := by rintro rfl; rw [hv.1] at hv; cases hv.2
    rcases C07_copy_construction hg hv.1 hy with ⟨a, w1, h1, ⟨id, -, h2, h3⟩, -, h4, -⟩ | ⟨e, w1, h1, -⟩
    · rw [show copyConstruct C (.user x) (.user y) w = _ from h] at h1; cases h1
      simp only [Cmd.names, List.mem_cons, List.not_mem_nil, or_false, forall_eq_or_imp, forall_eq]
      exact ⟨inPlace_not_backedUp h2, by rw [backedUp_of_vars (h4 y (by simpa using hxy)).1]; exact ha.not_backedUp y⟩
    · rw [show copyConstruct C (.user x) (.user y) w = _ from h] at h1; cases h1
  | moveConstruct x y =>
    simp only [Cmd.valid, Bool.and_eq_true, Option.isNone_iff_eq_none] at hv
    obtain ⟨k, v, hy⟩ := holds_of_valid hg hv.2
    rcases C08_move_construction hg hv.1 hy with ⟨a, w1, h1, ⟨id, -, h2, h3⟩, -, h4, h5, -⟩ | ⟨e, w1, h1, -⟩
    · rw [show moveConstruct C (.user x) (.user y) w = _ from h] at h1; cases h1
      simp only [Cmd.names, List.mem_cons, List.not_mem_nil, or_false, forall_eq_or_imp, forall_eq]
      exact ⟨inPlace_not_backedUp h2, by rw [backedUp_of_vars h5]; exact ha.not_backedUp y⟩
    · rw [show moveConstruct C (.user x) (.user y) w = _ from h] at h1; cases h1
  | constructL x k v =>
    simp only [Cmd.valid, Bool.and_eq_true, decide_eq_true_eq, Option.isNone_iff_eq_none] at hv
    obtain ⟨id, h1, -⟩ := wp_ok (wp_construct_elem .L (by decide) (.user x) k v hg.wf.toFresh hv.2) h
    simpa [Cmd.names] using inPlace_not_backedUp h1.owns.var
  | constructR x k v =>
    simp only [Cmd.valid, Bool.and_eq_true, decide_eq_true_eq, Option.isNone_iff_eq_none] at hv
    obtain ⟨id, h1, -⟩ := wp_ok (wp_construct_elem .R (by decide) (.user x) k v hg.wf.toFresh hv.2) h
    simpa [Cmd.names] using inPlace_not_backedUp h1.owns.var
  | constructC x k v =>
    simp only [Cmd.valid, Bool.and_eq_true, decide_eq_true_eq, Option.isNone_iff_eq_none] at hv
    obtain ⟨id, v', -, h2, h1, -⟩ := wp_ok (wp_convertConstruct (.conv k v) trivial hv.2 hg.wf.toFresh) h
    simpa [Cmd.names] using inPlace_not_backedUp h1.owns.var
  | destroy x =>
    simp only [Cmd.valid] at hv
    obtain ⟨s, id, k, v, ho⟩ := hg.owns hv
    have := wp_ok (wp_destroyVar_intro (Q := fun _ w' => w'.vars (.user x) = none) (E := fun _ _ => False) ho hg.wf.flat
      (by simp)) h
    simp [Cmd.names, World.backedUp, this]
  | copyAssign x y =>
    simp only [Cmd.valid, Bool.and_eq_true] at hv
    obtain ⟨kx, vx, hx⟩ := holds_of_valid hg hv.1
    obtain ⟨ky, vy, hy⟩ := holds_of_valid hg hv.2
    obtain ⟨-, -, h1, -⟩ := C09_copy_assignment_partial hb hg hx hy (Or.inr hz) h
    have hbx : w'.backedUp x = false := by
      cases hbk : w'.backedUp x with
      | false => rfl
      | true =>
        have := (C19_copy_assignment_in_place_partial hb hg hx hy (Or.inr hz) h hbk).1
        rw [ha.not_backedUp] at this; cases this
    simp only [Cmd.names, List.mem_cons, List.not_mem_nil, or_false, forall_eq_or_imp, forall_eq]
    refine ⟨hbx, ?_⟩
    by_cases hxy : y = x
    · rw [hxy]; exact hbx
    · rw [backedUp_of_vars (h1 y (by simpa using hxy)).1]; exact ha.not_backedUp y
  | moveAssign x y =>
    simp only [Cmd.valid, Bool.and_eq_true] at hv
    obtain ⟨kx, vx, hx⟩ := holds_of_valid hg hv.1
    obtain ⟨ky, vy, hy⟩ := holds_of_valid hg hv.2
    have hbx : w'.backedUp x = false := by
      cases hbk : w'.backedUp x with
      | false => rfl
      | true =>
        have := (C19_move_assignment_in_place_partial hb hg hx hy (Or.inr hz) h hbk).1
        rw [ha.not_backedUp] at this; cases this
    simp only [Cmd.names, List.mem_cons, List.not_mem_nil, or_false, forall_eq_or_imp, forall_eq]
    refine ⟨hbx, ?_⟩
    by_cases hxy : x = y
    · rw [← hxy]; exact hbx
    · obtain ⟨-, -, -, ⟨h1, -⟩, -⟩ := C10_move_assignment_partial hb hg hxy hx hy (Or.inr hz) h
      rw [backedUp_of_vars h1]; exact ha.not_backedUp y
  | assignL x k v =>
    simp only [Cmd.valid, Bool.and_eq_true, decide_eq_true_eq] at hv
    simpa [Cmd.names] using valueAssign_done_inPlace hb hg ha .L hv.1 hv.2 h
  | assignR x k v =>
    simp only [Cmd.valid, Bool.and_eq_true, decide_eq_true_eq] at hv
    simpa [Cmd.names] using valueAssign_done_inPlace hb hg ha .R hv.1 hv.2 h
  | assignC x k v =>
    simp only [Cmd.valid, Bool.and_eq_true, decide_eq_true_eq] at hv
    simpa [Cmd.names] using valueAssign_done_inPlace hb hg ha .C hv.1 hv.2 h
  | assignVL x k v =>
    simp only [Cmd.valid, Bool.and_eq_true, decide_eq_true_eq] at hv
    simpa [Cmd.names] using valueAssign_done_inPlace hb hg ha .VL hv.1 hv.2 h
  | assignVR x k v =>
    simp only [Cmd.valid, Bool.and_eq_true, decide_eq_true_eq] at hv
    simpa [Cmd.names] using valueAssign_done_inPlace hb hg ha .VR hv.1 hv.2 h
  | swap x y =>
    simp only [Cmd.valid, Bool.and_eq_true] at hv
    obtain ⟨sx, ix, kx, vx, hxo⟩ := hg.owns hv.1
    obtain ⟨sy, iy, ky, vy, hyo⟩ := hg.owns hv.2
    obtain ⟨-, -, hok⟩ := wp_ok (wp_swap_gen hb hg.wf hxo hyo (by simp) (by simp) (hg.noTmp 0) (swapHazard_of hxo hyo hz)) h
    simp only [Cmd.names, List.mem_cons, List.not_mem_nil, or_false, forall_eq_or_imp, forall_eq]
    cases hok with
    | self _ hr =>
      exact ⟨by rw [backedUp_of_vars (congrFun hr.vars _)]; exact ha.not_backedUp x,
        by rw [backedUp_of_vars (congrFun hr.vars _)]; exact ha.not_backedUp y⟩
    | sameType _ _ hr =>
      exact ⟨by rw [backedUp_of_vars (congrFun hr.vars _)]; exact ha.not_backedUp x,
        by rw [backedUp_of_vars (congrFun hr.vars _)]; exact ha.not_backedUp y⟩
    | changed _ ix' iy' h1 h2 => exact ⟨inPlace_not_backedUp h1.var, inPlace_not_backedUp h2.var⟩
  | mutate x v =>
    simp only [Cmd.valid] at hv
    obtain ⟨s, id, k, v0, ho⟩ := hg.owns hv
    have h1 : applyVisitor C (.user x) (fun ty id => M.modify (setVal ty id v)) w = .ok () w' := h
    rw [ho.apply] at h1
    cases h1
    have : (setVal k id v w).backedUp x = w.backedUp x := rfl
    simp [Cmd.names, this, ha.not_backedUp]
  | constructGet rv x y =>
    simp only [Cmd.valid, Bool.and_eq_true, Option.isNone_iff_eq_none] at hv
    obtain ⟨k, v, hy⟩ := holds_of_valid hg hv.2
    rcases C53_construction (rv := rv) hg hv.1 hy with ⟨a, w1, h1, ⟨id, -, h2, h3⟩, -, ⟨h4, -⟩, -⟩ | ⟨e, w1, h1, -⟩
    · rw [h] at h1; cases h1
      simp only [Cmd.names, List.mem_cons, List.not_mem_nil, or_false, forall_eq_or_imp, forall_eq]
      exact ⟨inPlace_not_backedUp h2, by rw [backedUp_of_vars h4]; exact ha.not_backedUp y⟩
    · rw [h] at h1; cases h1
  | assignGet rv x y =>
    simp only [Cmd.valid, Bool.and_eq_true] at hv
    obtain ⟨kx, vx, hx⟩ := holds_of_valid hg hv.1
    obtain ⟨ky, vy, hy⟩ := holds_of_valid hg hv.2
    have hbx : w'.backedUp x = false := by
      cases hbk : w'.backedUp x with
      | false => rfl
      | true =>
        have := (C19_content_assignment_in_place_partial hb hg hx hy h hbk).1
        rw [ha.not_backedUp] at this; cases this
    simp only [Cmd.names, List.mem_cons, List.not_mem_nil, or_false, forall_eq_or_imp, forall_eq]
    refine ⟨hbx, ?_⟩
    by_cases hxy : x = y
    · rw [← hxy]; exact hbx
    · have hvy : w'.vars (.user y) = w.vars (.user y) := by
        by_cases hk : kx = ky
        · subst hk
          rcases C53_assignment_held_type (rv := rv) hb hg hxy hx hy with ⟨a, w1, h1, h2, -⟩ | ⟨e, w1, h1, -⟩
          · rw [h] at h1; cases h1; rw [h2]
          · rw [h] at h1; cases h1
        · exact (C53_assignment_new_type hb hg hx hy hk h).2.2.2.1.1
      rw [backedUp_of_vars hvy]; exact ha.not_backedUp y

/-- C44 without failures: if no operation throws, any program in any configuration runs to its end, no statement fails, and
the contents evolve as in the plain store. -/
theorem C44_refinement_without_failures (hl : C.ops.Lawful) (hb : BlankOk C) (hnt : ∀ t, C.throws t = false)
    (cs : List (Cmd V)) :
    ∃ w, run C cs (World.init V) = some w ∧ Fate.failed ∉ fates C cs (World.init V) ∧
      StoreRun C cs (fun _ => none) (fates C cs (World.init V)) (fun x => w.content (.user x)) := by
  suffices h : ∀ (cs : List (Cmd V)) (w : World V), Good C w → AllInPlace w →
      ∃ w', run C cs w = some w' ∧ Fate.failed ∉ fates C cs w ∧ StoreRun C cs w.store (fates C cs w) w'.store from
    h cs _ good_init allInPlace_init
  intro cs
  induction cs with
  | nil => exact fun w _ _ => ⟨w, rfl, by simp [fates], .nil _⟩
  | cons c cs ih =>
    intro w hg ha
    simp only [run, fates]
    cases hv : c.valid C w with
    | false =>
      simp only [Bool.false_eq_true, if_false]
      obtain ⟨w', h1, h2, h3⟩ := ih w hg ha
      exact ⟨w', h1, by simp [h2], .skip (fun hv' => by rw [(valid_iff hg c).mpr hv'] at hv; cases hv) h3⟩
    | true =>
      simp only [if_true]
      have hz := ha.readsBackup c
      rcases wp_elim (wp_step_gen hb hg c hv hz) with ⟨a, w1, hm, hg', -⟩ | ⟨e, w1, hm, -, -, hth, -⟩
      · obtain ⟨w', h1, h2, h3⟩ := ih w1 hg' (done_inPlace hb hg ha c hv hm)
        rw [hm]
        exact ⟨w', h1, by simp [h2], .done ((valid_iff hg c).mp hv) (done_refines hl hb hg c hv hz hm) h3⟩
      · have := hth.2.2; rw [hnt] at this; cases this

end

/-! ### Non-vacuity -/

/-- A run with a failed assignment, a swap and an assignment out of the backup state. -/
example : ∃ w, run exTwo (exProg.take 3 ++ [.mutate 0 8, .assignL 0 1 9]) (World.init Nat) = some w ∧
    StoreRun exTwo (exProg.take 3 ++ [.mutate 0 8, .assignL 0 1 9]) (fun _ => none)
      (fates exTwo (exProg.take 3 ++ [.mutate 0 8, .assignL 0 1 9]) (World.init Nat)) (fun x => w.content (.user x)) :=
  C44_refinement_partial natOps_lawful exTwo_sane _ (by decide +kernel)

example : fates exTwo (exProg.take 3 ++ [.mutate 0 8, .assignL 0 1 9]) (World.init Nat) =
    [.done, .done, .failed, .done, .done] := by decide +kernel

/-- With references into contents: variable 0 is in the heap-backup state; variable 1 is assigned from that backup and then from
its own content. -/
example : ∃ w, run exTwo (exProg.take 3 ++ [.assignGet false 1 0, .assignGet false 1 1, .constructGet true 2 1]) (World.init Nat) = some w ∧
    StoreRun exTwo (exProg.take 3 ++ [.assignGet false 1 0, .assignGet false 1 1, .constructGet true 2 1]) (fun _ => none)
      (fates exTwo (exProg.take 3 ++ [.assignGet false 1 0, .assignGet false 1 1, .constructGet true 2 1]) (World.init Nat))
      (fun x => w.content (.user x)) :=
  C44_refinement_partial natOps_lawful exTwo_sane _ (by decide +kernel)

example : fates exTwo (exProg.take 3 ++ [.assignGet false 1 0, .assignGet false 1 1, .constructGet true 2 1]) (World.init Nat) =
    [.done, .done, .failed, .done, .done, .done] := by decide +kernel

/-- With a fallback type: the second statement after the constructions fails. -/
example : ∃ w, run exFall [.constructC 0 1 5, .constructC 1 2 7, .copyAssign 0 1, .swap 0 1, .destroy 0] (World.init Nat) =
      some w ∧
    StoreRun exFall [.constructC 0 1 5, .constructC 1 2 7, .copyAssign 0 1, .swap 0 1, .destroy 0] (fun _ => none)
      (fates exFall [.constructC 0 1 5, .constructC 1 2 7, .copyAssign 0 1, .swap 0 1, .destroy 0] (World.init Nat))
      (fun x => w.content (.user x)) :=
  C44_refinement_single_storage_partial natOps_lawful exFall_sane.1 (SingleStorage.backupFree (Or.inl (by decide))) exFall_built _

example : fates exFall [.constructC 0 1 5, .constructC 1 2 7, .copyAssign 0 1, .swap 0 1, .destroy 0] (World.init Nat) =
    [.done, .done, .failed, .done, .done] := by decide +kernel

example : ∃ w, run (exCfg [tThrowing, tCopyOnly] []) [.constructC 0 1 5, .constructC 1 0 7, .swap 0 1, .moveAssign 0 1]
      (World.init Nat) = some w ∧ Fate.failed ∉ fates (exCfg [tThrowing, tCopyOnly] [])
        [.constructC 0 1 5, .constructC 1 0 7, .swap 0 1, .moveAssign 0 1] (World.init Nat) ∧
    StoreRun (exCfg [tThrowing, tCopyOnly] []) [.constructC 0 1 5, .constructC 1 0 7, .swap 0 1, .moveAssign 0 1]
      (fun _ => none) (fates (exCfg [tThrowing, tCopyOnly] [])
        [.constructC 0 1 5, .constructC 1 0 7, .swap 0 1, .moveAssign 0 1] (World.init Nat)) (fun x => w.content (.user x)) :=
  C44_refinement_without_failures natOps_lawful (by unfold BlankOk; decide) (fun _ => rfl) _

end BVariant
