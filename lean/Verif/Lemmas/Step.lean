/-
Every statement takes good states to good states.
-/
import Verif.Lemmas.ContentRef

set_option linter.unusedSimpArgs false

namespace BVariant

section
variable {V : Type} {C : Cfg V} {w w' : World V}

theorem Good.of_vars (h : Good C w) (hw : WF C w') {x : Nat}
    (hv : ∀ y, y ≠ .user x → w'.vars y = w.vars y) : Good C w' :=
  ⟨hw, fun n => by rw [hv _ (by simp)]; exact h.noTmp n⟩

theorem Replace.good {base : ObjId → Option (TyIx × V)} {x : Nat} {sl s' : VarSt} {old id' : ObjId}
    {kl k' : TyIx} {vl v' : V} (hg : Good C w) (hl : Owns C w (.user x) sl old kl vl)
    (hb : SameTypes w.objs base) (h : Replace C w w' base (.user x) old s' id' k' v') : Good C w' :=
  hg.of_vars (x := x) (h.wf hg.wf hl.var hl.rep.contentId hb) (fun y hy => by rw [h.vars]; simp [hy])

theorem Create.good {base : ObjId → Option (TyIx × V)} {x : Nat} {s' : VarSt} {id' : ObjId}
    {k' : TyIx} {v' : V} (hg : Good C w) (hx0 : w.vars (.user x) = none)
    (hb : SameTypes w.objs base) (h : Create C w w' base (.user x) s' id' k' v') : Good C w' :=
  hg.of_vars (x := x) (h.wf hg.wf hx0 hb) (fun y hy => by rw [h.vars]; simp [hy])

theorem Revalue.good {base : ObjId → Option (TyIx × V)} (hg : Good C w) (hb : SameTypes w.objs base)
    (h : Revalue w w' base) : Good C w' :=
  ⟨h.wf hg.wf hb, fun n => by rw [h.vars]; exact hg.noTmp n⟩

/-- What `wp` says of an execution. -/
theorem wp_elim {α : Type} {m : M V α} {Q : α → World V → Prop} {E : Exc → World V → Prop} (h : wp m Q E w) :
    (∃ a w', m w = .ok a w' ∧ Q a w') ∨ (∃ e w', m w = .exc e w' ∧ E e w') := by
  unfold wp at h
  cases hm : m w with
  | ok a w' => rw [hm] at h; exact Or.inl ⟨a, w', rfl, h⟩
  | exc e w' => rw [hm] at h; exact Or.inr ⟨e, w', rfl, h⟩
  | fault f => rw [hm] at h; exact h.elim

theorem ValOk.replace {l : VarId} {sl : VarSt} {idl : ObjId} {kl : TyIx} {vl : V} {m : Mode} {k : TyIx} {v : V}
    (h : ValOk C w w' l sl idl kl vl m k v) : ∃ s' id' k' v', Replace C w w' w.objs l idl s' id' k' v' := by
  rcases h with ⟨_, _, hr, _⟩ | ⟨_, _, hr, _⟩ | ⟨_, _, ⟨_, _, hr⟩, _⟩ <;> exact ⟨_, _, _, _, hr⟩

theorem ValExc.replace {l : VarId} {sl : VarSt} {idl : ObjId} {kl : TyIx} {vl : V} {m : Mode} {k : TyIx} {v : V}
    {e : Exc} (hs : Sane C) (h : ValExc C w w' l sl idl kl vl m k v e) :
    ∃ s' id' k' v', Replace C w w' w.objs l idl s' id' k' v' := by
  rcases h with ⟨_, _, _, hr, _⟩ | ⟨_, _, hr, _⟩ | ⟨_, _, _, hr, _⟩ | ⟨_, _, _, _, hr, _⟩
  · exact ⟨_, _, _, _, hr⟩
  · exact ⟨_, _, _, _, hr⟩
  · exact ⟨_, _, _, _, hr⟩
  · obtain ⟨_, _, _, _, _, hr, _⟩ := hr hs
    exact ⟨_, _, _, _, hr⟩

theorem ValExc.left {l : VarId} {sl : VarSt} {idl : ObjId} {kl : TyIx} {vl : V} {m : Mode} {k : TyIx} {v : V}
    {e : Exc} (h : ValExc C w w' l sl idl kl vl m k v e) :
    w'.broken C l ∨ ∃ s' id' k' v', Replace C w w' w.objs l idl s' id' k' v' := by
  rcases h with ⟨_, _, _, hr, _⟩ | ⟨_, _, hr, _⟩ | ⟨_, _, _, hr, _⟩ | ⟨_, _, _, h0, _, _⟩
  · exact .inr ⟨_, _, _, _, hr⟩
  · exact .inr ⟨_, _, _, _, hr⟩
  · exact .inr ⟨_, _, _, _, hr⟩
  · exact h0.left.imp id fun ⟨_, _, _, _, h, _⟩ => ⟨_, _, _, _, h⟩

theorem Good.owns (h : Good C w) {x : Nat} (hx : (w.vars (.user x)).isSome = true) :
    ∃ s id k v, Owns C w (.user x) s id k v := by
  obtain ⟨s, hs⟩ := Option.isSome_iff_exists.mp hx
  obtain ⟨id, k, v, ho⟩ := h.wf.owns hs
  exact ⟨s, id, k, v, ho⟩

theorem noHazard_of {x y : Nat} {sx sy : VarSt} (hx : w.vars (.user x) = some sx) (hy : w.vars (.user y) = some sy)
    (h : (w.backedUp y && w.recordsDiffer x y) = false) : NoHazard sx sy := by
  simp only [World.backedUp, World.recordsDiffer, hx, hy] at h
  by_cases h1 : sx.which_ = sy.which_
  · exact Or.inl h1
  · refine Or.inr ?_
    simp [h1] at h; omega

theorem swapHazard_of {x y : Nat} {sx sy : VarSt} {ix iy : ObjId} {kx ky : TyIx} {vx vy : V}
    (hx : Owns C w (.user x) sx ix kx vx) (hy : Owns C w (.user y) sy iy ky vy)
    (h : (w.backedUp x && w.typesDiffer x y) = false) : kx = ky ∨ 0 ≤ sx.which_ := by
  simp only [World.backedUp, World.typesDiffer, hx.content, hy.content, hx.var] at h
  by_cases h1 : kx = ky
  · exact Or.inl h1
  · refine Or.inr ?_
    simp [h1] at h; omega

/-- A failed value assignment leaves other variants alone. -/
theorem ValExc.unchanged {l : VarId} {sl : VarSt} {idl : ObjId} {kl : TyIx} {vl : V} {m : Mode} {k : TyIx} {v : V}
    {e : Exc} (hw : WF C w) (hl : Owns C w l sl idl kl vl) (h : ValExc C w w' l sl idl kl vl m k v e) {y : VarId}
    (hne : y ≠ l) : Unchanged w w' y := by
  rcases h with ⟨_, _, _, hr, _⟩ | ⟨_, _, hr, _⟩ | ⟨_, _, _, hr, _⟩ | ⟨_, _, _, h0, _, _⟩
  · exact hr.unchanged hw hl hne (fun _ _ _ _ => rfl)
  · exact hr.unchanged hw hl hne (fun _ _ _ _ => rfl)
  · exact hr.unchanged hw hl hne (fun _ _ _ _ => rfl)
  · exact h0.unchanged hw hl hne (fun _ _ _ _ => rfl)

/-- Every valid statement outside finding F1 ends normally or with an exception (never in a fault), leaving alone
the variants it does not name; an exception comes from an operation it performed; the state is good, if
the statement returns or the configuration is sane; otherwise it is good or a variant that the statement names is broken. -/
theorem wp_step_gen (hs : BlankOk C) (hg : Good C w) (c : Cmd V) (hv : c.valid C w = true)
    (hz : c.readsBackup w = false) :
    wp (c.code C) (fun _ w' => Good C w' ∧ OthersKept c w w')
      (fun e w' => (Sane C → Good C w') ∧ OthersKept c w w' ∧ Thrown C w w' e ∧
        (Good C w' ∨ ∃ x ∈ c.names, w'.broken C (.user x))) w := by
  have fine : ∀ {e : Exc} {w' : World V}, Good C w' → OthersKept c w w' → Thrown C w w' e → (Sane C → Good C w') ∧
      OthersKept c w w' ∧ Thrown C w w' e ∧ (Good C w' ∨ ∃ x ∈ c.names, w'.broken C (.user x)) :=
    fun h1 h2 h3 => ⟨fun _ => h1, h2, h3, .inl h1⟩
  have hw := hg.wf
  have hf := hw.toFresh
  have hne : ∀ {x z : Nat} {l : List Nat}, z ∉ x :: l → VarId.user z ≠ VarId.user x := by
    intro x z l hz he; injection he with he; exact hz (by simp [he])
  have hne2 : ∀ {x y z : Nat}, z ∉ [x, y] → VarId.user z ≠ VarId.user y := by
    intro x y z hz he; injection he with he; exact hz (by simp [he])
  cases c with
  | defaultConstruct x =>
    simp only [Cmd.valid, Bool.and_eq_true, Option.isNone_iff_eq_none, decide_eq_true_eq] at hv
    refine wp_mono (wp_defaultConstruct hf hv.2) ?_ ?_
    · rintro _ w' ⟨hc, _⟩
      exact ⟨hc.good hg hv.1 (SameTypes.refl _), fun z hz => hc.unchanged hw (hne hz) (fun _ _ _ _ => rfl)⟩
    · rintro e w' ⟨_, _, hth, rfl⟩
      have hr : Revalue w { w with tick := w.tick + 1 } w.objs := ⟨rfl, rfl, rfl, rfl⟩
      exact fine (hr.good hg (SameTypes.refl _)) (fun z _ => Unchanged.refl _ _) hth
  | copyConstruct x y =>
    simp only [Cmd.valid, Bool.and_eq_true, Option.isNone_iff_eq_none] at hv
    obtain ⟨s, id, k, v, ho⟩ := hg.owns hv.2
    refine wp_mono (wp_copyConstruct ho hf) ?_ ?_
    · rintro _ w' ⟨hc, _⟩
      exact ⟨hc.good hg hv.1 (SameTypes.refl _), fun z hz => hc.unchanged hw (hne hz) (fun _ _ _ _ => rfl)⟩
    · rintro e w' ⟨_, _, hth, rfl⟩
      have hr : Revalue w { w with tick := w.tick + 1 } w.objs := ⟨rfl, rfl, rfl, rfl⟩
      exact fine (hr.good hg (SameTypes.refl _)) (fun z _ => Unchanged.refl _ _) hth
  | moveConstruct x y =>
    simp only [Cmd.valid, Bool.and_eq_true, Option.isNone_iff_eq_none] at hv
    obtain ⟨s, id, k, v, ho⟩ := hg.owns hv.2
    refine wp_mono (wp_moveConstruct ho hf) ?_ ?_
    · rintro _ w' ⟨hc, _⟩
      exact ⟨hc.good hg hv.1 (SameTypes.upd _ _ ho.obj),
        fun z hz => hc.unchanged hw (hne hz) (hw.upd_other ho (hne2 hz))⟩
    · rintro e w' ⟨_, _, hth, _, rfl⟩
      have hr : Revalue w { w with tick := w.tick + 1, objs := upd w.objs id (some (k, C.ops.moveFailSrc k v)) }
        (upd w.objs id (some (k, C.ops.moveFailSrc k v))) := ⟨rfl, rfl, rfl, rfl⟩
      exact fine (hr.good hg (SameTypes.upd _ _ ho.obj)) (fun z hz => ⟨rfl, hw.upd_other ho (hne2 hz)⟩) hth
  | constructL x k v =>
    simp only [Cmd.valid, Bool.and_eq_true, Option.isNone_iff_eq_none, decide_eq_true_eq] at hv
    refine wp_mono (wp_construct_elem .L (by simp) (.user x) k v hf hv.2) ?_ ?_
    · rintro _ w' ⟨id', hc, _⟩
      exact ⟨hc.good hg hv.1 (SameTypes.refl _), fun z hz => hc.unchanged hw (hne hz) (fun _ _ _ _ => rfl)⟩
    · rintro e w' ⟨_, hth, h1, h2, h3, _, h4⟩
      refine fine ⟨⟨?_, ?_, ?_, ?_, ?_⟩, ?_⟩ (fun z _ => ⟨by rw [h1], fun _ _ _ _ => by rw [h2]⟩) hth
      · rw [h1, h2]; exact hw.rep
      · rw [h1]; exact hw.inj
      · rw [h1, h2]; exact hw.noLeak
      · intro id hid; rw [h2]; exact hw.fresh id (by omega)
      · rw [h3]; exact hw.flat
      · rw [h1]; exact hg.noTmp
  | constructR x k v =>
    simp only [Cmd.valid, Bool.and_eq_true, Option.isNone_iff_eq_none, decide_eq_true_eq] at hv
    refine wp_mono (wp_construct_elem .R (by simp) (.user x) k v hf hv.2) ?_ ?_
    · rintro _ w' ⟨id', hc, _⟩
      exact ⟨hc.good hg hv.1 (SameTypes.refl _), fun z hz => hc.unchanged hw (hne hz) (fun _ _ _ _ => rfl)⟩
    · rintro e w' ⟨_, hth, h1, h2, h3, _, h4⟩
      refine fine ⟨⟨?_, ?_, ?_, ?_, ?_⟩, ?_⟩ (fun z _ => ⟨by rw [h1], fun _ _ _ _ => by rw [h2]⟩) hth
      · rw [h1, h2]; exact hw.rep
      · rw [h1]; exact hw.inj
      · rw [h1, h2]; exact hw.noLeak
      · intro id hid; rw [h2]; exact hw.fresh id (by omega)
      · rw [h3]; exact hw.flat
      · rw [h1]; exact hg.noTmp
  | constructC x k v =>
    simp only [Cmd.valid, Bool.and_eq_true, Option.isNone_iff_eq_none, decide_eq_true_eq] at hv
    refine wp_mono (wp_convertConstruct (.conv k v) trivial hv.2 hf) ?_ ?_
    · rintro _ w' ⟨id', v', _, _, hc, _⟩
      exact ⟨hc.good hg hv.1 (SameTypes.refl _), fun z hz => hc.unchanged hw (hne hz) (fun _ _ _ _ => rfl)⟩
    · rintro e w' ⟨_, hth, h1, h3, _, h4, h2'⟩
      have h2 : w'.objs = w.objs := funext h2'
      refine fine ⟨⟨?_, ?_, ?_, ?_, ?_⟩, ?_⟩ (fun z _ => ⟨by rw [h1], fun _ _ _ _ => by rw [h2]⟩) hth
      · rw [h1, h2]; exact hw.rep
      · rw [h1]; exact hw.inj
      · rw [h1, h2]; exact hw.noLeak
      · intro id hid; rw [h2]; exact hw.fresh id (by omega)
      · rw [h3]; exact hw.flat
      · rw [h1]; exact hg.noTmp
  | destroy x =>
    simp only [Cmd.valid] at hv
    obtain ⟨s, id, k, v, ho⟩ := hg.owns hv
    refine wp_destroyVar_intro ho hf.flat ?_
    have hr : Remove w { w with objs := upd w.objs id none, vars := upd w.vars (.user x) none } (.user x) id :=
      ⟨fun _ => by simp only [upd], fun _ => by simp only [upd], rfl, rfl⟩
    exact ⟨hg.of_vars (x := x) (hr.wf hw ho.var ho.rep.contentId) (fun y hy => by rw [hr.vars]; simp [hy]),
      fun z hz => hr.unchanged hw ho (hne hz)⟩
  | copyAssign x y =>
    simp only [Cmd.valid, Bool.and_eq_true] at hv
    obtain ⟨sx, ix, kx, vx, hx⟩ := hg.owns hv.1
    obtain ⟨sy, iy, ky, vy, hy⟩ := hg.owns hv.2
    refine wp_mono (wp_copyAssign_gen hs hx hy (hw.distinct hx hy) hf (noHazard_of hx.var hy.var hz)) ?_ ?_
    · rintro _ w' ⟨⟨_, _, hr, _⟩ | ⟨_, ⟨_, _, hr⟩⟩, _⟩ <;>
        exact ⟨hr.good hg hx (SameTypes.refl _), fun z hz => hr.unchanged hw hx (hne hz) (fun _ _ _ _ => rfl)⟩
    · rintro e w' ⟨h, hsane⟩
      refine ⟨fun hs => ?_, ?_⟩
      · rcases hsane hs with ⟨_, _, _, hth, hr, _⟩ | ⟨_, _, ⟨hth, _, _, _, _, hr, _⟩, _⟩ <;>
          exact hr.good hg hx (SameTypes.refl _)
      · rcases h with ⟨_, _, _, hth, hr, _⟩ | ⟨_, _, h0⟩
        · exact ⟨fun z hz => hr.unchanged hw hx (hne hz) (fun _ _ _ _ => rfl), hth, .inl (hr.good hg hx (SameTypes.refl _))⟩
        · refine ⟨fun z hz => h0.unchanged hw hx (hne hz) (fun _ _ _ _ => rfl), h0.thrown, ?_⟩
          rcases h0.left with h | ⟨_, _, _, _, hr, -⟩
          · exact .inr ⟨x, by simp [Cmd.names], h⟩
          · exact .inl (hr.good hg hx (SameTypes.refl _))
  | moveAssign x y =>
    simp only [Cmd.valid, Bool.and_eq_true] at hv
    obtain ⟨sx, ix, kx, vx, hx⟩ := hg.owns hv.1
    obtain ⟨sy, iy, ky, vy, hy⟩ := hg.owns hv.2
    refine wp_mono (wp_moveAssign_gen hs hx hy (hw.distinct hx hy) hf (noHazard_of hx.var hy.var hz)) ?_ ?_
    · rintro _ w' ⟨⟨_, hr, _⟩ | ⟨_, _, _, hr, _⟩ | ⟨_, _, ⟨_, _, hr⟩⟩, _⟩
      · exact ⟨hr.good hg hx (SameTypes.refl _), fun z hz => hr.unchanged hw hx (hne hz) (fun _ _ _ _ => rfl)⟩
      all_goals exact ⟨hr.good hg hx (SameTypes.upd _ _ hy.obj),
        fun z hz => hr.unchanged hw hx (hne hz) (hw.upd_other hy (hne2 hz))⟩
    · rintro e w' ⟨_, h, hsane⟩
      refine ⟨fun hs => ?_, ?_⟩
      · rcases hsane hs with ⟨_, _, _, _, hr, _⟩ | ⟨_, _, _, _, _, _, hr, _⟩ | ⟨_, _, _, ⟨_, _, _, _, _, hr, _⟩, _⟩
        · exact hr.good hg hx (SameTypes.refl _)
        all_goals exact hr.good hg hx (SameTypes.upd _ _ hy.obj)
      · rcases h with ⟨_, _, _, hth, hr, _⟩ | ⟨_, _, _, _, _, hth, hr, _⟩ | ⟨_, _, _, h0⟩
        · exact ⟨fun z hz => hr.unchanged hw hx (hne hz) (fun _ _ _ _ => rfl), hth, .inl (hr.good hg hx (SameTypes.refl _))⟩
        · exact ⟨fun z hz => hr.unchanged hw hx (hne hz) (hw.upd_other hy (hne2 hz)), hth, .inl (hr.good hg hx (SameTypes.upd _ _ hy.obj))⟩
        · refine ⟨fun z hz => h0.unchanged hw hx (hne hz) (hw.upd_other hy (hne2 hz)), h0.thrown, ?_⟩
          rcases h0.left with h | ⟨_, _, _, _, hr, -⟩
          · exact .inr ⟨x, by simp [Cmd.names], h⟩
          · exact .inl (hr.good hg hx (SameTypes.upd _ _ hy.obj))
  | assignL x k v =>
    simp only [Cmd.valid, Bool.and_eq_true, decide_eq_true_eq] at hv
    obtain ⟨sx, ix, kx, vx, hx⟩ := hg.owns hv.1
    refine wp_mono (wp_assign_elem hs .L (by simp) k v hx hf hv.2 (by simp) (hg.noTmp 0)) ?_ ?_
    · intro _ w' h
      obtain ⟨_, _, _, _, hr⟩ := h.replace
      exact ⟨hr.good hg hx (SameTypes.refl _), fun z hz => hr.unchanged hw hx (hne hz) (fun _ _ _ _ => rfl)⟩
    · rintro e w' ⟨hth, h⟩
      refine ⟨fun hs => ?_, fun z hz => h.unchanged hw hx (hne hz), hth, ?_⟩
      · obtain ⟨_, _, _, _, hr⟩ := h.replace hs
        exact hr.good hg hx (SameTypes.refl _)
      · rcases h.left with h | ⟨_, _, _, _, hr⟩
        · exact .inr ⟨x, by simp [Cmd.names], h⟩
        · exact .inl (hr.good hg hx (SameTypes.refl _))
  | assignR x k v =>
    simp only [Cmd.valid, Bool.and_eq_true, decide_eq_true_eq] at hv
    obtain ⟨sx, ix, kx, vx, hx⟩ := hg.owns hv.1
    refine wp_mono (wp_assign_elem hs .R (by simp) k v hx hf hv.2 (by simp) (hg.noTmp 0)) ?_ ?_
    · intro _ w' h
      obtain ⟨_, _, _, _, hr⟩ := h.replace
      exact ⟨hr.good hg hx (SameTypes.refl _), fun z hz => hr.unchanged hw hx (hne hz) (fun _ _ _ _ => rfl)⟩
    · rintro e w' ⟨hth, h⟩
      refine ⟨fun hs => ?_, fun z hz => h.unchanged hw hx (hne hz), hth, ?_⟩
      · obtain ⟨_, _, _, _, hr⟩ := h.replace hs
        exact hr.good hg hx (SameTypes.refl _)
      · rcases h.left with h | ⟨_, _, _, _, hr⟩
        · exact .inr ⟨x, by simp [Cmd.names], h⟩
        · exact .inl (hr.good hg hx (SameTypes.refl _))
  | assignC x k v =>
    simp only [Cmd.valid, Bool.and_eq_true, decide_eq_true_eq] at hv
    obtain ⟨sx, ix, kx, vx, hx⟩ := hg.owns hv.1
    refine wp_mono (wp_assign_conv hs k v hx hf hv.2 (by simp) (hg.noTmp 0)) ?_ ?_
    · intro _ w' h
      obtain ⟨_, _, _, _, hr⟩ := h.replace
      exact ⟨hr.good hg hx (SameTypes.refl _), fun z hz => hr.unchanged hw hx (hne hz) (fun _ _ _ _ => rfl)⟩
    · rintro e w' ⟨hth, h⟩
      refine ⟨fun hs => ?_, fun z hz => h.unchanged hw hx (hne hz), hth, ?_⟩
      · obtain ⟨_, _, _, _, hr⟩ := h.replace hs
        exact hr.good hg hx (SameTypes.refl _)
      · rcases h.left with h | ⟨_, _, _, _, hr⟩
        · exact .inr ⟨x, by simp [Cmd.names], h⟩
        · exact .inl (hr.good hg hx (SameTypes.refl _))
  | assignVL x k v =>
    simp only [Cmd.valid, Bool.and_eq_true, decide_eq_true_eq] at hv
    obtain ⟨sx, ix, kx, vx, hx⟩ := hg.owns hv.1
    refine wp_mono (wp_assign_elem hs .VL (by simp) k v hx hf hv.2 (by simp) (hg.noTmp 0)) ?_ ?_
    · intro _ w' h
      obtain ⟨_, _, _, _, hr⟩ := h.replace
      exact ⟨hr.good hg hx (SameTypes.refl _), fun z hz => hr.unchanged hw hx (hne hz) (fun _ _ _ _ => rfl)⟩
    · rintro e w' ⟨hth, h⟩
      refine ⟨fun hs => ?_, fun z hz => h.unchanged hw hx (hne hz), hth, ?_⟩
      · obtain ⟨_, _, _, _, hr⟩ := h.replace hs
        exact hr.good hg hx (SameTypes.refl _)
      · rcases h.left with h | ⟨_, _, _, _, hr⟩
        · exact .inr ⟨x, by simp [Cmd.names], h⟩
        · exact .inl (hr.good hg hx (SameTypes.refl _))
  | assignVR x k v =>
    simp only [Cmd.valid, Bool.and_eq_true, decide_eq_true_eq] at hv
    obtain ⟨sx, ix, kx, vx, hx⟩ := hg.owns hv.1
    refine wp_mono (wp_assign_elem hs .VR (by simp) k v hx hf hv.2 (by simp) (hg.noTmp 0)) ?_ ?_
    · intro _ w' h
      obtain ⟨_, _, _, _, hr⟩ := h.replace
      exact ⟨hr.good hg hx (SameTypes.refl _), fun z hz => hr.unchanged hw hx (hne hz) (fun _ _ _ _ => rfl)⟩
    · rintro e w' ⟨hth, h⟩
      refine ⟨fun hs => ?_, fun z hz => h.unchanged hw hx (hne hz), hth, ?_⟩
      · obtain ⟨_, _, _, _, hr⟩ := h.replace hs
        exact hr.good hg hx (SameTypes.refl _)
      · rcases h.left with h | ⟨_, _, _, _, hr⟩
        · exact .inr ⟨x, by simp [Cmd.names], h⟩
        · exact .inl (hr.good hg hx (SameTypes.refl _))
  | swap x y =>
    simp only [Cmd.valid, Bool.and_eq_true] at hv
    obtain ⟨sx, ix, kx, vx, hx⟩ := hg.owns hv.1
    obtain ⟨sy, iy, ky, vy, hy⟩ := hg.owns hv.2
    refine wp_mono (wp_swap_gen hs hw hx hy (by simp) (by simp) (hg.noTmp 0) (swapHazard_of hx hy hz)) ?_ ?_
    · rintro _ w' ⟨hw', ho, _⟩
      exact ⟨⟨hw', fun n => by rw [(ho _ (by simp) (by simp)).1]; exact hg.noTmp n⟩,
        fun z hz => ho _ (hne hz) (hne2 hz)⟩
    · rintro e w' ⟨hth, ho, hsane, hleft⟩
      refine ⟨fun hs => ⟨(hsane hs).1, fun n => by rw [(ho _ (by simp) (by simp)).1]; exact hg.noTmp n⟩,
        fun z hz => ho _ (hne hz) (hne2 hz), hth, ?_⟩
      rcases hleft with ⟨h, -⟩ | h | h
      · exact .inl ⟨h, fun n => by rw [(ho _ (by simp) (by simp)).1]; exact hg.noTmp n⟩
      · exact .inr ⟨x, by simp [Cmd.names], h⟩
      · exact .inr ⟨y, by simp [Cmd.names], h⟩
  | mutate x v =>
    simp only [Cmd.valid] at hv
    obtain ⟨s, id, k, v0, ho⟩ := hg.owns hv
    simp only [Cmd.code]
    rw [wp_applyVisitor C ho.var ho.rep ho.obj, wp_modify]
    have hr : Revalue w (setVal k id v w) (upd w.objs id (some (k, v))) := ⟨rfl, rfl, rfl, rfl⟩
    exact ⟨hr.good hg (SameTypes.upd _ _ ho.obj), fun z hz => ⟨rfl, hw.upd_other ho (hne hz)⟩⟩
  | constructGet rv x y =>
    simp only [Cmd.valid, Bool.and_eq_true, Option.isNone_iff_eq_none] at hv
    obtain ⟨s, id, k, v, ho⟩ := hg.owns hv.2
    refine wp_mono (wp_constructGet rv (.user x) ho hf) ?_ ?_
    · rintro _ w' ⟨⟨_, _, hc⟩, _⟩
      exact ⟨hc.good hg hv.1 (sameTypes_getBase rv ho.obj _),
        fun z hz => hc.unchanged hw (hne hz) (getBase_other hw rv ho fun _ => hne2 hz)⟩
    · rintro e w' ⟨_, hth, hr, _⟩
      refine fine ⟨hr.wf hw (sameTypes_getBase rv ho.obj _), fun n => by rw [hr.vars]; exact hg.noTmp n⟩
        (fun z hz => ⟨by rw [hr.vars], ?_⟩) hth
      rw [hr.objs]; exact getBase_other hw rv ho fun _ => hne2 hz
  | assignGet rv x y =>
    simp only [Cmd.valid, Bool.and_eq_true] at hv
    obtain ⟨sx, ix, kx, vx, hx⟩ := hg.owns hv.1
    obtain ⟨sy, iy, ky, vy, hy⟩ := hg.owns hv.2
    refine wp_mono (wp_assignGet hs rv hx hy (hw.distinct hx hy) hf (by simp) (hg.noTmp 0)) ?_ ?_
    · intro _ w' h
      obtain ⟨base, _, _, _, _, hb, hr, _⟩ := h.replace
      exact ⟨hr.good hg hx (hb.sameTypes hy.obj),
        fun z hz => hr.unchanged hw hx (hne hz) (hb.other hw hy fun _ _ => hne2 hz)⟩
    · rintro e w' ⟨hth, h⟩
      refine ⟨fun hs => ?_, fun z hz => h.unchanged hw hx hy (hne hz) fun _ => hne2 hz, hth, ?_⟩
      · obtain ⟨base, _, _, _, _, hb, hr⟩ := h.replace hs
        exact hr.good hg hx (hb.sameTypes hy.obj)
      · rcases h.left with h | ⟨base, _, _, _, _, hb, hr⟩
        · exact .inr ⟨x, by simp [Cmd.names], h⟩
        · exact .inl (hr.good hg hx (hb.sameTypes hy.obj))

/-- The same for sane configurations. -/
theorem wp_step (hs : Sane C) (hg : Good C w) (c : Cmd V) (hv : c.valid C w = true)
    (hz : c.readsBackup w = false) :
    wp (c.code C) (fun _ w' => Good C w' ∧ OthersKept c w w')
      (fun e w' => Good C w' ∧ OthersKept c w w' ∧ Thrown C w w' e) w :=
  wp_mono (wp_step_gen hs.blank hg c hv hz) (fun _ _ h => h) (fun _ _ h => ⟨h.1 hs, h.2.1, h.2.2.1⟩)

theorem good_init : Good C (World.init V) := by
  refine ⟨⟨?_, ?_, ?_, ?_, ?_⟩, ?_⟩ <;> simp [World.init]

/-- Any program outside finding F1 runs to its end and reaches a good state. -/
theorem run_good (hs : Sane C) (cs : List (Cmd V)) (w : World V) (hg : Good C w)
    (ha : avoidsBackupReads C cs w = true) : ∃ w', run C cs w = some w' ∧ Good C w' := by
  induction cs generalizing w with
  | nil => exact ⟨w, rfl, hg⟩
  | cons c cs ih =>
    simp only [run]
    simp only [avoidsBackupReads] at ha
    cases hv : c.valid C w with
    | false => simp only [hv, Bool.false_eq_true, if_false] at ha ⊢; exact ih w hg ha
    | true =>
      simp only [hv, if_true, Bool.and_eq_true, Bool.not_eq_true'] at ha ⊢
      rcases wp_elim (wp_step hs hg c hv ha.1) with ⟨a, w', hm, hg', _⟩ | ⟨e, w', hm, hg', _, _⟩
      · rw [hm] at ha ⊢; exact ih w' hg' ha.2
      · rw [hm] at ha ⊢; exact ih w' hg' ha.2

end

end BVariant
