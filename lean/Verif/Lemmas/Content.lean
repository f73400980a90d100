/-
What the changes of the world mean for the contents of variants.
-/
import Verif.Lemmas.Value

namespace BVariant

section
variable {V : Type} {C : Cfg V} {w w' : World V}

theorem WF.owns (h : WF C w) {x : VarId} {s : VarSt} (hx : w.vars x = some s) :
    ∃ id k v, Owns C w x s id k v := by
  obtain ⟨id, k, v, hr, ho⟩ := h.rep x s hx
  exact ⟨id, k, v, hx, hr, ho⟩

theorem Owns.content {x : VarId} {s : VarSt} {id : ObjId} {k : TyIx} {v : V} (h : Owns C w x s id k v) :
    w.content x = some (k, v) := by
  simp [World.content, h.var, h.rep.contentId, h.obj]

theorem WF.distinct (h : WF C w) {x y : VarId} {sx sy : VarSt} {ix iy : ObjId} {kx ky : TyIx} {vx vy : V}
    (hx : Owns C w x sx ix kx vx) (hy : Owns C w y sy iy ky vy) : Distinct x y ix iy := by
  by_cases he : x = y
  · subst he
    have h1 := hx.var; rw [hy.var] at h1; cases h1
    have h2 := hx.rep.contentId; rw [hy.rep.contentId] at h2; cases h2
    exact Or.inl ⟨rfl, rfl⟩
  · refine Or.inr ⟨he, ?_⟩
    rintro rfl
    exact he (h.inj x y sx sy _ hx.var hy.var hx.rep.contentId hy.rep.contentId)

theorem Replace.owns {base : ObjId → Option (TyIx × V)} {l : VarId} {old : ObjId} {s' : VarSt} {id' : ObjId}
    {k' : TyIx} {v' : V} (h : Replace C w w' base l old s' id' k' v') : Owns C w' l s' id' k' v' :=
  ⟨by simp [h.vars], h.rep, h.obj⟩

theorem Create.owns {base : ObjId → Option (TyIx × V)} {l : VarId} {s' : VarSt} {id' : ObjId}
    {k' : TyIx} {v' : V} (h : Create C w w' base l s' id' k' v') : Owns C w' l s' id' k' v' :=
  ⟨by simp [h.vars], h.rep, h.obj⟩

/-- What a variant other than the target owns after the change. -/
theorem Replace.owns_other {base : ObjId → Option (TyIx × V)} {l : VarId} {old : ObjId} {s' sl : VarSt} {id' : ObjId}
    {k' kl : TyIx} {v' vl : V} (hw : WF C w) (hl : Owns C w l sl old kl vl)
    (h : Replace C w w' base l old s' id' k' v') {y : VarId} {sy : VarSt} {iy : ObjId} {ky : TyIx} {vy vy' : V}
    (hy : Owns C w y sy iy ky vy) (hne : y ≠ l) (hb : base iy = some (ky, vy')) : Owns C w' y sy iy ky vy' := by
  have hid : iy ≠ old := by
    rcases hw.distinct hy hl with ⟨h1, _⟩ | ⟨_, h2⟩
    · exact absurd h1 hne
    · exact h2
  refine ⟨by rw [h.vars]; simp [hne, hy.var], hy.rep, ?_⟩
  rw [h.keep iy (hw.toFresh.lt hy.obj) hid, hb]

theorem Create.owns_other {base : ObjId → Option (TyIx × V)} {l : VarId} {s' : VarSt} {id' : ObjId}
    {k' : TyIx} {v' : V} (hw : WF C w)
    (h : Create C w w' base l s' id' k' v') {y : VarId} {sy : VarSt} {iy : ObjId} {ky : TyIx} {vy vy' : V}
    (hy : Owns C w y sy iy ky vy) (hne : y ≠ l) (hb : base iy = some (ky, vy')) : Owns C w' y sy iy ky vy' := by
  refine ⟨by rw [h.vars]; simp [hne, hy.var], hy.rep, ?_⟩
  rw [h.keep iy (hw.toFresh.lt hy.obj), hb]

theorem Unchanged.refl (w : World V) (y : VarId) : Unchanged w w y := ⟨rfl, fun _ _ _ _ => rfl⟩

theorem Unchanged.trans {w'' : World V} {y : VarId} (h : Unchanged w w' y) (h' : Unchanged w' w'' y) :
    Unchanged w w'' y := by
  refine ⟨h'.1.trans h.1, fun s id hs hc => ?_⟩
  rw [h'.2 s id (by rw [h.1, hs]) hc, h.2 s id hs hc]

theorem Unchanged.content {y : VarId} (h : Unchanged w w' y) : w'.content y = w.content y := by
  simp only [World.content, h.1]
  cases hs : w.vars y with
  | none => rfl
  | some s =>
    simp only [Option.bind_some]
    cases hc : s.contentId with
    | none => rfl
    | some id => simp only [Option.bind_some]; exact h.2 s id hs hc

theorem Unchanged.owns {y : VarId} (h : Unchanged w w' y) {s : VarSt} {id : ObjId} {k : TyIx} {v : V}
    (hy : Owns C w y s id k v) : Owns C w' y s id k v :=
  ⟨by rw [h.1, hy.var], hy.rep, by rw [h.2 s id hy.var hy.rep.contentId, hy.obj]⟩

theorem Replace.unchanged {base : ObjId → Option (TyIx × V)} {l : VarId} {old : ObjId} {s' sl : VarSt} {id' : ObjId}
    {k' kl : TyIx} {v' vl : V} (hw : WF C w) (hl : Owns C w l sl old kl vl)
    (h : Replace C w w' base l old s' id' k' v') {y : VarId} (hne : y ≠ l)
    (hb : ∀ s id, w.vars y = some s → s.contentId = some id → base id = w.objs id) : Unchanged w w' y := by
  refine ⟨by rw [h.vars]; simp [hne], fun s id hs hc => ?_⟩
  obtain ⟨i, k, v, hy⟩ := hw.owns hs
  have : i = id := by have := hy.rep.contentId; rw [hc] at this; cases this; rfl
  subst this
  have hid : i ≠ old := by
    rcases hw.distinct hy hl with ⟨h1, _⟩ | ⟨_, h2⟩
    · exact absurd h1 hne
    · exact h2
  rw [h.keep i (hw.toFresh.lt hy.obj) hid, hb s i hs hc]

theorem AssignExc0.unchanged {base : ObjId → Option (TyIx × V)} {l : VarId} {old : ObjId} {sl : VarSt}
    {kl kr : TyIx} {vl : V} {e : Exc} (hw : WF C w) (hl : Owns C w l sl old kl vl)
    (h : AssignExc0 C w w' base l sl old kl vl kr e) {y : VarId} (hne : y ≠ l)
    (hb : ∀ s id, w.vars y = some s → s.contentId = some id → base id = w.objs id) : Unchanged w w' y := by
  refine ⟨h.vars y hne, fun s id hs hc => ?_⟩
  obtain ⟨i, k, v, hy⟩ := hw.owns hs
  have : i = id := by have := hy.rep.contentId; rw [hc] at this; cases this; rfl
  subst this
  have hid : i ≠ old := by
    rcases hw.distinct hy hl with ⟨h1, _⟩ | ⟨_, h2⟩
    · exact absurd h1 hne
    · exact h2
  rw [h.keep i (hw.toFresh.lt hy.obj) hid, hb s i hs hc]

theorem Create.unchanged {base : ObjId → Option (TyIx × V)} {l : VarId} {s' : VarSt} {id' : ObjId}
    {k' : TyIx} {v' : V} (hw : WF C w)
    (h : Create C w w' base l s' id' k' v') {y : VarId} (hne : y ≠ l)
    (hb : ∀ s id, w.vars y = some s → s.contentId = some id → base id = w.objs id) : Unchanged w w' y := by
  refine ⟨by rw [h.vars]; simp [hne], fun s id hs hc => ?_⟩
  obtain ⟨i, k, v, hy⟩ := hw.owns hs
  have : i = id := by have := hy.rep.contentId; rw [hc] at this; cases this; rfl
  subst this
  rw [h.keep i (hw.toFresh.lt hy.obj), hb s i hs hc]

theorem Remove.unchanged {x : VarId} {sx : VarSt} {old : ObjId} {k : TyIx} {v : V} (hw : WF C w)
    (hx : Owns C w x sx old k v) (h : Remove w w' x old) {y : VarId} (hne : y ≠ x) : Unchanged w w' y := by
  refine ⟨by rw [h.vars]; simp [hne], fun s id hs hc => ?_⟩
  obtain ⟨i, k', v', hy⟩ := hw.owns hs
  have : i = id := by have := hy.rep.contentId; rw [hc] at this; cases this; rfl
  subst this
  have hid : i ≠ old := by
    rcases hw.distinct hy hx with ⟨h1, _⟩ | ⟨_, h2⟩
    · exact absurd h1 hne
    · exact h2
  rw [h.objs]; simp [hid]

theorem WF.content_ne (hw : WF C w) {r : VarId} {sr : VarSt} {idr : ObjId} {kr : TyIx} {vr : V}
    (hr : Owns C w r sr idr kr vr) {y : VarId} (hne : y ≠ r) {s : VarSt} {id : ObjId}
    (hs : w.vars y = some s) (hc : s.contentId = some id) : id ≠ idr := by
  rintro rfl
  exact hne (hw.inj y r s sr _ hs hr.var hc hr.rep.contentId)

/-- A changed value of `r`'s object does not concern other variants. -/
theorem WF.upd_other (hw : WF C w) {r : VarId} {sr : VarSt} {idr : ObjId} {kr : TyIx} {vr : V}
    (hr : Owns C w r sr idr kr vr) {p : Option (TyIx × V)} {y : VarId} (hne : y ≠ r) :
    ∀ s id, w.vars y = some s → s.contentId = some id → upd w.objs idr p id = w.objs id := by
  intro s id hs hc
  obtain ⟨i, k, v, hy⟩ := hw.owns hs
  have : i = id := by have := hy.rep.contentId; rw [hc] at this; cases this; rfl
  subst this
  rcases hw.distinct hy hr with ⟨h1, _⟩ | ⟨_, h2⟩
  · exact absurd h1 hne
  · exact upd_ne _ _ h2

end

end BVariant
