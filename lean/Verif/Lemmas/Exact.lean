/-
What the operations of variants do to the variables, without objects and addresses: the tools.
-/
import Verif.Lemmas.Step
import Verif.Spec.Exact

set_option linter.unusedSimpArgs false

namespace BVariant

section
variable {V : Type} {C : Cfg V} {w w' : World V} {T : List (ObjId × TyIx)}

/-- Every variable is properly represented and has an object of its own; the objects `T` are alive and belong to no variable. -/
structure Inv (C : Cfg V) (T : List (ObjId × TyIx)) (w : World V) : Prop where
  rep : ∀ x s, w.vars x = some s → ∃ i k v, Owns C w x s i k v
  inj : ∀ x y sx sy i, w.vars x = some sx → w.vars y = some sy → sx.contentId = some i → sy.contentId = some i → x = y
  fresh : Fresh w
  loose : ∀ p ∈ T, (∃ v, w.objs p.1 = some (p.2, v)) ∧ ∀ x s, w.vars x = some s → s.contentId ≠ some p.1

theorem WF.inv (h : WF C w) : Inv C [] w :=
  ⟨fun x s hx => by obtain ⟨i, k, v, hr, ho⟩ := h.rep x s hx; exact ⟨i, k, v, hx, hr, ho⟩, h.inj, h.toFresh, fun _ h => by cases h⟩

/-- The mark of a representation. -/
def VarSt.backed (s : VarSt) : Bool := decide (s.which_ < 0)

theorem Owns.tagged {x : VarId} {s : VarSt} {i : ObjId} {k : TyIx} {v : V} (h : Owns C w x s i k v) :
    w.tagged x = some ⟨k, v, s.backed⟩ := by
  simp only [World.tagged, h.var, Option.bind_some, h.rep.contentId, h.obj, Option.map_some, VarSt.backed]

theorem tagged_none {x : VarId} (h : w.vars x = none) : w.tagged x = none := by simp [World.tagged, h]

theorem Inv.owns {x : VarId} {t : Tag V} (h : Inv C T w) (hx : w.tagged x = some t) : ∃ s i, Owns C w x s i t.ty t.val ∧ s.backed = t.backed := by
  cases hv : w.vars x with
  | none => rw [tagged_none hv] at hx; cases hx
  | some s =>
    obtain ⟨i, k, v, ho⟩ := h.rep x s hv
    rw [ho.tagged] at hx
    cases hx
    exact ⟨s, i, ho, rfl⟩

theorem Inv.vars_none {x : VarId} (h : Inv C T w) (hx : w.tagged x = none) : w.vars x = none := by
  cases hv : w.vars x with
  | none => rfl
  | some s =>
    obtain ⟨i, k, v, ho⟩ := h.rep x s hv
    rw [ho.tagged] at hx
    cases hx

theorem Inv.distinct {l r : VarId} {sl sr : VarSt} {i j : ObjId} {kl kr : TyIx} {a b : V} (h : Inv C T w) (hl : Owns C w l sl i kl a)
    (hr : Owns C w r sr j kr b) (hne : l ≠ r) : i ≠ j := by
  rintro rfl
  exact hne (h.inj _ _ _ _ _ hl.var hr.var hl.rep.contentId hr.rep.contentId)

/-- A variable is as it was if it and its object are. -/
theorem Inv.tagged_same {x : VarId} (h : Inv C T w) (hv : w'.vars x = w.vars x)
    (ho : ∀ s i k v, Owns C w x s i k v → w'.objs i = w.objs i) : w'.tagged x = w.tagged x := by
  simp only [World.tagged, hv]
  cases hx : w.vars x with
  | none => rfl
  | some s =>
    obtain ⟨i, k, v, hw⟩ := h.rep x s hx
    simp only [Option.bind_some, hw.rep.contentId, ho _ _ _ _ hw]

theorem Replace.inv {base : ObjId → Option (TyIx × V)} {l : VarId} {sl s' : VarSt} {old id' : ObjId} {kl k' : TyIx} {vl v' : V}
    (hw : Inv C T w) (hl : Owns C w l sl old kl vl) (hb : SameTypes w.objs base) (h : Replace C w w' base l old s' id' k' v') : Inv C T w' := by
  have hlt : old < w.next := hw.fresh.lt hl.obj
  have other : ∀ y sy, y ≠ l → w.vars y = some sy → ∃ i k v, Rep C sy i k ∧ w'.objs i = some (k, v) ∧ i < w.next ∧ i ≠ old := by
    intro y sy hy hsy
    obtain ⟨i, k, v, ho⟩ := hw.rep y sy hsy
    have hne := hw.distinct ho hl hy
    have hid := hw.fresh.lt ho.obj
    obtain ⟨v2, hv2⟩ := hb.some_of ho.obj
    exact ⟨i, k, v2, ho.rep, by rw [h.keep i hid hne, hv2], hid, hne⟩
  constructor
  · intro x s hx
    have hx' := hx
    rw [h.vars] at hx'
    split at hx'
    · cases hx'; exact ⟨id', k', v', hx, h.rep, h.obj⟩
    · rename_i hne
      obtain ⟨i, k, v, hr, ho, _⟩ := other x s hne hx'
      exact ⟨i, k, v, hx, hr, ho⟩
  · intro x y sx sy i hx hy hcx hcy
    rw [h.vars] at hx hy
    split at hx <;> split at hy
    · simp_all
    · rename_i hxl hyl
      cases hx
      obtain ⟨id2, k2, v2, hr2, _, hlt2, hne2⟩ := other y sy hyl hy
      have e1 := h.rep.contentId; have e2 := hr2.contentId
      rw [e1] at hcx; rw [e2] at hcy
      cases hcx; cases hcy
      rcases h.idNew with h3 | h3
      · exact absurd h3 hne2
      · omega
    · rename_i hxl hyl
      cases hy
      obtain ⟨id2, k2, v2, hr2, _, hlt2, hne2⟩ := other x sx hxl hx
      have e1 := h.rep.contentId; have e2 := hr2.contentId
      rw [e1] at hcy; rw [e2] at hcx
      cases hcx; cases hcy
      rcases h.idNew with h3 | h3
      · exact absurd h3 hne2
      · omega
    · exact hw.inj x y sx sy i hx hy hcx hcy
  · refine ⟨fun i hi => ?_, fun i => by rw [h.sub]; exact hw.fresh.flat i⟩
    have := h.next
    have := h.idLt
    exact h.gone i (Or.inr (by omega)) (by omega)
  · intro p hp
    obtain ⟨⟨v, hv⟩, hn⟩ := hw.loose p hp
    have hlt2 := hw.fresh.lt hv
    have hne : p.1 ≠ old := by
      rintro he
      exact hn l sl hl.var (by rw [he]; exact hl.rep.contentId)
    refine ⟨?_, ?_⟩
    · obtain ⟨v2, hv2⟩ := hb.some_of hv
      exact ⟨v2, by rw [h.keep _ hlt2 hne, hv2]⟩
    · intro x s hx
      rw [h.vars] at hx
      split at hx
      · cases hx
        rw [h.rep.contentId]
        intro he
        cases he
        rcases h.idNew with h3 | h3
        · exact hne h3
        · omega
      · exact hn x s hx

/-- What an object belongs to that `base` has changed: variable `r`, or no variable. -/
def Changes (C : Cfg V) (w : World V) (base : ObjId → Option (TyIx × V)) (r : Option (VarId × Tag V)) : Prop :=
  match r with
  | none => ∀ x s i k v, Owns C w x s i k v → base i = w.objs i
  | some (r, t) => ∃ s j v, Owns C w r s j t.ty v ∧ s.backed = t.backed ∧ base = upd w.objs j (some (t.ty, t.val))

/-- The variables with what has changed. -/
def XSt.changed (f : VarId → Option (Tag V)) : Option (VarId × Tag V) → (VarId → Option (Tag V))
  | none => f
  | some (r, t) => upd f r (some t)

theorem Changes.refl : Changes C w w.objs none := fun _ _ _ _ _ _ => rfl

theorem Changes.var {r : VarId} {s : VarSt} {j : ObjId} {k : TyIx} {v : V} (h : Owns C w r s j k v) (u : V) :
    Changes C w (upd w.objs j (some (k, u))) (some (r, ⟨k, u, s.backed⟩)) := ⟨s, j, v, h, rfl, rfl⟩

theorem Changes.loose {j : ObjId} {k : TyIx} (hw : Inv C T w) (hj : (j, k) ∈ T) (p : Option (TyIx × V)) : Changes C w (upd w.objs j p) none := by
  intro x s i k v ho
  have := (hw.loose _ hj).2 x s ho.var
  rw [ho.rep.contentId] at this
  rw [upd_ne]
  rintro rfl
  exact this rfl

theorem Changes.tagged {base : ObjId → Option (TyIx × V)} {r : Option (VarId × Tag V)} (hw : Inv C T w) (hc : Changes C w base r) (y : VarId)
    (hy : w'.vars y = w.vars y) (ho : ∀ s i k v, Owns C w y s i k v → w'.objs i = base i) : w'.tagged y = XSt.changed w.tagged r y := by
  cases r with
  | none => exact hw.tagged_same hy fun s i k v h => by rw [ho s i k v h, hc y s i k v h]
  | some p =>
    obtain ⟨r, t⟩ := p
    obtain ⟨s, j, v, hr, hbk, rfl⟩ := hc
    simp only [XSt.changed]
    by_cases hyr : y = r
    · subst hyr
      have : Owns C w' y s j t.ty t.val := ⟨by rw [hy, hr.var], hr.rep, by rw [ho _ _ _ _ hr, upd_same]⟩
      rw [this.tagged, hbk, upd_same]
    · rw [upd_ne _ _ hyr]
      refine hw.tagged_same hy fun s i k v h => ?_
      rw [ho _ _ _ _ h, upd_ne]
      exact hw.distinct h hr hyr

theorem Replace.tagged {base : ObjId → Option (TyIx × V)} {l : VarId} {sl s' : VarSt} {old id' : ObjId} {kl k' : TyIx} {vl v' : V}
    {r : Option (VarId × Tag V)} (hw : Inv C T w) (hl : Owns C w l sl old kl vl) (hc : Changes C w base r)
    (h : Replace C w w' base l old s' id' k' v') : w'.tagged = upd (XSt.changed w.tagged r) l (some ⟨k', v', s'.backed⟩) := by
  funext y
  by_cases hy : y = l
  · subst hy
    have : Owns C w' y s' id' k' v' := ⟨by rw [h.vars, if_pos rfl], h.rep, h.obj⟩
    rw [this.tagged, upd_same]
  · rw [upd_ne _ _ hy]
    refine hc.tagged hw y (by rw [h.vars, if_neg hy]) fun s i k v ho => ?_
    exact h.keep i (hw.fresh.lt ho.obj) (hw.distinct ho hl hy)

theorem Changes.sameTypes {base : ObjId → Option (TyIx × V)} {r : VarId} {t : Tag V} (hc : Changes C w base (some (r, t))) :
    SameTypes w.objs base := by
  obtain ⟨s, j, v, hr, _, rfl⟩ := hc
  exact SameTypes.upd _ _ hr.obj

theorem Create.inv {base : ObjId → Option (TyIx × V)} {x : VarId} {s' : VarSt} {id' : ObjId} {k' : TyIx} {v' : V}
    (hw : Inv C T w) (_hx0 : w.vars x = none) (hb : SameTypes w.objs base) (h : Create C w w' base x s' id' k' v') : Inv C T w' := by
  have other : ∀ y sy, w.vars y = some sy → ∃ i k v, Rep C sy i k ∧ w'.objs i = some (k, v) ∧ i < w.next := by
    intro y sy hsy
    obtain ⟨i, k, v, ho⟩ := hw.rep y sy hsy
    have hid := hw.fresh.lt ho.obj
    obtain ⟨v2, hv2⟩ := hb.some_of ho.obj
    exact ⟨i, k, v2, ho.rep, by rw [h.keep i hid, hv2], hid⟩
  have hnew := h.idNew
  constructor
  · intro y s hy
    have hy' := hy
    rw [h.vars] at hy'
    split at hy'
    · cases hy'; exact ⟨id', k', v', hy, h.rep, h.obj⟩
    · obtain ⟨i, k, v, hr, ho, _⟩ := other y s hy'
      exact ⟨i, k, v, hy, hr, ho⟩
  · intro y z sy sz i hy hz hcy hcz
    rw [h.vars] at hy hz
    split at hy <;> split at hz
    · simp_all
    · rename_i hyl hzl
      cases hy
      obtain ⟨id2, k2, v2, hr2, _, hlt2⟩ := other z sz hz
      have e1 := h.rep.contentId; have e2 := hr2.contentId
      rw [e1] at hcy; rw [e2] at hcz
      cases hcy; cases hcz
      omega
    · rename_i hyl hzl
      cases hz
      obtain ⟨id2, k2, v2, hr2, _, hlt2⟩ := other y sy hy
      have e1 := h.rep.contentId; have e2 := hr2.contentId
      rw [e1] at hcz; rw [e2] at hcy
      cases hcy; cases hcz
      omega
    · exact hw.inj y z sy sz i hy hz hcy hcz
  · refine ⟨fun i hi => ?_, fun i => by rw [h.sub]; exact hw.fresh.flat i⟩
    have := h.next
    have := h.idLt
    exact h.gone i (by omega) (by omega)
  · intro p hp
    obtain ⟨⟨v, hv⟩, hn⟩ := hw.loose p hp
    have hlt2 := hw.fresh.lt hv
    refine ⟨?_, ?_⟩
    · obtain ⟨v2, hv2⟩ := hb.some_of hv
      exact ⟨v2, by rw [h.keep _ hlt2, hv2]⟩
    · intro y s hy
      rw [h.vars] at hy
      split at hy
      · cases hy
        rw [h.rep.contentId]
        intro he
        cases he
        omega
      · exact hn y s hy

theorem Create.tagged {base : ObjId → Option (TyIx × V)} {x : VarId} {s' : VarSt} {id' : ObjId} {k' : TyIx} {v' : V}
    {r : Option (VarId × Tag V)} (hw : Inv C T w) (hc : Changes C w base r)
    (h : Create C w w' base x s' id' k' v') : w'.tagged = upd (XSt.changed w.tagged r) x (some ⟨k', v', s'.backed⟩) := by
  funext y
  by_cases hy : y = x
  · subst hy
    have : Owns C w' y s' id' k' v' := ⟨by rw [h.vars, if_pos rfl], h.rep, h.obj⟩
    rw [this.tagged, upd_same]
  · rw [upd_ne _ _ hy]
    exact hc.tagged hw y (by rw [h.vars, if_neg hy]) fun s i k v ho => h.keep i (hw.fresh.lt ho.obj)

theorem Remove.inv {x : VarId} {sx : VarSt} {old : ObjId} {k : TyIx} {v : V} (hw : Inv C T w) (hx : Owns C w x sx old k v)
    (h : Remove w w' x old) : Inv C T w' := by
  constructor
  · intro y s hy
    have hy' := hy
    rw [h.vars] at hy'
    split at hy'
    · cases hy'
    · rename_i hne
      obtain ⟨i, k, v, ho⟩ := hw.rep y s hy'
      exact ⟨i, k, v, hy, ho.rep, by rw [h.objs, if_neg (hw.distinct ho hx hne)]; exact ho.obj⟩
  · intro y z sy sz i hy hz
    rw [h.vars] at hy hz
    split at hy
    · cases hy
    split at hz
    · cases hz
    exact hw.inj y z sy sz i hy hz
  · refine ⟨fun i hi => ?_, fun i => by rw [h.sub]; exact hw.fresh.flat i⟩
    rw [h.next] at hi
    rw [h.objs]
    split
    · rfl
    · exact hw.fresh.fresh i hi
  · intro p hp
    obtain ⟨⟨v, hv⟩, hn⟩ := hw.loose p hp
    refine ⟨⟨v, ?_⟩, ?_⟩
    · rw [h.objs, if_neg]
      · exact hv
      · rintro he
        exact hn x sx hx.var (by rw [he]; exact hx.rep.contentId)
    · intro y s hy
      rw [h.vars] at hy
      split at hy
      · cases hy
      · exact hn y s hy

theorem Remove.tagged {x : VarId} {sx : VarSt} {old : ObjId} {k : TyIx} {v : V} (hw : Inv C T w) (hx : Owns C w x sx old k v)
    (h : Remove w w' x old) : w'.tagged = upd w.tagged x none := by
  funext y
  by_cases hy : y = x
  · subst hy
    rw [upd_same]
    exact tagged_none (by rw [h.vars, if_pos rfl])
  · rw [upd_ne _ _ hy]
    exact hw.tagged_same (by rw [h.vars, if_neg hy]) fun s i k v ho => by rw [h.objs, if_neg (hw.distinct ho hx hy)]

theorem Revalue.inv {base : ObjId → Option (TyIx × V)} (hw : Inv C T w) (hb : SameTypes w.objs base) (h : Revalue w w' base) : Inv C T w' := by
  constructor
  · intro x s hx
    have hx' := hx
    rw [h.vars] at hx'
    obtain ⟨i, k, v, ho⟩ := hw.rep x s hx'
    obtain ⟨v2, hv2⟩ := hb.some_of ho.obj
    exact ⟨i, k, v2, hx, ho.rep, by rw [h.objs, hv2]⟩
  · intro x y sx sy i hx hy
    rw [h.vars] at hx hy
    exact hw.inj x y sx sy i hx hy
  · refine ⟨fun i hi => ?_, fun i => by rw [h.sub]; exact hw.fresh.flat i⟩
    rw [h.next] at hi
    rw [h.objs]
    exact hb.none_of (hw.fresh.fresh i hi)
  · intro p hp
    obtain ⟨⟨v, hv⟩, hn⟩ := hw.loose p hp
    refine ⟨?_, fun x s hx => hn x s (by rw [← h.vars]; exact hx)⟩
    obtain ⟨v2, hv2⟩ := hb.some_of hv
    exact ⟨v2, by rw [h.objs, hv2]⟩

theorem Revalue.tagged {base : ObjId → Option (TyIx × V)} {r : Option (VarId × Tag V)} (hw : Inv C T w) (hc : Changes C w base r)
    (h : Revalue w w' base) : w'.tagged = XSt.changed w.tagged r := by
  funext y
  exact hc.tagged hw y (by rw [h.vars]) fun s i k v _ => by rw [h.objs]

/-! ### Code that does what the specification says -/

/-- In state `w` the code does what `X` says. -/
def Conforms {α : Type} (C : Cfg V) (T : List (ObjId × TyIx)) (m : M V α) (X : Eff (XSt V) α) (w : World V) : Prop :=
  wp m (fun a w' => X w.view = .ok a w'.view ∧ Inv C T w') (fun e w' => X w.view = .exc e w'.view ∧ Inv C T w') w

theorem Conforms.bind {α β : Type} {m : M V α} {f : α → M V β} {X : Eff (XSt V) α} {Y : α → Eff (XSt V) β} (h : Conforms C T m X w)
    (hf : ∀ a w', X w.view = .ok a w'.view → Inv C T w' → Conforms C T (f a) (Y a) w') : Conforms C T (m >>= f) (X >>= Y) w := by
  unfold Conforms
  rw [wp_bind]
  refine wp_mono h ?_ ?_
  · rintro a w' ⟨h1, h2⟩
    refine wp_mono (hf a w' h1 h2) ?_ ?_ <;>
      · rintro b w'' ⟨h3, h4⟩
        refine ⟨?_, h4⟩
        show Eff.bind X Y w.view = _
        rw [Eff.bind, h1]
        exact h3
  · rintro e w' ⟨h1, h2⟩
    refine ⟨?_, h2⟩
    show Eff.bind X Y w.view = _
    rw [Eff.bind, h1]

end

end BVariant
