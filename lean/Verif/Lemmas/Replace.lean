/-
Ways in which one API call changes the world, and that each preserves well-formedness.
-/
import Verif.Lemmas.Visit

namespace BVariant

section
variable {V : Type} {C : Cfg V} {w w' : World V}

/-- Same live objects with the same types; values may differ. -/
def SameTypes (o o' : ObjId → Option (TyIx × V)) : Prop :=
  ∀ i, (o' i).map Prod.fst = (o i).map Prod.fst

theorem SameTypes.refl (o : ObjId → Option (TyIx × V)) : SameTypes o o := fun _ => rfl

theorem SameTypes.upd (o : ObjId → Option (TyIx × V)) {id : ObjId} {k : TyIx} {v : V} (v' : V)
    (h : o id = some (k, v)) : SameTypes o (upd o id (some (k, v'))) := by
  intro i
  by_cases hi : i = id
  · subst hi; simp [h]
  · simp [hi]

theorem SameTypes.trans {o o' o'' : ObjId → Option (TyIx × V)} (h : SameTypes o o') (h' : SameTypes o' o'') :
    SameTypes o o'' := fun i => (h' i).trans (h i)

theorem SameTypes.some_of {o o' : ObjId → Option (TyIx × V)} (h : SameTypes o o') {i : ObjId} {k : TyIx} {v : V}
    (hi : o i = some (k, v)) : ∃ v', o' i = some (k, v') := by
  have := h i
  rw [hi] at this
  cases ho : o' i with
  | none => rw [ho] at this; simp at this
  | some p => rw [ho] at this; obtain ⟨a, b⟩ := p; simp at this; subst this; exact ⟨b, rfl⟩

theorem SameTypes.none_of {o o' : ObjId → Option (TyIx × V)} (h : SameTypes o o') {i : ObjId}
    (hi : o i = none) : o' i = none := by
  have := h i
  rw [hi] at this
  cases ho : o' i with
  | none => rfl
  | some p => rw [ho] at this; simp at this

theorem SameTypes.ne_none {o o' : ObjId → Option (TyIx × V)} (h : SameTypes o o') {i : ObjId}
    (hi : o' i ≠ none) : o i ≠ none := fun hn => hi (h.none_of hn)

/-- `l`, which owned object `old`, has become `s'`, which owns object `id'` of type `k'` with value `v'`.
All objects that existed before, except `old`, are as `base` says; all other objects created on the way
are gone. -/
structure Replace (C : Cfg V) (w w' : World V) (base : ObjId → Option (TyIx × V)) (l : VarId) (old : ObjId)
    (s' : VarSt) (id' : ObjId) (k' : TyIx) (v' : V) : Prop where
  vars : ∀ y, w'.vars y = if y = l then some s' else w.vars y
  rep : Rep C s' id' k'
  obj : w'.objs id' = some (k', v')
  idNew : id' = old ∨ w.next ≤ id'
  idLt : id' < w'.next
  keep : ∀ i, i < w.next → i ≠ old → w'.objs i = base i
  gone : ∀ i, (i = old ∨ w.next ≤ i) → i ≠ id' → w'.objs i = none
  next : w.next ≤ w'.next
  sub : w'.sub = w.sub
  tick : w.tick ≤ w'.tick

theorem WF.id_lt (h : WF C w) {i : ObjId} (hi : w.objs i ≠ none) : i < w.next := by
  rcases Nat.lt_or_ge i w.next with h1 | h1
  · exact h1
  · exact absurd (h.fresh i h1) hi

theorem Replace.wf {base : ObjId → Option (TyIx × V)} {l : VarId} {sl s' : VarSt} {old id' : ObjId}
    {k' : TyIx} {v' : V} (hw : WF C w) (hl : w.vars l = some sl) (hold : sl.contentId = some old)
    (hb : SameTypes w.objs base) (h : Replace C w w' base l old s' id' k' v') : WF C w' := by
  obtain ⟨idl, kl, vl, hrl, hol⟩ := hw.rep l sl hl
  have : idl = old := by have := hrl.contentId; rw [hold] at this; simpa using this.symm
  subst this
  have hlt : idl < w.next := hw.id_lt (by simp [hol])
  have other : ∀ y sy, y ≠ l → w.vars y = some sy → ∃ id k v, Rep C sy id k ∧ w'.objs id = some (k, v) ∧
      id < w.next ∧ id ≠ idl := by
    intro y sy hy hsy
    obtain ⟨id, k, v, hr, ho⟩ := hw.rep y sy hsy
    have hne : id ≠ idl := by
      intro he
      subst he
      exact hy (hw.inj y l sy sl _ hsy hl hr.contentId hold)
    have hid := hw.id_lt (i := id) (by simp [ho])
    obtain ⟨v2, hv2⟩ := hb.some_of ho
    exact ⟨id, k, v2, hr, by rw [h.keep id hid hne, hv2], hid, hne⟩
  constructor
  · intro x s hx
    rw [h.vars] at hx
    split at hx
    · cases hx; exact ⟨id', k', v', h.rep, h.obj⟩
    · rename_i hne
      obtain ⟨id, k, v, hr, ho, _⟩ := other x s hne hx
      exact ⟨id, k, v, hr, ho⟩
  · intro x y sx sy id hx hy hcx hcy
    rw [h.vars] at hx hy
    split at hx <;> split at hy
    · simp_all
    · rename_i hxl hyl
      cases hx
      obtain ⟨id2, k2, v2, hr2, _, hlt2, hne2⟩ := other y sy hyl hy
      have e1 := h.rep.contentId; have e2 := hr2.contentId
      rw [e1] at hcx; rw [e2] at hcy
      cases hcx; cases hcy
      rcases h.idNew with h3 | h3
      · exact absurd h3 hne2
      · omega
    · rename_i hxl hyl
      cases hy
      obtain ⟨id2, k2, v2, hr2, _, hlt2, hne2⟩ := other x sx hxl hx
      have e1 := h.rep.contentId; have e2 := hr2.contentId
      rw [e1] at hcy; rw [e2] at hcx
      cases hcx; cases hcy
      rcases h.idNew with h3 | h3
      · exact absurd h3 hne2
      · omega
    · exact hw.inj x y sx sy id hx hy hcx hcy
  · intro id hid
    by_cases he : id = id'
    · exact ⟨l, s', by simp [h.vars], by rw [he]; exact h.rep.contentId⟩
    · by_cases hc : id = idl ∨ w.next ≤ id
      · exact absurd (h.gone id hc he) hid
      · have hlt2 : id < w.next := by omega
        have hne2 : id ≠ idl := fun hh => hc (Or.inl hh)
        rw [h.keep id hlt2 hne2] at hid
        obtain ⟨x, s, hx, hs⟩ := hw.noLeak id (hb.ne_none hid)
        refine ⟨x, s, ?_, hs⟩
        rw [h.vars]
        split
        · rename_i hxl
          subst hxl
          rw [hl] at hx; cases hx
          rw [hold] at hs; cases hs
          exact absurd rfl hne2
        · exact hx
  · intro id hid
    have := h.next
    have := h.idLt
    exact h.gone id (Or.inr (by omega)) (by omega)
  · intro id; rw [h.sub]; exact hw.flat id

/-- Only values of objects changed. -/
structure Revalue (w w' : World V) (base : ObjId → Option (TyIx × V)) : Prop where
  vars : w'.vars = w.vars
  objs : w'.objs = base
  next : w'.next = w.next
  sub : w'.sub = w.sub

theorem Revalue.wf {base : ObjId → Option (TyIx × V)} (hw : WF C w) (hb : SameTypes w.objs base)
    (h : Revalue w w' base) : WF C w' := by
  constructor
  · intro x s hx
    rw [h.vars] at hx
    obtain ⟨id, k, v, hr, ho⟩ := hw.rep x s hx
    obtain ⟨v2, hv2⟩ := hb.some_of ho
    exact ⟨id, k, v2, hr, by rw [h.objs, hv2]⟩
  · intro x y sx sy id hx hy
    rw [h.vars] at hx hy
    exact hw.inj x y sx sy id hx hy
  · intro id hid
    rw [h.objs] at hid
    rw [h.vars]
    exact hw.noLeak id (hb.ne_none hid)
  · intro id hid
    rw [h.next] at hid
    rw [h.objs]
    exact hb.none_of (hw.fresh id hid)
  · intro id; rw [h.sub]; exact hw.flat id

/-- A new variant `x` has appeared, owning the new object `id'`; all objects that existed before are as
`base` says; all other objects created on the way are gone. -/
structure Create (C : Cfg V) (w w' : World V) (base : ObjId → Option (TyIx × V)) (x : VarId)
    (s' : VarSt) (id' : ObjId) (k' : TyIx) (v' : V) : Prop where
  vars : ∀ y, w'.vars y = if y = x then some s' else w.vars y
  rep : Rep C s' id' k'
  obj : w'.objs id' = some (k', v')
  idNew : w.next ≤ id'
  idLt : id' < w'.next
  keep : ∀ i, i < w.next → w'.objs i = base i
  gone : ∀ i, w.next ≤ i → i ≠ id' → w'.objs i = none
  next : w.next ≤ w'.next
  sub : w'.sub = w.sub
  tick : w.tick ≤ w'.tick

theorem Create.wf {base : ObjId → Option (TyIx × V)} {x : VarId} {s' : VarSt} {id' : ObjId}
    {k' : TyIx} {v' : V} (hw : WF C w) (hx0 : w.vars x = none)
    (hb : SameTypes w.objs base) (h : Create C w w' base x s' id' k' v') : WF C w' := by
  have other : ∀ y sy, w.vars y = some sy → ∃ id k v, Rep C sy id k ∧ w'.objs id = some (k, v) ∧
      id < w.next := by
    intro y sy hsy
    obtain ⟨id, k, v, hr, ho⟩ := hw.rep y sy hsy
    have hid := hw.id_lt (i := id) (by simp [ho])
    obtain ⟨v2, hv2⟩ := hb.some_of ho
    exact ⟨id, k, v2, hr, by rw [h.keep id hid, hv2], hid⟩
  have hnew := h.idNew
  constructor
  · intro y s hy
    rw [h.vars] at hy
    split at hy
    · cases hy; exact ⟨id', k', v', h.rep, h.obj⟩
    · obtain ⟨id, k, v, hr, ho, _⟩ := other y s hy
      exact ⟨id, k, v, hr, ho⟩
  · intro y z sy sz id hy hz hcy hcz
    rw [h.vars] at hy hz
    split at hy <;> split at hz
    · simp_all
    · rename_i hyl hzl
      cases hy
      obtain ⟨id2, k2, v2, hr2, _, hlt2⟩ := other z sz hz
      have e1 := h.rep.contentId; have e2 := hr2.contentId
      rw [e1] at hcy; rw [e2] at hcz
      cases hcy; cases hcz
      omega
    · rename_i hyl hzl
      cases hz
      obtain ⟨id2, k2, v2, hr2, _, hlt2⟩ := other y sy hy
      have e1 := h.rep.contentId; have e2 := hr2.contentId
      rw [e1] at hcz; rw [e2] at hcy
      cases hcy; cases hcz
      omega
    · exact hw.inj y z sy sz id hy hz hcy hcz
  · intro id hid
    by_cases he : id = id'
    · exact ⟨x, s', by simp [h.vars], by rw [he]; exact h.rep.contentId⟩
    · by_cases hc : w.next ≤ id
      · exact absurd (h.gone id hc he) hid
      · have hlt2 : id < w.next := by omega
        rw [h.keep id hlt2] at hid
        obtain ⟨y, s, hy, hs⟩ := hw.noLeak id (hb.ne_none hid)
        refine ⟨y, s, ?_, hs⟩
        rw [h.vars]
        split
        · rename_i hxl
          subst hxl
          rw [hx0] at hy; cases hy
        · exact hy
  · intro id hid
    have := h.next
    have := h.idLt
    exact h.gone id (by omega) (by omega)
  · intro id; rw [h.sub]; exact hw.flat id

/-- Variant `x` and its object `old` are gone, everything else is as before. -/
structure Remove (w w' : World V) (x : VarId) (old : ObjId) : Prop where
  vars : ∀ y, w'.vars y = if y = x then none else w.vars y
  objs : ∀ i, w'.objs i = if i = old then none else w.objs i
  next : w'.next = w.next
  sub : w'.sub = w.sub

theorem Remove.wf {x : VarId} {sx : VarSt} {old : ObjId} (hw : WF C w) (hx : w.vars x = some sx)
    (hold : sx.contentId = some old) (h : Remove w w' x old) : WF C w' := by
  constructor
  · intro y s hy
    rw [h.vars] at hy
    split at hy
    · cases hy
    · rename_i hne
      obtain ⟨id, k, v, hr, ho⟩ := hw.rep y s hy
      have hid : id ≠ old := by
        intro he; subst he
        exact hne (hw.inj y x s sx _ hy hx hr.contentId hold)
      exact ⟨id, k, v, hr, by rw [h.objs]; simp [hid, ho]⟩
  · intro y z sy sz id hy hz
    rw [h.vars] at hy hz
    split at hy
    · cases hy
    split at hz
    · cases hz
    exact hw.inj y z sy sz id hy hz
  · intro id hid
    rw [h.objs] at hid
    split at hid
    · exact absurd rfl hid
    rename_i hne
    obtain ⟨y, s, hy, hs⟩ := hw.noLeak id hid
    refine ⟨y, s, ?_, hs⟩
    rw [h.vars]
    split
    · rename_i hyx
      subst hyx
      rw [hx] at hy; cases hy
      rw [hold] at hs; cases hs
      exact absurd rfl hne
    · exact hy
  · intro id hid
    rw [h.next] at hid
    rw [h.objs]
    split
    · rfl
    · exact hw.fresh id hid
  · intro id; rw [h.sub]; exact hw.flat id

end

end BVariant
