/-
Effect of `swap`.
-/
import Verif.Lemmas.Content

set_option linter.unusedSimpArgs false

namespace BVariant

section
variable {V : Type} {C : Cfg V} {w : World V} {x y : VarId} {sx sy : VarSt} {ix iy : ObjId} {kx ky : TyIx} {vx vy : V}

/-- All variants but the given two are exactly as before. -/
def OthersUnchanged (w w' : World V) (x y : VarId) : Prop := ∀ z, z ≠ x → z ≠ y → Unchanged w w' z

/-- How many heap allocations a swap makes. -/
def SwapAlloc (C : Cfg V) (w w' : World V) (kx ky : TyIx) : Prop :=
  w'.allocs = w.allocs ∨ (C.mayBackup kx ∧ C.mayBackup ky ∧ w'.allocs ≤ w.allocs + 2)

/-- Everything a `swap` that returns can do. -/
inductive SwapOk (C : Cfg V) (w w' : World V) (x y : VarId) (sx sy : VarSt) (ix iy : ObjId) (kx ky : TyIx)
    (vx vy : V) : Prop
  | self (hxy : x = y) (hr : Revalue w w' (upd w.objs ix (some (kx, C.ops.selfSwap kx vx))))
      (ha : w'.allocs = w.allocs)
  | sameType (hxy : x ≠ y) (hk : kx = ky)
      (hr : Revalue w w' (upd (upd w.objs ix (some (kx, C.ops.swapL kx vx vy))) iy
        (some (ky, C.ops.swapR kx vx vy)))) (ha : w'.allocs = w.allocs)
  | changed (hk : kx ≠ ky) (ix' iy' : ObjId)
      (hx : Owns C w' x ⟨(ky : Int), .obj ix'⟩ ix' ky (moveAssignVal C ky (C.ops.move ky vy)))
      (hy : Owns C w' y ⟨(kx : Int), .obj iy'⟩ iy' kx (moveAssignVal C kx vx))
      (ha : Sane C → SwapAlloc C w w' kx ky) (hn : w.next ≤ ix' ∧ w.next ≤ iy')

/-- Everything a `swap` that throws can do. -/
inductive SwapExc (C : Cfg V) (w w' : World V) (x y : VarId) (sx sy : VarSt) (ix iy : ObjId) (kx ky : TyIx)
    (vx vy : V) (e : Exc) : Prop
  | self (hxy : x = y) (hek : e.kind = .swap kx)
      (hr : Revalue w w' (upd w.objs ix (some (kx, C.ops.selfSwapFail kx vx)))) (ha : w'.allocs = w.allocs)
  | sameType (hxy : x ≠ y) (hk : kx = ky) (hek : e.kind = .swap kx)
      (hr : Revalue w w' (upd (upd w.objs ix (some (kx, C.ops.swapFailL kx vx vy))) iy
        (some (ky, C.ops.swapFailR kx vx vy)))) (ha : w'.allocs = w.allocs)
  /-- moving the right content to the temporary failed -/
  | stage1 (hk : kx ≠ ky) (hek : e.kind = .moveCtor ky)
      (hr : Revalue w w' (upd w.objs iy (some (ky, C.ops.moveFailSrc ky vy)))) (ha : w'.allocs = w.allocs)
  /-- moving the left content to the right variant failed -/
  | stage2 (hk : kx ≠ ky) (hek : MoveKind C ky kx e.kind) (sy' : VarSt) (iy' : ObjId) (ky' : TyIx) (vy' : V)
      (hx : Owns C w' x sx ix kx (moveAssignExcSrcVal C kx vx))
      (hy : Owns C w' y sy' iy' ky' vy') (hlo : Leftover C sy iy ky (C.ops.movedFrom ky vy) kx sy' iy' ky' vy')
      (ha : Sane C → SwapAlloc C w w' kx ky) (hn : (iy' = iy ∨ w.next ≤ iy') ∧ w.next ≤ w'.next)
  /-- moving the temporary to the left variant failed -/
  | stage3 (hk : kx ≠ ky) (hek : MoveKind C kx ky e.kind) (sx' : VarSt) (ix' : ObjId) (kx' : TyIx) (vx' : V) (iy' : ObjId)
      (hx : Owns C w' x sx' ix' kx' vx') (hlo : Leftover C sx ix kx (moveAssignSrcVal C kx vx) ky sx' ix' kx' vx')
      (hy : Owns C w' y ⟨(kx : Int), .obj iy'⟩ iy' kx (moveAssignVal C kx vx))
      (ha : Sane C → SwapAlloc C w w' kx ky) (hn : (ix' = ix ∨ w.next ≤ ix') ∧ w.next ≤ iy')

theorem wp_swap_gen (hb : BlankOk C) (hw : WF C w) (hx : Owns C w x sx ix kx vx) (hy : Owns C w y sy iy ky vy)
    (hxt : x ≠ .tmp 0) (hyt : y ≠ .tmp 0) (htn : w.vars (.tmp 0) = none) (hz : kx = ky ∨ 0 ≤ sx.which_) :
    wp (swap C x y)
      (fun _ w' => WF C w' ∧ OthersUnchanged w w' x y ∧ SwapOk C w w' x y sx sy ix iy kx ky vx vy)
      (fun e w' => Thrown C w w' e ∧ OthersUnchanged w w' x y ∧
        (Sane C → WF C w' ∧ SwapExc C w w' x y sx sy ix iy kx ky vx vy e) ∧
        ((WF C w' ∧ SwapExc C w w' x y sx sy ix iy kx ky vx vy e) ∨ w'.broken C x ∨ w'.broken C y)) w := by
  have hd := hw.distinct hx hy
  have hf := hw.toFresh
  simp only [swap, wp_bind, wpx_which, hx.var, hy.var, Rep.which C hx.rep, Rep.which C hy.rep]
  by_cases hk : kx = ky
  · subst hk
    simp only [if_true]
    rw [wp_applyVisitor C hx.var hx.rep hx.obj]
    simp only [swapWith, wp_bind]
    rw [wp_applyVisitor C hy.var hy.rep hy.obj]
    simp only [knownGet, if_true, wp_pure]
    rcases hd with ⟨rfl, rfl⟩ | ⟨hxy, hid⟩
    · rw [wpx_swapObj_self C kx hx.obj]
      split
      · rename_i hth
        have hr : Revalue w { w with objs := upd w.objs ix (some (kx, C.ops.selfSwapFail kx vx)), tick := w.tick + 1 }
            (upd w.objs ix (some (kx, C.ops.selfSwapFail kx vx))) := ⟨rfl, rfl, rfl, rfl⟩
        exact ⟨⟨by simp, by simp, hth⟩, fun z hz _ => ⟨rfl, fun s id h1 h2 => hw.upd_other hx hz s id h1 h2⟩,
          fun _ => ⟨hr.wf hw (SameTypes.upd _ _ hx.obj), .self rfl rfl hr rfl⟩, .inl ⟨hr.wf hw (SameTypes.upd _ _ hx.obj), .self rfl rfl hr rfl⟩⟩
      · have hr : Revalue w { w with objs := upd w.objs ix (some (kx, C.ops.selfSwap kx vx)), tick := w.tick + 1 }
            (upd w.objs ix (some (kx, C.ops.selfSwap kx vx))) := ⟨rfl, rfl, rfl, rfl⟩
        exact ⟨hr.wf hw (SameTypes.upd _ _ hx.obj),
          fun z hz _ => ⟨rfl, fun s id h1 h2 => hw.upd_other hx hz s id h1 h2⟩, .self rfl hr rfl⟩
    · rw [wpx_swapObj C kx hid hx.obj hy.obj]
      have aux : ∀ a b : V, SameTypes w.objs (upd (upd w.objs ix (some (kx, a))) iy (some (kx, b))) := by
        intro a b
        refine (SameTypes.upd w.objs a hx.obj).trans (SameTypes.upd _ b (v := vy) ?_)
        rw [upd_ne _ _ (Ne.symm hid)]; exact hy.obj
      have aux2 : ∀ (a b : V) z, z ≠ x → z ≠ y → ∀ s id, w.vars z = some s → s.contentId = some id →
          upd (upd w.objs ix (some (kx, a))) iy (some (kx, b)) id = w.objs id := by
        intro a b z h1 h2 s id h3 h4
        rw [upd_ne _ _ (hw.content_ne hy h2 h3 h4), upd_ne _ _ (hw.content_ne hx h1 h3 h4)]
      have hr : ∀ o, Revalue w { w with objs := o, tick := w.tick + 1 } o := fun _ => ⟨rfl, rfl, rfl, rfl⟩
      split
      · rename_i hth
        exact ⟨⟨by simp, by simp, hth⟩, fun z h1 h2 => ⟨rfl, aux2 _ _ z h1 h2⟩,
          fun _ => ⟨(hr _).wf hw (aux _ _), .sameType hxy rfl rfl (hr _) rfl⟩,
          .inl ⟨(hr _).wf hw (aux _ _), .sameType hxy rfl rfl (hr _) rfl⟩⟩
      · exact ⟨(hr _).wf hw (aux _ _), fun z h1 h2 => ⟨rfl, aux2 _ _ z h1 h2⟩, .sameType hxy rfl (hr _) rfl⟩
  · have hki : ¬ ((kx : Int) = (ky : Int)) := by omega
    simp only [hki, if_false, wp_bind]
    have hxy : x ≠ y ∧ ix ≠ iy := by
      rcases hd with ⟨rfl, rfl⟩ | h
      · have h1 := hx.obj; rw [hy.obj] at h1; cases h1; exact absurd rfl hk
      · exact h
    have hsx := hx.rep.inPlace_of_nonneg (hz.resolve_left hk)
    refine wp_mono (wp_moveConstruct hy hf) ?_ ?_
    · -- stage 1 done
      rintro _ w1 ⟨hc, hac⟩
      have hst1 : SameTypes w.objs (upd w.objs iy (some (ky, C.ops.movedFrom ky vy))) := SameTypes.upd _ _ hy.obj
      have hw1 := hc.wf hw htn hst1
      have hx1 : Owns C w1 x sx ix kx vx := hc.owns_other hw hx hxt (by rw [upd_ne _ _ hxy.2]; exact hx.obj)
      have hy1 : Owns C w1 y sy iy ky (C.ops.movedFrom ky vy) := hc.owns_other hw hy hyt (by simp)
      have ht1 := hc.owns
      have ho1 : ∀ z, z ≠ x → z ≠ y → z ≠ .tmp 0 → Unchanged w w1 z :=
        fun z _ h2 h3 => hc.unchanged hw h3 (hw.upd_other hy h2)
      rw [wp_withLocal]
      simp only [wp_bind]
      -- end of the life of the temporary
      have fin : ∀ {w3 : World V} {st : VarSt} {it : ObjId} {kt : TyIx} {vt : V} {Q : Unit → World V → Prop}
          {E : Exc → World V → Prop}, WF C w3 → Owns C w3 (.tmp 0) st it kt vt →
          (∀ z, z ≠ x → z ≠ y → z ≠ .tmp 0 → Unchanged w w3 z) →
          (∀ w4, WF C w4 → OthersUnchanged w w4 x y → (∀ z, z ≠ .tmp 0 → Unchanged w3 w4 z) → w4.tick = w3.tick →
            w4.allocs = w3.allocs → Q () w4) →
          wp (destroyVar C (.tmp 0)) Q E w3 := by
        intro w3 st it kt vt Q E hw3 ht3 ho3 hq
        rw [wp_destroyVar ht3 hw3.flat]
        have hrm : Remove w3 { w3 with objs := upd w3.objs it none, vars := upd w3.vars (.tmp 0) none } (.tmp 0) it :=
          ⟨fun _ => by simp only [upd], fun _ => by simp only [upd], rfl, rfl⟩
        refine hq _ (hrm.wf hw3 ht3.var ht3.rep.contentId) ?_ (fun z h => hrm.unchanged hw3 ht3 h) rfl rfl
        intro z h1 h2
        by_cases h3 : z = .tmp 0
        · subst h3
          refine ⟨by simp [htn], fun s id hh => ?_⟩
          rw [htn] at hh; cases hh
        · exact (ho3 z h1 h2 h3).trans (hrm.unchanged hw3 ht3 h3)
      -- the same after a failed assignment
      have fin0 : ∀ {w2 w3 : World V} {st sl : VarSt} {it id2 : ObjId} {kt kl kr : TyIx} {vt vl : V} {base : ObjId → Option (TyIx × V)}
          {l : VarId} {e : Exc} {E : World V → Prop}, WF C w2 → Owns C w2 (.tmp 0) st it kt vt →
          (∀ z, z ≠ x → z ≠ y → z ≠ .tmp 0 → Unchanged w w2 z) → AssignExc0 C w2 w3 base l sl id2 kl vl kr e →
          l = x ∨ l = y → Owns C w2 l sl id2 kl vl →
          (∃ v, base it = some (kt, v)) →
          (∀ z, z ≠ x → z ≠ y → z ≠ .tmp 0 → ∀ s id, w2.vars z = some s → s.contentId = some id → base id = w2.objs id) →
          w.tick ≤ w2.tick →
          (∀ w4, w4.vars = upd w3.vars (.tmp 0) none → w4.objs = upd w3.objs it none → w4.next = w3.next →
            w4.sub = w3.sub → w4.allocs = w3.allocs →
            Thrown C w w4 e → OthersUnchanged w w4 x y → E w4) →
          wp (destroyVar C (.tmp 0)) (fun _ w4 => E w4) (fun _ _ => False) w3 := by
        intro w2 w3 st sl it id2 kt kl kr vt vl base l e E hw2 ht2 ho2 h0 hl hown hbt hbz htk hE
        obtain ⟨v, hbt⟩ := hbt
        have hlt : l ≠ .tmp 0 := by rcases hl with rfl | rfl <;> assumption
        have hit : it ≠ id2 := by
          rcases hw2.distinct ht2 hown with ⟨h, _⟩ | ⟨_, h⟩
          · exact absurd h.symm hlt
          · exact h
        have ht3 : Owns C w3 (.tmp 0) st it kt v :=
          ⟨by rw [h0.vars _ hlt.symm]; exact ht2.var, ht2.rep,
            by rw [h0.keep it (hw2.toFresh.lt ht2.obj) hit, hbt]⟩
        rw [wp_destroyVar ht3 (by rw [h0.sub]; exact hw2.flat)]
        refine hE _ rfl rfl rfl rfl rfl ⟨by have := h0.thrown.1; omega, h0.thrown.2⟩ ?_
        intro z h1 h2
        by_cases h3 : z = .tmp 0
        · subst h3
          refine ⟨by simp [htn], fun s id hh => ?_⟩
          rw [htn] at hh; cases hh
        · refine (ho2 z h1 h2 h3).trans ⟨?_, ?_⟩
          · simp only [upd_ne _ _ h3]
            refine h0.vars z ?_
            rcases hl with rfl | rfl <;> assumption
          · intro s id hs hc'
            have hzl : z ≠ l := by rcases hl with rfl | rfl <;> assumption
            have h4 : id ≠ it := hw2.content_ne ht2 h3 hs hc'
            have h5 : id ≠ id2 := hw2.content_ne hown hzl hs hc'
            obtain ⟨i, k, v, hoz⟩ := hw2.owns hs
            have : i = id := by have := hoz.rep.contentId; rw [hc'] at this; cases this; rfl
            subst this
            simp only [upd_ne _ _ h4]
            rw [h0.keep i (hw2.toFresh.lt hoz.obj) h5, hbz z h1 h2 h3 s i hs hc']
      refine wp_mono (wp_moveAssign_gen hb hy1 hx1 (hw1.distinct hy1 hx1) hw1.toFresh
        (Or.inr (hz.resolve_left hk))) ?_ ?_
      · -- stage 2 done
        rintro _ w2 ⟨hok, hsane2⟩
        have hwne : sy.which_ ≠ sx.which_ := by
          intro he
          have := (hy.rep.same_which hx.rep he).1
          exact hk this.symm
        have ha2 : Sane C → AllocBound C w1 w2 ky kx := by
          intro hs
          rcases hsane2 hs with ⟨h, _⟩ | ⟨_, h, _⟩ | ⟨_, _, _, ha2⟩
          · exact absurd h.symm hxy.1
          · exact absurd h hwne
          · exact ha2
        rcases hok with ⟨h, _⟩ | ⟨_, h, _⟩ | ⟨_, _, ⟨iy', hiy', hr2⟩⟩
        · exact absurd h.symm hxy.1
        · exact absurd h hwne
        have hst2 : SameTypes w1.objs (upd w1.objs ix (some (kx, moveAssignSrcVal C kx vx))) := SameTypes.upd _ _ hx1.obj
        have hw2 := hr2.wf hw1 hy1.var hy1.rep.contentId hst2
        have hy2 := hr2.owns
        have hx2 : Owns C w2 x sx ix kx (moveAssignSrcVal C kx vx) :=
          hr2.owns_other hw1 hy1 hx1 hxy.1 (by simp)
        have hixt : ix ≠ w.next := by have := hf.lt hx.obj; omega
        have ht2 : Owns C w2 (.tmp 0) ⟨(ky : Int), .obj w.next⟩ w.next ky (C.ops.move ky vy) :=
          hr2.owns_other hw1 hy1 ht1 (Ne.symm hyt) (by rw [upd_ne _ _ hixt.symm]; exact ht1.obj)
        have ho2 : ∀ z, z ≠ x → z ≠ y → z ≠ .tmp 0 → Unchanged w w2 z :=
          fun z h1 h2 h3 => (ho1 z h1 h2 h3).trans (hr2.unchanged hw1 hy1 h2 (hw1.upd_other hx1 h1))
        refine wp_mono (wp_moveAssign_gen hb hx2 ht2 (hw2.distinct hx2 ht2) hw2.toFresh (Or.inr (by simp))) ?_ ?_
        · -- stage 3 done
          rintro _ w3 ⟨hok, hsane3⟩
          have hwne3 : sx.which_ ≠ (ky : Int) := by rw [hsx]; exact hki
          have ha3 : Sane C → AllocBound C w2 w3 kx ky := by
            intro hs
            rcases hsane3 hs with ⟨h, _⟩ | ⟨_, h, _⟩ | ⟨_, _, _, ha2⟩
            · exact absurd h hxt
            · exact absurd h hwne3
            · exact ha2
          rcases hok with ⟨h, _⟩ | ⟨_, h, _⟩ | ⟨_, _, ⟨ix', hix', hr3⟩⟩
          · exact absurd h hxt
          · exact absurd h hwne3
          have hst3 : SameTypes w2.objs (upd w2.objs w.next (some (ky, moveAssignSrcVal C ky (C.ops.move ky vy)))) :=
            SameTypes.upd _ _ ht2.obj
          have hw3 := hr3.wf hw2 hx2.var hx2.rep.contentId hst3
          have hx3 := hr3.owns
          have hyi : iy' ≠ w.next := by
            rcases hw2.distinct hy2 ht2 with ⟨h, _⟩ | ⟨_, h⟩
            · exact absurd h hyt
            · exact h
          have hy3 : Owns C w3 y ⟨(kx : Int), .obj iy'⟩ iy' kx (moveAssignVal C kx vx) :=
            hr3.owns_other hw2 hx2 hy2 hxy.1.symm (by rw [upd_ne _ _ hyi]; exact hy2.obj)
          have ht3 : Owns C w3 (.tmp 0) ⟨(ky : Int), .obj w.next⟩ w.next ky _ :=
            hr3.owns_other hw2 hx2 ht2 (Ne.symm hxt) (upd_same _ _ _)
          have ho3 : ∀ z, z ≠ x → z ≠ y → z ≠ .tmp 0 → Unchanged w w3 z :=
            fun z h1 h2 h3 => (ho2 z h1 h2 h3).trans (hr3.unchanged hw2 hx2 h1 (hw2.upd_other ht2 h3))
          refine fin hw3 ht3 ho3 ?_
          intro w4 hw4 hoth hun _ hal
          exact ⟨hw4, hoth, .changed hk ix' iy' ((hun x hxt).owns hx3) ((hun y hyt).owns hy3)
            (fun hs => by have ha2 := ha2 hs; have ha3 := ha3 hs; simp only [SwapAlloc, AllocBound] at *; grind)
            (by have := hc.next; have := hr2.next; omega)⟩
        · -- stage 3 failed
          rintro e w3 ⟨_, hex, hsane⟩
          have hwne3 : sx.which_ ≠ (ky : Int) := by rw [hsx]; exact hki
          rcases hex with ⟨h, _⟩ | ⟨_, h, _⟩ | ⟨_, _, hkd, h0⟩
          · exact absurd h hxt
          · exact absurd h hwne3
          have hyi : iy' ≠ w.next := by
            rcases hw2.distinct hy2 ht2 with ⟨h, _⟩ | ⟨_, h⟩
            · exact absurd h hyt
            · exact h
          refine fin0 hw2 ht2 ho2 h0 (Or.inl rfl) hx2 ⟨_, upd_same _ _ _⟩
            (fun z h1 h2 h3 => hw2.upd_other ht2 h3) (by have := hc.tick; have := hr2.tick; omega) ?_
          intro w4 hv4 ho4 hnx hsb hal hth hoth
          have build : ∀ {sx' : VarSt} {ix' : ObjId} {kx' : TyIx} {vx' : V},
              Replace C w2 w3 (upd w2.objs w.next (some (ky, moveAssignExcSrcVal C ky (C.ops.move ky vy)))) x ix sx' ix' kx' vx' →
              Leftover C sx ix kx (moveAssignSrcVal C kx vx) ky sx' ix' kx' vx' →
              WF C w4 ∧ SwapExc C w w4 x y sx sy ix iy kx ky vx vy e := by
            intro sx' ix' kx' vx' hr3 hlo
            have hst3 : SameTypes w2.objs (upd w2.objs w.next (some (ky, moveAssignExcSrcVal C ky (C.ops.move ky vy)))) :=
              SameTypes.upd _ _ ht2.obj
            have hw3 := hr3.wf hw2 hx2.var hx2.rep.contentId hst3
            have hx3 := hr3.owns
            have hy3 : Owns C w3 y ⟨(kx : Int), .obj iy'⟩ iy' kx (moveAssignVal C kx vx) :=
              hr3.owns_other hw2 hx2 hy2 hxy.1.symm (by rw [upd_ne _ _ hyi]; exact hy2.obj)
            have ht3 : Owns C w3 (.tmp 0) ⟨(ky : Int), .obj w.next⟩ w.next ky _ :=
              hr3.owns_other hw2 hx2 ht2 (Ne.symm hxt) (upd_same _ _ _)
            have hrm : Remove w3 w4 (.tmp 0) w.next :=
              ⟨fun _ => by rw [hv4]; simp only [upd], fun _ => by rw [ho4]; simp only [upd], hnx, hsb⟩
            refine ⟨hrm.wf hw3 ht3.var ht3.rep.contentId, .stage3 hk hkd.kind sx' ix' kx' vx' iy'
              ((hrm.unchanged hw3 ht3 hxt).owns hx3) hlo ((hrm.unchanged hw3 ht3 hyt).owns hy3)
              (fun hs => ?_)
              (by have := hc.next; have := hr2.next; have := hr3.idNew; omega)⟩
            have ha2 := ha2 hs
            rcases hsane hs with ⟨h, _⟩ | ⟨_, h, _⟩ | ⟨_, _, _, _, ha3⟩
            · exact absurd h hxt
            · exact absurd h hwne3
            simp only [SwapAlloc, AllocBound] at *; grind
          refine ⟨hth, hoth, fun hs => ?_, ?_⟩
          · rcases hsane hs with ⟨h, _⟩ | ⟨_, h, _⟩ | ⟨_, _, _, ⟨-, sx', ix', kx', vx', hr3, hlo⟩, -⟩
            · exact absurd h hxt
            · exact absurd h hwne3
            · exact build hr3 hlo
          · rcases h0.left with ⟨s', h1, h2⟩ | ⟨s', id', k', v', hr3, hlo⟩
            · exact .inr (.inl ⟨s', by rw [hv4, upd_ne _ _ hxt]; exact h1, h2⟩)
            · exact .inl (build hr3 hlo)
      · -- stage 2 failed
        rintro e w2 ⟨_, hex, hsane⟩
        have hwne : sy.which_ ≠ sx.which_ := by
          intro he
          have := (hy.rep.same_which hx.rep he).1
          exact hk this.symm
        rcases hex with ⟨h, _⟩ | ⟨_, h, _⟩ | ⟨_, _, hkd, h0⟩
        · exact absurd h.symm hxy.1
        · exact absurd h hwne
        have hixt : ix ≠ w.next := by have := hf.lt hx.obj; omega
        refine fin0 hw1 ht1 ho1 h0 (Or.inr rfl) hy1 ⟨_, by rw [upd_ne _ _ hixt.symm]; exact ht1.obj⟩
          (fun z h1 h2 h3 => hw1.upd_other hx1 h1) hc.tick ?_
        intro w4 hv4 ho4 hnx hsb hal hth hoth
        have build : ∀ {sy' : VarSt} {iy' : ObjId} {ky' : TyIx} {vy' : V},
            Replace C w1 w2 (upd w1.objs ix (some (kx, moveAssignExcSrcVal C kx vx))) y iy sy' iy' ky' vy' →
            Leftover C sy iy ky (C.ops.movedFrom ky vy) kx sy' iy' ky' vy' →
            WF C w4 ∧ SwapExc C w w4 x y sx sy ix iy kx ky vx vy e := by
          intro sy' iy' ky' vy' hr2 hlo
          have hst2 : SameTypes w1.objs (upd w1.objs ix (some (kx, moveAssignExcSrcVal C kx vx))) := SameTypes.upd _ _ hx1.obj
          have hw2 := hr2.wf hw1 hy1.var hy1.rep.contentId hst2
          have hy2 := hr2.owns
          have hx2 : Owns C w2 x sx ix kx (moveAssignExcSrcVal C kx vx) :=
            hr2.owns_other hw1 hy1 hx1 hxy.1 (by simp)
          have ht2 : Owns C w2 (.tmp 0) ⟨(ky : Int), .obj w.next⟩ w.next ky (C.ops.move ky vy) :=
            hr2.owns_other hw1 hy1 ht1 (Ne.symm hyt) (by rw [upd_ne _ _ hixt.symm]; exact ht1.obj)
          have hrm : Remove w2 w4 (.tmp 0) w.next :=
            ⟨fun _ => by rw [hv4]; simp only [upd], fun _ => by rw [ho4]; simp only [upd], hnx, hsb⟩
          refine ⟨hrm.wf hw2 ht2.var ht2.rep.contentId, .stage2 hk hkd.kind sy' iy' ky' vy'
            ((hrm.unchanged hw2 ht2 hxt).owns hx2) ((hrm.unchanged hw2 ht2 hyt).owns hy2) hlo
            (fun hs => ?_) (by have := hc.next; have := hr2.idNew; have := hr2.next; omega)⟩
          rcases hsane hs with ⟨h, _⟩ | ⟨_, h, _⟩ | ⟨_, _, _, _, ha2⟩
          · exact absurd h.symm hxy.1
          · exact absurd h hwne
          simp only [SwapAlloc, AllocBound] at *; grind
        refine ⟨hth, hoth, fun hs => ?_, ?_⟩
        · rcases hsane hs with ⟨h, _⟩ | ⟨_, h, _⟩ | ⟨_, _, _, ⟨-, sy', iy', ky', vy', hr2, hlo⟩, -⟩
          · exact absurd h.symm hxy.1
          · exact absurd h hwne
          · exact build hr2 hlo
        · rcases h0.left with ⟨s', h1, h2⟩ | ⟨s', id', k', v', hr2, hlo⟩
          · exact .inr (.inr ⟨s', by rw [hv4, upd_ne _ _ hyt]; exact h1, h2⟩)
          · exact .inl (build hr2 hlo)
    · -- stage 1 failed
      rintro e w1 ⟨hek, _, hth, _, rfl⟩
      have hr : Revalue w { w with tick := w.tick + 1, objs := upd w.objs iy (some (ky, C.ops.moveFailSrc ky vy)) }
          (upd w.objs iy (some (ky, C.ops.moveFailSrc ky vy))) := ⟨rfl, rfl, rfl, rfl⟩
      exact ⟨hth, fun z _ h2 => ⟨rfl, fun s id h3 h4 => hw.upd_other hy h2 s id h3 h4⟩,
        fun _ => ⟨hr.wf hw (SameTypes.upd _ _ hy.obj), .stage1 hk hek hr rfl⟩, .inl ⟨hr.wf hw (SameTypes.upd _ _ hy.obj), .stage1 hk hek hr rfl⟩⟩

theorem wp_swap (hs : Sane C) (hw : WF C w) (hx : Owns C w x sx ix kx vx) (hy : Owns C w y sy iy ky vy)
    (hxt : x ≠ .tmp 0) (hyt : y ≠ .tmp 0) (htn : w.vars (.tmp 0) = none) (hz : kx = ky ∨ 0 ≤ sx.which_) :
    wp (swap C x y)
      (fun _ w' => WF C w' ∧ OthersUnchanged w w' x y ∧ SwapOk C w w' x y sx sy ix iy kx ky vx vy)
      (fun e w' => Thrown C w w' e ∧ WF C w' ∧ OthersUnchanged w w' x y ∧
        SwapExc C w w' x y sx sy ix iy kx ky vx vy e) w :=
  wp_mono (wp_swap_gen hs.blank hw hx hy hxt hyt htn hz) (fun _ _ h => h)
    (fun _ _ h => ⟨h.1, (h.2.2.1 hs).1, h.2.1, (h.2.2.1 hs).2⟩)

end

end BVariant
