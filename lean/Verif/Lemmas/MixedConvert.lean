/-
Effect of conversions between variables of different variant types.
-/
import Verif.Spec.MixedConvert
import Verif.Props.Convert
import Verif.Props.Mixed
import Verif.Lemmas.Multi

namespace BVariant

section
variable {V : Type} {C C' : Cfg V} {K : Nat → Cfg V} {ρ : Nat → Nat} {w w' w1 : World V} {base : ObjId → Option (TyIx × V)} {x : Nat}
  {s' : VarSt} {id id' : ObjId} {j k k' : TyIx} {v v' q : V}

/-! ### The invariant of all variables -/

theorem GoodMix.alive_owns (hg : GoodMix K ρ w) (hx : (w.vars (.user x)).isSome = true) : ∃ s id k v, Owns (K (ρ x)) w (.user x) s id k v := by
  obtain ⟨s, hs⟩ := Option.isSome_iff_exists.mp hx
  obtain ⟨id, k, v, hr, ho⟩ := hg.rep x s hs
  exact ⟨s, id, k, v, hs, hr, ho⟩

theorem GoodMix.apart (hg : GoodMix K ρ w) {y : Nat} {sx sy : VarSt} {ix iy : ObjId} {kx ky : TyIx} {vx vy : V}
    (hx : Owns (K (ρ x)) w (.user x) sx ix kx vx) (hy : Owns (K (ρ y)) w (.user y) sy iy ky vy) (hne : y ≠ x) : iy ≠ ix := fun h =>
  hne (hg.inj y x sy sx iy hy.var hx.var hy.rep.contentId (h ▸ hx.rep.contentId))

theorem SameTypes.setAt (h : w.objs id = some (j, v)) (q : V) : SameTypes w.objs (BVariant.upd w.objs id (some (j, q))) :=
  SameTypes.upd w.objs q h

theorem Create.goodMix (hg : GoodMix K ρ w) (hx0 : w.vars (.user x) = none) (hb : SameTypes w.objs base)
    (h : Create (K (ρ x)) w w' base (.user x) s' id' k' v') : GoodMix K ρ w' := by
  have hid_lt : ∀ {i}, w.objs i ≠ none → i < w.next := by
    intro i hi
    rcases Nat.lt_or_ge i w.next with h1 | h1
    · exact h1
    · exact absurd (hg.fresh i h1) hi
  have hvars : ∀ y, y ≠ x → w'.vars (.user y) = w.vars (.user y) := fun y hy => by rw [h.vars]; simp [hy]
  have hvx : w'.vars (.user x) = some s' := by rw [h.vars]; simp
  have other : ∀ y sy, w.vars (.user y) = some sy → ∃ id k v, Rep (K (ρ y)) sy id k ∧ w'.objs id = some (k, v) ∧ id < w.next := by
    intro y sy hsy
    obtain ⟨id, k, v, hr, ho⟩ := hg.rep y sy hsy
    have hid := hid_lt (i := id) (by simp [ho])
    obtain ⟨v2, hv2⟩ := hb.some_of ho
    exact ⟨id, k, v2, hr, by rw [h.keep id hid, hv2], hid⟩
  have hnew := h.idNew
  refine ⟨?_, ?_, ?_, ?_, fun id => by rw [h.sub]; exact hg.flat id, fun n => by rw [h.vars]; simp [hg.noTmp]⟩
  · intro y s hy
    by_cases e : y = x
    · subst e
      rw [hvx] at hy; cases hy
      exact ⟨id', k', v', h.rep, h.obj⟩
    · rw [hvars y e] at hy
      obtain ⟨id, k, v, hr, ho, _⟩ := other y s hy
      exact ⟨id, k, v, hr, ho⟩
  · intro y z sy sz i hy hz hcy hcz
    by_cases ey : y = x <;> by_cases ez : z = x
    · rw [ey, ez]
    · subst ey
      rw [hvx] at hy; cases hy
      rw [hvars z ez] at hz
      obtain ⟨_, _, _, hr2, _, hlt2⟩ := other z sz hz
      rw [h.rep.contentId] at hcy; rw [hr2.contentId] at hcz
      cases hcy; cases hcz
      omega
    · subst ez
      rw [hvx] at hz; cases hz
      rw [hvars y ey] at hy
      obtain ⟨_, _, _, hr2, _, hlt2⟩ := other y sy hy
      rw [h.rep.contentId] at hcz; rw [hr2.contentId] at hcy
      cases hcy; cases hcz
      omega
    · rw [hvars y ey] at hy
      rw [hvars z ez] at hz
      exact hg.inj y z sy sz i hy hz hcy hcz
  · intro i hid
    by_cases he : i = id'
    · exact ⟨x, s', hvx, by rw [he]; exact h.rep.contentId⟩
    · by_cases hc : w.next ≤ i
      · exact absurd (h.gone i hc he) hid
      · have hlt2 : i < w.next := by omega
        rw [h.keep i hlt2] at hid
        obtain ⟨y, s, hy, hs⟩ := hg.noLeak i (hb.ne_none hid)
        have e : y ≠ x := fun e => by rw [e, hx0] at hy; cases hy
        exact ⟨y, s, by rw [hvars y e]; exact hy, hs⟩
  · intro i hid
    have := h.next
    have := h.idLt
    exact h.gone i (by omega) (by omega)

theorem Replace.goodMix {sl : VarSt} {old : ObjId} {kl : TyIx} {vl : V} (hg : GoodMix K ρ w)
    (hl : Owns (K (ρ x)) w (.user x) sl old kl vl) (hb : SameTypes w.objs base)
    (h : Replace (K (ρ x)) w w' base (.user x) old s' id' k' v') : GoodMix K ρ w' := by
  have hid_lt : ∀ {i}, w.objs i ≠ none → i < w.next := by
    intro i hi
    rcases Nat.lt_or_ge i w.next with h1 | h1
    · exact h1
    · exact absurd (hg.fresh i h1) hi
  have hlt : old < w.next := hid_lt (by simp [hl.obj])
  have hvars : ∀ y, y ≠ x → w'.vars (.user y) = w.vars (.user y) := fun y hy => by rw [h.vars]; simp [hy]
  have hvx : w'.vars (.user x) = some s' := by rw [h.vars]; simp
  have other : ∀ y sy, y ≠ x → w.vars (.user y) = some sy → ∃ id k v, Rep (K (ρ y)) sy id k ∧ w'.objs id = some (k, v) ∧
      id < w.next ∧ id ≠ old := by
    intro y sy hyx hsy
    obtain ⟨id, k, v, hr, ho⟩ := hg.rep y sy hsy
    have hne : id ≠ old := by
      rintro rfl
      exact hyx (hg.inj y x sy sl _ hsy hl.var hr.contentId hl.rep.contentId)
    have hid := hid_lt (i := id) (by simp [ho])
    obtain ⟨v2, hv2⟩ := hb.some_of ho
    exact ⟨id, k, v2, hr, by rw [h.keep id hid hne, hv2], hid, hne⟩
  refine ⟨?_, ?_, ?_, ?_, fun id => by rw [h.sub]; exact hg.flat id, fun n => by rw [h.vars]; simp [hg.noTmp]⟩
  · intro y s hy
    by_cases e : y = x
    · subst e
      rw [hvx] at hy; cases hy
      exact ⟨id', k', v', h.rep, h.obj⟩
    · rw [hvars y e] at hy
      obtain ⟨id, k, v, hr, ho, _⟩ := other y s e hy
      exact ⟨id, k, v, hr, ho⟩
  · intro y z sy sz i hy hz hcy hcz
    by_cases ey : y = x <;> by_cases ez : z = x
    · rw [ey, ez]
    · subst ey
      rw [hvx] at hy; cases hy
      rw [hvars z ez] at hz
      obtain ⟨_, _, _, hr2, _, hlt2, hne2⟩ := other z sz ez hz
      rw [h.rep.contentId] at hcy; rw [hr2.contentId] at hcz
      cases hcy; cases hcz
      rcases h.idNew with h3 | h3
      · exact absurd h3 hne2
      · omega
    · subst ez
      rw [hvx] at hz; cases hz
      rw [hvars y ey] at hy
      obtain ⟨_, _, _, hr2, _, hlt2, hne2⟩ := other y sy ey hy
      rw [h.rep.contentId] at hcz; rw [hr2.contentId] at hcy
      cases hcy; cases hcz
      rcases h.idNew with h3 | h3
      · exact absurd h3 hne2
      · omega
    · rw [hvars y ey] at hy
      rw [hvars z ez] at hz
      exact hg.inj y z sy sz i hy hz hcy hcz
  · intro i hid
    by_cases he : i = id'
    · exact ⟨x, s', hvx, by rw [he]; exact h.rep.contentId⟩
    · by_cases hc : i = old ∨ w.next ≤ i
      · exact absurd (h.gone i hc he) hid
      · have hlt2 : i < w.next := by omega
        have hne2 : i ≠ old := fun hh => hc (.inl hh)
        rw [h.keep i hlt2 hne2] at hid
        obtain ⟨y, s, hy, hs⟩ := hg.noLeak i (hb.ne_none hid)
        have e : y ≠ x := fun e => by
          subst e
          rw [hl.var] at hy; cases hy
          rw [hl.rep.contentId] at hs; cases hs
          exact hne2 rfl
        exact ⟨y, s, by rw [hvars y e]; exact hy, hs⟩
  · intro i hid
    have := h.next
    have := h.idLt
    exact h.gone i (.inr (by omega)) (by omega)

/-- Nothing but values of objects has changed. -/
theorem GoodMix.revalue (hg : GoodMix K ρ w) (hb : SameTypes w.objs base) (hv : w'.vars = w.vars) (ho : w'.objs = base)
    (hn : w.next ≤ w'.next) (hs : w'.sub = w.sub) : GoodMix K ρ w' := by
  refine ⟨?_, ?_, ?_, ?_, fun id => by rw [hs]; exact hg.flat id, fun n => by rw [hv]; exact hg.noTmp n⟩
  · intro y s hy
    rw [hv] at hy
    obtain ⟨id, k, v, hr, h⟩ := hg.rep y s hy
    obtain ⟨v2, hv2⟩ := hb.some_of h
    exact ⟨id, k, v2, hr, by rw [ho, hv2]⟩
  · intro y z sy sz i hy hz
    rw [hv] at hy hz
    exact hg.inj y z sy sz i hy hz
  · intro i hi
    rw [ho] at hi
    rw [hv]
    exact hg.noLeak i (hb.ne_none hi)
  · intro i hi
    rw [ho]
    exact hb.none_of (hg.fresh i (Nat.le_trans hn hi))

/-! ### Variables and their contents -/

/-- What is not changed of a variable other than the target and the source. -/
theorem GoodMix.unchanged_upd (hg : GoodMix K ρ w) {y z : Nat} {sy : VarSt} {ky : TyIx} {vy : V}
    (hy : Owns (K (ρ y)) w (.user y) sy id ky vy) (hz : z ≠ y) {s : VarSt} {i : ObjId} (hs : w.vars (.user z) = some s)
    (hi : s.contentId = some i) : upd w.objs id (some (j, q)) i = w.objs i := by
  refine upd_ne _ _ fun e => ?_
  subst e
  exact hz (hg.inj z y s sy i hs hy.var hi hy.rep.contentId)

theorem GoodMix.lt_next (hg : GoodMix K ρ w) {z : Nat} {s : VarSt} {i : ObjId} (hs : w.vars (.user z) = some s)
    (hi : s.contentId = some i) : i < w.next := by
  obtain ⟨i', k, v, hr, ho⟩ := hg.rep z s hs
  rw [hr.contentId] at hi
  cases hi
  exact hg.toFresh.lt ho

theorem content_of {s : VarSt} (h1 : w.vars (.user x) = some s) (h2 : s.contentId = some id) : w.content (.user x) = w.objs id := by
  simp only [World.content, h1, Option.bind, h2]

/-! ### The world while the content is seen as another type's -/

theorem seenAs_objs (h : w.objs id = some (j, v)) : (w.seenAs k id).objs = upd w.objs id (some (k, v)) := by
  simp only [World.seenAs, h, Option.map]

theorem seenAs_fresh (hf : Fresh w) (h : w.objs id = some (j, v)) : Fresh (w.seenAs k id) := by
  have hlt := hf.lt h
  refine ⟨fun i hi => ?_, hf.flat⟩
  have hi' : w.next ≤ i := hi
  rw [seenAs_objs h, upd_ne _ _ (by omega)]
  exact hf.fresh i hi'

theorem seen_create {y : VarId} (hf : Fresh w) (h : w.objs id = some (j, v)) (hc : Create C (w.seenAs k id) w1 base y s' id' k' v')
    (hb : base = upd w.objs id (some (k, q))) : Create C w (w1.seenAs j id) (upd w.objs id (some (j, q))) y s' id' k' v' := by
  have hlt := hf.lt h
  have hn : (w.seenAs k id).next = w.next := rfl
  have hid : w1.objs id = some (k, q) := by rw [hc.keep id (by rw [hn]; exact hlt), hb, upd_same]
  have h1 := hc.idNew
  rw [hn] at h1
  refine ⟨hc.vars, hc.rep, ?_, h1, hc.idLt, fun i hi => ?_, fun i hi hne => ?_, hc.next, hc.sub, hc.tick⟩
  · rw [seenAs_objs hid, upd_ne _ _ (by omega)]; exact hc.obj
  · rw [seenAs_objs hid]
    by_cases e : i = id
    · rw [e, upd_same, upd_same]
    · rw [upd_ne _ _ e, upd_ne _ _ e, hc.keep i hi, hb, upd_ne _ _ e]
  · rw [seenAs_objs hid, upd_ne _ _ (by omega)]
    exact hc.gone i hi hne

theorem seen_replace {y : VarId} {old : ObjId} (hf : Fresh w) (h : w.objs id = some (j, v)) (hne : id ≠ old)
    (hc : Replace C (w.seenAs k id) w1 base y old s' id' k' v')
    (hb : base = upd w.objs id (some (k, q))) : Replace C w (w1.seenAs j id) (upd w.objs id (some (j, q))) y old s' id' k' v' := by
  have hlt := hf.lt h
  have hn : (w.seenAs k id).next = w.next := rfl
  have hid : w1.objs id = some (k, q) := by rw [hc.keep id (by rw [hn]; exact hlt) hne, hb, upd_same]
  have h1 := hc.idNew
  rw [hn] at h1
  have hne' : id' ≠ id := by
    rcases h1 with h1 | h1
    · rw [h1]; exact hne.symm
    · omega
  refine ⟨hc.vars, hc.rep, ?_, h1, hc.idLt, fun i hi ho => ?_, fun i hi ho => ?_, hc.next, hc.sub, hc.tick⟩
  · rw [seenAs_objs hid, upd_ne _ _ hne']; exact hc.obj
  · rw [seenAs_objs hid]
    by_cases e : i = id
    · rw [e, upd_same, upd_same]
    · rw [upd_ne _ _ e, upd_ne _ _ e, hc.keep i hi ho, hb, upd_ne _ _ e]
  · rw [seenAs_objs hid, upd_ne _ _ (by
      rcases hi with hi | hi
      · rw [hi]; exact hne.symm
      · omega)]
    exact hc.gone i hi ho

theorem set_create {y : VarId} (hf : Fresh w) (h : w.objs id = some (j, v)) (hc : Create C w w1 w.objs y s' id' k' v') :
    Create C w (setVal j id q w1) (upd w.objs id (some (j, q))) y s' id' k' v' := by
  have hlt := hf.lt h
  have h1 := hc.idNew
  refine ⟨hc.vars, hc.rep, ?_, h1, hc.idLt, fun i hi => ?_, fun i hi hne => ?_, hc.next, hc.sub, hc.tick⟩
  · show upd w1.objs id _ id' = _
    rw [upd_ne _ _ (by omega)]; exact hc.obj
  · show upd w1.objs id _ i = _
    by_cases e : i = id
    · rw [e, upd_same, upd_same]
    · rw [upd_ne _ _ e, upd_ne _ _ e, hc.keep i hi]
  · show upd w1.objs id _ i = _
    rw [upd_ne _ _ (by omega)]
    exact hc.gone i hi hne

theorem set_replace {y : VarId} {old : ObjId} (hf : Fresh w) (h : w.objs id = some (j, v)) (hne : id ≠ old)
    (hc : Replace C w w1 w.objs y old s' id' k' v') :
    Replace C w (setVal j id q w1) (upd w.objs id (some (j, q))) y old s' id' k' v' := by
  have hlt := hf.lt h
  have h1 := hc.idNew
  have hne' : id' ≠ id := by
    rcases h1 with h1 | h1
    · rw [h1]; exact hne.symm
    · omega
  refine ⟨hc.vars, hc.rep, ?_, h1, hc.idLt, fun i hi ho => ?_, fun i hi ho => ?_, hc.next, hc.sub, hc.tick⟩
  · show upd w1.objs id _ id' = _
    rw [upd_ne _ _ hne']; exact hc.obj
  · show upd w1.objs id _ i = _
    by_cases e : i = id
    · rw [e, upd_same, upd_same]
    · rw [upd_ne _ _ e, upd_ne _ _ e, hc.keep i hi ho]
  · show upd w1.objs id _ i = _
    rw [upd_ne _ _ (by
      rcases hi with hi | hi
      · rw [hi]; exact hne.symm
      · omega)]
    exact hc.gone i hi ho

/-! ### The source -/

variable {F : Foreign} {cv : ConvVal V} {o : Overload} {sy sx : VarSt} {ix : ObjId} {kx : TyIx} {vx : V}

theorem visit_content {y : VarId} (ho : Owns C' w y sy id j v) : internalApplyVisitor C' y convertInto w = .ok (j, id) w := by
  obtain ⟨h1, h2, h3⟩ := ho
  cases h2 with
  | inPlace _ _ hk => rw [iav_inPlace C' _ h1 hk h3]; rfl
  | inBackup _ _ hk hb => rw [iav_backup C' _ h1 hk hb]; rfl

theorem wp_fromVariable {y : VarId} {use : Src V → M V Unit} {Q : World V → Prop} {E : Exc → World V → Prop}
    (hy : Owns C' w y sy id j v) (ho : F.overload j = some o)
    (hB : F.bound j o = true → wp (use (if o.param.rv then .rref o.index id true else .lref o.index id true))
      (fun _ w1 => Q (w1.seenAs j id)) (fun e w1 => E e (w1.seenAs j id)) (w.seenAs o.index id))
    (hC : F.bound j o = false → wp (use (.conv o.index (cv.value j o.index v)))
      (fun _ w1 => Q (if F.rv then setVal j id (cv.left none j o.index v) w1 else w1))
      (fun e w1 => E e (if F.rv then setVal j id (cv.left (some e) j o.index v) w1 else w1)) w) :
    wp (fromVariable C' F cv y use) (fun _ => Q) E w := by
  have hr : readAs j id w = .ok v w := by simp only [readAs, hy.obj, if_true]
  rw [wp, fromVariable]
  simp only [bind, M.bind, visit_content hy, hr, ho]
  cases hbd : F.bound j o with
  | true =>
    have h := hB hbd
    rw [wp] at h
    simp only [if_true, asBounded]
    generalize use _ _ = r at h
    cases r <;> exact h
  | false =>
    have h := hC hbd
    rw [wp] at h
    simp only [Bool.false_eq_true, if_false, convertingFrom]
    generalize use _ _ = r at h
    cases r <;> exact h

/-- Construction. -/
theorem wp_constructFrom {y x : VarId} (hf : Fresh w) (hy : Owns C' w y sy id j v) (ho : F.overload j = some o) (hk : o.index < C.n) :
    wp (fromVariable C' F cv y (convertConstruct C x))
      (fun _ w' => ∃ q id', F.Left C cv j o v none q ∧ w.next ≤ id' ∧ w'.allocs = w.allocs ∧
        Create C w w' (upd w.objs id (some (j, q))) x ⟨(o.index : Int), .obj id'⟩ id' o.index
          ((F.asElement j o).built C o.index (F.asValue cv j o v)))
      (fun e w' => ∃ q, F.Left C cv j o v (some e) q ∧ Thrown C w w' e ∧ w'.vars = w.vars ∧ w'.sub = w.sub ∧
        w'.allocs = w.allocs ∧ w.next ≤ w'.next ∧ w'.objs = upd w.objs id (some (j, q))) w := by
  have hid : (w.seenAs o.index id).objs id = some (o.index, v) := by rw [seenAs_objs hy.obj, upd_same]
  have hobjs := seenAs_objs (k := o.index) hy.obj
  refine wp_fromVariable hy ho (fun hbd => ?_) (fun hbd => ?_)
  · simp only [Foreign.Left, Foreign.asElement, Foreign.asValue, hbd, if_true]
    cases hrv : o.param.rv with
    | true =>
      simp only [if_true]
      refine wp_mono (wp_convertConstruct (.rref o.index id true) ⟨v, hid⟩ hk (seenAs_fresh hf hy.obj)) ?_ ?_
      · rintro _ w1 ⟨id', v', hid', hv', hc, ha, -⟩
        obtain rfl : C.ops.move o.index v = v' := by simpa [Src.result, hid] using hv'
        refine ⟨_, id', .inl rfl, hid', ha, seen_create hf hy.obj hc ?_⟩
        simp only [Src.after, hid, Option.map, hobjs, upd_upd_same]
      · rintro e w1 ⟨-, hth, hv, hs, ha, hn, hob⟩
        refine ⟨C.ops.moveFailSrc o.index v, .inr ⟨rfl, rfl⟩, hth, hv, hs, ha, hn, ?_⟩
        have h1 : w1.objs = upd w.objs id (some (o.index, C.ops.moveFailSrc o.index v)) := by
          funext i
          rw [hob]
          simp only [Src.afterExc, hid, Option.map, hobjs, upd_upd_same]
        rw [seenAs_objs (by rw [h1]; exact upd_same _ _ _), h1, upd_upd_same]
    | false =>
      simp only [Bool.false_eq_true, if_false]
      refine wp_mono (wp_convertConstruct (.lref o.index id true) ⟨v, hid⟩ hk (seenAs_fresh hf hy.obj)) ?_ ?_
      · rintro _ w1 ⟨id', v', hid', hv', hc, ha, -⟩
        obtain rfl : C.ops.copy o.index v = v' := by simpa [Src.result, hid] using hv'
        exact ⟨v, id', rfl, hid', ha, seen_create hf hy.obj hc hobjs⟩
      · rintro e w1 ⟨-, hth, hv, hs, ha, hn, hob⟩
        refine ⟨v, rfl, hth, hv, hs, ha, hn, ?_⟩
        have h1 : w1.objs = upd w.objs id (some (o.index, v)) := by
          funext i
          rw [hob]
          simp only [Src.afterExc, hobjs]
        rw [seenAs_objs (by rw [h1]; exact upd_same _ _ _), h1, upd_upd_same]
  · simp only [Foreign.Left, Foreign.asElement, Foreign.asValue, hbd, Bool.false_eq_true, if_false]
    have hself : upd w.objs id (some (j, v)) = w.objs := by
      funext i
      by_cases e : i = id
      · rw [e, upd_same, hy.obj]
      · rw [upd_ne _ _ e]
    refine wp_mono (wp_convertConstruct (.conv o.index (cv.value j o.index v)) trivial hk hf) ?_ ?_
    · rintro _ w1 ⟨id', v', hid', hv', hc, ha, -⟩
      obtain rfl : C.ops.move o.index (cv.value j o.index v) = v' := by simpa [Src.result] using hv'
      cases F.rv with
      | true =>
        simp only [if_true]
        exact ⟨_, id', rfl, hid', ha, set_create hf hy.obj hc⟩
      | false =>
        simp only [Bool.false_eq_true, if_false]
        exact ⟨v, id', rfl, hid', ha, by rw [hself]; exact hc⟩
    · rintro e w1 ⟨-, hth, hv, hs, ha, hn, hob⟩
      have h1 : w1.objs = w.objs := by
        funext i
        rw [hob]
        simp only [Src.afterExc]
      cases F.rv with
      | true =>
        simp only [if_true]
        refine ⟨_, rfl, hth, hv, hs, ha, hn, ?_⟩
        show upd w1.objs id _ = _
        rw [h1]
      | false =>
        simp only [Bool.false_eq_true, if_false]
        exact ⟨v, rfl, hth, hv, hs, ha, hn, by rw [hself, h1]⟩

/-- What an assignment that returned has done to its target. -/
def ConvAssigned (C : Cfg V) (w : World V) (k : TyIx) (b : V) (sx : VarSt) (ix : ObjId) (kx : TyIx) (vx : V) (s' : VarSt) (id' : ObjId)
    (v' : V) : Prop :=
  (sx.which_ = (k : Int) ∧ kx = k ∧ s' = sx ∧ id' = ix ∧ v' = C.ops.moveAssign k vx b) ∨
  (sx.which_ ≠ (k : Int) ∧ s' = ⟨(k : Int), .obj id'⟩ ∧ w.next ≤ id' ∧ v' = moveAssignVal C k b)

@[inherit_doc ConvAssigned]
def ConvLeft (C : Cfg V) (k : TyIx) (b : V) (sx : VarSt) (ix : ObjId) (kx : TyIx) (vx : V) (s' : VarSt) (id' : ObjId)
    (k' : TyIx) (v' : V) : Prop :=
  (sx.which_ = (k : Int) ∧ s' = sx ∧ id' = ix ∧ k' = kx ∧ v' = C.ops.moveAssignFail kx vx b) ∨
  (Leftover C sx ix kx vx k s' id' k' v' ∧ (sx.which_ = (k : Int) → s' = sx))

private theorem keepEx {S B X : Prop} (h : X) : (S → X) ∧ (B ∨ X) := ⟨fun _ => h, .inr h⟩

/-- Assignment, in any configuration. -/
theorem wp_assignFrom_gen {y x : VarId} (hbo : BlankOk C) (hf : Fresh w) (hy : Owns C' w y sy id j v) (hx : Owns C w x sx ix kx vx) (hne : id ≠ ix)
    (ho : F.overload j = some o) (hk : o.index < C.n) (hlt : x ≠ .tmp 0) (htn : w.vars (.tmp 0) = none) :
    wp (fromVariable C' F cv y (assignValue C x))
      (fun _ w' => ∃ q s' id' v', F.Left C cv j o v none q ∧
        Replace C w w' (upd w.objs id (some (j, q))) x ix s' id' o.index v' ∧
        ConvAssigned C w o.index ((F.asElement j o).built C o.index (F.asValue cv j o v)) sx ix kx vx s' id' v')
      (fun e w' => (Sane C → ∃ q s' id' k' v', F.Left C cv j o v (some e) q ∧ Thrown C w w' e ∧
        Replace C w w' (upd w.objs id (some (j, q))) x ix s' id' k' v' ∧
        ConvLeft C o.index ((F.asElement j o).built C o.index (F.asValue cv j o v)) sx ix kx vx s' id' k' v') ∧
        (w'.broken C x ∨ ∃ q s' id' k' v', F.Left C cv j o v (some e) q ∧ Thrown C w w' e ∧
          Replace C w w' (upd w.objs id (some (j, q))) x ix s' id' k' v' ∧
          ConvLeft C o.index ((F.asElement j o).built C o.index (F.asValue cv j o v)) sx ix kx vx s' id' k' v')) w := by
  have hid : (w.seenAs o.index id).objs id = some (o.index, v) := by rw [seenAs_objs hy.obj, upd_same]
  have hobjs := seenAs_objs (k := o.index) hy.obj
  have hx1 : Owns C (w.seenAs o.index id) x sx ix kx vx := ⟨hx.var, hx.rep, by rw [hobjs, upd_ne _ _ hne.symm]; exact hx.obj⟩
  have hkx : sx.which_ = (o.index : Int) → kx = o.index := by
    intro h
    have := hx.rep
    cases this with
    | inPlace => exact Int.ofNat.inj h
    | inBackup => simp only at h; omega
  refine wp_fromVariable hy ho (fun hbd => ?_) (fun hbd => ?_)
  · simp only [Foreign.Left, Foreign.asElement, Foreign.asValue, hbd, if_true]
    cases hrv : o.param.rv with
    | true =>
      simp only [if_true]
      have ha : (Src.rref o.index id true : Src V).after C (w.seenAs o.index id).objs =
          upd w.objs id (some (o.index, C.ops.movedFrom o.index v)) := by
        simp only [Src.after, hid, Option.map, hobjs, upd_upd_same]
      refine wp_mono (wp_assignValue hbo (.rref o.index id true) hx1 (seenAs_fresh hf hy.obj) ⟨v, hid⟩ hne hk hlt htn) ?_ ?_
      · rintro _ w1 (⟨v', hh, -⟩ | ⟨v', hh, hw, hv, hr, -⟩ | ⟨v', hh, hw, hv, ⟨id', hid', hr⟩, -⟩)
        · cases hh.1
        all_goals obtain rfl : C.ops.move o.index v = v' := by simpa [Src.result, hid] using hv
        · obtain rfl := hkx hw
          exact ⟨_, sx, ix, _, .inl rfl, seen_replace hf hy.obj hne hr ha, .inl ⟨hw, rfl, rfl, rfl, rfl⟩⟩
        · exact ⟨_, _, id', _, .inl rfl, seen_replace hf hy.obj hne hr ha, .inr ⟨hw, rfl, hid', rfl⟩⟩
      · rintro e w1 ⟨hth, ⟨v', hh, -⟩ | ⟨hh, hek, hr, -⟩ | ⟨v', hh, hw, hek, hv, hr, -⟩ | ⟨hh, hw, hek, h0, hr, -⟩⟩
        · cases hh.1
        · refine keepEx ⟨_, sx, ix, kx, vx, .inr ⟨rfl, rfl⟩, hth, seen_replace hf hy.obj hne hr ?_, .inr ⟨.same, fun _ => rfl⟩⟩
          simp only [Src.afterExc, hid, Option.map, hobjs, upd_upd_same]
        · obtain rfl : C.ops.move o.index v = v' := by simpa [Src.result, hid] using hv
          exact keepEx ⟨_, sx, ix, kx, _, .inl rfl, hth, seen_replace hf hy.obj hne hr ha, .inl ⟨hw, rfl, rfl, rfl, rfl⟩⟩
        · refine ⟨fun hs => ?_, ?_⟩
          · obtain ⟨-, s', id', k', v', hr', hl'⟩ := hr hs
            exact ⟨_, s', id', k', v', .inl rfl, hth, seen_replace hf hy.obj hne hr' ha, .inr ⟨hl', fun e => absurd e hw⟩⟩
          · rcases h0.left with hbr | ⟨s', id', k', v', hr', hlo⟩
            · exact .inl hbr
            · exact .inr ⟨_, s', id', k', v', .inl rfl, hth, seen_replace hf hy.obj hne hr' ha, .inr ⟨hlo, fun e => absurd e hw⟩⟩
    | false =>
      simp only [Bool.false_eq_true, if_false]
      refine wp_mono (wp_assignValue hbo (.lref o.index id true) hx1 (seenAs_fresh hf hy.obj) ⟨v, hid⟩ trivial hk hlt htn) ?_ ?_
      · rintro _ w1 (⟨v', hh, -⟩ | ⟨v', hh, hw, hv, hr, -⟩ | ⟨v', hh, hw, hv, ⟨id', hid', hr⟩, -⟩)
        · cases hh.1
        all_goals obtain rfl : C.ops.copy o.index v = v' := by simpa [Src.result, hid] using hv
        · obtain rfl := hkx hw
          exact ⟨_, sx, ix, _, rfl, seen_replace hf hy.obj hne hr hobjs, .inl ⟨hw, rfl, rfl, rfl, rfl⟩⟩
        · exact ⟨_, _, id', _, rfl, seen_replace hf hy.obj hne hr hobjs, .inr ⟨hw, rfl, hid', rfl⟩⟩
      · rintro e w1 ⟨hth, ⟨v', hh, -⟩ | ⟨hh, hek, hr, -⟩ | ⟨v', hh, hw, hek, hv, hr, -⟩ | ⟨hh, hw, hek, h0, hr, -⟩⟩
        · cases hh.1
        · exact keepEx ⟨_, sx, ix, kx, vx, rfl, hth, seen_replace hf hy.obj hne hr hobjs, .inr ⟨.same, fun _ => rfl⟩⟩
        · obtain rfl : C.ops.copy o.index v = v' := by simpa [Src.result, hid] using hv
          exact keepEx ⟨_, sx, ix, kx, _, rfl, hth, seen_replace hf hy.obj hne hr hobjs, .inl ⟨hw, rfl, rfl, rfl, rfl⟩⟩
        · refine ⟨fun hs => ?_, ?_⟩
          · obtain ⟨-, s', id', k', v', hr', hl'⟩ := hr hs
            exact ⟨_, s', id', k', v', rfl, hth, seen_replace hf hy.obj hne hr' hobjs, .inr ⟨hl', fun e => absurd e hw⟩⟩
          · rcases h0.left with hbr | ⟨s', id', k', v', hr', hlo⟩
            · exact .inl hbr
            · exact .inr ⟨_, s', id', k', v', rfl, hth, seen_replace hf hy.obj hne hr' hobjs, .inr ⟨hlo, fun e => absurd e hw⟩⟩
  · simp only [Foreign.Left, Foreign.asElement, Foreign.asValue, hbd, Bool.false_eq_true, if_false]
    have hself : upd w.objs id (some (j, v)) = w.objs := by
      funext i
      by_cases e : i = id
      · rw [e, upd_same, hy.obj]
      · rw [upd_ne _ _ e]
    have put : ∀ {w1 : World V} {s' : VarSt} {id' k' : Nat} {v' : V} (e : Option Exc),
        Replace C w w1 w.objs x ix s' id' k' v' →
        ∃ q, (if F.rv = true then q = cv.left e j o.index v else q = v) ∧
          Replace C w (if F.rv = true then setVal j id (cv.left e j o.index v) w1 else w1) (upd w.objs id (some (j, q))) x ix s' id' k' v' := by
      intro w1 s' id' k' v' e hr
      cases F.rv with
      | true => exact ⟨_, rfl, set_replace hf hy.obj hne hr⟩
      | false => exact ⟨v, rfl, by rw [hself]; exact hr⟩
    have put' : ∀ {w1 : World V} {e : Exc}, Thrown C w w1 e →
        Thrown C w (if F.rv = true then setVal j id (cv.left (some e) j o.index v) w1 else w1) e := by
      intro w1 e h
      cases F.rv <;> exact h
    refine wp_mono (wp_assignValue hbo (.conv o.index (cv.value j o.index v)) hx hf trivial trivial hk hlt htn) ?_ ?_
    · rintro _ w1 (⟨v', hh, -⟩ | ⟨v', hh, hw, hv, hr, -⟩ | ⟨v', hh, hw, hv, ⟨id', hid', hr⟩, -⟩)
      · exact hh.elim
      all_goals
        obtain rfl : C.ops.move o.index (cv.value j o.index v) = v' := by simpa [Src.result] using hv
        obtain ⟨q, h1, h2⟩ := put none hr
      · obtain rfl := hkx hw
        exact ⟨q, sx, ix, _, h1, h2, .inl ⟨hw, rfl, rfl, rfl, rfl⟩⟩
      · exact ⟨q, _, id', _, h1, h2, .inr ⟨hw, rfl, hid', rfl⟩⟩
    · rintro e w1 ⟨hth, ⟨v', hh, -⟩ | ⟨hh, hek, hr, -⟩ | ⟨v', hh, hw, hek, hv, hr, -⟩ | ⟨hh, hw, hek, h0, hr, -⟩⟩
      · exact hh.elim
      · obtain ⟨q, h1, h2⟩ := put (some e) hr
        exact keepEx ⟨q, sx, ix, kx, vx, h1, put' hth, h2, .inr ⟨.same, fun _ => rfl⟩⟩
      · obtain rfl : C.ops.move o.index (cv.value j o.index v) = v' := by simpa [Src.result] using hv
        obtain ⟨q, h1, h2⟩ := put (some e) hr
        exact keepEx ⟨q, sx, ix, kx, _, h1, put' hth, h2, .inl ⟨hw, rfl, rfl, rfl, rfl⟩⟩
      · refine ⟨fun hs => ?_, ?_⟩
        · obtain ⟨-, s', id', k', v', hr', hl'⟩ := hr hs
          obtain ⟨q, h1, h2⟩ := put (some e) hr'
          exact ⟨q, s', id', k', v', h1, put' hth, h2, .inr ⟨hl', fun e => absurd e hw⟩⟩
        · rcases h0.left with ⟨s, hs, hbr⟩ | ⟨s', id', k', v', hr', hlo⟩
          · refine .inl ⟨s, ?_, hbr⟩
            cases F.rv <;> exact hs
          · obtain ⟨q, h1, h2⟩ := put (some e) hr'
            exact .inr ⟨q, s', id', k', v', h1, put' hth, h2, .inr ⟨hlo, fun e => absurd e hw⟩⟩

/-- Assignment. -/
theorem wp_assignFrom {y x : VarId} (hs : Sane C) (hf : Fresh w) (hy : Owns C' w y sy id j v) (hx : Owns C w x sx ix kx vx) (hne : id ≠ ix)
    (ho : F.overload j = some o) (hk : o.index < C.n) (hlt : x ≠ .tmp 0) (htn : w.vars (.tmp 0) = none) :
    wp (fromVariable C' F cv y (assignValue C x))
      (fun _ w' => ∃ q s' id' v', F.Left C cv j o v none q ∧
        Replace C w w' (upd w.objs id (some (j, q))) x ix s' id' o.index v' ∧
        ConvAssigned C w o.index ((F.asElement j o).built C o.index (F.asValue cv j o v)) sx ix kx vx s' id' v')
      (fun e w' => ∃ q s' id' k' v', F.Left C cv j o v (some e) q ∧ Thrown C w w' e ∧
        Replace C w w' (upd w.objs id (some (j, q))) x ix s' id' k' v' ∧
        ConvLeft C o.index ((F.asElement j o).built C o.index (F.asValue cv j o v)) sx ix kx vx s' id' k' v') w :=
  wp_mono (wp_assignFrom_gen hs.1 hf hy hx hne ho hk hlt htn) (fun _ _ h => h) (fun _ _ h => h.1 hs)

end

end BVariant
