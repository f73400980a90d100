/-
Where the single-storage conditions hold, no statement puts a variant into the heap-backup state.
-/
import Verif.Lemmas.Step

set_option linter.unusedSimpArgs false

namespace BVariant

section
variable {V : Type} {C : Cfg V} {w w' : World V}

/-- Two different types cannot both be candidates for a backup. -/
theorem BackupFree.no_backup (h : BackupFree C) {i j : TyIx} (hi : i < C.n) (hj : j < C.n) (hne : i ≠ j)
    (hbi : C.mayBackup i) (hbj : C.mayBackup j) : False := by
  have := h i j hi hj hne hbj; rw [hbi.2.1] at this; cases this

theorem Leftover.inPlace (h : BackupFree C) {s s' : VarSt} {id id' : ObjId} {k kr k' : TyIx} {v v' : V}
    (hl : Leftover C s id k v kr s' id' k' v') (hk : k < C.n) (hkr : kr < C.n) (hne : k ≠ kr) (hs : 0 ≤ s.which_) :
    0 ≤ s'.which_ := by
  cases hl with
  | same => exact hs
  | restored => simp
  | backup _ _ hb hbr => exact (h.no_backup hk hkr hne hb hbr).elim
  | fallback => simp

theorem AllocBound.eq (h : BackupFree C) {k kr : TyIx} (hk : k < C.n) (hkr : kr < C.n) (hne : k ≠ kr)
    (ha : AllocBound C w w' k kr) : w'.allocs = w.allocs := by
  rcases ha with ha | ⟨hb, hbr, _⟩
  · exact ha
  · exact (h.no_backup hk hkr hne hb hbr).elim

theorem Replace.allInPlace {base : ObjId → Option (TyIx × V)} {l : VarId} {old : ObjId} {s' : VarSt} {id' : ObjId}
    {k' : TyIx} {v' : V} (h : Replace C w w' base l old s' id' k' v') (ha : AllInPlace w) (hs : 0 ≤ s'.which_) :
    AllInPlace w' := by
  intro y s hy
  rw [h.vars] at hy
  split at hy
  · cases hy; exact hs
  · exact ha y s hy

theorem Create.allInPlace {base : ObjId → Option (TyIx × V)} {l : VarId} {s' : VarSt} {id' : ObjId}
    {k' : TyIx} {v' : V} (h : Create C w w' base l s' id' k' v') (ha : AllInPlace w) (hs : 0 ≤ s'.which_) :
    AllInPlace w' := by
  intro y s hy
  rw [h.vars] at hy
  split at hy
  · cases hy; exact hs
  · exact ha y s hy

theorem OthersUnchanged.allInPlace {x y : VarId} (h : OthersUnchanged w w' x y) (ha : AllInPlace w)
    {sx sy : VarSt} (hx : w'.vars x = some sx) (hy : w'.vars y = some sy) (hx0 : 0 ≤ sx.which_) (hy0 : 0 ≤ sy.which_) :
    AllInPlace w' := by
  intro z s hz
  by_cases h1 : z = x
  · subst h1; rw [hx] at hz; cases hz; exact hx0
  · by_cases h2 : z = y
    · subst h2; rw [hy] at hz; cases hz; exact hy0
    · rw [(h z h1 h2).1] at hz; exact ha z s hz

theorem Rep.ne_of_which {s s' : VarSt} {id id' : ObjId} {k k' : TyIx} (h : Rep C s id k) (h' : Rep C s' id' k')
    (hs : 0 ≤ s.which_) (hs' : 0 ≤ s'.which_) (hne : s.which_ ≠ s'.which_) : k ≠ k' := by
  rw [h.inPlace_of_nonneg hs, h'.inPlace_of_nonneg hs'] at hne
  intro he; exact hne (by rw [he])

theorem AllInPlace.readsBackup (ha : AllInPlace w) (c : Cmd V) : c.readsBackup w = false := by
  have hb : ∀ x, w.backedUp x = false := by
    intro x
    simp only [World.backedUp]
    split
    · rename_i s hs
      have := ha _ s hs
      simp; omega
    · rfl
  cases c <;> simp [Cmd.readsBackup, hb]

theorem ValOk.inPlace {l : VarId} {sl : VarSt} {idl : ObjId} {kl : TyIx} {vl : V} {m : Mode} {k : TyIx} {v : V}
    (h : ValOk C w w' l sl idl kl vl m k v) (hs : Sane C) (hss : BackupFree C) (ha : AllInPlace w)
    (hl : Owns C w l sl idl kl vl) (hk : k < C.n) : AllInPlace w' ∧ w'.allocs = w.allocs := by
  have hp := ha _ _ hl.var
  rcases h with ⟨_, _, hr, hal⟩ | ⟨_, _, hr, hal⟩ | ⟨_, hw, ⟨_, _, hr⟩, hal⟩
  · exact ⟨hr.allInPlace ha hp, hal⟩
  · exact ⟨hr.allInPlace ha hp, hal⟩
  · refine ⟨hr.allInPlace ha (by simp), (hal hs).eq hss (Rep.lt C hl.rep) hk ?_⟩
    rw [hl.rep.inPlace_of_nonneg hp] at hw
    intro he; exact hw (by rw [he])

theorem ValExc.inPlace {l : VarId} {sl : VarSt} {idl : ObjId} {kl : TyIx} {vl : V} {m : Mode} {k : TyIx} {v : V}
    {e : Exc} (h : ValExc C w w' l sl idl kl vl m k v e) (hs : Sane C) (hss : BackupFree C) (ha : AllInPlace w)
    (hl : Owns C w l sl idl kl vl) (hk : k < C.n) : AllInPlace w' ∧ w'.allocs = w.allocs := by
  have hp := ha _ _ hl.var
  rcases h with ⟨_, _, _, hr, hal⟩ | ⟨_, _, hr, hal⟩ | ⟨_, _, _, hr, hal⟩ | ⟨_, hw, _, _, hr, hal⟩
  · exact ⟨hr.allInPlace ha hp, hal⟩
  · exact ⟨hr.allInPlace ha hp, hal⟩
  · exact ⟨hr.allInPlace ha hp, hal⟩
  · have hne : kl ≠ k := by
      rw [hl.rep.inPlace_of_nonneg hp] at hw
      intro he; exact hw (by rw [he])
    obtain ⟨_, _, _, _, _, hr, hlo⟩ := hr hs
    exact ⟨hr.allInPlace ha (hlo.inPlace hss (Rep.lt C hl.rep) hk hne hp), (hal hs).eq hss (Rep.lt C hl.rep) hk hne⟩

/-- Under the single-storage conditions every statement keeps all contents in place and allocates nothing. -/
theorem wp_step_inPlace (hs : Sane C) (hss : BackupFree C) (hg : Good C w) (ha : AllInPlace w) (c : Cmd V)
    (hv : c.valid C w = true) :
    wp (c.code C) (fun _ w' => AllInPlace w' ∧ w'.allocs = w.allocs)
      (fun _ w' => AllInPlace w' ∧ w'.allocs = w.allocs) w := by
  have hw := hg.wf
  have hf := hw.toFresh
  have hz := ha.readsBackup c
  cases c with
  | defaultConstruct x =>
    simp only [Cmd.valid, Bool.and_eq_true, Option.isNone_iff_eq_none, decide_eq_true_eq] at hv
    refine wp_mono (wp_defaultConstruct hf hv.2) ?_ ?_
    · rintro _ w' ⟨hc, hal⟩; exact ⟨hc.allInPlace ha (by simp), hal⟩
    · rintro e w' ⟨_, _, _, rfl⟩; exact ⟨ha, rfl⟩
  | copyConstruct x y =>
    simp only [Cmd.valid, Bool.and_eq_true, Option.isNone_iff_eq_none] at hv
    obtain ⟨s, id, k, v, ho⟩ := hg.owns hv.2
    refine wp_mono (wp_copyConstruct ho hf) ?_ ?_
    · rintro _ w' ⟨hc, hal⟩; exact ⟨hc.allInPlace ha (by simp), hal⟩
    · rintro e w' ⟨_, _, _, rfl⟩; exact ⟨ha, rfl⟩
  | moveConstruct x y =>
    simp only [Cmd.valid, Bool.and_eq_true, Option.isNone_iff_eq_none] at hv
    obtain ⟨s, id, k, v, ho⟩ := hg.owns hv.2
    refine wp_mono (wp_moveConstruct ho hf) ?_ ?_
    · rintro _ w' ⟨hc, hal⟩; exact ⟨hc.allInPlace ha (by simp), hal⟩
    · rintro e w' ⟨_, _, _, _, rfl⟩; exact ⟨ha, rfl⟩
  | constructL x k v =>
    simp only [Cmd.valid, Bool.and_eq_true, Option.isNone_iff_eq_none, decide_eq_true_eq] at hv
    refine wp_mono (wp_construct_elem .L (by simp) (.user x) k v hf hv.2) ?_ ?_
    · rintro _ w' ⟨id', hc, hal⟩; exact ⟨hc.allInPlace ha (by simp), hal⟩
    · rintro e w' ⟨_, _, h1, _, _, hal, _⟩; exact ⟨by rw [AllInPlace, h1]; exact ha, hal⟩
  | constructR x k v =>
    simp only [Cmd.valid, Bool.and_eq_true, Option.isNone_iff_eq_none, decide_eq_true_eq] at hv
    refine wp_mono (wp_construct_elem .R (by simp) (.user x) k v hf hv.2) ?_ ?_
    · rintro _ w' ⟨id', hc, hal⟩; exact ⟨hc.allInPlace ha (by simp), hal⟩
    · rintro e w' ⟨_, _, h1, _, _, hal, _⟩; exact ⟨by rw [AllInPlace, h1]; exact ha, hal⟩
  | constructC x k v =>
    simp only [Cmd.valid, Bool.and_eq_true, Option.isNone_iff_eq_none, decide_eq_true_eq] at hv
    refine wp_mono (wp_convertConstruct (.conv k v) trivial hv.2 hf) ?_ ?_
    · rintro _ w' ⟨id', v', _, _, hc, hal, _⟩; exact ⟨hc.allInPlace ha (by simp), hal⟩
    · rintro e w' ⟨_, _, h1, _, hal, _⟩; exact ⟨by rw [AllInPlace, h1]; exact ha, hal⟩
  | destroy x =>
    simp only [Cmd.valid] at hv
    obtain ⟨s, id, k, v, ho⟩ := hg.owns hv
    refine wp_destroyVar_intro ho hf.flat ⟨?_, rfl⟩
    intro y s hy
    simp only [upd] at hy
    split at hy
    · cases hy
    · exact ha y s hy
  | copyAssign x y =>
    simp only [Cmd.valid, Bool.and_eq_true] at hv
    obtain ⟨sx, ix, kx, vx, hx⟩ := hg.owns hv.1
    obtain ⟨sy, iy, ky, vy, hy⟩ := hg.owns hv.2
    have px := ha _ _ hx.var
    have py := ha _ _ hy.var
    refine wp_mono (wp_copyAssign hs hx hy (hw.distinct hx hy) hf (noHazard_of hx.var hy.var hz)) ?_ ?_
    · rintro _ w' (⟨_, _, hr, hal⟩ | ⟨hwne, ⟨_, _, hr⟩, hal⟩)
      · exact ⟨hr.allInPlace ha px, hal⟩
      · exact ⟨hr.allInPlace ha (by simp), hal.eq hss (Rep.lt C hx.rep) (Rep.lt C hy.rep)
          (hx.rep.ne_of_which hy.rep px py hwne)⟩
    · rintro e w' (⟨_, _, _, _, hr, hal⟩ | ⟨hwne, _, ⟨_, _, _, _, _, hr, hlo⟩, hal⟩)
      · exact ⟨hr.allInPlace ha px, hal⟩
      · have hne := hx.rep.ne_of_which hy.rep px py hwne
        exact ⟨hr.allInPlace ha (hlo.inPlace hss (Rep.lt C hx.rep) (Rep.lt C hy.rep) hne px),
          hal.eq hss (Rep.lt C hx.rep) (Rep.lt C hy.rep) hne⟩
  | moveAssign x y =>
    simp only [Cmd.valid, Bool.and_eq_true] at hv
    obtain ⟨sx, ix, kx, vx, hx⟩ := hg.owns hv.1
    obtain ⟨sy, iy, ky, vy, hy⟩ := hg.owns hv.2
    have px := ha _ _ hx.var
    have py := ha _ _ hy.var
    refine wp_mono (wp_moveAssign hs hx hy (hw.distinct hx hy) hf (noHazard_of hx.var hy.var hz)) ?_ ?_
    · rintro _ w' (⟨_, hr, hal⟩ | ⟨_, _, _, hr, hal⟩ | ⟨_, hwne, ⟨_, _, hr⟩, hal⟩)
      · exact ⟨hr.allInPlace ha px, hal⟩
      · exact ⟨hr.allInPlace ha px, hal⟩
      · exact ⟨hr.allInPlace ha (by simp), hal.eq hss (Rep.lt C hx.rep) (Rep.lt C hy.rep)
          (hx.rep.ne_of_which hy.rep px py hwne)⟩
    · rintro e w' ⟨_, ⟨_, _, _, _, hr, hal⟩ | ⟨_, _, _, _, _, _, hr, hal⟩ | ⟨_, hwne, _, ⟨_, _, _, _, _, hr, hlo⟩, hal⟩⟩
      · exact ⟨hr.allInPlace ha px, hal⟩
      · exact ⟨hr.allInPlace ha px, hal⟩
      · have hne := hx.rep.ne_of_which hy.rep px py hwne
        exact ⟨hr.allInPlace ha (hlo.inPlace hss (Rep.lt C hx.rep) (Rep.lt C hy.rep) hne px),
          hal.eq hss (Rep.lt C hx.rep) (Rep.lt C hy.rep) hne⟩
  | assignL x k v =>
    simp only [Cmd.valid, Bool.and_eq_true, decide_eq_true_eq] at hv
    obtain ⟨sx, ix, kx, vx, hx⟩ := hg.owns hv.1
    refine wp_mono (wp_assign_elem hs.blank .L (by simp) k v hx hf hv.2 (by simp) (hg.noTmp 0)) ?_ ?_
    · intro _ w' h; exact h.inPlace hs hss ha hx hv.2
    · rintro e w' ⟨_, h⟩; exact h.inPlace hs hss ha hx hv.2
  | assignR x k v =>
    simp only [Cmd.valid, Bool.and_eq_true, decide_eq_true_eq] at hv
    obtain ⟨sx, ix, kx, vx, hx⟩ := hg.owns hv.1
    refine wp_mono (wp_assign_elem hs.blank .R (by simp) k v hx hf hv.2 (by simp) (hg.noTmp 0)) ?_ ?_
    · intro _ w' h; exact h.inPlace hs hss ha hx hv.2
    · rintro e w' ⟨_, h⟩; exact h.inPlace hs hss ha hx hv.2
  | assignC x k v =>
    simp only [Cmd.valid, Bool.and_eq_true, decide_eq_true_eq] at hv
    obtain ⟨sx, ix, kx, vx, hx⟩ := hg.owns hv.1
    refine wp_mono (wp_assign_conv hs.blank k v hx hf hv.2 (by simp) (hg.noTmp 0)) ?_ ?_
    · intro _ w' h; exact h.inPlace hs hss ha hx hv.2
    · rintro e w' ⟨_, h⟩; exact h.inPlace hs hss ha hx hv.2
  | assignVL x k v =>
    simp only [Cmd.valid, Bool.and_eq_true, decide_eq_true_eq] at hv
    obtain ⟨sx, ix, kx, vx, hx⟩ := hg.owns hv.1
    refine wp_mono (wp_assign_elem hs.blank .VL (by simp) k v hx hf hv.2 (by simp) (hg.noTmp 0)) ?_ ?_
    · intro _ w' h; exact h.inPlace hs hss ha hx hv.2
    · rintro e w' ⟨_, h⟩; exact h.inPlace hs hss ha hx hv.2
  | assignVR x k v =>
    simp only [Cmd.valid, Bool.and_eq_true, decide_eq_true_eq] at hv
    obtain ⟨sx, ix, kx, vx, hx⟩ := hg.owns hv.1
    refine wp_mono (wp_assign_elem hs.blank .VR (by simp) k v hx hf hv.2 (by simp) (hg.noTmp 0)) ?_ ?_
    · intro _ w' h; exact h.inPlace hs hss ha hx hv.2
    · rintro e w' ⟨_, h⟩; exact h.inPlace hs hss ha hx hv.2
  | swap x y =>
    simp only [Cmd.valid, Bool.and_eq_true] at hv
    obtain ⟨sx, ix, kx, vx, hx⟩ := hg.owns hv.1
    obtain ⟨sy, iy, ky, vy, hy⟩ := hg.owns hv.2
    have px := ha _ _ hx.var
    have py := ha _ _ hy.var
    have hal : ∀ {w'}, kx ≠ ky → SwapAlloc C w w' kx ky → w'.allocs = w.allocs := by
      intro w' hne h
      rcases h with h | ⟨h1, h2, _⟩
      · exact h
      · exact (hss.no_backup (Rep.lt C hx.rep) (Rep.lt C hy.rep) hne h1 h2).elim
    refine wp_mono (wp_swap hs hw hx hy (by simp) (by simp) (hg.noTmp 0) (swapHazard_of hx hy hz)) ?_ ?_
    · rintro _ w' ⟨_, ho, hsw⟩
      rcases hsw with ⟨_, hr, h⟩ | ⟨_, _, hr, h⟩ | ⟨hk, _, _, hx', hy', h⟩
      · exact ⟨by rw [AllInPlace, hr.vars]; exact ha, h⟩
      · exact ⟨by rw [AllInPlace, hr.vars]; exact ha, h⟩
      · exact ⟨ho.allInPlace ha hx'.var hy'.var (by simp) (by simp), hal hk (h hs)⟩
    · rintro e w' ⟨_, _, ho, hsw⟩
      rcases hsw with ⟨_, _, hr, h⟩ | ⟨_, _, _, hr, h⟩ | ⟨_, _, hr, h⟩ | ⟨hk, _, _, _, _, _, hx', hy', hlo, h⟩ |
        ⟨hk, _, _, _, _, _, _, hx', hlo, hy', h⟩
      · exact ⟨by rw [AllInPlace, hr.vars]; exact ha, h⟩
      · exact ⟨by rw [AllInPlace, hr.vars]; exact ha, h⟩
      · exact ⟨by rw [AllInPlace, hr.vars]; exact ha, h⟩
      · exact ⟨ho.allInPlace ha hx'.var hy'.var px
          (hlo.inPlace hss (Rep.lt C hy.rep) (Rep.lt C hx.rep) (Ne.symm hk) py), hal hk (h hs)⟩
      · exact ⟨ho.allInPlace ha hx'.var hy'.var
          (hlo.inPlace hss (Rep.lt C hx.rep) (Rep.lt C hy.rep) hk px) (by simp), hal hk (h hs)⟩
  | mutate x v =>
    simp only [Cmd.valid] at hv
    obtain ⟨s, id, k, v0, ho⟩ := hg.owns hv
    simp only [Cmd.code]
    rw [wp_applyVisitor C ho.var ho.rep ho.obj, wp_modify]
    exact ⟨ha, rfl⟩
  | constructGet rv x y =>
    simp only [Cmd.valid, Bool.and_eq_true, Option.isNone_iff_eq_none] at hv
    obtain ⟨s, id, k, v, ho⟩ := hg.owns hv.2
    refine wp_mono (wp_constructGet rv (.user x) ho hf) ?_ ?_
    · rintro _ w' ⟨⟨_, _, hc⟩, hal⟩; exact ⟨hc.allInPlace ha (by simp), hal⟩
    · rintro e w' ⟨_, _, hr, hal⟩; exact ⟨by rw [AllInPlace, hr.vars]; exact ha, hal⟩
  | assignGet rv x y =>
    simp only [Cmd.valid, Bool.and_eq_true] at hv
    obtain ⟨sx, ix, kx, vx, hx⟩ := hg.owns hv.1
    obtain ⟨sy, iy, ky, vy, hy⟩ := hg.owns hv.2
    have px := ha _ _ hx.var
    refine wp_mono (wp_assignGet hs.1 rv hx hy (hw.distinct hx hy) hf (by simp) (hg.noTmp 0)) ?_ ?_
    · rintro _ w' (⟨_, _, hr, hal⟩ | ⟨_, _, hr, hal⟩ | ⟨hne, _, ⟨_, _, hr⟩, hal⟩)
      · exact ⟨hr.allInPlace ha px, hal⟩
      · exact ⟨hr.allInPlace ha px, hal⟩
      · exact ⟨hr.allInPlace ha (by simp), (hal hs).eq hss (Rep.lt C hx.rep) (Rep.lt C hy.rep) hne⟩
    · rintro e w' ⟨_, ⟨_, _, _, hr, hal⟩ | ⟨_, _, _, hr, hal⟩ | ⟨_, _, _, hr, hal⟩ | ⟨hne, _, _, _, hr, hal⟩⟩
      · exact ⟨hr.allInPlace ha px, hal⟩
      · exact ⟨hr.allInPlace ha px, hal⟩
      · exact ⟨hr.allInPlace ha px, hal⟩
      · obtain ⟨_, _, _, _, _, hr, hlo⟩ := hr hs
        exact ⟨hr.allInPlace ha (hlo.inPlace hss (Rep.lt C hx.rep) (Rep.lt C hy.rep) hne px),
          (hal hs).eq hss (Rep.lt C hx.rep) (Rep.lt C hy.rep) hne⟩

theorem allInPlace_init : AllInPlace (World.init V) := by intro x s h; cases h

theorem SingleStorage.backupFree (h : SingleStorage C) : BackupFree C := by
  intro k kr hk hkr hne hb
  rcases h with h | h | h
  · rw [hb.1] at h; cases h
  · have := h kr hkr; rw [hb.2.2] at this; cases this
  · cases hm : (C.tr k).nothrowMove with
    | true => rfl
    | false => exact absurd (h k kr hk hkr hm hb.2.1) hne

theorem BackupFree.copyMove (h : BackupFree C) : ∀ k kr, k < C.n → kr < C.n → C.mayBackup kr →
    (C.tr k).nothrowCopy = true → (C.tr k).nothrowMove = true := by
  intro k kr hk hkr hb hc
  refine h k kr hk hkr ?_ hb
  rintro rfl
  rw [hb.2.2] at hc; cases hc

/-- Any program runs to its end, with all contents in place and without any allocation by the library. -/
theorem run_inPlace (hs : Sane C) (hss : BackupFree C) (cs : List (Cmd V)) (w : World V) (hg : Good C w)
    (ha : AllInPlace w) :
    ∃ w', run C cs w = some w' ∧ Good C w' ∧ AllInPlace w' ∧ w'.allocs = w.allocs := by
  induction cs generalizing w with
  | nil => exact ⟨w, rfl, hg, ha, rfl⟩
  | cons c cs ih =>
    simp only [run]
    cases hv : c.valid C w with
    | false => simp only [Bool.false_eq_true, if_false]; exact ih w hg ha
    | true =>
      simp only [if_true]
      rcases wp_elim (wp_and (wp_step hs hg c hv (ha.readsBackup c)) (wp_step_inPlace hs hss hg ha c hv)) with
        ⟨a, w', hm, ⟨hg', _⟩, ha', hal⟩ | ⟨e, w', hm, ⟨hg', _, _⟩, ha', hal⟩
      all_goals
        rw [hm]
        obtain ⟨w2, h1, h2, h3, h4⟩ := ih w' hg' ha'
        exact ⟨w2, h1, h2, h3, h4.trans hal⟩

end

end BVariant
