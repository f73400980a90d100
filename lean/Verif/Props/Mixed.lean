/-
C52 locality: variants of other types in the program do not matter. C01 and C13 for programs with several variant types.
-/
import Verif.Lemmas.Frame
import Verif.Props.Assignment

namespace BVariant

section
variable {V : Type} {K : Nat → Cfg V} {ρ : Nat → Nat} {w w' wh' : World V} {vt : Nat}

theorem World.only_fr (hfl : ∀ i, w.sub i = []) (hfr : ∀ i, w.next ≤ i → w.objs i = none)
    (hal : ∀ x s i, w.vars (.user x) = some s → s.contentId = some i → w.objs i ≠ none) :
    Fr (w.foreign ρ vt) (fun x => ∃ n, x = .user n ∧ ρ n ≠ vt) w (w.only ρ vt) w where
  next := rfl
  tick := rfl
  allocs := rfl
  sub := rfl
  flat := hfl
  old := by
    rintro i ⟨x, s, _, hx, hi⟩
    rcases Nat.lt_or_ge i w.next with h | h
    · exact h
    · exact absurd (hfr i h) (hal x s i hx hi)
  objHid := fun i hi => if_pos hi
  objOld := fun _ _ => rfl
  obj := fun i hi => if_neg hi
  varHid := by rintro x ⟨n, rfl, hn⟩; exact if_neg hn
  varOld := fun _ _ => rfl
  var := by
    intro x hx
    cases x with
    | tmp n => rfl
    | user n =>
      refine if_pos ?_
      by_cases h : ρ n = vt
      · exact h
      · exact absurd ⟨n, rfl, h⟩ hx

theorem GoodMix.fr (hg : GoodMix K ρ w) (vt : Nat) :
    Fr (w.foreign ρ vt) (fun x => ∃ n, x = .user n ∧ ρ n ≠ vt) w (w.only ρ vt) w := by
  refine World.only_fr hg.flat hg.fresh fun x s i hx hi => ?_
  obtain ⟨id, k, v, hr, ho⟩ := hg.rep x s hx
  rw [hr.contentId] at hi; cases hi
  rw [ho]; simp

/-- The variables of one type, on their own, are in a state between statements. -/
theorem GoodMix.only (hg : GoodMix K ρ w) (vt : Nat) : Good (K vt) (w.only ρ vt) := by
  have hvar : ∀ x s, (w.only ρ vt).vars x = some s → ∃ n, x = .user n ∧ ρ n = vt ∧ w.vars (.user n) = some s := by
    intro x s hx
    cases x with
    | tmp n => rw [show (w.only ρ vt).vars (.tmp n) = w.vars (.tmp n) from rfl, hg.noTmp n] at hx; cases hx
    | user n =>
      by_cases h : ρ n = vt
      · exact ⟨n, rfl, h, by simpa [World.only, h] using hx⟩
      · simp [World.only, h] at hx
  have hnf : ∀ n s i, ρ n = vt → w.vars (.user n) = some s → s.contentId = some i → ¬ w.foreign ρ vt i := by
    rintro n s i hn hs hi ⟨x, s', hx, hs', hi'⟩
    exact hx (hg.inj x n s' s i hs' hs hi' hi ▸ hn)
  have hfr := hg.fr vt
  refine ⟨⟨?_, ?_, ?_, ?_, hg.flat⟩, hg.noTmp⟩
  · intro x s hx
    obtain ⟨n, rfl, hn, hs⟩ := hvar x s hx
    obtain ⟨id, k, v, hr, ho⟩ := hg.rep n s hs
    rw [hn] at hr
    exact ⟨id, k, v, hr, (hfr.obj id (hnf n s id hn hs hr.contentId)).trans ho⟩
  · intro x y sx sy id hx hy h1 h2
    obtain ⟨n, rfl, _, hs⟩ := hvar x sx hx
    obtain ⟨m, rfl, _, ht⟩ := hvar y sy hy
    rw [hg.inj n m sx sy id hs ht h1 h2]
  · intro id hid
    have hnP : ¬ w.foreign ρ vt id := fun h => hid (hfr.objHid id h)
    have hw : w.objs id ≠ none := by rw [← hfr.obj id hnP]; exact hid
    obtain ⟨x, s, hx, hi⟩ := hg.noLeak id hw
    have hr : ρ x = vt := by
      by_cases h : ρ x = vt
      · exact h
      · exact absurd ⟨x, s, h, hx, hi⟩ hnP
    exact ⟨.user x, s, by simp [World.only, hr, hx], hi⟩
  · intro id hid
    by_cases h : w.foreign ρ vt id
    · exact hfr.objHid id h
    · exact (hfr.obj id h).trans (hg.fresh id hid)

theorem Fr.step (h : Fr (w.foreign ρ vt) (fun x => ∃ n, x = .user n ∧ ρ n ≠ vt) w wh' w') : LikeAlone ρ vt w w' wh' := by
  have hv : ∀ n, ρ n ≠ vt → w'.vars (.user n) = w.vars (.user n) := fun n hn => h.varOld _ ⟨n, rfl, hn⟩
  have hP : ∀ i, w'.foreign ρ vt i ↔ w.foreign ρ vt i := by
    intro i
    constructor
    · rintro ⟨x, s, hx, hs, hi⟩; exact ⟨x, s, hx, (hv x hx).symm.trans hs, hi⟩
    · rintro ⟨x, s, hx, hs, hi⟩; exact ⟨x, s, hx, (hv x hx).trans hs, hi⟩
  refine ⟨?_, fun x hx => ⟨hv x hx, fun s id hs hi => h.objOld id ⟨x, s, hx, hs, hi⟩⟩⟩
  have h1 : (w'.only ρ vt).objs = wh'.objs := by
    funext i
    by_cases hi : w.foreign ρ vt i
    · exact (if_pos ((hP i).mpr hi)).trans (h.objHid i hi).symm
    · exact (if_neg (fun e => hi ((hP i).mp e))).trans (h.obj i hi).symm
  have h2 : (w'.only ρ vt).vars = wh'.vars := by
    funext x
    cases x with
    | tmp n => exact (h.var _ (by rintro ⟨m, hm, _⟩; cases hm)).symm
    | user n =>
      by_cases hn : ρ n = vt
      · exact (if_pos hn).trans (h.var _ (by rintro ⟨m, hm, hm'⟩; cases hm; exact hm' hn)).symm
      · exact (if_neg hn).trans (h.varHid _ ⟨n, rfl, hn⟩).symm
  have h3 : w'.only ρ vt = { wh' with objs := (w'.only ρ vt).objs, vars := (w'.only ρ vt).vars } := by
    cases wh'; simp only [World.only] at *
    rw [World.mk.injEq]
    exact ⟨rfl, h.next.symm, rfl, h.tick.symm, h.allocs.symm, h.sub.symm⟩
  rw [h3, h1, h2]

/-- C52: a statement on variables of one type does what it does if no variable of another type exists: if it returns or throws
there, it does so here, the variables of this type are as they are there, and those of other types are unchanged. -/
theorem C52_other_types_do_not_matter (hg : GoodMix K ρ w) {c : Cmd V} (hn : ∀ x ∈ c.names, ρ x = vt) :
    (∀ wh', c.code (K vt) (w.only ρ vt) = .ok () wh' → ∃ w', c.code (K vt) w = .ok () w' ∧ LikeAlone ρ vt w w' wh') ∧
    (∀ e wh', c.code (K vt) (w.only ρ vt) = .exc e wh' → ∃ w', c.code (K vt) w = .exc e w' ∧ LikeAlone ρ vt w w' wh') := by
  have h := framed_code (C := K vt) c (Q := fun x => ∃ n, x = .user n ∧ ρ n ≠ vt)
    (by rintro x hx ⟨n, hn', hne⟩; cases hn'; exact hne (hn x hx)) (by rintro n ⟨m, hm, _⟩; cases hm) (hg.only vt) (hg.fr vt)
  constructor
  · intro wh' he
    rw [he] at h
    obtain ⟨w', h1, h2⟩ := h
    exact ⟨w', h1, h2.step⟩
  · intro e wh' he
    rw [he] at h
    obtain ⟨w', h1, h2⟩ := h
    exact ⟨w', h1, h2.step⟩

theorem GoodMix.only_var (w : World V) {x : Nat} (hx : ρ x = vt) : (w.only ρ vt).vars (.user x) = w.vars (.user x) := if_pos hx

theorem GoodMix.only_content (hg : GoodMix K ρ w) {x : Nat} (hx : ρ x = vt) :
    (w.only ρ vt).content (.user x) = w.content (.user x) := by
  unfold World.content
  rw [GoodMix.only_var w hx]
  cases hs : w.vars (.user x) with
  | none => rfl
  | some s =>
    obtain ⟨id, k, v, hr, ho⟩ := hg.rep x s hs
    simp only [Option.bind, hr.contentId]
    refine (hg.fr vt).obj id ?_
    rintro ⟨y, t, hy, ht, hi⟩
    exact hy (hg.inj y x t s id ht hs hi hr.contentId ▸ hx)

theorem GoodMix.valid_only (w : World V) (C : Cfg V) (c : Cmd V) (hn : ∀ x ∈ c.names, ρ x = vt) :
    c.valid C (w.only ρ vt) = c.valid C w := by
  cases c <;> simp only [Cmd.names, List.mem_cons, List.not_mem_nil, or_false, forall_eq_or_imp, forall_eq] at hn <;>
    first
      | simp only [Cmd.valid, GoodMix.only_var w hn]
      | simp only [Cmd.valid, GoodMix.only_var w hn.1, GoodMix.only_var w hn.2]

theorem GoodMix.readsBackup_only (hg : GoodMix K ρ w) (c : Cmd V) (hn : ∀ x ∈ c.names, ρ x = vt) :
    c.readsBackup (w.only ρ vt) = c.readsBackup w := by
  cases c <;> simp only [Cmd.names, List.mem_cons, List.not_mem_nil, or_false, forall_eq_or_imp, forall_eq] at hn <;>
    simp only [Cmd.readsBackup, World.backedUp, World.recordsDiffer, World.typesDiffer] <;>
    simp only [GoodMix.only_var w hn.1, GoodMix.only_var w hn.2, hg.only_content hn.1, hg.only_content hn.2]

theorem Fr.goodMix (hg : GoodMix K ρ w) (hgh : Good (K vt) wh')
    (h : Fr (w.foreign ρ vt) (fun x => ∃ n, x = .user n ∧ ρ n ≠ vt) w wh' w') : GoodMix K ρ w' := by
  have hoth : ∀ x s, ρ x ≠ vt → w'.vars (.user x) = some s → w.vars (.user x) = some s := fun x s hx hs =>
    (h.varOld _ ⟨x, rfl, hx⟩).symm.trans hs
  have hown : ∀ x s, ρ x = vt → w'.vars (.user x) = some s → wh'.vars (.user x) = some s := fun x s hx hs =>
    (h.var _ (by rintro ⟨m, hm, hm'⟩; cases hm; exact hm' hx)).trans hs
  have hcl : ∀ x y sx sy id, ρ x = vt → ρ y ≠ vt → w'.vars (.user x) = some sx → w'.vars (.user y) = some sy →
      sx.contentId = some id → sy.contentId ≠ some id := by
    intro x y sx sy id hx hy h1 h2 h3 h4
    obtain ⟨id', k, v, hr, ho⟩ := hgh.wf.rep _ _ (hown x sx hx h1)
    rw [hr.contentId] at h3; cases h3
    exact (h.alive ho).1 ⟨y, sy, hy, hoth y sy hy h2, h4⟩
  refine ⟨?_, ?_, ?_, ?_, h.flat, ?_⟩
  · intro x s hs
    by_cases hx : ρ x = vt
    · obtain ⟨id, k, v, hr, ho⟩ := hgh.wf.rep _ _ (hown x s hx hs)
      exact ⟨id, k, v, hx ▸ hr, (h.alive ho).2⟩
    · obtain ⟨id, k, v, hr, ho⟩ := hg.rep x s (hoth x s hx hs)
      exact ⟨id, k, v, hr, (h.objOld id ⟨x, s, hx, hoth x s hx hs, hr.contentId⟩).trans ho⟩
  · intro x y sx sy id h1 h2 h3 h4
    by_cases hx : ρ x = vt
    · by_cases hy : ρ y = vt
      · have := hgh.wf.inj _ _ sx sy id (hown x sx hx h1) (hown y sy hy h2) h3 h4
        injection this
      · exact absurd h4 (hcl x y sx sy id hx hy h1 h2 h3)
    · by_cases hy : ρ y = vt
      · exact absurd h3 (hcl y x sy sx id hy hx h2 h1 h4)
      · exact hg.inj x y sx sy id (hoth x sx hx h1) (hoth y sy hy h2) h3 h4
  · intro id hid
    by_cases hP : w.foreign ρ vt id
    · obtain ⟨x, s, hx, hs, hi⟩ := hP
      exact ⟨x, s, (h.varOld _ ⟨x, rfl, hx⟩).trans hs, hi⟩
    · rw [← h.obj id hP] at hid
      obtain ⟨x, s, hx, hi⟩ := hgh.wf.noLeak id hid
      cases x with
      | tmp n => rw [hgh.noTmp n] at hx; cases hx
      | user n => exact ⟨n, s, (h.aliveVar hx).2, hi⟩
  · intro id hid
    by_cases hP : w.foreign ρ vt id
    · exact absurd (h.old id hP) (by omega)
    · rw [← h.obj id hP]; exact hgh.wf.fresh id (by rw [h.next]; exact hid)
  · intro n
    rw [← h.var (.tmp n) (by rintro ⟨m, hm, _⟩; cases hm)]; exact hgh.noTmp n

theorem Fr.othersKept (hg : GoodMix K ρ w) {c : Cmd V}
    (h : Fr (w.foreign ρ vt) (fun x => ∃ n, x = .user n ∧ ρ n ≠ vt) w wh' w') (hk : OthersKept c (w.only ρ vt) wh') :
    OthersKept c w w' := by
  intro z hz
  by_cases hx : ρ z = vt
  · obtain ⟨h1, h2⟩ := hk z hz
    rw [GoodMix.only_var w hx] at h1 h2
    have hq : ¬ ∃ n, VarId.user z = .user n ∧ ρ n ≠ vt := by rintro ⟨m, hm, hm'⟩; cases hm; exact hm' hx
    refine ⟨(h.var _ hq).symm.trans h1, fun s id hs hi => ?_⟩
    have hP : ¬ w.foreign ρ vt id := by
      rintro ⟨y, t, hy, ht, hi'⟩
      exact hy (hg.inj y z t s id ht hs hi' hi ▸ hx)
    rw [← h.obj id hP, h2 s id hs hi, (hg.fr vt).obj id hP]
  · exact h.step.others z hx

/-- C01, C13 and C14 for variables of several types: every statement of a program with variables of several types returns or throws, outside the findings; it keeps the
invariant of all the variables, and changes none that it does not name. -/
theorem C01_statement_several_types_partial (hs : Sane (K vt)) (hg : GoodMix K ρ w) {c : Cmd V} (hn : ∀ x ∈ c.names, ρ x = vt)
    (hv : c.valid (K vt) w = true) (hz : c.readsBackup w = false) :
    Ends (c.code (K vt)) w (fun _ w' => GoodMix K ρ w' ∧ OthersKept c w w')
      (fun e w' => GoodMix K ρ w' ∧ OthersKept c w w' ∧ Thrown (K vt) w w' e) := by
  have h := framed_code (C := K vt) c (Q := fun x => ∃ n, x = .user n ∧ ρ n ≠ vt)
    (by rintro x hx ⟨n, hn', hne⟩; cases hn'; exact hne (hn x hx)) (by rintro n ⟨m, hm, _⟩; cases hm) (hg.only vt) (hg.fr vt)
  rcases wp_elim (wp_step hs (hg.only vt) c ((GoodMix.valid_only w _ c hn).trans hv) ((hg.readsBackup_only c hn).trans hz)) with
    ⟨a, wh', hm, hg', hk⟩ | ⟨e, wh', hm, hg', hk, ht⟩
  · rw [hm] at h
    obtain ⟨w', h1, h2⟩ := h
    exact .inl ⟨a, w', h1, h2.goodMix hg hg', h2.othersKept hg hk⟩
  · rw [hm] at h
    obtain ⟨w', h1, h2⟩ := h
    refine .inr ⟨e, w', h1, h2.goodMix hg hg', h2.othersKept hg hk, ?_⟩
    exact ⟨ht.1, h2.tick ▸ ht.2.1, ht.2.2⟩

/-- C52 for programs: a program on variables of one type, run in a program that has variables of others, does what it does if
no variable of another type exists: it comes to its end, the variables of this type are as they are there, and those of
other types are unchanged. -/
theorem C52_programs (hs : Sane (K vt)) (hg : GoodMix K ρ w) (cs : List (Cmd V)) (hn : ∀ c ∈ cs, ∀ x ∈ c.names, ρ x = vt)
    (ha : avoidsBackupReadsMix K ρ (cs.map fun c => (vt, c)) w = true) :
    ∃ w' wh', runMix K ρ (cs.map fun c => (vt, c)) w = some w' ∧ run (K vt) cs (w.only ρ vt) = some wh' ∧
      LikeAlone ρ vt w w' wh' := by
  suffices h : ∀ w', LikeAlone ρ vt w w' (w'.only ρ vt) → GoodMix K ρ w' →
      avoidsBackupReadsMix K ρ (cs.map fun c => (vt, c)) w' = true → ∃ w'' wh', runMix K ρ (cs.map fun c => (vt, c)) w' = some w'' ∧ run (K vt) cs (w'.only ρ vt) = some wh' ∧
        LikeAlone ρ vt w w'' wh' from h w ⟨rfl, fun x _ => ⟨rfl, fun _ _ _ _ => rfl⟩⟩ hg ha
  clear ha
  induction cs with
  | nil => exact fun w' hl _ _ => ⟨w', _, rfl, rfl, hl⟩
  | cons c cs ih =>
    intro w' hl hg' ha
    have hnc := hn c List.mem_cons_self
    have hnt : ∀ c' ∈ cs, ∀ x ∈ c'.names, ρ x = vt := fun c' h => hn c' (List.mem_cons_of_mem _ h)
    have hnb : (c.names.all fun x => ρ x == vt) = true := by simpa using hnc
    have hva := GoodMix.valid_only w' (K vt) c hnc
    simp only [List.map_cons, runMix, run, hnb, Bool.true_and, hva]
    simp only [List.map_cons, avoidsBackupReadsMix, hnb, Bool.true_and] at ha
    by_cases hv : c.valid (K vt) w' = true
    · rw [if_pos hv] at ha
      rw [if_pos hv, if_pos hv]
      simp only [Bool.and_eq_true, Bool.not_eq_true'] at ha
      have hz := ha.1
      have hboth := C52_other_types_do_not_matter hg' hnc
      have step : ∀ w1, GoodMix K ρ w1 → LikeAlone ρ vt w' w1 (w1.only ρ vt) → LikeAlone ρ vt w w1 (w1.only ρ vt) :=
        fun w1 _ h1 => ⟨rfl, fun x hx => by
          obtain ⟨a1, a2⟩ := hl.others x hx
          obtain ⟨b1, b2⟩ := h1.others x hx
          exact ⟨b1.trans a1, fun s id hs hi => (b2 s id (a1.trans hs) hi).trans (a2 s id hs hi)⟩⟩
      have hgood := C01_statement_several_types_partial hs hg' hnc hv hz
      rcases wp_elim (wp_step hs (hg'.only vt) c (hva.trans hv) ((hg'.readsBackup_only c hnc).trans hz)) with ⟨a, wh1, hm, -⟩ | ⟨e, wh1, hm, -⟩
      · obtain ⟨w1, h1, h2⟩ := hboth.1 wh1 hm
        obtain rfl := h2.only
        rcases hgood with ⟨a', w1', h3, h4, -⟩ | ⟨e', w1', h3, -⟩
        · rw [h1] at h3; cases h3
          rw [h1] at ha
          simp only [h1, hm]
          exact ih hnt w1 (step w1 h4 h2) h4 ha.2
        · rw [h1] at h3; cases h3
      · obtain ⟨w1, h1, h2⟩ := hboth.2 e wh1 hm
        obtain rfl := h2.only
        rcases hgood with ⟨a', w1', h3, -⟩ | ⟨e', w1', h3, h4, -⟩
        · rw [h1] at h3; cases h3
        · rw [h1] at h3; cases h3
          rw [h1] at ha
          simp only [h1, hm]
          exact ih hnt w1 (step w1 h4 h2) h4 ha.2
    · rw [if_neg hv] at ha
      rw [if_neg hv, if_neg hv]
      exact ih hnt w' hl hg' ha

theorem goodMix_init : GoodMix K ρ (World.init V) := by
  refine ⟨?_, ?_, ?_, ?_, ?_, ?_⟩ <;> simp [World.init]

/-- States with variables of one type are among those with variables of several. -/
theorem GoodMix.of_good {C : Cfg V} (hg : Good C w) (ρ : Nat → Nat) : GoodMix (fun _ => C) ρ w := by
  refine ⟨fun x s hx => hg.wf.rep _ s hx, fun x y sx sy id h1 h2 h3 h4 => ?_, fun id hid => ?_, hg.wf.fresh, hg.wf.flat, hg.noTmp⟩
  · have := hg.wf.inj _ _ sx sy id h1 h2 h3 h4
    injection this
  · obtain ⟨x, s, hx, hi⟩ := hg.wf.noLeak id hid
    cases x with
    | tmp n => rw [hg.noTmp n] at hx; cases hx
    | user n => exact ⟨n, s, hx, hi⟩

theorem GoodMix.nonEmpty (hg : GoodMix K ρ w) {x : Nat} (hx : w.vars (.user x) ≠ none) : NonEmpty (K (ρ x)) w (.user x) := by
  cases hs : w.vars (.user x) with
  | none => exact absurd hs hx
  | some s =>
    obtain ⟨id, k, v, hr, ho⟩ := hg.rep x s hs
    refine ⟨s, id, k, v, hs, hr.contentId, ho, hr.lt, ?_, fun α f => applyVisitor_eq (K (ρ x)) f hs hr ho⟩
    simp only [which, bind, M.bind, getVar, hs, hr.which]
    rfl

theorem GoodMix.owned (hg : GoodMix K ρ w) : Owned w := by
  refine ⟨fun id => ⟨fun h => ?_, ?_⟩, ?_⟩
  · obtain ⟨x, s, hs, hc⟩ := hg.noLeak id h
    exact ⟨.user x, s, hs, hc⟩
  · rintro ⟨x, s, hs, hc⟩
    cases x with
    | tmp n => rw [hg.noTmp n] at hs; cases hs
    | user n =>
      obtain ⟨id', k, v, hr, ho⟩ := hg.rep n s hs
      have := hr.contentId
      rw [hc] at this
      cases this
      rw [ho]
      exact Option.some_ne_none _
  · intro x y sx sy id h1 h2 h3 h4
    cases x with
    | tmp n => rw [hg.noTmp n] at h1; cases h1
    | user n =>
      cases y with
      | tmp m => rw [hg.noTmp m] at h2; cases h2
      | user m => rw [hg.inj n m sx sy id h1 h2 h3 h4]

theorem runMix_good (hs : ∀ vt, Sane (K vt)) (cs : List (Nat × Cmd V)) (w : World V) (hg : GoodMix K ρ w)
    (ha : avoidsBackupReadsMix K ρ cs w = true) : ∃ w', runMix K ρ cs w = some w' ∧ GoodMix K ρ w' := by
  induction cs generalizing w with
  | nil => exact ⟨w, rfl, hg⟩
  | cons c cs ih =>
    obtain ⟨vt, c⟩ := c
    simp only [runMix]
    simp only [avoidsBackupReadsMix] at ha
    by_cases hv : (c.names.all (fun x => ρ x == vt) && c.valid (K vt) w) = true
    · rw [if_pos hv] at ha ⊢
      simp only [Bool.and_eq_true, List.all_eq_true, beq_iff_eq, Bool.not_eq_true'] at hv ha
      rcases C01_statement_several_types_partial (hs vt) hg hv.1 hv.2 ha.1 with ⟨a, w', hm, hg', _⟩ | ⟨e, w', hm, hg', _⟩
      · rw [hm] at ha ⊢; exact ih w' hg' ha.2
      · rw [hm] at ha ⊢; exact ih w' hg' ha.2
    · rw [if_neg hv] at ha ⊢; exact ih w hg ha

/-- C01 and C13 (scope as there): every program with variables of any number of types runs to its end, outside the findings, and then every
variable is non-empty for its type, and the live objects are exactly the contents of the variables, none shared. -/
theorem C01_several_types_partial (hs : ∀ vt, Sane (K vt)) (cs : List (Nat × Cmd V))
    (ha : avoidsBackupReadsMix K ρ cs (World.init V) = true) :
    ∃ w, runMix K ρ cs (World.init V) = some w ∧ Owned w ∧
      ∀ x, w.vars (.user x) ≠ none → NonEmpty (K (ρ x)) w (.user x) := by
  obtain ⟨w, hw, hg⟩ := runMix_good hs cs (World.init V) goodMix_init ha
  exact ⟨w, hw, hg.owned, fun x hx => hg.nonEmpty hx⟩

end

/-! ### Examples -/

/-- Two variant types: over two types that throw when copied or moved; and over `int` and these two. The operations number
6 and 11 throw. -/
def exMixK (vt : Nat) : Cfg Nat := exCfg (if vt = 0 then [tThrowing, tThrowing] else [tInt, tThrowing, tThrowing]) [6, 11]

/-- Variables 0 and 1 are of the first type, the others of the second. -/
def exMixR (x : Nat) : Nat := if x < 2 then 0 else 1

/-- A failed assignment in each type: variable 0 ends in a heap backup, variable 2 with its fallback. The last statement
does not compile. -/
def exMixProg : List (Nat × Cmd Nat) :=
  [(0, .constructC 0 0 5), (0, .constructC 1 1 7), (0, .copyAssign 0 1), (1, .constructC 2 2 3), (1, .constructC 3 1 4),
   (1, .copyAssign 2 3), (1, .copyAssign 3 0)]

theorem exMixK_sane (vt : Nat) : Sane (exMixK vt) := by
  unfold exMixK
  split
  · exact ⟨exTwo_sane.blank, exTwo_sane.copyMove, exTwo_sane.fallback⟩
  · refine ⟨by unfold BlankOk; decide, NoCopyOnly.of_fallback (by decide), fun k h => ?_⟩
    have : (exCfg [tInt, tThrowing, tThrowing] [6, 11]).fallback = some 0 := by decide
    rw [this] at h; cases h
    exact .inr (.inl (by decide))

def exMix : World Nat := (runMix exMixK exMixR exMixProg (World.init Nat)).getD (World.init Nat)

theorem exMix_good : GoodMix exMixK exMixR exMix := by
  obtain ⟨w, hw, hg⟩ := runMix_good exMixK_sane exMixProg (World.init Nat) (goodMix_init (ρ := exMixR)) (by decide +kernel)
  unfold exMix
  rw [hw]
  exact hg

/-- The two failures happened. -/
example : exMix.backedUp 0 = true ∧ exMix.content (.user 0) = some (0, 5) ∧ exMix.content (.user 1) = some (1, 7) ∧
    exMix.backedUp 2 = false ∧ exMix.content (.user 2) = some (0, 999) ∧ exMix.content (.user 3) = some (1, 4) := by
  decide +kernel

/-- A statement among the variables of the second type: the heap backup of variable 0 is not touched. -/
example : Ends (Cmd.code (exMixK 1) (.swap 2 3)) exMix
    (fun _ w' => GoodMix exMixK exMixR w' ∧ OthersKept (.swap 2 3) exMix w')
    (fun e w' => GoodMix exMixK exMixR w' ∧ OthersKept (.swap 2 3) exMix w' ∧ Thrown (exMixK 1) exMix w' e) :=
  C01_statement_several_types_partial (exMixK_sane 1) exMix_good (by simp [Cmd.names, exMixR]) (by decide +kernel) (by decide +kernel)

/-- C52 on the same statement. Here it returns, in the world of the second type alone and so in the whole. -/
example : (∀ wh', Cmd.code (exMixK 1) (.swap 2 3) (exMix.only exMixR 1) = .ok () wh' →
      ∃ w', Cmd.code (exMixK 1) (.swap 2 3) exMix = .ok () w' ∧ LikeAlone exMixR 1 exMix w' wh') ∧
    ∃ w', Cmd.code (exMixK 1) (.swap 2 3) exMix = .ok () w' :=
  ⟨(C52_other_types_do_not_matter exMix_good (by simp [Cmd.names, exMixR])).1, of_endsOk (by decide +kernel)⟩

/-- C52 for a program on the variables of the second type, run among those of the first. -/
example := C52_programs (exMixK_sane 1) exMix_good [.swap 2 3, .constructC 4 1 6, .copyAssign 4 2, .destroy 3]
  (by simp [Cmd.names, exMixR]) (by decide +kernel)

/-! ### Instances -/

/-- C01 for two variant types, with an assignment that throws. -/
example := C01_several_types_partial (ρ := exMixR) exMixK_sane exMixProg (by decide +kernel)

end BVariant
