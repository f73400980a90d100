/-
C67 Exactly which variant types keep each guarantee of assignment.
-/
import Verif.Props.Scope
import Verif.Props.ContentRef
import Verif.Props.FallbackValue

namespace BVariant

section
variable {V : Type} {C : Cfg V} {w w' : World V} {x : Nat} {kx ky : TyIx} {vx : V}

/-- Specification: `w` is reached by a program that, if assertions are off, executes no statement of finding F1. -/
def ReachedBy (C : Cfg V) (w : World V) : Prop :=
  ∃ cs, run C cs (World.init V) = some w ∧ (C.ndebug = false ∨ avoidsBackupReads C cs (World.init V) = true)

/-- Specification: the statement assigns something of bounded type `ky` to `x`. -/
def Cmd.assigns (w : World V) (x : Nat) (ky : TyIx) : Cmd V → Prop
  | .copyAssign a y | .moveAssign a y | .assignGet _ a y => a = x ∧ ∃ vy, w.holds y ky vy
  | .assignL a k _ | .assignR a k _ | .assignC a k _ | .assignVL a k _ | .assignVR a k _ => a = x ∧ k = ky
  | _ => False

/-- Specification: in any reached state, an assignment to `x` of something of another type that throws leaves `x` in a way that `P`
describes. -/
def FailedAssignments (C : Cfg V) (P : World V → World V → Nat → Prop) : Prop :=
  ∀ w, ReachedBy C w → ∀ (c : Cmd V) x kx vx ky, c.valid C w = true → w.holds x kx vx → c.assigns w x ky → kx ≠ ky →
    ∀ e w', c.code C w = .exc e w' → P w w' x

theorem ReachedBy.good (hs : Sane C) (h : ReachedBy C w) : Good C w := by
  obtain ⟨cs, hr, hd | ha⟩ := h
  · rcases run_asserted hs hd cs _ good_init with ⟨w', h1, h2⟩ | h1
    · rw [hr] at h1; cases h1; exact h2
    · rw [h1.run_none] at hr; cases hr
  · obtain ⟨w', h1, h2⟩ := run_good hs cs _ good_init ha
    rw [hr] at h1; cases h1; exact h2

/-- What a failed assignment that would have changed the type has done to its target. -/
theorem failed_assignment (hs : Sane C) (hg : Good C w) {c : Cmd V} (hv : c.valid C w = true) (hx : w.holds x kx vx)
    (hc : c.assigns w x ky) (hne : kx ≠ ky) {e : Exc} (h : c.code C w = .exc e w') :
    ∃ sx ix s' id' k' v' base, Owns C w (.user x) sx ix kx vx ∧ Replace C w w' base (.user x) ix s' id' k' v' ∧
      Leftover C sx ix kx vx ky s' id' k' v' ∧ Good C w' ∧ ky < C.n := by
  obtain ⟨sx, ix, hxo⟩ := hg.holds hx
  have hval : ∀ m v, ky < C.n → (valueAssign m x ky v).code C w = .exc e w' →
      ∃ sx ix s' id' k' v' base, Owns C w (.user x) sx ix kx vx ∧ Replace C w w' base (.user x) ix s' id' k' v' ∧
      Leftover C sx ix kx vx ky s' id' k' v' ∧ Good C w' ∧ ky < C.n := by
    intro m v hk h
    rcases (wp_exc (wp_valueAssign hs.blank hg m hxo hk) h).2 with
      ⟨_, he, _⟩ | ⟨_, _, hr, _⟩ | ⟨_, hw, _⟩ | ⟨_, _, _, _, hr, _⟩
    · exact absurd he hne
    · exact ⟨sx, ix, _, _, _, _, _, hxo, hr, .same, hr.good hg hxo (SameTypes.refl _), hk⟩
    · exact absurd (hxo.rep.same_which (Rep.inPlace (C := C) 0 ky hk) hw).1 hne
    · obtain ⟨-, s', id', k', v', hr, hlo⟩ := hr hs
      exact ⟨sx, ix, s', id', k', v', _, hxo, hr, hlo, hr.good hg hxo (SameTypes.refl _), hk⟩
  cases c with
  | copyAssign a y =>
    obtain ⟨rfl, vy, hy⟩ := hc
    obtain ⟨sy, iy, hyo⟩ := hg.holds hy
    obtain ⟨s', id', k', v', hr, hlo⟩ := copyAssign_exc hs hg hxo hyo hne h
    exact ⟨sx, ix, s', id', k', v', _, hxo, hr, hlo, hr.good hg hxo (SameTypes.refl _), hyo.rep.lt⟩
  | moveAssign a y =>
    obtain ⟨rfl, vy, hy⟩ := hc
    obtain ⟨sy, iy, hyo⟩ := hg.holds hy
    obtain ⟨s', id', k', v', hr, hlo⟩ := moveAssign_exc hs hg hxo hyo hne h
    exact ⟨sx, ix, s', id', k', v', _, hxo, hr, hlo, hr.good hg hxo (SameTypes.upd _ _ hyo.obj), hyo.rep.lt⟩
  | assignGet rv a y =>
    obtain ⟨rfl, vy, hy⟩ := hc
    obtain ⟨sy, iy, hyo⟩ := hg.holds hy
    have hxy : a ≠ y := by rintro rfl; rw [World.holds, hx] at hy; cases hy; exact hne rfl
    rcases (wp_exc (wp_assignGet hs.blank rv hxo hyo (hg.wf.distinct hxo hyo) hg.wf.toFresh (by simp) (hg.noTmp 0)) h).2 with
      ⟨he, _⟩ | ⟨he, _⟩ | ⟨_, _, _, hr, _⟩ | ⟨_, _, _, _, hr, _⟩
    · exact absurd (VarId.user.inj he) hxy
    · exact absurd he hne
    · exact ⟨sx, ix, _, _, _, _, _, hxo, hr, .same, hr.good hg hxo (sameTypes_getBase rv hyo.obj _), hyo.rep.lt⟩
    · obtain ⟨-, s', id', k', v', hr, hlo⟩ := hr hs
      exact ⟨sx, ix, s', id', k', v', _, hxo, hr, hlo, hr.good hg hxo (sameTypes_getBase rv hyo.obj _), hyo.rep.lt⟩
  | assignL a k v =>
    obtain ⟨rfl, rfl⟩ := hc
    exact hval .L v (by simp [Cmd.valid] at hv; exact hv.2) h
  | assignR a k v =>
    obtain ⟨rfl, rfl⟩ := hc
    exact hval .R v (by simp [Cmd.valid] at hv; exact hv.2) h
  | assignC a k v =>
    obtain ⟨rfl, rfl⟩ := hc
    exact hval .C v (by simp [Cmd.valid] at hv; exact hv.2) h
  | assignVL a k v =>
    obtain ⟨rfl, rfl⟩ := hc
    exact hval .VL v (by simp [Cmd.valid] at hv; exact hv.2) h
  | assignVR a k v =>
    obtain ⟨rfl, rfl⟩ := hc
    exact hval .VR v (by simp [Cmd.valid] at hv; exact hv.2) h
  | _ => exact hc.elim

/-- A state in which variable 0 holds type `k` and variable 1 type `kr`. -/
theorem reached_prepared {k kr : TyIx} (hk : k < C.n) (hkr : kr < C.n) {f : Nat → Bool} (hf : ∀ t, t < 4 → f t = false) (v : V) :
    ∃ w, ReachedBy (C.withThrows f) w ∧ Prepared (C.withThrows f) w k kr ∧ w.holds 0 k (C.ops.move k v) ∧
      w.holds 1 kr (C.ops.move kr v) := by
  obtain ⟨w, hr, hp, h0, h1⟩ := prepared (C := C.withThrows f) hk hkr hf v
  refine ⟨w, ⟨_, hr, .inr ?_⟩, hp, ?_, ?_⟩
  · rw [← List.append_nil [Cmd.constructC 0 k v, _], avoids_append (by intro c hc w; simp at hc; rcases hc with rfl | rfl <;> rfl) hr]
    rfl
  · simp [World.holds, World.content, hp.v0, VarSt.contentId, h0]; rfl
  · simp [World.holds, World.content, hp.v1, VarSt.contentId, h1]; rfl

theorem Prepared.valid {k kr : TyIx} (h : Prepared C w k kr) : (Cmd.copyAssign 0 1 : Cmd V).valid C w = true := by
  simp [Cmd.valid, h.v0, h.v1]

theorem Prepared.valid' {k kr : TyIx} (h : Prepared C w k kr) : (Cmd.moveAssign 0 1 : Cmd V).valid C w = true := by
  simp [Cmd.valid, h.v0, h.v1]

/-- Specification: the strong guarantee. The target holds the type and value it held before, and is not empty. -/
def KeptTarget (C : Cfg V) (w w' : World V) (x : Nat) : Prop :=
  (∀ k v, w.holds x k v → w'.holds x k v) ∧ NonEmpty C w' (.user x)

/-- C67, the strong guarantee. For a variant type and a build these are equivalent: whatever throws, an assignment that would change
the type of its target and throws leaves the target with its type and value; and wherever a bounded type whose copy and move
constructors may both throw occurs together with another bounded type, there is no fallback type and that other type is not one that
is nothrow copy but not nothrow move constructible (finding F2). (`hb` is a fact on `boost/blank.hpp`; `v` is any value but that of a
default-initialised fallback object.) -/
theorem C67_strong_guarantee_iff (hb : BlankOk C) (hl : C.ops.Lawful) (v : V) (hv : ∀ fb, C.fallback = some fb → v ≠ C.ops.defaultInit fb) :
    (∀ f, FailedAssignments (C.withThrows f) (KeptTarget (C.withThrows f))) ↔
      ∀ k kr, k < C.n → kr < C.n → k ≠ kr → (C.tr kr).nothrowCopy = false → (C.tr kr).nothrowMove = false →
        C.hasFallback = false ∧ ((C.tr k).nothrowCopy = true → (C.tr k).nothrowMove = true) := by
  constructor
  · intro h k kr hk hkr hne hc hm
    cases hf : C.hasFallback with
    | true =>
      exfalso
      obtain ⟨fb, hfb⟩ := Option.isSome_iff_exists.mp hf
      obtain ⟨w, hre, hp, h0, h1⟩ := reached_prepared (C := C) hk hkr (f := (· == 4)) (fun t ht => by simp; omega) v
      have key := h _ w hre (.copyAssign 0 1) 0 k _ kr hp.valid h0 ⟨rfl, _, h1⟩ hne
      by_cases hbt : C.fallbackCtor = .element ∨ (C.tr fb).trivialDefault = true
      · obtain ⟨e, w', he, hv0, ho⟩ := hp.fallback_built (C := C.withThrows (· == 4)) hb hk hkr hne hfb hbt hm hc rfl
        have h2 := (key e w' he).1 _ _ h0
        simp only [World.holds, World.content, hv0, VarSt.contentId, Option.bind_some, ho, Option.some.injEq, Prod.mk.injEq] at h2
        have h3 := h2.2
        rw [hl.move_eq] at h3
        exact hv fb hfb h3.symm
      · obtain ⟨e, w', he, hv0⟩ := hp.fallback (C := C.withThrows (· == 4)) hk hkr hne hfb hbt hm hc rfl
        obtain ⟨s, id, k', v', hs, hid, -⟩ := (key e w' he).2
        rw [hv0] at hs; cases hs; cases hid
    | false =>
      refine ⟨rfl, fun h1 => ?_⟩
      cases hmk : (C.tr k).nothrowMove with
      | true => rfl
      | false =>
        exfalso
        obtain ⟨w, hre, hp, h0, h1'⟩ := reached_prepared (C := C) hk hkr (f := (· == 6)) (fun t ht => by simp; omega) v
        have key := h _ w hre (.copyAssign 0 1) 0 k _ kr hp.valid h0 ⟨rfl, _, h1'⟩ hne
        obtain ⟨e, w', he, hbk⟩ := hp.backup (C := C.withThrows (· == 6)) hk hkr hne ⟨hf, hm, hc⟩ hmk rfl rfl rfl
        obtain ⟨s, id, k', v', hs, hid, ho, -, -, hvis⟩ := (key e w' he).2
        rw [hbk.v0] at hs; cases hs; cases hid
        obtain ⟨a, ho'⟩ := hbk.o0
        rw [ho'] at ho; cases ho
        exact hbk.not_nonEmpty (C := C.withThrows (· == 6)) hk h1 ⟨_, hvis Unit⟩
  · intro h f w hre c x kx vx ky hval hx hc hne e w' he
    have hs : Sane (C.withThrows f) := by
      refine ⟨hb, fun k kr hk hkr hbk h1 => ?_, fun fb hfb => .inr (.inr fun k kr hk hkr hne => ?_)⟩
      · have : k ≠ kr := by rintro rfl; rw [hbk.2.2] at h1; cases h1
        exact (h k kr hk hkr this hbk.2.2 hbk.2.1).2 h1
      · cases h1 : (C.tr kr).nothrowMove with
        | true => exact .inl h1
        | false => cases h2 : (C.tr kr).nothrowCopy with
          | true => exact .inr h2
          | false =>
            have := (h k kr hk hkr hne h2 h1).1
            have hfb' : C.fallback = some fb := hfb
            simp [Cfg.hasFallback, hfb'] at this
    obtain ⟨sx, ix, s', id', k', v', base, hxo, hr, hlo, hg', hky⟩ := failed_assignment hs (hre.good hs) hval hx hc hne he
    refine ⟨fun k v hh => ?_, hg'.nonEmpty (by rw [hr.owns.var]; exact Option.some_ne_none _)⟩
    rw [World.holds, hx] at hh; cases hh
    have hsame : k' = kx ∧ v' = vx := by
      cases hlo with
      | same => exact ⟨rfl, rfl⟩
      | restored => exact ⟨rfl, by rw [show (C.withThrows f).ops = C.ops from rfl, hl.move_eq, hl.move_eq]⟩
      | backup => exact ⟨rfl, hl.copy_eq _ _⟩
      | fallback _ _ _ hfb hm' hc' =>
        have := (h kx ky hxo.rep.lt hky hne hc' hm').1
        simp [Cfg.hasFallback, show C.fallback = some k' from hfb] at this
    obtain ⟨rfl, rfl⟩ := hsame
    exact hr.owns.holds

/-- Specification: what the documentation lets a failed assignment leave if there is a fallback type. -/
def FallbackTarget (C : Cfg V) (fb : TyIx) (w w' : World V) (x : Nat) : Prop := AsBeforeOrFallback C w w' x fb

/-- C67, the fallback state. With a fallback type these are equivalent: whatever throws, an assignment that would change the type of its
target and throws leaves the target as it was or holding a default-initialised object of the fallback type; and the type is
outside finding F10. -/
theorem C67_fallback_iff (hb : BlankOk C) {fb : TyIx} (hfb : C.fallback = some fb) (v : V) :
    (∀ f, FailedAssignments (C.withThrows f) (FallbackTarget (C.withThrows f) fb)) ↔ FallbackBuilt C := by
  have ht : C.hasFallback = true := by simp [Cfg.hasFallback, hfb]
  constructor
  · intro h
    apply Classical.byContradiction
    intro hn
    simp only [FallbackBuilt, Classical.not_forall, not_or, exists_prop, Bool.not_eq_true] at hn
    obtain ⟨fb', hfb', h1, h2, k, kr, hk, hkr, hne, h3, h4⟩ := hn
    obtain ⟨w, hre, hp, h0, h1'⟩ := reached_prepared (C := C) hk hkr (f := (· == 4)) (fun t ht => by simp; omega) v
    obtain ⟨e, w', he, hv0⟩ := hp.fallback (C := C.withThrows (· == 4)) hk hkr hne hfb' (by
      rintro (h | h)
      · exact h1 h
      · exact absurd (h2.symm.trans h) (by simp)) h3 h4 rfl
    rcases h _ w hre (.copyAssign 0 1) 0 k _ kr hp.valid h0 ⟨rfl, _, h1'⟩ hne e w' he with h5 | ⟨⟨id, -, h5, -⟩, -⟩
    · have := h5.1
      rw [hv0, hp.v0] at this; cases this
    · rw [World.inPlace, hv0] at h5; cases h5
  · intro h f w hre c x kx vx ky hval hx hc hne e w' he
    have hs : Sane (C.withThrows f) := ⟨hb, NoCopyOnly.of_fallback (C := C.withThrows f) ht, h⟩
    obtain ⟨sx, ix, s', id', k', v', base, hxo, hr, hlo, hg', hky⟩ := failed_assignment hs (hre.good hs) hval hx hc hne he
    exact hlo.fallback_of (hre.good hs).wf hxo hfb hr

/-- C67, the fallback value. With a fallback type these are equivalent: whatever throws, an assignment that would change the type of its
target and throws leaves the target as it was or holding the value that `variant()` would give it; and either no content that changes
the type of a variant can fail to be copied and moved, or the fallback object is constructed (outside finding F10) and
default-initialisation gives it the value that value-initialisation gives (outside finding F4). -/
theorem C67_fallback_value_iff (hb : BlankOk C) {fb : TyIx} (hfb : C.fallback = some fb) (v : V) :
    (∀ f, FailedAssignments (C.withThrows f) (fun w w' x => AsBeforeOrValueInit (C.withThrows f) w w' x fb)) ↔
      ((∀ k kr, k < C.n → kr < C.n → k ≠ kr → (C.tr kr).nothrowMove = true ∨ (C.tr kr).nothrowCopy = true) ∨
        ((C.fallbackCtor = .element ∨ (C.tr fb).trivialDefault = true) ∧ C.ops.defaultInit fb = C.ops.valueInit fb)) := by
  have ht : C.hasFallback = true := by simp [Cfg.hasFallback, hfb]
  constructor
  · intro h
    apply Classical.byContradiction
    intro hn
    obtain ⟨h1, h2⟩ := not_or.mp hn
    simp only [Classical.not_forall, not_or, exists_prop, Bool.not_eq_true] at h1
    obtain ⟨k, kr, hk, hkr, hne, h3, h4⟩ := h1
    obtain ⟨w, hre, hp, h0, h1'⟩ := reached_prepared (C := C) hk hkr (f := (· == 4)) (fun t ht => by simp; omega) v
    have key := h _ w hre (.copyAssign 0 1) 0 k _ kr hp.valid h0 ⟨rfl, _, h1'⟩ hne
    by_cases hbt : C.fallbackCtor = .element ∨ (C.tr fb).trivialDefault = true
    · obtain ⟨e, w', he, hv0, ho⟩ := hp.fallback_built (C := C.withThrows (· == 4)) hb hk hkr hne hfb hbt h3 h4 rfl
      rcases key e w' he with h5 | ⟨⟨id, -, h5, h6⟩, -⟩
      · have := h5.1
        rw [hv0, hp.v0] at this; cases this
      · rw [World.inPlace, hv0] at h5; cases h5
        rw [ho] at h6
        exact h2 ⟨hbt, (Prod.mk.inj (Option.some.inj h6)).2⟩
    · obtain ⟨e, w', he, hv0⟩ := hp.fallback (C := C.withThrows (· == 4)) hk hkr hne hfb hbt h3 h4 rfl
      rcases key e w' he with h5 | ⟨⟨id, -, h5, h6⟩, -⟩
      · have := h5.1
        rw [hv0, hp.v0] at this; cases this
      · rw [World.inPlace, hv0] at h5; cases h5
  · intro h f w hre c x kx vx ky hval hx hc hne e w' he
    have hfc : FallbackBuilt (C.withThrows f) := by
      intro fb' hfb'
      have : C.fallback = some fb' := hfb'
      rw [hfb] at this; cases this
      rcases h with h | ⟨h | h, -⟩
      · exact .inr (.inr h)
      · exact .inl h
      · exact .inr (.inl h)
    have hs : Sane (C.withThrows f) := ⟨hb, NoCopyOnly.of_fallback (C := C.withThrows f) ht, hfc⟩
    obtain ⟨sx, ix, s', id', k', v', base, hxo, hr, hlo, hg', hky⟩ := failed_assignment hs (hre.good hs) hval hx hc hne he
    rcases h with h | ⟨-, hd⟩
    · cases hlo with
      | same =>
        refine .inl ⟨by rw [hr.vars]; simp [hxo.var], fun s id hs hc => ?_⟩
        rw [hxo.var] at hs; cases hs
        rw [hxo.rep.contentId] at hc; cases hc
        rw [hr.obj, hxo.obj]
      | restored _ _ hnf => exact absurd (hnf.symm.trans ht) (by simp)
      | backup _ _ hm => exact absurd (hm.1.symm.trans ht) (by simp)
      | fallback _ _ _ _ hm' hc' =>
        rcases h kx ky hxo.rep.lt hky hne with h | h
        · exact absurd (hm'.symm.trans h) (by simp)
        · exact absurd (hc'.symm.trans h) (by simp)
    · exact (hlo.fallback_of (hre.good hs).wf hxo hfb hr).valueInit hd

/-- Specification: the documented throws clauses of copy and move assignment (C15). -/
def DocumentedThrows (C : Cfg V) : Prop :=
  ∀ w, ReachedBy C w → ∀ x y kx vx ky vy, w.holds x kx vx → w.holds y ky vy → kx ≠ ky → ∀ e w',
    (copyAssign C (.user x) (.user y) w = .exc e w' → e.kind = .badAlloc ∨ e.kind = .copyCtor ky) ∧
    (moveAssign C (.user x) (.user y) w = .exc e w' → e.kind = .badAlloc ∨ e.kind = .moveCtor ky)

/-- C67, the throws clauses. For a variant type outside findings F2 and F10 these are equivalent: whatever throws, type-changing copy and
move assignments throw only what is documented; and there is a fallback type, or only one bounded type, or every bounded type
is nothrow copy or nothrow move constructible. -/
theorem C67_throws_iff (hs : Sane C) (v : V) :
    (∀ f, DocumentedThrows (C.withThrows f)) ↔ ∀ k kr, k < C.n → kr < C.n → k ≠ kr → ¬ C.mayBackup kr := by
  constructor
  · intro h k kr hk hkr hne hbr
    obtain ⟨w, hre, hp, h0, h1⟩ := reached_prepared (C := C) hk hkr (f := (· == 5)) (fun t ht => by simp; omega) v
    cases hm : (C.tr k).nothrowMove with
    | true =>
      obtain ⟨e, w', he, hek⟩ := hp.move_throws (C := C.withThrows (· == 5)) hk hkr hne hbr hm rfl
      rcases (h _ w hre 0 1 k _ kr _ h0 h1 hne e w').2 he with h2 | h2 <;> rw [hek] at h2 <;> cases h2
    | false =>
      obtain ⟨e, w', he, hek⟩ := hp.copy_throws (C := C.withThrows (· == 5)) hk hkr hne hbr hm (hs.mayBackup hbr hk hkr hm).2.2 rfl rfl
      rcases (h _ w hre 0 1 k _ kr _ h0 h1 hne e w').1 he with h2 | h2 <;> rw [hek] at h2 <;> cases h2
      exact hne rfl
  · intro h f w hre x y kx vx ky vy hx hy hne e w'
    have hg := hre.good (hs.withThrows f)
    obtain ⟨sx, ix, hxo⟩ := hg.holds hx
    obtain ⟨sy, iy, hyo⟩ := hg.holds hy
    have hnb : ¬ (C.withThrows f).mayBackup ky := h kx ky hxo.rep.lt hyo.rep.lt hne
    exact ⟨C15_copy_assignment_documented_partial (C := C.withThrows f) hs.blank hg hx hy hne (.inl hnb),
      C15_move_assignment_documented_partial (C := C.withThrows f) hs.blank hg hx hy hne hnb⟩

/-- A reached state in which variable 0 is in the heap-backup state. -/
theorem reached_backup {k kr : TyIx} (hk : k < C.n) (hkr : kr < C.n) (hne : k ≠ kr) (hb : C.mayBackup kr)
    (hm : (C.tr k).nothrowMove = false) (v : V) :
    ∃ w, ReachedBy (C.withThrows (· == 6)) w ∧ BackedUp (C.withThrows (· == 6)) w k kr := by
  obtain ⟨w, hr, hw, ha⟩ := backup_program hk hkr hne hb hm v
  exact ⟨w, ⟨_, hr, .inr ha⟩, hw⟩

/-- Specification: in any reached state, an assignment that succeeds leaves its target with its content in its own storage (C19). -/
def InPlaceAfterSuccess (C : Cfg V) : Prop :=
  ∀ w, ReachedBy C w → ∀ (c : Cmd V) x ky, c.valid C w = true → c.assigns w x ky → ∀ w', c.code C w = .ok () w' → w'.backedUp x = false

/-- C67, content in place. For a variant type outside findings F2 and F10 these are equivalent: whatever throws, every assignment that
succeeds leaves its target with its content in its own storage; and no assignment can make a heap backup. -/
theorem C67_in_place_iff (hs : Sane C) (v : V) : (∀ f, InPlaceAfterSuccess (C.withThrows f)) ↔ BackupFree C := by
  constructor
  · intro h k kr hk hkr hne hbr
    apply Classical.byContradiction
    intro hm
    have hm : (C.tr k).nothrowMove = false := by simpa using hm
    obtain ⟨w, hre, hw⟩ := reached_backup hk hkr hne hbr hm v
    obtain ⟨a, ho⟩ := hw.o0
    have hx : w.holds 0 k a := by simp [World.holds, World.content, hw.v0, VarSt.contentId, ho]
    have hg := hre.good (hs.withThrows _)
    have hval : (Cmd.assignL 0 k v : Cmd V).valid (C.withThrows (· == 6)) w = true := by
      simp only [Cmd.valid, hw.v0, Option.isSome_some, Bool.true_and, decide_eq_true_eq]; exact hk
    rcases C22_value_assignment_held_type (C := C.withThrows (· == 6)) hs.blank hg (m := .L) rfl hk hx (v := v) with
      ⟨_, w', he, hvars, -⟩ | ⟨e, w', he, -, hth, -⟩
    · have := h _ w hre (.assignL 0 k v) 0 k hval ⟨rfl, rfl⟩ w' he
      simp [World.backedUp, hvars, hw.v0] at this
    · have h1 := hth.1
      have h2 := hth.2.2
      rw [hw.tick] at h1
      simp [Cfg.withThrows] at h2
      omega
  · intro hbf f w hre c x ky hval hc w' he
    obtain ⟨cs, hr, -⟩ := hre
    obtain ⟨w1, h1, hg, ha, -⟩ := run_inPlace (hs.withThrows f) (C := C.withThrows f) hbf cs (World.init V) good_init allInPlace_init
    rw [hr] at h1; cases h1
    have := (wp_ok (wp_step_inPlace (hs.withThrows f) hbf hg ha c hval) he).1
    rw [World.backedUp]
    split
    · rename_i s hs'
      have := this _ s hs'
      simp only [decide_eq_false_iff_not]; omega
    · rfl

/-- Specification: in any reached state, an assignment between variants that succeeds gives the target the value of the source
(C09, C10). -/
def ValueAfterSuccess (C : Cfg V) : Prop :=
  ∀ w, ReachedBy C w → ∀ x y kx vx ky vy, w.holds x kx vx → w.holds y ky vy → ∀ w',
    (copyAssign C (.user x) (.user y) w = .ok () w' → w'.holds x ky vy) ∧
    (x ≠ y → moveAssign C (.user x) (.user y) w = .ok () w' → w'.holds x ky vy)

/-- C67, the assigned value. For a variant type outside findings F2 and F10 these are equivalent: whatever throws, every assignment between
variants that succeeds gives the target the value of the source; and assertions are on (then the statements of finding F1 do not
succeed) or no assignment can make a heap backup. -/
theorem C67_assigned_value_iff (hs : Sane C) (hl : C.ops.Lawful) (v : V) :
    (∀ f, ValueAfterSuccess (C.withThrows f)) ↔ C.ndebug = false ∨ BackupFree C := by
  constructor
  · intro h
    cases hd : C.ndebug with
    | false => exact .inl rfl
    | true =>
      refine .inr fun k kr hk hkr hne hbr => ?_
      apply Classical.byContradiction
      intro hm
      have hm : (C.tr k).nothrowMove = false := by simpa using hm
      obtain ⟨w, hre, hw⟩ := reached_backup hk hkr hne hbr hm v
      obtain ⟨a, ho⟩ := hw.o0
      obtain ⟨b, ho1⟩ := hw.o1
      have hx : w.holds 0 k a := by simp [World.holds, World.content, hw.v0, VarSt.contentId, ho]
      have hy : w.holds 1 kr b := by simp [World.holds, World.content, hw.v1, VarSt.contentId, ho1]
      obtain ⟨w2, hc, hv⟩ := hw.source (C := C.withThrows (· == 6)) hk hkr (hs.mayBackup hbr hk hkr hm) hbr hd rfl rfl
      have := (h _ w hre 1 0 kr b k a hy hx w2).1 hc
      simp [World.holds, World.content, hv, VarSt.contentId] at this
  · intro h f w hre x y kx vx ky vy hx hy w'
    have hg := hre.good (hs.withThrows f)
    have hz : (C.withThrows f).ndebug = false ∨ (w.backedUp y && w.recordsDiffer x y) = false := by
      rcases h with h | h
      · exact .inl h
      · refine .inr ?_
        obtain ⟨cs, hr, -⟩ := hre
        obtain ⟨w1, h1, -, ha, -⟩ := run_inPlace (hs.withThrows f) (C := C.withThrows f) h cs (World.init V) good_init allInPlace_init
        rw [hr] at h1; cases h1
        exact ha.readsBackup (.copyAssign x y)
    exact ⟨C09_copy_assignment_value_partial (C := C.withThrows f) hl hs.blank hg hx hy hz,
      fun hxy => C10_move_assignment_value_partial (C := C.withThrows f) hl hs.blank hg hxy hx hy hz⟩

end

/-! ### Examples

Two types that throw, without a fallback type (`exTwo`): the strong guarantee holds, but content may be left in a heap backup and
undocumented exceptions may be thrown. Two types that throw with a scalar fallback type (`exFall`): the documented exceptions only,
but failed assignments leave the fallback type, with an indeterminate value. -/

example : ∀ f, FailedAssignments (exTwo.withThrows f) (KeptTarget (exTwo.withThrows f)) :=
  (C67_strong_guarantee_iff exTwo_sane.blank natOps_lawful 0 (fun fb h => by rw [show exTwo.fallback = none by decide] at h; cases h)).mpr
    fun k kr hk hkr _ _ _ => ⟨by decide, fun h => by
      have : k < 2 := hk
      have : k = 0 ∨ k = 1 := by omega
      rcases this with rfl | rfl <;> exact absurd h (by decide)⟩

example : ¬ ∀ f, FailedAssignments (exFall.withThrows f) (KeptTarget (exFall.withThrows f)) := fun h =>
  absurd ((C67_strong_guarantee_iff exFall_sane.blank natOps_lawful 0
    (fun fb h => by rw [show exFall.fallback = some 0 by decide] at h; cases h; decide)).mp h 1 2 (by decide) (by decide) (by decide)
    (by decide) (by decide)).1 (by decide)

example : ∀ f, FailedAssignments (exFall.withThrows f) (FallbackTarget (exFall.withThrows f) 0) :=
  (C67_fallback_iff exFall_sane.blank (by decide) 0).mpr exFall_built

/-- F10: fallback type `std::string`. -/
example : ¬ ∀ f, FailedAssignments ((exCfg [tString, tThrowing] []).withThrows f) (FallbackTarget ((exCfg [tString, tThrowing] []).withThrows f) 0) :=
  fun h => by
    rcases (C67_fallback_iff (fb := 0) (by unfold BlankOk; decide) (by decide) 0).mp h 0 (by decide) with h | h | h
    · exact absurd h (by decide)
    · exact absurd h (by decide)
    · exact absurd (h 0 1 (by decide) (by decide) (by decide)) (by decide)

/-- F4: fallback type `int`. -/
example : ¬ ∀ f, FailedAssignments (exFall.withThrows f) (fun w w' x => AsBeforeOrValueInit (exFall.withThrows f) w w' x 0) := fun h => by
  rcases (C67_fallback_value_iff exFall_sane.blank (by decide) 0).mp h with h | ⟨-, h⟩
  · exact absurd (h 1 2 (by decide) (by decide) (by decide)) (by decide)
  · exact absurd h (by decide)

example : ∀ f, FailedAssignments ((exCfg [tBlank, tMovable] []).withThrows f)
    (fun w w' x => AsBeforeOrValueInit ((exCfg [tBlank, tMovable] []).withThrows f) w w' x 0) :=
  (C67_fallback_value_iff (by unfold BlankOk; decide) (by decide) 0).mpr (.inl (by
    intro k kr hk hkr hne
    have : kr < 2 := hkr
    have : kr = 0 ∨ kr = 1 := by omega
    rcases this with rfl | rfl <;> decide))

example : ¬ ∀ f, DocumentedThrows (exTwo.withThrows f) := fun h =>
  (C67_throws_iff exTwo_sane 0).mp h 0 1 (by decide) (by decide) (by decide) ⟨by decide, by decide, by decide⟩

example : ∀ f, DocumentedThrows (exFall.withThrows f) :=
  (C67_throws_iff exFall_sane 0).mpr fun _ _ _ _ _ h => absurd h.1 (by decide)

example : ¬ ∀ f, InPlaceAfterSuccess (exTwo.withThrows f) := fun h =>
  absurd ((C67_in_place_iff exTwo_sane 0).mp h 0 1 (by decide) (by decide) (by decide) ⟨by decide, by decide, by decide⟩) (by decide)

example : ∀ f, InPlaceAfterSuccess (exFree.withThrows f) :=
  (C67_in_place_iff ⟨by unfold BlankOk; decide, exFree_free.copyMove,
    fun fb h => by rw [show exFree.fallback = none by decide] at h; cases h⟩ 0).mpr exFree_free

/-- With assertions off the value may be lost, with assertions on it is not. -/
example : ¬ ∀ f, ValueAfterSuccess (({ exTwo with ndebug := true } : Cfg Nat).withThrows f) := fun h => by
  rcases (C67_assigned_value_iff (C := { exTwo with ndebug := true }) ⟨exTwo_sane.blank, exTwo_sane.copyMove, exTwo_sane.fallback⟩
    natOps_lawful 0).mp h with h | h
  · cases h
  · exact absurd (h 0 1 (by decide) (by decide) (by decide) ⟨by decide, by decide, by decide⟩) (by decide)

example : ∀ f, ValueAfterSuccess (exTwo.withThrows f) := (C67_assigned_value_iff exTwo_sane natOps_lawful 0).mpr (.inl rfl)

end BVariant
