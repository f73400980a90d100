/-
C70 exactly which variant types keep each guarantee of swap.
-/
import Verif.Props.CanThrow
import Verif.Props.Swap
import Verif.Lemmas.HazardBroken

namespace BVariant

section
variable {V : Type} {C : Cfg V} {w w' : World V} {k kr : TyIx}

/-- Specification: in any reached state, a swap of two variants that returns has exchanged their types and values (C20). -/
def SwapExchanges (C : Cfg V) : Prop :=
  ∀ w, ReachedBy C w → ∀ x y kx vx ky vy, x ≠ y → w.holds x kx vx → w.holds y ky vy → ∀ w',
    swap C (.user x) (.user y) w = .ok () w' → w'.holds x ky vy ∧ w'.holds y kx vx

/-- Specification: in any reached state, a swap of two variants with different types that throws leaves both their type and value
(the strong guarantee, which C21 shows to fail in general). -/
def SwapKeeps (C : Cfg V) : Prop :=
  ∀ w, ReachedBy C w → ∀ x y kx vx ky vy, kx ≠ ky → w.holds x kx vx → w.holds y ky vy → ∀ e w',
    swap C (.user x) (.user y) w = .exc e w' → w'.holds x kx vx ∧ w'.holds y ky vy

/-- C70, swaps that return. For a variant type outside findings F2 and F10 these are equivalent: whatever throws, every swap that returns has
exchanged the contents; and assertions are on or no assignment can make a heap backup. -/
theorem C70_exchange_iff (hs : Sane C) (hl : C.ops.Lawful) (v : V) :
    (∀ f, SwapExchanges (C.withThrows f)) ↔ C.ndebug = false ∨ BackupFree C := by
  constructor
  · intro h
    cases hd : C.ndebug with
    | false => exact .inl rfl
    | true =>
      refine .inr fun k kr hk hkr hne hbr => ?_
      apply Classical.byContradiction
      intro hm
      have hm : (C.tr k).nothrowMove = false := by simpa using hm
      obtain ⟨w, hre, hw⟩ := reached_backup hk hkr hne hbr hm v
      obtain ⟨a, ho⟩ := hw.o0
      obtain ⟨b, ho1⟩ := hw.o1
      have hx : w.holds 0 k a := by simp [World.holds, World.content, hw.v0, VarSt.contentId, ho]
      have hy : w.holds 1 kr b := by simp [World.holds, World.content, hw.v1, VarSt.contentId, ho1]
      have hs' := hs.withThrows (· == 6)
      have hg := hre.good hs'
      obtain ⟨sx, ix, hxo⟩ := hg.holds hx
      obtain ⟨sy, iy, hyo⟩ := hg.holds hy
      have hb : sx.which_ < 0 := by
        have := hxo.var; rw [hw.v0] at this; cases this; simp only; omega
      rcases wp_elim (swap_hazard_no_fault (C := C.withThrows (· == 6)) hd hs'.blank hg.wf hxo hyo (by simp) (by simp) (hg.noTmp 0) hne hb) with
        ⟨u, w2, hh, -⟩ | ⟨e, w2, hh, -⟩
      · have hv := (swap_hazard_leaves hg.wf hxo hyo (by simp) (by simp) (hg.noTmp 0) hne hb).1 _ _ hh
        have := (h _ w hre 0 1 k a kr b (by simp) hx hy w2 hh).2
        simp [World.holds, World.content, hv, VarSt.contentId] at this
      · have := Honest.swap (C := C.withThrows (· == 6)) (.user 0) (.user 1) w
        rw [hh] at this
        obtain ⟨⟨h1, -, h3⟩, -⟩ := this
        rw [hw.tick] at h1
        have : e.tick = 6 := by simpa [Cfg.withThrows] using h3
        omega
  · intro h f w hre x y kx vx ky vy hxy hx hy w'
    have hg := hre.good (hs.withThrows f)
    refine C20_swap_exchanges_values_partial (C := C.withThrows f) hl hs.blank hg hxy hx hy ?_
    rcases h with h | h
    · exact .inl h
    · refine .inr ?_
      obtain ⟨cs, hr, -⟩ := hre
      obtain ⟨w1, h1, -, ha, -⟩ := run_inPlace (hs.withThrows f) (C := C.withThrows f) h cs (World.init V) good_init allInPlace_init
      rw [hr] at h1; cases h1
      exact ha.readsBackup (.swap x y)

/-- If the content of the left variant can be moved to the right one only by an operation that may throw, then it may throw after the right
content has been moved away. -/
theorem swap_second_throws (hs : Sane C) (hk : k < C.n) (hkr : kr < C.n) (hne : k ≠ kr) (hm : (C.tr k).nothrowMove = false)
    (hc : (C.tr k).nothrowCopy = false) :
    ∃ m, 5 ≤ m ∧ ∀ w, At w (.user 0) (.user 1) k kr 1 3 4 4 →
      wp (swap (C.withThrows (· == m)) (.user 0) (.user 1)) (fun _ _ => False) (fun ex _ => ex.kind = .moveCtor k ∨ ex.kind = .copyCtor k) w := by
  have go : ∀ m, 5 ≤ m → (∀ w, At w (.user 1) (.user 0) kr k 3 1 5 5 → wp (moveAssign (C.withThrows (· == m)) (.user 1) (.user 0)) (fun _ _ => False)
      (fun ex w' => (ex.kind = .moveCtor k ∨ ex.kind = .copyCtor k) ∧ ApartFrom w w' (.user 1) 3 1 5) w) → _ := fun m hm5 h =>
    (⟨m, hm5, fun w ha => by
      refine ha.swap (C := C.withThrows (· == m)) hkr hne (by simp) ?_ (by simp)
        (P := fun e => e = .moveCtor k ∨ e = .copyCtor k) fun w' a1 a2 => ?_
      · have : (4 == m) = false := by simp; omega
        simp [Cfg.withThrows, this]
      · obtain ⟨b, hb⟩ := a2.or
        exact wp_swap_second (P := fun e => e = .moveCtor k ∨ e = .copyCtor k) (by simp) hb (by decide) (by decide) (h w' a1)⟩ :
      ∃ m, 5 ≤ m ∧ ∀ w, At w (.user 0) (.user 1) k kr 1 3 4 4 →
        wp (swap (C.withThrows (· == m)) (.user 0) (.user 1)) (fun _ _ => False) (fun ex _ => ex.kind = .moveCtor k ∨ ex.kind = .copyCtor k) w)
  cases hf : C.hasFallback with
  | true => exact go 5 (by omega) fun w h =>
      wp_mono (h.fallbackMove (C := C.withThrows (· == 5)) hs.blank hkr hk hne.symm hf hm hc rfl) (fun _ _ h => h) fun _ _ h => ⟨.inl h.1, h.2⟩
  | false =>
    have hb : C.mayBackup k := ⟨hf, hm, hc⟩
    cases hmk : (C.tr kr).nothrowMove with
    | true =>
      refine go 6 (by omega) fun w h => ?_
      rw [h.moveIsBackup (C := C.withThrows (· == 6)) hk hne.symm hb]
      exact wp_mono (h.backupMoved (C := C.withThrows (· == 6)) hkr hb.2.2 hmk rfl) (fun _ _ h => h) fun _ _ h => ⟨.inr h.1, h.2.weaken⟩
    | false =>
      refine go 7 (by omega) fun w h => ?_
      rw [h.moveIsBackup (C := C.withThrows (· == 7)) hk hne.symm hb]
      exact wp_mono (h.backupHeap2 (C := C.withThrows (· == 7)) hkr hmk hb.2.2 rfl rfl rfl) (fun _ _ h => h) fun _ _ h => ⟨.inr h.1, h.2.weaken⟩

/-- C70, swaps that throw. For a variant type outside findings F2 and F10, whose bounded types are not changed by a move that fails, these are
equivalent: whatever throws, a swap of variants with different types that throws leaves both as they were; and every bounded type (unless
there is only one) can be copied or moved without throwing. (`v` is a value that moving changes and that a fallback object does not have:
without such a value the loss of content could not be seen.) -/
theorem C70_strong_iff (hs : Sane C) (hl : C.ops.Lawful) (hfs : ∀ k u, C.ops.moveFailSrc k u = u) (v : V)
    (hv : ∀ k, C.ops.movedFrom k v ≠ v) (hfb : ∀ fb, C.fallback = some fb → C.ops.defaultInit fb ≠ v) :
    (∀ f, SwapKeeps (C.withThrows f)) ↔
      ∀ k kr, k < C.n → kr < C.n → k ≠ kr → (C.tr k).nothrowMove = true ∨ (C.tr k).nothrowCopy = true := by
  constructor
  · intro h k kr hk hkr hne
    apply Classical.byContradiction
    intro hn
    have hm : (C.tr k).nothrowMove = false := by
      cases h : (C.tr k).nothrowMove <;> simp_all
    have hc : (C.tr k).nothrowCopy = false := by
      cases h : (C.tr k).nothrowCopy <;> simp_all
    obtain ⟨m, hm5, hwp⟩ := swap_second_throws hs hk hkr hne hm hc
    obtain ⟨w, hre, hp, h0, h1⟩ := reached_prepared (C := C) hk hkr (from4 m (by omega)) v
    have hs' := hs.withThrows (· == m)
    have hg := hre.good hs'
    obtain ⟨sx, ix, hxo⟩ := hg.holds h0
    obtain ⟨sy, iy, hyo⟩ := hg.holds h1
    have hb : 0 ≤ sx.which_ := by
      have := hxo.var; rw [hp.v0] at this; cases this; simp
    rcases wp_elim (hwp w hp.at) with ⟨_, _, _, hh⟩ | ⟨ex, w', hh, hex⟩
    · exact hh.elim
    have hk2 := (h _ w hre 0 1 k _ kr _ hne h0 h1 ex w' hh).2
    rcases (wp_exc (wp_swap hs' hg.wf hxo hyo (by simp) (by simp) (hg.noTmp 0) (.inr hb)) hh).2.2.2 with
      ⟨hxy, _⟩ | ⟨_, he, _⟩ | ⟨_, he⟩ | ⟨_, he, sy', iy', ky', vy', _, hy', hlo⟩ | ⟨_, he, _, _, _, _, _, _, _, hy'⟩
    · cases hxy
    · exact absurd he hne
    · rw [he] at hex; simp at hex; exact hne hex.symm
    · have hh := hy'.holds
      rw [World.holds, hk2] at hh
      have hv' : C.ops.movedFrom kr (C.ops.move kr v) ≠ C.ops.move kr v := by rw [hl.move_eq]; exact hv kr
      have hvy : C.ops.move kr v = vy' := congrArg Prod.snd (Option.some.inj hh)
      cases hlo with
      | same => exact hv' hvy.symm
      | restored => exact hv' (hvy.trans ((hl.move_eq _ _).trans (hl.move_eq _ _))).symm
      | backup => exact hv' (hvy.trans (hl.copy_eq _ _)).symm
      | fallback _ _ _ hf => exact hfb _ hf ((hl.move_eq _ _).symm.trans hvy).symm
    · have hh := hy'.holds
      rw [World.holds, hk2] at hh
      exact hne (congrArg Prod.fst (Option.some.inj hh)).symm
  · intro h f w hre x y kx vx ky vy hne hx hy e w' hh
    have hs' := hs.withThrows f
    have hg := hre.good hs'
    obtain ⟨sx, ix, hxo⟩ := hg.holds hx
    obtain ⟨sy, iy, hyo⟩ := hg.holds hy
    have hfree : BackupFree C := fun k kr hk hkr hne hb => by
      rcases h kr k hkr hk (Ne.symm hne) with h | h
      · rw [hb.2.1] at h; cases h
      · rw [hb.2.2] at h; cases h
    have hz : (w.backedUp x && w.typesDiffer x y) = false := by
      obtain ⟨cs, hr, -⟩ := hre
      obtain ⟨w1, h1, -, ha, -⟩ := run_inPlace hs' (C := C.withThrows f) hfree cs (World.init V) good_init allInPlace_init
      rw [hr] at h1; cases h1
      exact ha.readsBackup (.swap x y)
    have no : ∀ k kr, k < C.n → kr < C.n → k ≠ kr → ∀ l, ¬ MoveKind (C.withThrows f) l k e.kind := by
      intro k kr hk hkr hne l hmk
      rcases h k kr hk hkr hne with h | h <;> rcases hmk with ⟨_, _, h1, h2⟩ | ⟨⟨_, h1, h2⟩, _⟩
      · exact absurd (h.symm.trans h1) (by simp)
      · exact absurd (h.symm.trans h1) (by simp)
      · exact absurd (h.symm.trans h2) (by simp)
      · exact absurd (h.symm.trans h2) (by simp)
    have hk := hxo.rep.lt
    have hkr := hyo.rep.lt
    rcases (wp_exc (wp_swap hs' hg.wf hxo hyo (by simp) (by simp) (hg.noTmp 0) (swapHazard_of hxo hyo hz)) hh).2.2.2 with
      ⟨hxy, _⟩ | ⟨_, he, _⟩ | ⟨_, he, hr, _⟩ | ⟨_, he⟩ | ⟨_, he⟩
    · cases hxy
      rw [World.holds, hx] at hy; cases hy; exact absurd rfl hne
    · exact absurd he hne
    · have hid : ix ≠ iy := by
        rintro rfl
        have h1 := hxo.obj; rw [hyo.obj] at h1; cases h1; exact hne rfl
      have h1 : Owns (C.withThrows f) w' (.user x) sx ix kx vx :=
        ⟨by rw [hr.vars]; exact hxo.var, hxo.rep, by rw [hr.objs, upd_ne _ _ hid]; exact hxo.obj⟩
      have h2 : Owns (C.withThrows f) w' (.user y) sy iy ky (C.ops.moveFailSrc ky vy) :=
        ⟨by rw [hr.vars]; exact hyo.var, hyo.rep, by rw [hr.objs]; simp [Cfg.withThrows]⟩
      rw [hfs] at h2
      exact ⟨h1.holds, h2.holds⟩
    · exact absurd he (no kx ky hk hkr hne ky)
    · exact absurd he (no ky kx hkr hk hne.symm kx)

end

/-! ### Examples

Two types that throw (`exTwo`): with assertions off a swap that returns may not have exchanged the contents, with assertions on it has;
a swap that throws may lose the content of one of the two variants. Two types that can be moved without throwing: neither happens. -/

example : ∀ f, SwapExchanges (exTwo.withThrows f) := (C70_exchange_iff exTwo_sane natOps_lawful 0).mpr (.inl rfl)

example : ¬ ∀ f, SwapExchanges (({ exTwo with ndebug := true } : Cfg Nat).withThrows f) := fun h => by
  rcases (C70_exchange_iff (C := { exTwo with ndebug := true }) ⟨exTwo_sane.blank, exTwo_sane.copyMove, exTwo_sane.fallback⟩
    natOps_lawful 0).mp h with h | h
  · cases h
  · exact absurd (h 0 1 (by decide) (by decide) (by decide) ⟨by decide, by decide, by decide⟩) (by decide)

example : ¬ ∀ f, SwapKeeps (exTwo.withThrows f) := fun h => by
  have := (C70_strong_iff exTwo_sane natOps_lawful (fun _ _ => rfl) 7 (fun _ => show (0 : Nat) ≠ 7 by decide)
    (fun fb h => by rw [show exTwo.fallback = none by decide] at h; cases h)).mp h 0 1 (by decide) (by decide) (by decide)
  exact absurd this (by decide)

/-- Two types that can be moved, but not copied, without throwing. -/
def exMovable : Cfg Nat := exCfg [tMovable, tMovable] []

theorem exMovable_sane : Sane exMovable where
  blank := by unfold BlankOk; decide
  copyMove := by
    intro k kr hk hkr hm hc
    have : k = 0 ∨ k = 1 := by simp only [exMovable, exCfg, Cfg.n, List.length] at hk; omega
    rcases this with rfl | rfl <;> simp [exMovable, exCfg, Cfg.tr, tMovable] at hc
  fallback := by
    intro k h
    rw [show exMovable.fallback = none by decide] at h; cases h

example : ∀ f, SwapKeeps (exMovable.withThrows f) :=
  (C70_strong_iff exMovable_sane natOps_lawful (fun _ _ => rfl) 7 (fun _ => show (0 : Nat) ≠ 7 by decide)
    (fun fb h => by rw [show exMovable.fallback = none by decide] at h; cases h)).mpr fun k kr hk _ _ => by
      have : k < 2 := hk
      have : k = 0 ∨ k = 1 := by omega
      rcases this with rfl | rfl <;> exact .inl (by decide)

end BVariant
