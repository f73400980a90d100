/-
C68 Exactly what can leave each operation of each variant type.
-/
import Verif.Lemmas.CanThrow
import Verif.Props.Guarantees

namespace BVariant

section
variable {V : Type} {C : Cfg V} {w w' : World V} {k kr : TyIx} {e : ExcKind}

/-- Specification: for some choice of the operations that throw, in some reached state, the operation, applied to a variant that holds
type `k` and one that holds type `kr`, lets an exception of kind `e` out. (Statements of finding F1 aside.) -/
def CanThrow (C : Cfg V) (op : Nat → Nat → Cmd V) (k kr : TyIx) (e : ExcKind) : Prop :=
  ∃ f w x y vx vy ex w', ReachedBy (C.withThrows f) w ∧ w.holds x k vx ∧ w.holds y kr vy ∧ (op x y).readsBackup w = false ∧
    (op x y).code (C.withThrows f) w = .exc ex w' ∧ ex.kind = e

/-- Specification: what a copy assignment from content of type `kr` to a variant that holds another type, `k`, can throw. -/
def CopyThrows (C : Cfg V) (k kr : TyIx) (e : ExcKind) : Prop :=
  e = .copyCtor kr ∧ (C.tr kr).nothrowCopy = false ∨
  (e = .badAlloc ∨ e = .copyCtor k) ∧ C.mayBackup kr ∧ (C.tr k).nothrowMove = false

/-- Specification: what a move assignment from content of type `kr` to a variant that holds another type, `k`, can throw. -/
def MoveThrows (C : Cfg V) (k kr : TyIx) (e : ExcKind) : Prop :=
  e = .moveCtor kr ∧ C.hasFallback = true ∧ (C.tr kr).nothrowMove = false ∧ (C.tr kr).nothrowCopy = false ∨
  e = .copyCtor kr ∧ C.mayBackup kr ∨
  (e = .badAlloc ∨ e = .copyCtor k) ∧ C.mayBackup kr ∧ (C.tr k).nothrowMove = false

/-- Specification: what `x.swap(y)` can throw if `x` holds type `k` and `y` another type, `kr`. -/
def SwapThrows (C : Cfg V) (k kr : TyIx) (e : ExcKind) : Prop :=
  e = .moveCtor kr ∧ (C.tr kr).nothrowMove = false ∨
  e = .moveCtor k ∧ C.hasFallback = true ∧ (C.tr k).nothrowMove = false ∧ (C.tr k).nothrowCopy = false ∨
  e = .copyCtor k ∧ C.mayBackup k ∨ e = .copyCtor kr ∧ C.mayBackup kr ∨ e = .badAlloc ∧ C.mayBackup k ∧ C.mayBackup kr

theorem Prepared.at (h : Prepared C w k kr) : At w (.user 0) (.user 1) k kr 1 3 4 4 :=
  ⟨h.v0, h.v1, h.o0, h.o1, by simp, by decide, by decide, by decide, h.next, h.tick, h.flat⟩

/-- A statement that throws in the prepared state shows what can be thrown. -/
theorem Prepared.canThrow (hk : k < C.n) (hkr : kr < C.n) (v : V) (op : Nat → Nat → Cmd V) (f : Nat → Bool) (hf : ∀ t, t < 4 → f t = false)
    (hop : ∀ w : World V, w.backedUp 0 = false → w.backedUp 1 = false → (op 0 1).readsBackup w = false)
    (h : ∀ w, At w (.user 0) (.user 1) k kr 1 3 4 4 →
      wp ((op 0 1).code (C.withThrows f)) (fun _ _ => False) (fun ex _ => ex.kind = e) w) : CanThrow C op k kr e := by
  obtain ⟨w, hre, hp, h0, h1⟩ := reached_prepared (C := C) hk hkr hf v
  rcases wp_elim (h w hp.at) with ⟨_, _, _, hh⟩ | ⟨ex, w', hh, hex⟩
  · exact hh.elim
  · exact ⟨f, w, 0, 1, _, _, ex, w', hre, h0, h1, hop w (by simp [World.backedUp, hp.v0]) (by simp [World.backedUp, hp.v1]), hh, hex⟩

theorem from4 (m : Nat) (hm : 4 ≤ m) : ∀ t, t < 4 → (· == m : Nat → Bool) t = false := fun t ht => by simp; omega

theorem copyAssign_kind (hs : Sane C) (hg : Good C w) {x y : Nat} {vx vy : V} (hx : w.holds x k vx) (hy : w.holds y kr vy) (hne : k ≠ kr)
    (hz : (Cmd.copyAssign x y : Cmd V).readsBackup w = false) {ex : Exc} (h : (Cmd.copyAssign x y : Cmd V).code C w = .exc ex w') :
    CopyThrows C k kr ex.kind := by
  obtain ⟨sx, ix, hxo⟩ := hg.holds hx
  obtain ⟨sy, iy, hyo⟩ := hg.holds hy
  have hel := (C14_exceptions_come_from_elements _ _ _ _ _ h).2
  rcases (wp_exc (wp_copyAssign_gen hs.blank hxo hyo (hg.wf.distinct hxo hyo) hg.wf.toFresh (noHazard_of hxo.var hyo.var hz)) h).1 with
    ⟨_, he, _⟩ | ⟨_, he | ⟨he, hm, hb, _⟩, _⟩
  · exact absurd he hne
  · rw [he] at hel
    exact .inl ⟨he, hel⟩
  · exact .inr ⟨he.symm, hb, hm.2⟩

theorem moveAssign_kind (hs : Sane C) (hg : Good C w) {x y : Nat} {vx vy : V} (hx : w.holds x k vx) (hy : w.holds y kr vy) (hne : k ≠ kr)
    (hz : (Cmd.moveAssign x y : Cmd V).readsBackup w = false) {ex : Exc} (h : (Cmd.moveAssign x y : Cmd V).code C w = .exc ex w') :
    MoveThrows C k kr ex.kind := by
  obtain ⟨sx, ix, hxo⟩ := hg.holds hx
  obtain ⟨sy, iy, hyo⟩ := hg.holds hy
  rcases (wp_exc (wp_moveAssign_gen hs.blank hxo hyo (hg.wf.distinct hxo hyo) hg.wf.toFresh (noHazard_of hxo.var hyo.var hz)) h).2.1 with
    ⟨hxy, _⟩ | ⟨_, _, he, _⟩ | ⟨_, _, he, _⟩
  · cases hxy
    rw [World.holds, hx] at hy; cases hy; exact absurd rfl hne
  · exact absurd he hne
  · rcases he.kind with he | ⟨hb, he | ⟨he, hm⟩⟩
    · exact .inl he
    · exact .inr (.inl ⟨he, hb⟩)
    · exact .inr (.inr ⟨he.symm, hb, hm⟩)

theorem swap_kind (hs : Sane C) (hg : Good C w) {x y : Nat} {vx vy : V} (hx : w.holds x k vx) (hy : w.holds y kr vy) (hne : k ≠ kr)
    (hz : (Cmd.swap x y : Cmd V).readsBackup w = false) {ex : Exc} (h : (Cmd.swap x y : Cmd V).code C w = .exc ex w') :
    SwapThrows C k kr ex.kind := by
  obtain ⟨sx, ix, hxo⟩ := hg.holds hx
  obtain ⟨sy, iy, hyo⟩ := hg.holds hy
  have hk := hxo.rep.lt
  have hkr := hyo.rep.lt
  have hel := (C14_exceptions_come_from_elements _ _ _ _ _ h).2
  have hbk : C.mayBackup kr → (C.tr k).nothrowMove = false → C.mayBackup k := fun h1 h2 => hs.mayBackup h1 hk hkr h2
  have hbkr : C.mayBackup k → (C.tr kr).nothrowMove = false → C.mayBackup kr := fun h1 h2 => hs.mayBackup h1 hkr hk h2
  rcases (wp_exc (wp_swap hs hg.wf hxo hyo (by simp) (by simp) (hg.noTmp 0) (swapHazard_of hxo hyo hz)) h).2.2.2 with
    ⟨hxy, _⟩ | ⟨_, he, _⟩ | ⟨_, he⟩ | ⟨_, he⟩ | ⟨_, he⟩
  · cases hxy
    rw [World.holds, hx] at hy; cases hy; exact absurd rfl hne
  · exact absurd he hne
  · rw [he] at hel
    exact .inl ⟨he, hel⟩
  · rcases he with he | ⟨hb, he | ⟨he | he, hm⟩⟩
    · exact .inr (.inl he)
    · exact .inr (.inr (.inl ⟨he, hb⟩))
    · exact .inr (.inr (.inr (.inl ⟨he, hbkr hb hm⟩)))
    · exact .inr (.inr (.inr (.inr ⟨he, hb, hbkr hb hm⟩)))
  · rcases he with he | ⟨hb, he | ⟨he | he, hm⟩⟩
    · exact .inl ⟨he.1, he.2.2.1⟩
    · exact .inr (.inr (.inr (.inl ⟨he, hb⟩)))
    · exact .inr (.inr (.inl ⟨he, hbk hb hm⟩))
    · exact .inr (.inr (.inr (.inr ⟨he, hbk hb hm, hb⟩)))

/-- C68, copy assignment: exactly what `x = y` can throw if `x` and `y` hold different types. (`v` is any value.) -/
theorem C68_copy_assignment (hs : Sane C) (v : V) (hk : k < C.n) (hkr : kr < C.n) (hne : k ≠ kr) :
    CanThrow C .copyAssign k kr e ↔ CopyThrows C k kr e := by
  constructor
  · rintro ⟨f, w, x, y, vx, vy, ex, w', hre, hx, hy, hz, h, rfl⟩
    exact copyAssign_kind (hs.withThrows f) (hre.good (hs.withThrows f)) hx hy hne hz h
  · have hop : ∀ w : World V, w.backedUp 0 = false → w.backedUp 1 = false → (Cmd.copyAssign 0 1 : Cmd V).readsBackup w = false :=
      fun w _ h1 => by simp [Cmd.readsBackup, h1]
    have can := fun m hm => Prepared.canThrow (e := e) hk hkr v .copyAssign (· == m) (from4 m hm) hop
    rintro (⟨rfl, hc⟩ | ⟨rfl | rfl, hb, hm⟩)
    · cases hm : (C.tr kr).nothrowMove with
      | true => exact can 4 (by omega) fun w h => h.tempCopy (C := C.withThrows (· == 4)) hkr hne hm hc rfl
      | false =>
        cases hf : C.hasFallback with
        | true =>
          exact can 4 (by omega) fun w h => wp_mono (h.fallbackCopy (C := C.withThrows (· == 4)) hs.blank hk hkr hne hf hm hc rfl) (fun _ _ h => h) fun _ _ h => h.1
        | false =>
          cases hmk : (C.tr k).nothrowMove with
          | true =>
            refine can 5 (by omega) fun w h => ?_
            simp only [Cmd.code]
            rw [h.copyIsBackup (C := C.withThrows (· == 5)) hkr hne ⟨hf, hm, hc⟩]
            exact wp_mono (h.backupMoved (C := C.withThrows (· == 5)) hk hc hmk rfl) (fun _ _ h => h) fun _ _ h => h.1
          | false =>
            refine can 6 (by omega) fun w h => ?_
            simp only [Cmd.code]
            rw [h.copyIsBackup (C := C.withThrows (· == 6)) hkr hne ⟨hf, hm, hc⟩]
            exact wp_mono (h.backupHeap2 (C := C.withThrows (· == 6)) hk hmk hc rfl rfl rfl) (fun _ _ h => h) fun _ _ h => h.1
    · refine can 4 (by omega) fun w h => ?_
      show wp (copyAssign _ _ _) _ _ _
      rw [h.copyIsBackup (C := C.withThrows (· == 4)) hkr hne hb]
      exact wp_mono (h.backupHeap0 (C := C.withThrows (· == 4)) hk hm rfl) (fun _ _ h => h) fun _ _ h => h.1
    · refine can 5 (by omega) fun w h => ?_
      show wp (copyAssign _ _ _) _ _ _
      rw [h.copyIsBackup (C := C.withThrows (· == 5)) hkr hne hb]
      exact wp_mono (h.backupHeap1 (C := C.withThrows (· == 5)) hk hm (hs.mayBackup hb hk hkr hm).2.2 rfl rfl) (fun _ _ h => h) fun _ _ h => h.1

/-- C68, move assignment: exactly what `x = std::move(y)` can throw if `x` and `y` hold different types. (`v` is any value.) -/
theorem C68_move_assignment (hs : Sane C) (v : V) (hk : k < C.n) (hkr : kr < C.n) (hne : k ≠ kr) :
    CanThrow C .moveAssign k kr e ↔ MoveThrows C k kr e := by
  constructor
  · rintro ⟨f, w, x, y, vx, vy, ex, w', hre, hx, hy, hz, h, rfl⟩
    exact moveAssign_kind (hs.withThrows f) (hre.good (hs.withThrows f)) hx hy hne hz h
  · have hop : ∀ w : World V, w.backedUp 0 = false → w.backedUp 1 = false → (Cmd.moveAssign 0 1 : Cmd V).readsBackup w = false :=
      fun w _ h1 => by simp [Cmd.readsBackup, h1]
    have can := fun m hm => Prepared.canThrow (e := e) hk hkr v .moveAssign (· == m) (from4 m hm) hop
    rintro (⟨rfl, hf, hm, hc⟩ | ⟨rfl, hb⟩ | ⟨rfl | rfl, hb, hm⟩)
    · exact can 4 (by omega) fun w h => wp_mono (h.fallbackMove (C := C.withThrows (· == 4)) hs.blank hk hkr hne hf hm hc rfl) (fun _ _ h => h) fun _ _ h => h.1
    · cases hmk : (C.tr k).nothrowMove with
      | true =>
        refine can 5 (by omega) fun w h => ?_
        simp only [Cmd.code]
        rw [h.moveIsBackup (C := C.withThrows (· == 5)) hkr hne hb]
        exact wp_mono (h.backupMoved (C := C.withThrows (· == 5)) hk hb.2.2 hmk rfl) (fun _ _ h => h) fun _ _ h => h.1
      | false =>
        refine can 6 (by omega) fun w h => ?_
        simp only [Cmd.code]
        rw [h.moveIsBackup (C := C.withThrows (· == 6)) hkr hne hb]
        exact wp_mono (h.backupHeap2 (C := C.withThrows (· == 6)) hk hmk hb.2.2 rfl rfl rfl) (fun _ _ h => h) fun _ _ h => h.1
    · refine can 4 (by omega) fun w h => ?_
      show wp (moveAssign _ _ _) _ _ _
      rw [h.moveIsBackup (C := C.withThrows (· == 4)) hkr hne hb]
      exact wp_mono (h.backupHeap0 (C := C.withThrows (· == 4)) hk hm rfl) (fun _ _ h => h) fun _ _ h => h.1
    · refine can 5 (by omega) fun w h => ?_
      show wp (moveAssign _ _ _) _ _ _
      rw [h.moveIsBackup (C := C.withThrows (· == 5)) hkr hne hb]
      exact wp_mono (h.backupHeap1 (C := C.withThrows (· == 5)) hk hm (hs.mayBackup hb hk hkr hm).2.2 rfl rfl) (fun _ _ h => h) fun _ _ h => h.1

/-- The first assignment of `swap` throws. -/
theorem swap_canThrow (hk : k < C.n) (hkr : kr < C.n) (hne : k ≠ kr) (v : V) (m : Nat) (hm : 5 ≤ m)
    (h : ∀ w, At w (.user 1) (.user 0) kr k 3 1 5 5 → wp (moveAssign (C.withThrows (· == m)) (.user 1) (.user 0)) (fun _ _ => False)
      (fun ex w' => ex.kind = e ∧ ApartFrom w w' (.user 1) 3 1 5) w) : CanThrow C .swap k kr e := by
  refine Prepared.canThrow (e := e) hk hkr v .swap (· == m) (from4 m (by omega)) (fun w h0 _ => by simp [Cmd.readsBackup, h0]) fun w ha => ?_
  refine ha.swap (C := C.withThrows (· == m)) hkr hne (by simp) ?_ (by simp) (P := (· = e)) fun w' a1 a2 => ?_
  · have : (4 == m) = false := by simp; omega
    simp [Cfg.withThrows, this]
  · obtain ⟨b, hb⟩ := a2.or
    exact wp_swap_second (P := (· = e)) (by simp) hb (by decide) (by decide) (h w' a1)

/-- C68, swap: exactly what `x.swap(y)` can throw if `x` and `y` hold different types. It is not symmetric: which move constructors can throw
depends on which of the two variants is the argument. (`v` is any value.) -/
theorem C68_swap (hs : Sane C) (v : V) (hk : k < C.n) (hkr : kr < C.n) (hne : k ≠ kr) :
    CanThrow C .swap k kr e ↔ SwapThrows C k kr e := by
  constructor
  · rintro ⟨f, w, x, y, vx, vy, ex, w', hre, hx, hy, hz, h, rfl⟩
    exact swap_kind (hs.withThrows f) (hre.good (hs.withThrows f)) hx hy hne hz h
  · have hop : ∀ w : World V, w.backedUp 0 = false → w.backedUp 1 = false → (Cmd.swap 0 1 : Cmd V).readsBackup w = false :=
      fun w h0 _ => by simp [Cmd.readsBackup, h0]
    have can := fun m hm => Prepared.canThrow (e := e) hk hkr v .swap (· == m) (from4 m hm) hop
    rintro (⟨rfl, hm⟩ | ⟨rfl, hf, hm, hc⟩ | ⟨rfl, hb⟩ | ⟨rfl, hb⟩ | ⟨rfl, hb, hb'⟩)
    · exact can 4 (by omega) fun w h => h.swap_first (C := C.withThrows (· == 4)) hkr hne hm rfl
    · exact swap_canThrow hk hkr hne v 5 (by omega) fun w h =>
        h.fallbackMove (C := C.withThrows (· == 5)) hs.blank hkr hk hne.symm hf hm hc rfl
    · cases hmk : (C.tr kr).nothrowMove with
      | true =>
        refine swap_canThrow hk hkr hne v 6 (by omega) fun w h => ?_
        rw [h.moveIsBackup (C := C.withThrows (· == 6)) hk hne.symm hb]
        exact wp_mono (h.backupMoved (C := C.withThrows (· == 6)) hkr hb.2.2 hmk rfl) (fun _ _ h => h) fun _ _ h => ⟨h.1, h.2.weaken⟩
      | false =>
        refine swap_canThrow hk hkr hne v 7 (by omega) fun w h => ?_
        rw [h.moveIsBackup (C := C.withThrows (· == 7)) hk hne.symm hb]
        exact wp_mono (h.backupHeap2 (C := C.withThrows (· == 7)) hkr hmk hb.2.2 rfl rfl rfl) (fun _ _ h => h) fun _ _ h => ⟨h.1, h.2.weaken⟩
    · cases hmk : (C.tr k).nothrowMove with
      | true => exact can 7 (by omega) fun w h => h.swap_third (C := C.withThrows (· == 7)) (by simp) (by simp) hk hkr hne hb hmk rfl rfl
      | false =>
        have hbk : C.mayBackup k := hs.mayBackup hb hk hkr hmk
        refine swap_canThrow hk hkr hne v 6 (by omega) fun w h => ?_
        rw [h.moveIsBackup (C := C.withThrows (· == 6)) hk hne.symm hbk]
        exact wp_mono (h.backupHeap1 (C := C.withThrows (· == 6)) hkr hb.2.1 hb.2.2 rfl rfl) (fun _ _ h => h) fun _ _ h => ⟨h.1, h.2.weaken⟩
    · refine swap_canThrow hk hkr hne v 5 (by omega) fun w h => ?_
      rw [h.moveIsBackup (C := C.withThrows (· == 5)) hk hne.symm hb]
      exact wp_mono (h.backupHeap0 (C := C.withThrows (· == 5)) hkr hb'.2.1 rfl) (fun _ _ h => h) fun _ _ h => ⟨h.1, h.2.weaken⟩

/-- C68: a copy assignment between variants that hold different types can throw exactly if the copy constructor of the new content can. -/
theorem C68_copy_assignment_throws_iff (hs : Sane C) (v : V) (hk : k < C.n) (hkr : kr < C.n) (hne : k ≠ kr) :
    (∃ e, CanThrow C .copyAssign k kr e) ↔ (C.tr kr).nothrowCopy = false := by
  simp only [C68_copy_assignment hs v hk hkr hne]
  constructor
  · rintro ⟨e, h | h⟩
    · exact h.2
    · exact h.2.1.2.2
  · exact fun h => ⟨_, .inl ⟨rfl, h⟩⟩

/-- C68: a move assignment between variants that hold different types can throw exactly if both the copy constructor and the move
constructor of the new content can. -/
theorem C68_move_assignment_throws_iff (hs : Sane C) (v : V) (hk : k < C.n) (hkr : kr < C.n) (hne : k ≠ kr) :
    (∃ e, CanThrow C .moveAssign k kr e) ↔ (C.tr kr).nothrowMove = false ∧ (C.tr kr).nothrowCopy = false := by
  simp only [C68_move_assignment hs v hk hkr hne]
  constructor
  · rintro ⟨e, h | h | h⟩
    · exact h.2.2
    · exact h.2.2
    · exact h.2.1.2
  · intro h
    cases hf : C.hasFallback with
    | true => exact ⟨_, .inl ⟨rfl, hf, h⟩⟩
    | false => exact ⟨_, .inr (.inl ⟨rfl, hf, h⟩)⟩

/-- C68: `x.swap(y)` on variants that hold different types can throw exactly if the move constructor of what `y` holds can, or both the copy
constructor and the move constructor of what `x` holds can. -/
theorem C68_swap_throws_iff (hs : Sane C) (v : V) (hk : k < C.n) (hkr : kr < C.n) (hne : k ≠ kr) :
    (∃ e, CanThrow C .swap k kr e) ↔
      (C.tr kr).nothrowMove = false ∨ ((C.tr k).nothrowMove = false ∧ (C.tr k).nothrowCopy = false) := by
  simp only [C68_swap hs v hk hkr hne]
  constructor
  · rintro ⟨e, h | h | h | h | h⟩
    · exact .inl h.2
    · exact .inr h.2.2
    · exact .inr h.2.2
    · exact .inl h.2.2.1
    · exact .inl h.2.2.2.1
  · rintro (h | h)
    · exact ⟨_, .inl ⟨rfl, h⟩⟩
    · cases hf : C.hasFallback with
      | true => exact ⟨_, .inr (.inl ⟨rfl, hf, h⟩)⟩
      | false => exact ⟨_, .inr (.inr (.inl ⟨rfl, hf, h⟩))⟩

/-- Specification: in no reached state, whatever throws, does the valid statement `c` let an exception out. (Statements of finding F1
aside.) -/
def NeverThrows (C : Cfg V) (c : Cmd V) : Prop :=
  ∀ f w, ReachedBy (C.withThrows f) w → c.valid C w = true → c.readsBackup w = false → ∀ e w', c.code (C.withThrows f) w ≠ .exc e w'

/-- C68, the exception specification of the default constructor is exact. -/
theorem C68_default_construction_noexcept (hn : 0 < C.n) (x : Nat) :
    NeverThrows C (.defaultConstruct x) ↔ (C.tr 0).nothrowDefault = true := by
  constructor
  · intro h
    cases hd : (C.tr 0).nothrowDefault with
    | true => rfl
    | false =>
      exfalso
      have h1 := h (fun _ => true) (World.init V) ⟨[], rfl, .inr rfl⟩ (by simp [Cmd.valid, World.init, hn]) rfl
      have h2 : wp ((Cmd.defaultConstruct x : Cmd V).code (C.withThrows fun _ => true)) (fun _ _ => False) (fun _ _ => True) (World.init V) := by
        have e1 : ((C.withThrows fun _ => true).tr 0).nothrowDefault = false := hd
        have e2 : (C.withThrows fun _ => true).throws (World.init V).tick = true := rfl
        simp only [Cmd.code, defaultConstruct, wp_noexceptIf, wp_bind, wp_valueCtor, e1, e2, and_self, if_true]
      rcases wp_elim h2 with ⟨_, _, _, hh⟩ | ⟨e, w', hh, _⟩
      · exact hh
      · exact h1 _ _ hh
  · intro h f w hre hv hz e w' he
    have h1 : wp ((Cmd.defaultConstruct x : Cmd V).code (C.withThrows f)) (fun _ _ => True) (fun _ _ => False) w := by
      have e1 : ((C.withThrows f).tr 0).nothrowDefault = true := h
      simp only [Cmd.code, defaultConstruct, wp_noexceptIf, wp_bind, wp_valueCtor, e1, Bool.true_eq_false, false_and, if_false, wp_beginVar]
    exact wp_exc h1 he

/-- A state in which variable 0 holds type `k`, and there is no other. -/
theorem reached_one (hk : k < C.n) {f : Nat → Bool} (hf : ∀ t, t < 2 → f t = false) (v : V) :
    ∃ w a, ReachedBy (C.withThrows f) w ∧ Owns (C.withThrows f) w (.user 0) ⟨(k : Int), .obj 1⟩ 1 k a ∧ w.vars (.user 1) = none ∧ w.tick = 2 := by
  have h0 : (C.withThrows f).throws 0 = false := hf 0 (by omega)
  have h1 : (C.withThrows f).throws 1 = false := hf 1 (by omega)
  have hk' : k < (C.withThrows f).n := hk
  suffices h : (run (C.withThrows f) [.constructC 0 k v] (World.init V)).elim False (fun w =>
      w.vars (.user 0) = some ⟨(k : Int), .obj 1⟩ ∧ (∃ a, w.objs 1 = some (k, a)) ∧ w.vars (.user 1) = none ∧ w.tick = 2) by
    cases hr : run (C.withThrows f) [.constructC 0 k v] (World.init V) with
    | none => rw [hr] at h; exact h.elim
    | some w =>
      rw [hr] at h
      obtain ⟨hv, ⟨a, ho⟩, h2, h3⟩ := h
      refine ⟨w, a, ⟨_, hr, .inr ?_⟩, ⟨hv, .inPlace _ _ hk', ho⟩, h2, h3⟩
      rw [← List.append_nil [Cmd.constructC 0 k v], avoids_append (by intro c hc w; simp at hc; rcases hc with rfl; rfl) hr]
      rfl
  simp only [run, Cmd.valid, Cmd.code, World.init, hk', convertConstruct, initializeFrom, bind, M.bind, pure, M.pure, mayThrow, newObj,
    M.withLocal, moveCtor, readAs, M.modify, setVal, destroyObj, beginVar, indicateWhich, upd, h0, h1, Bool.and_false, decide_true,
    Bool.and_true, Option.isNone_none, if_true, Bool.false_eq_true, if_false, Nat.zero_add, Option.elim]
  simp [upd]

/-- C68, the exception specification of the move constructor is exact: whatever throws, no move construction throws if and only if
every bounded type is nothrow move constructible. (`hs`: outside findings F2 and F10; `v` is any value.) -/
theorem C68_move_construction_noexcept (hs : Sane C) (v : V) :
    (∀ x y, NeverThrows C (.moveConstruct x y)) ↔ ∀ k, k < C.n → (C.tr k).nothrowMove = true := by
  constructor
  · intro h k hk
    cases hm : (C.tr k).nothrowMove with
    | true => rfl
    | false =>
      exfalso
      obtain ⟨w, a, hre, ho, h1, ht⟩ := reached_one (C := C) hk (f := (· == 2)) (fun t ht => by simp; omega) v
      have key := h 1 0 (· == 2) w hre (by simp [Cmd.valid, ho.var, h1]) rfl
      have hm' : ((C.withThrows (· == 2)).tr k).nothrowMove = false := hm
      have h2 : wp ((Cmd.moveConstruct 1 0 : Cmd V).code (C.withThrows (· == 2))) (fun _ _ => False) (fun _ _ => True) w := by
        have e2 : (C.withThrows (· == 2)).throws w.tick = true := by rw [ht]; rfl
        simp only [Cmd.code, moveConstruct, wp_noexceptIf, wp_bind, wp_iav_moveInto ho]
        simp only [wpx_moveCtor, ho.obj, if_true, hm', e2, and_self,
          moveNoexceptConstructible_false (C := C.withThrows (· == 2)) (show k < (C.withThrows (· == 2)).n from hk) hm']
      rcases wp_elim h2 with ⟨_, _, _, hh⟩ | ⟨e, w', hh, _⟩
      · exact hh
      · exact key _ _ hh
  · intro h x y f w hre hv hz e w' he
    have hg := hre.good (hs.withThrows f)
    simp only [Cmd.valid, Bool.and_eq_true] at hv
    obtain ⟨s, id, k, a, ho⟩ := hg.owns hv.2
    have h1 := (wp_exc (wp_moveConstruct ho hg.wf.toFresh) he).2.1
    have h2 := h k ho.rep.lt
    exact absurd (h1.symm.trans h2) (by simp)

/-- C68, copy construction: whatever throws, no copy construction throws if and only if every bounded type is nothrow copy constructible. -/
theorem C68_copy_construction_nothrow (hs : Sane C) (v : V) :
    (∀ x y, NeverThrows C (.copyConstruct x y)) ↔ ∀ k, k < C.n → (C.tr k).nothrowCopy = true := by
  constructor
  · intro h k hk
    cases hm : (C.tr k).nothrowCopy with
    | true => rfl
    | false =>
      exfalso
      obtain ⟨w, a, hre, ho, h1, ht⟩ := reached_one (C := C) hk (f := (· == 2)) (fun t ht => by simp; omega) v
      have key := h 1 0 (· == 2) w hre (by simp [Cmd.valid, ho.var, h1]) rfl
      have hm' : ((C.withThrows (· == 2)).tr k).nothrowCopy = false := hm
      have h2 : wp ((Cmd.copyConstruct 1 0 : Cmd V).code (C.withThrows (· == 2))) (fun _ _ => False) (fun _ _ => True) w := by
        have e2 : (C.withThrows (· == 2)).throws w.tick = true := by rw [ht]; rfl
        simp only [Cmd.code, copyConstruct, wp_bind, wp_iav_copyInto ho]
        simp only [wpx_copyCtor, ho.obj, if_true, hm', e2, and_self]
      rcases wp_elim h2 with ⟨_, _, _, hh⟩ | ⟨e, w', hh, _⟩
      · exact hh
      · exact key _ _ hh
  · intro h x y f w hre hv hz e w' he
    have hg := hre.good (hs.withThrows f)
    simp only [Cmd.valid, Bool.and_eq_true] at hv
    obtain ⟨s, id, k, a, ho⟩ := hg.owns hv.2
    have h1 := (wp_exc (wp_copyConstruct ho hg.wf.toFresh) he).2.1
    have h2 := h k ho.rep.lt
    exact absurd (h1.symm.trans h2) (by simp)

/-- C68, when move assignment never throws: exactly if every bounded type is nothrow move assignable and, unless there is only one, is nothrow
move constructible or nothrow copy constructible. So the declared exception specification, which asks for nothrow move
construction, is sufficient, but not necessary. -/
theorem C68_move_assignment_nothrow (hs : Sane C) (v : V) :
    (∀ x y, NeverThrows C (.moveAssign x y)) ↔ (∀ k, k < C.n → (C.tr k).nothrowMoveAssign = true) ∧
      ∀ k kr, k < C.n → kr < C.n → k ≠ kr → (C.tr kr).nothrowMove = true ∨ (C.tr kr).nothrowCopy = true := by
  constructor
  · intro h
    refine ⟨fun k hk => ?_, fun k kr hk hkr hne => ?_⟩
    · cases hm : (C.tr k).nothrowMoveAssign with
      | true => rfl
      | false =>
        exfalso
        obtain ⟨w, hre, hp, h0, h1⟩ := reached_prepared (C := C) hk hk (f := (· == 4)) (from4 4 (by omega)) v
        have key := h 0 1 (· == 4) w hre (by simp [Cmd.valid, hp.v0, hp.v1]) (by simp [Cmd.readsBackup, World.backedUp, hp.v1]; omega)
        rcases wp_elim (hp.at.moveSame (C := C.withThrows (· == 4)) hk hm rfl) with ⟨_, _, _, hh⟩ | ⟨e, w', hh, _⟩
        · exact hh
        · exact key _ _ hh
    · apply Classical.byContradiction
      intro hn
      simp only [not_or, Bool.not_eq_true] at hn
      obtain ⟨e, f, w, x, y, vx, vy, ex, w', hre, hx, hy, hz, hh, -⟩ := (C68_move_assignment_throws_iff hs v hk hkr hne).mpr hn
      have hg := hre.good (hs.withThrows f)
      obtain ⟨sx, ix, hxo⟩ := hg.holds hx
      obtain ⟨sy, iy, hyo⟩ := hg.holds hy
      exact h x y f w hre (by simp [Cmd.valid, hxo.var, hyo.var]) hz ex w' hh
  · rintro ⟨h1, h2⟩ x y f w hre hv hz e w' he
    have hfree : BackupFree C := by
      intro k kr hk hkr hne hb
      rcases h2 k kr hk hkr hne with h | h
      · exact absurd (hb.2.1.symm.trans h) (by simp)
      · exact absurd (hb.2.2.symm.trans h) (by simp)
    have hg := hre.good (hs.withThrows f)
    simp only [Cmd.valid, Bool.and_eq_true] at hv
    obtain ⟨sx, ix, kx, vx, hxo⟩ := hg.owns hv.1
    obtain ⟨sy, iy, ky, vy, hyo⟩ := hg.owns hv.2
    by_cases hk : kx = ky
    · obtain ⟨cs, hr, -⟩ := hre
      have hin := ((C60_backups_iff hs.blank v).mpr hfree f cs w hr).2
      rcases (wp_exc (wp_moveAssign_gen (hs.withThrows f).blank hxo hyo (hg.wf.distinct hxo hyo) hg.wf.toFresh
        (noHazard_of hxo.var hyo.var hz)) he).2.1 with ⟨_, _, hm, _⟩ | ⟨_, _, _, _, hm, _⟩ | ⟨_, hw, _⟩
      · exact absurd (hm.symm.trans (h1 kx hxo.rep.lt)) (by simp)
      · exact absurd (hm.symm.trans (h1 kx hxo.rep.lt)) (by simp)
      · have e1 := congrArg VarSt.which_ (hxo.rep.inPlace_of_nonneg (hin _ _ hxo.var))
        have e2 := congrArg VarSt.which_ (hyo.rep.inPlace_of_nonneg (hin _ _ hyo.var))
        exact hw (by rw [e1, e2, hk])
    · have := moveAssign_kind (hs.withThrows f) hg hxo.holds hyo.holds hk hz he
      rcases h2 kx ky hxo.rep.lt hyo.rep.lt hk with h | h
      · rcases this with h3 | h3 | h3
        · exact absurd (h3.2.2.1.symm.trans h) (by simp)
        · exact absurd (h3.2.2.1.symm.trans h) (by simp)
        · exact absurd (h3.2.1.2.1.symm.trans h) (by simp)
      · rcases this with h3 | h3 | h3
        · exact absurd (h3.2.2.2.symm.trans h) (by simp)
        · exact absurd (h3.2.2.2.symm.trans h) (by simp)
        · exact absurd (h3.2.1.2.2.symm.trans h) (by simp)

end

/-! ### Examples -/

/-- Two types that throw, no fallback type: everything can be thrown. -/
example : CanThrow exTwo .copyAssign 0 1 .badAlloc ∧ CanThrow exTwo .copyAssign 0 1 (.copyCtor 0) ∧ ¬ CanThrow exTwo .moveAssign 0 1 (.moveCtor 1) :=
  ⟨(C68_copy_assignment exTwo_sane 0 (by decide) (by decide) (by decide)).mpr (.inr ⟨.inl rfl, ⟨by decide, by decide, by decide⟩, by decide⟩),
   (C68_copy_assignment exTwo_sane 0 (by decide) (by decide) (by decide)).mpr (.inr ⟨.inr rfl, ⟨by decide, by decide, by decide⟩, by decide⟩),
   fun h => by
     rcases (C68_move_assignment exTwo_sane 0 (by decide) (by decide) (by decide)).mp h with ⟨-, h, -⟩ | ⟨h, -⟩ | ⟨h | h, -⟩
     · exact absurd h (by decide)
     · cases h
     · cases h
     · cases h⟩

/-- `variant<nothrow movable, throwing>`: `x.swap(y)` cannot fail in the move constructor of what `x` holds. -/
def exHalf : Cfg Nat := exCfg [tMovable, tThrowing] []

theorem exHalf_sane : Sane exHalf := by
  refine ⟨by unfold BlankOk; decide, fun k kr hk hkr _ => ?_, fun fb h => by rw [show exHalf.fallback = none by decide] at h; cases h⟩
  have : k < 2 := hk
  have : k = 0 ∨ k = 1 := by omega
  rcases this with rfl | rfl <;> decide

example : CanThrow exHalf .swap 0 1 (.moveCtor 1) ∧ ¬ CanThrow exHalf .swap 1 0 (.moveCtor 1) := by
  refine ⟨(C68_swap exHalf_sane 0 (by decide) (by decide) (by decide)).mpr (.inl ⟨rfl, by decide⟩), fun h => ?_⟩
  rcases (C68_swap exHalf_sane 0 (by decide) (by decide) (by decide)).mp h with ⟨h, -⟩ | ⟨-, h, -⟩ | ⟨h, -⟩ | ⟨h, -⟩ | ⟨h, -⟩
  · cases h
  · exact absurd h (by decide)
  · cases h
  · cases h
  · cases h

example : (∃ e, CanThrow exHalf .copyAssign 0 1 e) ∧ (∃ e, CanThrow exHalf .moveAssign 0 1 e) ∧ ¬ (∃ e, CanThrow exHalf .moveAssign 1 0 e) ∧
    (∃ e, CanThrow exHalf .swap 1 0 e) :=
  ⟨(C68_copy_assignment_throws_iff exHalf_sane 0 (by decide) (by decide) (by decide)).mpr (by decide),
   (C68_move_assignment_throws_iff exHalf_sane 0 (by decide) (by decide) (by decide)).mpr (by decide),
   fun h => absurd ((C68_move_assignment_throws_iff exHalf_sane 0 (by decide) (by decide) (by decide)).mp h) (by decide),
   (C68_swap_throws_iff exHalf_sane 0 (by decide) (by decide) (by decide)).mpr (by decide)⟩

/-- Two types that are nothrow copy constructible and nothrow move assignable, but not nothrow move constructible: move
assignment is not declared `noexcept`, but never throws. -/
def exCopies : Cfg Nat := exCfg [⟨false, true, false, true, false, false⟩, ⟨false, true, false, true, false, false⟩] []

theorem exCopies_sane : Sane exCopies := by
  refine ⟨by unfold BlankOk; decide, fun k kr hk hkr hb => ?_, fun fb h => by rw [show exCopies.fallback = none by decide] at h; cases h⟩
  have : kr < 2 := hkr
  have : kr = 0 ∨ kr = 1 := by omega
  rcases this with rfl | rfl <;> exact absurd hb.2.2 (by decide)

example : (∀ x y, NeverThrows exCopies (.moveAssign x y)) ∧ (moveNoexceptConstructible exCopies && moveNoexceptAssignable exCopies) = false := by
  refine ⟨(C68_move_assignment_nothrow exCopies_sane 0).mpr ⟨fun k hk => ?_, fun k kr _ hkr _ => .inr ?_⟩, by decide⟩
  · have : k < 2 := hk
    have : k = 0 ∨ k = 1 := by omega
    rcases this with rfl | rfl <;> decide
  · have : kr < 2 := hkr
    have : kr = 0 ∨ kr = 1 := by omega
    rcases this with rfl | rfl <;> decide

example : (∀ x y, NeverThrows exCopies (.copyConstruct x y)) ∧ ¬ ∀ x y, NeverThrows exCopies (.moveConstruct x y) := by
  refine ⟨(C68_copy_construction_nothrow exCopies_sane 0).mpr fun k hk => ?_, fun h =>
    absurd ((C68_move_construction_noexcept exCopies_sane 0).mp h 0 (by decide)) (by decide)⟩
  have : k < 2 := hk
  have : k = 0 ∨ k = 1 := by omega
  rcases this with rfl | rfl <;> decide

example : NeverThrows (exCfg [tString, tThrowing] []) (.defaultConstruct 0) :=
  (C68_default_construction_noexcept (by decide) 0).mpr (by decide)

end BVariant
