/-
C68, continued: exactly what can leave an operation on variants that hold the same type.
-/
import Verif.Props.CanThrow

namespace BVariant

section
variable {V : Type} {C : Cfg V} {w w' : World V} {k kr : TyIx} {e : ExcKind}

/-- Specification: content of type `k` can be in a heap backup, because there is another type from which an assignment that fails leaves it there. -/
def CanBeBackedUp (C : Cfg V) (k : TyIx) : Prop := C.mayBackup k ∧ ∃ j, j < C.n ∧ j ≠ k ∧ C.mayBackup j

/-- Specification: what a copy assignment between variants that both hold type `k` can throw. -/
def CopySameThrows (C : Cfg V) (k : TyIx) (e : ExcKind) : Prop := e = .copyAssign k ∨ e = .copyCtor k ∧ CanBeBackedUp C k

/-- Specification: what a move assignment between variants that both hold type `k` can throw. -/
def MoveSameThrows (C : Cfg V) (k : TyIx) (e : ExcKind) : Prop :=
  e = .moveAssign k ∧ (C.tr k).nothrowMoveAssign = false ∨ e = .copyCtor k ∧ CanBeBackedUp C k

/-- A reached state with a variant in a heap backup shows that there is another type that can be in one. -/
theorem ReachedBy.canBeBackedUp {f : Nat → Bool} (hs : Sane C) (v : V) (hre : ReachedBy (C.withThrows f) w) {x : VarId} {s : VarSt} {i : ObjId} {a : V}
    (ho : Owns (C.withThrows f) w x s i k a) (hn : s.which_ < 0) : CanBeBackedUp C k := by
  have hb : C.mayBackup k := by
    cases ho.rep with
    | inPlace => simp at hn; omega
    | inBackup _ _ _ hb => exact hb
  refine ⟨hb, Classical.byContradiction fun hno => ?_⟩
  have hfree : BackupFree C := by
    intro k' kr' hk hkr hne hb'
    apply Classical.byContradiction
    intro hm
    have hm : (C.tr k').nothrowMove = false := by simpa using hm
    by_cases hkk : kr' = k
    · exact hno ⟨k', hk, by rw [← hkk]; exact hne, hs.mayBackup hb' hk hkr hm⟩
    · exact hno ⟨kr', hkr, hkk, hb'⟩
  obtain ⟨cs, hr, -⟩ := hre
  have := ((C60_backups_iff hs.blank v).mpr hfree f cs w hr).2 _ _ ho.var
  omega

/-- Variable 0 has been put into a heap backup of type `k`, variable 2 holds an object of type `k` in place, and operation 9 will throw. -/
theorem reached_backup_same {j : TyIx} (hk : k < C.n) (hj : j < C.n) (hne : k ≠ j) (hb : C.mayBackup j)
    (hm : (C.tr k).nothrowMove = false) (v : V) :
    ∃ w, ReachedBy (C.withThrows fun t => t == 6 || t == 9) w ∧ w.vars (.user 0) = some ⟨-((k : Int) + 1), .holder k (some 4)⟩ ∧
      w.vars (.user 2) = some ⟨(k : Int), .obj 6⟩ ∧ (∃ a, w.objs 4 = some (k, a)) ∧ (∃ a, w.objs 6 = some (k, a)) ∧ w.tick = 9 ∧ w.next = 7 ∧ ∀ i, w.sub i = [] := by
  generalize hf : (fun t : Nat => t == 6 || t == 9) = f
  have h6 : ∀ t, t ≠ 6 → t ≠ 9 → (C.withThrows f).throws t = false := fun t h1 h2 => by rw [← hf]; simp [Cfg.withThrows, h1, h2]
  have h6' : (C.withThrows f).throws 6 = true := by rw [← hf]; rfl
  have hk' : k < (C.withThrows f).n := hk
  obtain ⟨w, hr, hp, -⟩ := prepared (C := C.withThrows f) hk hj (fun t ht => h6 t (by omega) (by omega)) v
  obtain ⟨e, w1, hc, hw1⟩ := hp.backup hk hj hne hb hm (h6 4 (by omega) (by omega)) (h6 5 (by omega) (by omega)) h6'
  have h7 := h6 7 (by omega) (by omega)
  have h8 := h6 8 (by omega) (by omega)
  have hval : (Cmd.constructC 2 k v : Cmd V).valid (C.withThrows f) w1 = true := by simp [Cmd.valid, hw1.rest, hk']
  suffices hh : wp (Cmd.code (C.withThrows f) (.constructC 2 k v)) (fun _ w => w.vars (.user 0) = some ⟨-((k : Int) + 1), .holder k (some 4)⟩ ∧
      w.vars (.user 2) = some ⟨(k : Int), .obj 6⟩ ∧ (∃ a, w.objs 4 = some (k, a)) ∧ (∃ a, w.objs 6 = some (k, a)) ∧ w.tick = 9 ∧ w.next = 7 ∧ ∀ i, w.sub i = []) (fun _ _ => False) w1 by
    rcases wp_elim hh with ⟨_, w2, h1, h2⟩ | ⟨_, _, _, h⟩
    · refine ⟨w2, ⟨[.constructC 0 k v, .constructC 1 j v] ++ [.copyAssign 0 1, .constructC 2 k v], ?_, .inr ?_⟩, h2⟩
      · rw [run_append, hr]
        simp only [Option.bind, run, Cmd.valid, hp.v0, hp.v1, Option.isSome_some, Bool.and_self, if_true, hc]
        simp only [Cmd.valid] at hval
        simp only [hval, if_true, h1]
      · rw [avoids_append (by intro c hc w; simp at hc; rcases hc with rfl | rfl <;> rfl) hr]
        simp only [avoidsBackupReads, Cmd.valid, hp.v0, hp.v1, Option.isSome_some, Bool.and_self, if_true, hc, Cmd.readsBackup,
          World.backedUp]
        simp only [Cmd.valid] at hval
        simp [hval, h1]
    · exact h.elim
  obtain ⟨v0, v1, ⟨a, o0⟩, ⟨b, o1⟩, hn, ht, hal, hfl, hre⟩ := hw1
  simp [Cmd.code, convertConstruct, initializeFrom, wp_bind, wpx_moveCtor, wp_withLocal, wpx_destroyObj, hn, ht, h7, h8, hfl, wp_beginVar, upd,
    wp_newObj, indicateWhich, wp_mayThrow]
  rw [wp_pure]
  exact ⟨v0, ⟨rfl, rfl⟩, ⟨a, by simp [upd, o0]⟩, ⟨_, by simp [upd]; exact rfl⟩, rfl, rfl, hfl⟩

/-- Such an assignment, from content in place. -/
theorem copyAssign_backed {l r : VarId} {p : Option ObjId} {q : ObjId} {b : V} (vl : w.vars l = some ⟨-((k : Int) + 1), .holder k p⟩)
    (vr : w.vars r = some ⟨(kr : Int), .obj q⟩) (or : w.objs q = some (kr, b)) (hkr : kr < C.n) (hb : C.mayBackup kr)
    {Q : Unit → World V → Prop} {E : Exc → World V → Prop} : wp (copyAssign C l r) Q E w = wp (assignImpl C l kr (.obj kr q) false false false) Q E w := by
  obtain ⟨hb1, hb2, hb3⟩ := hb
  have hw : ¬ -((k : Int) + 1) = kr := by omega
  simp only [copyAssign, wp_bind, wpx_getVar, vl, vr, hw, if_false, whichOf_natCast]
  rw [wp_iav_inPlace C vr hkr or]
  simp only [assigner, assignerVisit, RhsContent.nothrowCopy, RhsContent.nothrowMove, hb1, hb2, hb3, Bool.or_self]

theorem moveAssign_backed {l r : VarId} {p : Option ObjId} {q : ObjId} {b : V} (vl : w.vars l = some ⟨-((k : Int) + 1), .holder k p⟩)
    (vr : w.vars r = some ⟨(kr : Int), .obj q⟩) (or : w.objs q = some (kr, b)) (hkr : kr < C.n) (hb : C.mayBackup kr)
    {Q : Unit → World V → Prop} {E : Exc → World V → Prop} : wp (moveAssign C l r) Q E w = wp (assignImpl C l kr (.obj kr q) false false false) Q E w := by
  obtain ⟨hb1, hb2, hb3⟩ := hb
  have hw : ¬ -((k : Int) + 1) = kr := by omega
  simp only [moveAssign, variantMoveAssign, wp_noexceptIf, moveNoexceptConstructible_false hkr hb2, Bool.false_and, true_and, wp_bind, wpx_getVar,
    vl, vr, hw, if_false, whichOf_natCast]
  rw [wp_iav_inPlace C vr hkr or]
  simp only [moveAssigner, moveAssignerVisit, moveAssignImpl, RhsContent.nothrowCopy, RhsContent.nothrowMove, hb1, hb2, hb3, Bool.or_self,
    Bool.false_eq_true, if_false]

/-- Variants of the same content type whose records differ: the target is in a heap backup. (Statements of finding F1 aside.) -/
theorem backed_of_ne {x y : VarId} {sx sy : VarSt} {ix iy : ObjId} {vx vy : V} (hx : Owns C w x sx ix k vx) (hy : Owns C w y sy iy k vy)
    (hz : NoHazard sx sy) (hw : sx.which_ ≠ sy.which_) :
    sx = ⟨-((k : Int) + 1), .holder k (some ix)⟩ ∧ sy = ⟨(k : Int), .obj iy⟩ ∧ C.mayBackup k := by
  have h2 := hy.rep.inPlace_of_nonneg (hz.resolve_left hw)
  cases hx.rep with
  | inPlace => rw [h2] at hw; exact absurd rfl hw
  | inBackup _ _ _ hb => exact ⟨rfl, h2, hb⟩

theorem copyAssign_same_kind (hs : Sane C) {f : Nat → Bool} (v : V) (hre : ReachedBy (C.withThrows f) w) {x y : Nat} {vx vy : V} (hx : w.holds x k vx)
    (hy : w.holds y k vy) (hz : (Cmd.copyAssign x y : Cmd V).readsBackup w = false) {ex : Exc}
    (h : (Cmd.copyAssign x y : Cmd V).code (C.withThrows f) w = .exc ex w') : CopySameThrows C k ex.kind := by
  have hg := hre.good (hs.withThrows f)
  obtain ⟨sx, ix, hxo⟩ := hg.holds hx
  obtain ⟨sy, iy, hyo⟩ := hg.holds hy
  have hnz := noHazard_of hxo.var hyo.var hz
  by_cases hw : sx.which_ = sy.which_
  · rcases (wp_exc (wp_copyAssign_gen (hs.withThrows f).blank hxo hyo (hg.wf.distinct hxo hyo) hg.wf.toFresh hnz) h).1 with
      ⟨_, _, he, _⟩ | ⟨hw', _⟩
    · exact .inl he
    · exact absurd hw hw'
  · obtain ⟨e1, e2, hb⟩ := backed_of_ne hxo hyo hnz hw
    have hlt := hg.wf.toFresh.lt hxo.obj
    have := wp_backedTarget (C := C.withThrows f) (e1 ▸ hxo.var) hxo.obj hg.wf.toFresh.flat hyo.obj (by omega) hxo.rep.lt hb hb
    rw [← copyAssign_backed (C := C.withThrows f) (e1 ▸ hxo.var) (e2 ▸ hyo.var) hyo.obj hxo.rep.lt hb] at this
    exact .inr ⟨(wp_exc this h).1, hre.canBeBackedUp hs v hxo (by rw [e1]; show -((k : Int) + 1) < 0; omega)⟩

theorem moveAssign_same_kind (hs : Sane C) {f : Nat → Bool} (v : V) (hre : ReachedBy (C.withThrows f) w) {x y : Nat} {vx vy : V} (hx : w.holds x k vx)
    (hy : w.holds y k vy) (hz : (Cmd.moveAssign x y : Cmd V).readsBackup w = false) {ex : Exc}
    (h : (Cmd.moveAssign x y : Cmd V).code (C.withThrows f) w = .exc ex w') : MoveSameThrows C k ex.kind := by
  have hg := hre.good (hs.withThrows f)
  obtain ⟨sx, ix, hxo⟩ := hg.holds hx
  obtain ⟨sy, iy, hyo⟩ := hg.holds hy
  have hnz := noHazard_of hxo.var hyo.var hz
  by_cases hw : sx.which_ = sy.which_
  · rcases (wp_exc (wp_moveAssign_gen (hs.withThrows f).blank hxo hyo (hg.wf.distinct hxo hyo) hg.wf.toFresh hnz) h).2.1 with
      ⟨_, he, hm, _⟩ | ⟨_, _, _, he, hm, _⟩ | ⟨_, hw', _⟩
    · exact .inl ⟨he, hm⟩
    · exact .inl ⟨he, hm⟩
    · exact absurd hw hw'
  · obtain ⟨e1, e2, hb⟩ := backed_of_ne hxo hyo hnz hw
    have hlt := hg.wf.toFresh.lt hxo.obj
    have := wp_backedTarget (C := C.withThrows f) (e1 ▸ hxo.var) hxo.obj hg.wf.toFresh.flat hyo.obj (by omega) hxo.rep.lt hb hb
    rw [← moveAssign_backed (C := C.withThrows f) (e1 ▸ hxo.var) (e2 ▸ hyo.var) hyo.obj hxo.rep.lt hb] at this
    exact .inr ⟨(wp_exc this h).1, hre.canBeBackedUp hs v hxo (by rw [e1]; show -((k : Int) + 1) < 0; omega)⟩

/-- An assignment to a variant in a heap backup from one that holds the same type in place, in which the copy constructor throws. -/
theorem backup_same_canThrow (hk : k < C.n) (h : CanBeBackedUp C k) (v : V) (op : Nat → Nat → Cmd V)
    (hz : ∀ w : World V, w.backedUp 2 = false → (op 0 2).readsBackup w = false)
    (hop : ∀ (f : Nat → Bool) (w : World V) (q : ObjId) (b : V), w.vars (.user 0) = some ⟨-((k : Int) + 1), .holder k (some 4)⟩ →
      w.vars (.user 2) = some ⟨(k : Int), .obj q⟩ → w.objs q = some (k, b) → ∀ (Q : Unit → World V → Prop) E, wp ((op 0 2).code (C.withThrows f)) Q E w =
        wp (assignImpl (C.withThrows f) (.user 0) k (.obj k q) false false false) Q E w) :
    CanThrow C op k k (.copyCtor k) := by
  obtain ⟨hb, j, hj, hne, hbj⟩ := h
  obtain ⟨w, hre, v0, v2, ⟨a, o0⟩, ⟨b, o2⟩, ht, hn, hfl⟩ := reached_backup_same hk hj hne.symm hbj hb.2.1 v
  have key := wp_backedTarget (C := C.withThrows fun t => t == 6 || t == 9) v0 o0 hfl o2 (by omega) hk hb hb
  rw [← hop _ w 6 b v0 v2 o2] at key
  have h9 : (C.withThrows fun t => t == 6 || t == 9).throws w.tick = true := by rw [ht]; rfl
  rcases wp_elim key with ⟨_, _, _, hh⟩ | ⟨ex, w', hh, hex⟩
  · rw [h9] at hh; cases hh
  · exact ⟨_, w, 0, 2, a, b, ex, w', hre, by simp [World.holds, World.content, v0, VarSt.contentId, o0],
      by simp [World.holds, World.content, v2, VarSt.contentId, o2], hz w (by simp [World.backedUp, v2]), hh, hex.1⟩

/-- C68, copy assignment between variants that hold the same type: exactly what it can throw. Besides the element's own
assignment that is only the copy constructor of the source's content, and only if the target can be in a heap backup; in particular nothing
is allocated. (`v` is any value.) -/
theorem C68_copy_assignment_same (hs : Sane C) (v : V) (hk : k < C.n) : CanThrow C .copyAssign k k e ↔ CopySameThrows C k e := by
  constructor
  · rintro ⟨f, w, x, y, vx, vy, ex, w', hre, hx, hy, hz, h, rfl⟩
    exact copyAssign_same_kind hs v hre hx hy hz h
  · rintro (rfl | ⟨rfl, h⟩)
    · refine Prepared.canThrow hk hk v .copyAssign (· == 4) (from4 4 (by omega)) (fun w _ h => by simp [Cmd.readsBackup, h]) fun w h => ?_
      obtain ⟨vl, vr, ⟨a, ol⟩, ⟨b, or⟩, lr, ij, iN, jN, hn, ht, hfl⟩ := h
      simp only [Cmd.code, copyAssign, wp_bind, wpx_getVar, vl, vr, if_true]
      rw [wp_iav_inPlace (C.withThrows (· == 4)) vl hk ol]
      simp only [assignStorage, castObj, wp_bind, wpx_getVar, vr, wpx_readAs, or, if_true, wp_pure]
      rw [wpx_assignObj _ k ol or, if_pos (by rw [ht]; rfl)]
    · exact backup_same_canThrow hk h v .copyAssign (fun w h => by simp [Cmd.readsBackup, h])
        fun f w q b v0 v2 o2 Q E => copyAssign_backed (C := C.withThrows f) v0 v2 o2 hk h.1

/-- C68, move assignment between variants that hold the same type: exactly what it can throw. -/
theorem C68_move_assignment_same (hs : Sane C) (v : V) (hk : k < C.n) : CanThrow C .moveAssign k k e ↔ MoveSameThrows C k e := by
  constructor
  · rintro ⟨f, w, x, y, vx, vy, ex, w', hre, hx, hy, hz, h, rfl⟩
    exact moveAssign_same_kind hs v hre hx hy hz h
  · rintro (⟨rfl, hm⟩ | ⟨rfl, h⟩)
    · exact Prepared.canThrow hk hk v .moveAssign (· == 4) (from4 4 (by omega)) (fun w _ h => by simp [Cmd.readsBackup, h])
        fun w h => h.moveSame (C := C.withThrows (· == 4)) hk hm rfl
    · exact backup_same_canThrow hk h v .moveAssign (fun w h => by simp [Cmd.readsBackup, h])
        fun f w q b v0 v2 o2 Q E => moveAssign_backed (C := C.withThrows f) v0 v2 o2 hk h.1

/-- C68, swap of variants that hold the same type: exactly the element's own swap can throw. -/
theorem C68_swap_same (hs : Sane C) (v : V) (hk : k < C.n) : CanThrow C .swap k k e ↔ e = .swap k := by
  constructor
  · rintro ⟨f, w, x, y, vx, vy, ex, w', hre, hx, hy, hz, h, rfl⟩
    have hg := hre.good (hs.withThrows f)
    obtain ⟨sx, ix, hxo⟩ := hg.holds hx
    obtain ⟨sy, iy, hyo⟩ := hg.holds hy
    rcases (wp_exc (wp_swap (hs.withThrows f) hg.wf hxo hyo (by simp) (by simp) (hg.noTmp 0) (swapHazard_of hxo hyo hz)) h).2.2.2 with
      ⟨_, he⟩ | ⟨_, _, he⟩ | ⟨hk, _⟩ | ⟨hk, _⟩ | ⟨hk, _⟩
    · exact he
    · exact he
    · exact absurd rfl hk
    · exact absurd rfl hk
    · exact absurd rfl hk
  · rintro rfl
    refine Prepared.canThrow hk hk v .swap (· == 4) (from4 4 (by omega)) (fun w h _ => by simp [Cmd.readsBackup, h]) fun w h => ?_
    obtain ⟨vl, vr, ⟨a, ol⟩, ⟨b, or⟩, lr, ij, iN, jN, hn, ht, hfl⟩ := h
    simp only [Cmd.code, BVariant.swap, wp_bind, wpx_which, vl, vr, if_true]
    have hk' : k < (C.withThrows (· == 4)).n := hk
    rw [wp_applyVisitor _ vl (.inPlace _ _ hk') ol]
    simp only [swapWith, wp_bind]
    rw [wp_applyVisitor _ vr (.inPlace _ _ hk') or]
    simp only [knownGet, if_true, wp_pure]
    rw [wpx_swapObj _ k ij ol or, if_pos (by rw [ht]; rfl)]

end

/-! ### Examples -/

/-- Two types that throw: an assignment between variants of the same content type can also throw from the copy constructor. -/
example : CanThrow exTwo .copyAssign 0 0 (.copyCtor 0) ∧ CanThrow exTwo .moveAssign 1 1 (.copyCtor 1) ∧ ¬ CanThrow exTwo .copyAssign 0 0 .badAlloc :=
  ⟨(C68_copy_assignment_same exTwo_sane 0 (by decide)).mpr (.inr ⟨rfl, by unfold Cfg.mayBackup; decide, 1, by decide, by decide, by unfold Cfg.mayBackup; decide⟩),
   (C68_move_assignment_same exTwo_sane 0 (by decide)).mpr (.inr ⟨rfl, by unfold Cfg.mayBackup; decide, 0, by decide, by decide, by unfold Cfg.mayBackup; decide⟩),
   fun h => by
     rcases (C68_copy_assignment_same exTwo_sane 0 (by decide)).mp h with h | ⟨h, -⟩ <;> cases h⟩

/-- `variant<nothrow movable, throwing>`: no backup is ever made, so only the element's own assignment and swap can throw. -/
example : ¬ CanThrow exHalf .copyAssign 1 1 (.copyCtor 1) ∧ CanThrow exHalf .copyAssign 1 1 (.copyAssign 1) ∧ CanThrow exHalf .swap 1 1 (.swap 1) := by
  refine ⟨fun h => ?_, (C68_copy_assignment_same exHalf_sane 0 (by decide)).mpr (.inl rfl), (C68_swap_same exHalf_sane 0 (by decide)).mpr rfl⟩
  rcases (C68_copy_assignment_same exHalf_sane 0 (by decide)).mp h with h | ⟨-, -, j, hj, hne, hb⟩
  · cases h
  · have : j < 2 := hj
    have : j = 0 := by omega
    subst this
    exact absurd hb.2.1 (by decide)

end BVariant
