/-
C46: assignment from a part of one's own content, and to a part of it.
C51: move assignment from and to a part of one's own content.
-/
import Verif.Lemmas.TreeMoveUnsafe
import Verif.Props.Tree

namespace BVariant

section
variable {V : Type} {C : TreeCfg V} {s s' : TreeSt V} {σ : TStore V} {own : Nat → List ObjId} {n : Nat} {x t : TPlace}

open ATree AStore

/-- Assigning content of type `k'`, in place, to `lv` copies it before any of the left content is destroyed. -/
def TreeCfg.CopiesFirst (C : TreeCfg V) (lv : TVar V) (k' : TyIx) : Prop :=
  C.nothrowCopy k' = false ∧ (C.nothrowMove k' = true ∨ (C.fallback = none ∧ ∃ k q, lv = .backup k q))

theorem copiesFirst_iff {lv : TVar V} {k' : TyIx} : C.CopiesFirst lv k' ↔ tDestroysFirst C lv k' = false := by
  unfold TreeCfg.CopiesFirst tDestroysFirst
  cases h1 : C.nothrowCopy k' <;> cases h2 : C.nothrowMove k' <;> cases h3 : C.fallback <;> cases lv <;> simp

/-- The same for move assignment. -/
def TreeCfg.MoveCopiesFirst (C : TreeCfg V) (lv : TVar V) (k' : TyIx) : Prop :=
  C.nothrowMove k' = false ∧ C.nothrowCopy k' = false ∧ C.fallback = none ∧ ∃ k q, lv = .backup k q

theorem moveCopiesFirst_iff {lv : TVar V} {k' : TyIx} : C.MoveCopiesFirst lv k' ↔ tMoveDestroysFirst C lv k' = false := by
  unfold TreeCfg.MoveCopiesFirst tMoveDestroysFirst
  cases h1 : C.nothrowCopy k' <;> cases h2 : C.nothrowMove k' <;> cases h3 : C.fallback <;> cases lv <;> simp

theorem variant_valid {v : TVar V} (h : t.variant s = some v) : t.valid s = true := by
  unfold TPlace.variant at h
  unfold TPlace.valid
  cases he : t.eval s with
  | ok l s1 =>
    rw [he] at h
    dsimp only at h ⊢
    cases hl1 : l.read s1 with
    | ok v s2 => rfl
    | exc _ _ => rw [hl1] at h; cases h
    | fault _ => rw [hl1] at h; cases h
  | exc _ _ => rw [he] at h; cases h
  | fault _ => rw [he] at h; cases h

/-- What is where a place leads to. -/
theorem Mem.side {α : AStore V} (hM : Mem s α []) (hS : IsS α σ) (hB : σ.Bound C.wrapped n) {v : TVar V} (h : t.variant s = some v) :
    ∃ l R u, Side s α σ t l R u ∧ R.var = v ∧ u.height ≤ n ∧ u.Typed C.wrapped := by
  obtain ⟨l, R, h1⟩ := hM.valid_iff.mp (variant_valid h)
  obtain ⟨u, h2, h3⟩ := hS.at h1
  obtain ⟨h4, h5⟩ := hB.at h2
  have h6 := hM.variant_eq h1
  rw [h] at h6
  exact ⟨l, R, u, ⟨h1, h2, h3⟩, (Option.some.inj h6).symm, by omega, h5⟩

/-- **C46**, the part that holds. The variant `x` is assigned the variant `t`, a part of its own content and not in a backup. The
assignment gives `x` the value the part had, and changes nothing else, if

* both have the same type and `x` is not in a backup (then it is `T::operator=` that assigns; the model's copies first), or
* the strategy for the part's type copies the part first.

It may throw; then `x` has its old value or the fallback content (`TExc`) and nothing else has changed. Missing: the other
strategies, for which `C46_destroyed_before_read` shows the claim to be false. -/
theorem C46_assign_from_own_part_partial (hl : C.ops.Lawful) (hr : s.Represents σ own) (hf : s.Fresh) (hB : σ.Bound C.wrapped n)
    (hi : t.inside x = true) {lv : TVar V} (hlv : x.variant s = some lv) {k' : TyIx} {c' : TContent V}
    (hrv : t.variant s = some (.plain k' c')) (hs : (∃ c, lv = .plain k' c) ∨ C.CopiesFirst lv k') :
    ∃ u, σ.at t = some u ∧
      ((∃ s' own', TCmd.code C n (.assign x t) s = .ok () s' ∧ s'.Represents (σ.put x u) own') ∨
       (∃ e s' σ' own', TCmd.code C n (.assign x t) s = .exc e s' ∧ TExc C (.assign x t) σ σ' ∧ s'.Represents σ' own' ∧
          C.throws e.tick = true)) := by
  have hz : TCmd.hazard C s (.assign x t) = false := by
    rw [copiesFirst_iff] at hs
    simp only [TCmd.hazard, hlv, hrv, TPlace.inside_asymm hi]
    cases lv with
    | plain k c =>
      rcases hs with ⟨_, h⟩ | h
      · cases h; simp
      · simp [h]
    | backup k q =>
      rcases hs with ⟨_, h⟩ | h
      · cases h
      · simp [h]
  have hv : TCmd.valid C s (.assign x t) = true := by simp only [TCmd.valid, variant_valid hlv, variant_valid hrv]; rfl
  rcases C37_statement hl hr hf hB hv hz with ⟨s', σ', own', h1, h2, h3, _⟩ | ⟨e, s', σ', own', h1, h2, h3, _, h4⟩
  · cases h2 with
    | assign hu => exact ⟨_, hu, .inl ⟨s', own', h1, h3⟩⟩
  · obtain ⟨α, hM, hS, _⟩ := hr.mem hf
    obtain ⟨_, _, u, hs, _⟩ := hM.side hS hB hrv
    exact ⟨u, hs.val, .inr ⟨e, s', σ', own', h1, h2, h3, h4⟩⟩

theorem walk_of_inside {α : AStore V} {l r : TLoc} {L R : ATree V} {u0 u : VTree V} (hx : Side s α σ x l L u0) (ht : Side s α σ t r R u)
    (hi : t.inside x = true) : ∃ is, is ≠ [] ∧ t.var = x.var ∧ t.path = x.path ++ is ∧ L.walk l is = some (r, R) :=
  hx.at_.inside ht.at_ hi

theorem var_plain {R : ATree V} {k : TyIx} {c : TContent V} (h : R.var = .plain k c) : R.box = none ∧ R.which = k := by
  unfold var at h
  cases hb : R.box with
  | none => rw [hb] at h; simp only [TVar.plain.injEq] at h; exact ⟨rfl, h.1⟩
  | some q => rw [hb] at h; cases h

/-- The code between types. -/
theorem assign_code {α : AStore V} (hM : Mem s α []) {l r : TLoc} {L R : ATree V} (hx : At α x l L) (ht : At α t r R) (hb : R.box = none)
    (hne : ∀ c, L.var ≠ .plain R.which c) :
    TCmd.code C n (.assign x t) s = tAssigner C n l L.var R.which (.inPlace r) s ∧
    TCmd.code C n (.moveAssign x t) s = tMoveAssigner C n l L.var R.which (.inPlace r) s := by
  obtain ⟨he, hlr, _⟩ := hM.at_run hx
  obtain ⟨he', hrr, _⟩ := hM.at_run ht
  rw [var_none hb] at hrr
  constructor
  · simp only [TCmd.code, bind, Eff.bind, he, he', tVariantAssign, hlr, hrr]
    cases hv : L.var with
    | plain k c =>
      have : k ≠ R.which := fun e => hne c (by rw [hv, e])
      simp only [this, if_false]
    | backup k q => rfl
  · simp only [TCmd.code, bind, Eff.bind, he, he', tVariantMoveAssign, hlr, hrr]
    cases hv : L.var with
    | plain k c =>
      have : k ≠ R.which := fun e => hne c (by rw [hv, e])
      simp only [this, if_false]
    | backup k q => rfl

/-- **C46** is false for the other strategies (finding F5): the variant `x` is assigned `t`, a part of its own content and of
another type (or of the same one, with `x` in a backup), by a strategy that destroys the content of `x` first. In every such
state the assignment is undefined behaviour, unless the making of a backup throws; it never succeeds. -/
theorem C46_destroyed_before_read (hl : C.ops.Lawful) (hr : s.Represents σ own) (hf : s.Fresh) (hB : σ.Bound C.wrapped n)
    (hi : t.inside x = true) {lv : TVar V} (hlv : x.variant s = some lv) {k' : TyIx} {c' : TContent V}
    (hrv : t.variant s = some (.plain k' c')) (hne : ∀ c, lv ≠ .plain k' c) (hs : ¬ C.CopiesFirst lv k') :
    TCmd.code C n (.assign x t) s = .fault .ub ∨
    (∃ e s', TCmd.code C n (.assign x t) s = .exc e s' ∧ C.throws e.tick = true ∧ C.fallback = none ∧ ∃ k c, lv = .plain k c) := by
  obtain ⟨α, hM, hS, _⟩ := hr.mem hf
  obtain ⟨l, L, u0, hx, rfl, h0, h0t⟩ := hM.side hS hB hlv
  obtain ⟨r, R, u, ht, hRv, h1, h1t⟩ := hM.side hS hB hrv
  obtain ⟨hb, rfl⟩ := var_plain hRv
  obtain ⟨is, hne', _, _, hw⟩ := walk_of_inside hx ht hi
  rw [copiesFirst_iff, Bool.not_eq_false] at hs
  rw [(assign_code hM hx.at_ ht.at_ hb hne).1]
  rcases tAssigner_unsafe (C := C) (n := n) hl hM hx.at_ hx.is h0t h0 hne' hw R.which hs with h | ⟨e, s', h, h2, h3, h4⟩
  · exact .inl h
  · exact .inr ⟨e, s', h, h2, h3, L.which, L.content, var_none h4⟩

/-- **C46** is false when a part of the right side is assigned to (finding F5): `t` is assigned to `x`, a part of its content and of
another type (or of the same one, with `x` in a backup). Whatever the strategy, the right side is copied while its part `x` is
without content. The assignment never succeeds. -/
theorem C46_part_of_right_side (hl : C.ops.Lawful) (hr : s.Represents σ own) (hf : s.Fresh) (hB : σ.Bound C.wrapped n)
    (hi : x.inside t = true) {lv : TVar V} (hlv : x.variant s = some lv) {k' : TyIx} {c' : TContent V}
    (hrv : t.variant s = some (.plain k' c')) (hne : ∀ c, lv ≠ .plain k' c) : TCmd.code C n (.assign x t) s ≠ .ok () s' := by
  obtain ⟨α, hM, hS, _⟩ := hr.mem hf
  obtain ⟨l, L, u0, hx, rfl, h0, h0t⟩ := hM.side hS hB hlv
  obtain ⟨r, R, u, ht, hRv, h1, h1t⟩ := hM.side hS hB hrv
  obtain ⟨hb, rfl⟩ := var_plain hRv
  obtain ⟨is, hne', hv, hp, hw⟩ := walk_of_inside ht hx hi
  rw [(assign_code hM hx.at_ ht.at_ hb hne).1]
  exact tAssigner_part (C := C) (n := n) hl hM hx.at_ ht.at_ hx.is (node_of_walk hne' hw ht.is h1t) h0 hv hp hne' hw hb

/-- **C51**, the part that holds. The variant `x` is move-assigned `t`, a part of its own content, by the one strategy that copies
first: `x` is in a backup, there is no fallback type, and the part has neither a nothrow move nor a nothrow copy constructor.
Then `x` gets the value of the part, or an operation throws and nothing has changed. Missing: everything else, for which
`C51_destroyed_before_read` and `C51_swap_leaks` show the claim to be false. -/
theorem C51_move_from_own_part_partial (hl : C.ops.Lawful) (hr : s.Represents σ own) (hf : s.Fresh) (hB : σ.Bound C.wrapped n)
    (hi : t.inside x = true) {lv : TVar V} (hlv : x.variant s = some lv) {k' : TyIx} {c' : TContent V}
    (hrv : t.variant s = some (.plain k' c')) (hs : C.MoveCopiesFirst lv k') :
    ∃ u, σ.at t = some u ∧
      ((∃ s' own', TCmd.code C n (.moveAssign x t) s = .ok () s' ∧ s'.Represents (σ.put x u) own') ∨
       (∃ e s' own', TCmd.code C n (.moveAssign x t) s = .exc e s' ∧ s'.Represents σ own' ∧ C.throws e.tick = true)) := by
  obtain ⟨α, hM, hS, _⟩ := hr.mem hf
  obtain ⟨l, L, u0, hx, rfl, h0, h0t⟩ := hM.side hS hB hlv
  obtain ⟨r, R, u, ht, hRv, h1, h1t⟩ := hM.side hS hB hrv
  obtain ⟨hb, rfl⟩ := var_plain hRv
  obtain ⟨is, hne', _, _, hw⟩ := walk_of_inside hx ht hi
  obtain ⟨hm, hc, hfb, k, q, hv⟩ := hs
  have hbx : L.box ≠ none := fun h => by rw [var_none h] at hv; cases hv
  refine ⟨u, ht.val, ?_⟩
  rw [(assign_code hM hx.at_ ht.at_ hb (fun c => by rw [hv]; nofun)).2]
  have hcode : tMoveAssigner C n l L.var R.which (.inPlace r) = tBackupAssign C n l R.which (.inPlace r) L.var := by
    simp only [tMoveAssigner, hm, hc, hfb, Bool.false_eq_true, if_false]
  rw [hcode]
  rcases tBackupAssign_run (C := C) (n := n) hl hM hx.at_ ht.at_ hx.is ht.is hb h0t h0 h1 (.inr ⟨hbx, is, hne', hw⟩) with
    ⟨s', U, h2, hU, hM1, _⟩ | ⟨e, s', W, w, h2, hW, hw', hM1, hth⟩
  · exact .inl ⟨s', _, h2, hM1.represents (hS.put hU)⟩
  · rcases hw' with rfl | ⟨fb, hfb', _⟩
    · have hS' := hS.put (x := x) hW
      rw [TStore.put_same hx.val] at hS'
      exact .inr ⟨e, s', _, h2, hM1.represents hS', hth.throws⟩
    · rw [hfb] at hfb'; cases hfb'

/-- **C51** is false between types (finding F5): the variant `x` is move-assigned `t`, a part of its own content and of another type
(or of the same one, with `x` in a backup), by a strategy that destroys the content of `x` first. That is undefined behaviour,
unless the making of a backup throws; it never succeeds. -/
theorem C51_destroyed_before_read (hl : C.ops.Lawful) (hr : s.Represents σ own) (hf : s.Fresh) (hB : σ.Bound C.wrapped n)
    (hi : t.inside x = true) {lv : TVar V} (hlv : x.variant s = some lv) {k' : TyIx} {c' : TContent V}
    (hrv : t.variant s = some (.plain k' c')) (hne : ∀ c, lv ≠ .plain k' c) (hs : ¬ C.MoveCopiesFirst lv k') :
    TCmd.code C n (.moveAssign x t) s = .fault .ub ∨
    (∃ e s', TCmd.code C n (.moveAssign x t) s = .exc e s' ∧ C.throws e.tick = true ∧ C.fallback = none ∧ ∃ k c, lv = .plain k c) := by
  obtain ⟨α, hM, hS, _⟩ := hr.mem hf
  obtain ⟨l, L, u0, hx, rfl, h0, h0t⟩ := hM.side hS hB hlv
  obtain ⟨r, R, u, ht, hRv, h1, h1t⟩ := hM.side hS hB hrv
  obtain ⟨hb, rfl⟩ := var_plain hRv
  obtain ⟨is, hne', _, _, hw⟩ := walk_of_inside hx ht hi
  rw [moveCopiesFirst_iff, Bool.not_eq_false] at hs
  rw [(assign_code hM hx.at_ ht.at_ hb hne).2]
  rcases tMoveAssigner_unsafe (C := C) (n := n) hl hM hx.at_ hx.is h0t h0 hne' hw R.which hs with h | ⟨e, s', h, h2, h3, h4⟩
  · exact .inl h
  · exact .inr ⟨e, s', h, h2, h3, L.which, L.content, var_none h4⟩

/-- **C51** is false when a part of the right side is assigned to (finding F5): `t` is move-assigned to `x`, a part of its content and
of another type (or of the same one, with `x` in a backup). If there is no fallback type, so that a copy is made, or if nodes
move their members one by one, then the right side is copied or moved while its part `x` is without content. The assignment
never succeeds. -/
theorem C51_part_of_right_side (hl : C.ops.Lawful) (hr : s.Represents σ own) (hf : s.Fresh) (hB : σ.Bound C.wrapped n)
    (hi : x.inside t = true) {lv : TVar V} (hlv : x.variant s = some lv) {k' : TyIx} {c' : TContent V}
    (hrv : t.variant s = some (.plain k' c')) (hne : ∀ c, lv ≠ .plain k' c) (hst : C.fallback = none ∨ ∀ k, C.steals k = false) :
    TCmd.code C n (.moveAssign x t) s ≠ .ok () s' := by
  obtain ⟨α, hM, hS, _⟩ := hr.mem hf
  obtain ⟨l, L, u0, hx, rfl, h0, h0t⟩ := hM.side hS hB hlv
  obtain ⟨r, R, u, ht, hRv, h1, h1t⟩ := hM.side hS hB hrv
  obtain ⟨hb, rfl⟩ := var_plain hRv
  obtain ⟨is, hne', hv, hp, hw⟩ := walk_of_inside ht hx hi
  rw [(assign_code hM hx.at_ ht.at_ hb hne).2]
  exact tMoveAssigner_part (C := C) (n := n) hl hM hx.at_ ht.at_ hx.is (node_of_walk hne' hw ht.is h1t) h0 hv hp hne' hw hb hst

/-- **C51** is false in that case (finding F20) also if there is a fallback type and the node on the right side gives its members
away, as a `std::vector` does. If the assignment returns, then `t` is left with an empty node, and all that was in it, with `x`, is in a
new node that is a part of itself: its memory is still there and belongs to no variable. -/
theorem C51_part_of_right_side_leaks (hr : s.Represents σ own) (hf : s.Fresh) (hB : σ.Bound C.wrapped n)
    (hi : x.inside t = true) {lv : TVar V} (hlv : x.variant s = some lv) {k' : TyIx} {c' : TContent V}
    (hrv : t.variant s = some (.plain k' c')) (hne : ∀ c, lv ≠ .plain k' c) {fb : TyIx} (hfb : C.fallback = some fb)
    (hst : C.steals k' = true) (h : TCmd.code C n (.moveAssign x t) s = .ok () s') :
    ∃ a f own', σ.at t = some (.node k' a f) ∧ s'.Stores (σ.put t (.node k' (C.ops.movedFrom k' a) .nil)) own' ∧
      ∃ p, s'.heap p ≠ none ∧ ∀ y, p ∉ own' y := by
  obtain ⟨α, hM, hS, _⟩ := hr.mem hf
  obtain ⟨l, L, u0, hx, rfl, h0, h0t⟩ := hM.side hS hB hlv
  obtain ⟨r, R, u, ht, hRv, h1, h1t⟩ := hM.side hS hB hrv
  obtain ⟨hb, rfl⟩ := var_plain hRv
  obtain ⟨is, hne', hv, hp, hw⟩ := walk_of_inside ht hx hi
  rw [(assign_code hM hx.at_ ht.at_ hb hne).2] at h
  obtain ⟨k, a, f, rfl, own', g1, g2⟩ := tMoveAssigner_part_steals (C := C) (n := n) hM hS hx.at_ ht.at_ hx.is ht.is h1t h0 hv hp hne'
    hw hb hfb hst h
  have hk : R.which = k := ht.is.which
  rw [hk]
  exact ⟨a, f, own', ht.val, g1, g2⟩

/-- **C51** is false for contents of the same type (finding F20): `x` is move-assigned `t`, with one of them a part of the other and
both in place or both in backups. The library swaps the pointers of the two wrappers. The assignment succeeds, the outer one of
the two variants has the value of the inner one, and nothing else has changed; but the old node of the outer one now is a part
of itself: its memory is still there and belongs to no variable. -/
theorem C51_swap_leaks (hr : s.Represents σ own) (hf : s.Fresh) (hB : σ.Bound C.wrapped n)
    (hi : t.inside x = true ∨ x.inside t = true) {lv rv : TVar V} (hlv : x.variant s = some lv) (hrv : t.variant s = some rv)
    (hk : lv.which = rv.which) (hb : (∃ k c, lv = .plain k c) ↔ (∃ k c, rv = .plain k c)) :
    ∃ u0 u s' own', σ.at x = some u0 ∧ σ.at t = some u ∧ TCmd.code C n (.moveAssign x t) s = .ok () s' ∧
      s'.Stores (if t.inside x = true then σ.put x u else σ.put t u0) own' ∧ ∃ p, s'.heap p ≠ none ∧ ∀ y, p ∉ own' y := by
  obtain ⟨α, hM, hS, _⟩ := hr.mem hf
  obtain ⟨l, L, u0, hx, rfl, h0, h0t⟩ := hM.side hS hB hlv
  obtain ⟨r, R, u, ht, rfl, h1, h1t⟩ := hM.side hS hB hrv
  have hpl : ∀ T : ATree V, (∃ k c, T.var = .plain k c) ↔ T.box = none := fun T =>
    ⟨fun ⟨_, _, h⟩ => (var_plain h).1, fun h => ⟨_, _, var_none h⟩⟩
  rw [hpl, hpl] at hb
  rw [var_which, var_which] at hk
  obtain ⟨s', own', g1, g2, g3⟩ := tMoveAssign_leaks (C := C) (n := n) hM hS hx ht h0t h1t hk hb hi
  exact ⟨u0, u, s', own', hx.val, ht.val, g1, g2, g3⟩

end

/-! ### Non-vacuity -/

/-- Does the statement end in undefined behaviour? -/
def tFaults (fb : Option TyIx) (bad : List Nat) (cs : List (TCmd Nat)) (c : TCmd Nat) (st : Bool := false) : Bool :=
  match c.code (exTree fb bad st) 4096 (tAfter fb bad cs st) with
  | .fault .ub => true
  | _ => false

/-- C46: the node `2` is assigned its second member, which copies first; its first member, which does not; and the same when
it is in a heap backup. With a fallback type, and with a member whose copy constructor is nothrow, the content is destroyed
first even then. -/
example : (tAfter none [] (exTreeProg.take 5 ++ [.assign ⟨2, []⟩ ⟨2, [1]⟩])).vars 2 = some (.plain 2 (.leaf 6)) ∧
    tFaults none [] (exTreeProg.take 5) (.assign ⟨2, []⟩ ⟨2, [0]⟩) = true ∧
    (tAfter none [35] (exTreeProg ++ [.assign ⟨2, []⟩ ⟨2, [0]⟩])).vars 2 = some (.plain 0 (.leaf 5)) ∧
    (tAfter none [35] (exTreeProg ++ [.assign ⟨2, []⟩ ⟨2, [0]⟩])).heap 6 = none ∧
    tFaults (some 0) [] (exTreeProg.take 5) (.assign ⟨2, []⟩ ⟨2, [0]⟩) = true ∧
    tFaults none [] [.leaf 0 3 5, .node 1 1 2 [⟨0, []⟩]] (.assign ⟨1, []⟩ ⟨1, [0]⟩) = true := by
  decide +kernel

/-- C46: a node that is assigned a node in it; a part that is assigned a part of itself. -/
example : (tAfter none [] (exTreeProg.take 5 ++ [.assign ⟨3, []⟩ ⟨3, [0]⟩])).vars 3 = some (.plain 1 (.wrap 2)) ∧
    (tAfter none [] (exTreeProg.take 5 ++ [.assign ⟨3, []⟩ ⟨3, [0]⟩])).heap 2 = some (.node 7 [.plain 0 (.leaf 5), .plain 2 (.leaf 6)]) ∧
    (tAfter none [] (exTreeProg.take 5 ++ [.assign ⟨3, []⟩ ⟨3, [0]⟩])).heap 3 = none ∧
    (tAfter none [] (exTreeProg.take 4 ++ [.assign ⟨3, [0]⟩ ⟨3, [0, 1]⟩])).heap 2 =
      some (.node 8 [.plain 2 (.leaf 6), .plain 0 (.leaf 5), .plain 2 (.leaf 6)]) ∧
    tFaults none [] (exTreeProg.take 4) (.assign ⟨3, [0]⟩ ⟨3, [0, 0]⟩) = true := by
  decide +kernel

/-- C46: the hypotheses of all three statements, at places inside a tree. -/
example : ∃ σ own, (tAfter none [] (exTreeProg.take 4)).Represents σ own ∧ (tAfter none [] (exTreeProg.take 4)).Fresh ∧
    σ.Bound (exTree none []).wrapped 16 ∧
    TPlace.variant (tAfter none [] (exTreeProg.take 4)) ⟨3, [0]⟩ = some (.plain 1 (.wrap 3)) ∧
    TPlace.variant (tAfter none [] (exTreeProg.take 4)) ⟨3, [0, 0]⟩ = some (.plain 0 (.leaf 5)) ∧
    TPlace.variant (tAfter none [] (exTreeProg.take 4)) ⟨3, [0, 1]⟩ = some (.plain 2 (.leaf 6)) ∧
    TPlace.inside ⟨3, [0, 1]⟩ ⟨3, [0]⟩ = true ∧
    (exTree none []).CopiesFirst (.plain 1 (.wrap 3)) 2 ∧ ¬ (exTree none []).CopiesFirst (.plain 1 (.wrap 3)) 0 := by
  obtain ⟨σ, own, h1, h2, h3, _⟩ := exTree_bound (st := false)
  refine ⟨σ, own, h1, h2, h3, ?_⟩
  simp only [copiesFirst_iff]
  decide +kernel

/-- C46: a node assigned to a plain member of it. -/
example : tFaults none [] (exTreeProg.take 4) (.assign ⟨3, [1]⟩ ⟨3, []⟩) = true ∧
    tFaults none [] (exTreeProg.take 4) (.assign ⟨3, [2]⟩ ⟨3, []⟩) = true ∧
    tFaults (some 0) [] (exTreeProg.take 4) (.assign ⟨3, [0, 0]⟩ ⟨3, [0]⟩) = true := by
  decide +kernel

/-- C46: the last statement applies to it. -/
example (s' : TreeSt Nat) : TCmd.code (exTree none []) 16 (.assign ⟨3, [0, 1]⟩ ⟨3, []⟩) (tAfter none [] (exTreeProg.take 4)) ≠ .ok () s' := by
  obtain ⟨σ, own, h1, h2, h3, _⟩ := exTree_bound (st := false)
  exact C46_part_of_right_side (lv := .plain 2 (.leaf 6)) (k' := 1) (c' := .wrap 2) natOps_lawful h1 h2 h3 (by decide)
    (by decide +kernel) (by decide +kernel) nofun

/-- C51: a node in a heap backup is move-assigned its first member, which is copied first; one in place is not. -/
example : (tAfter none [35] (exTreeProg ++ [.moveAssign ⟨2, []⟩ ⟨2, [0]⟩])).vars 2 = some (.plain 0 (.leaf 5)) ∧
    (tAfter none [35] (exTreeProg ++ [.moveAssign ⟨2, []⟩ ⟨2, [0]⟩])).heap 6 = none ∧
    tFaults none [35] exTreeProg (.moveAssign ⟨2, []⟩ ⟨2, [1]⟩) = true ∧
    tFaults none [] (exTreeProg.take 4) (.moveAssign ⟨3, []⟩ ⟨3, [1]⟩) = true ∧
    tFaults none [] (exTreeProg.take 4) (.moveAssign ⟨3, []⟩ ⟨3, [2]⟩) = true ∧
    tFaults (some 0) [] (exTreeProg.take 4) (.moveAssign ⟨3, [0]⟩ ⟨3, [0, 1]⟩) = true := by
  decide +kernel

/-- C51: the hypotheses of the first statement and of the second. -/
example : ∃ σ own, (tAfter none [35] exTreeProg).Represents σ own ∧ (tAfter none [35] exTreeProg).Fresh ∧
    σ.Bound (exTree none [35]).wrapped 4096 ∧
    TPlace.variant (tAfter none [35] exTreeProg) ⟨2, []⟩ = some (.backup 1 6) ∧
    TPlace.variant (tAfter none [35] exTreeProg) ⟨2, [0]⟩ = some (.plain 0 (.leaf 5)) ∧
    TPlace.variant (tAfter none [35] exTreeProg) ⟨2, [1]⟩ = some (.plain 2 (.leaf 6)) ∧
    (exTree none [35]).MoveCopiesFirst (.backup 1 6) 0 ∧ ¬ (exTree none [35]).MoveCopiesFirst (.backup 1 6) 2 := by
  obtain ⟨σ, own, _, h1, h2, h3⟩ := tAfter_rep (fb := none) (bad := [35]) (st := false) (cs := exTreeProg) nofun (by decide)
    (by decide +kernel)
  refine ⟨σ, own, h1, h2, h3, ?_⟩
  simp only [moveCopiesFirst_iff]
  decide +kernel

/-- C51: `3` is move-assigned its first member, and the first member `3`: both give `3` the node of the member, and the old node is
its own first member. -/
example : (tAfter none [] (exTreeProg.take 4 ++ [.moveAssign ⟨3, []⟩ ⟨3, [0]⟩])).vars 3 = some (.plain 1 (.wrap 3)) ∧
    (tAfter none [] (exTreeProg.take 4 ++ [.moveAssign ⟨3, []⟩ ⟨3, [0]⟩])).heap 2 =
      some (.node 8 [.plain 1 (.wrap 2), .plain 0 (.leaf 5), .plain 2 (.leaf 6)]) ∧
    (tAfter none [] (exTreeProg.take 4 ++ [.moveAssign ⟨3, [0]⟩ ⟨3, []⟩])).vars 3 = some (.plain 1 (.wrap 3)) ∧
    (tAfter none [] (exTreeProg.take 4 ++ [.moveAssign ⟨3, [0]⟩ ⟨3, []⟩])).heap 2 =
      some (.node 8 [.plain 1 (.wrap 2), .plain 0 (.leaf 5), .plain 2 (.leaf 6)]) := by
  decide +kernel

/-- C51: the statement on leaks applies to it. -/
example : ∃ (s' : TreeSt Nat) (own' : Nat → List ObjId),
    TCmd.code (exTree none []) 16 (.moveAssign ⟨3, []⟩ ⟨3, [0]⟩) (tAfter none [] (exTreeProg.take 4)) = .ok () s' ∧
    (∃ p, s'.heap p ≠ none ∧ ∀ y, p ∉ own' y) ∧
    s'.HasVal 3 (.node 1 7 (.cons (.leaf 0 5) (.cons (.leaf 2 6) .nil))) (own' 3) := by
  obtain ⟨σ, own, h1, h2, h3, h4⟩ := exTree_bound (st := false)
  obtain ⟨u0, u, s', own', _, g1, g2, g3, g4⟩ := C51_swap_leaks (C := exTree none []) (n := 16) (x := ⟨3, []⟩) (t := ⟨3, [0]⟩)
    (lv := .plain 1 (.wrap 2)) (rv := .plain 1 (.wrap 3)) h1 h2 h3 (.inl (by decide)) (by decide +kernel) (by decide +kernel) rfl
    ⟨fun _ => ⟨_, _, rfl⟩, fun _ => ⟨_, _, rfl⟩⟩
  have hu : u = .node 1 7 (.cons (.leaf 0 5) (.cons (.leaf 2 6) .nil)) := by
    simp only [TStore.at, h4] at g1
    exact (Option.some.inj g1).symm
  subst hu
  rw [if_pos (by decide)] at g3
  exact ⟨s', own', g2, g4, g3.val 3 _ (by simp only [TStore.put, upd, h4, if_true]; rfl)⟩

/-- C46, C51: the statements at those places. -/
example : ∃ σ own, (tAfter none [] (exTreeProg.take 4)).Represents σ own ∧
    ∃ u, σ.at ⟨3, [0, 1]⟩ = some u ∧ ∃ s' own',
      TCmd.code (exTree none []) 16 (.assign ⟨3, [0]⟩ ⟨3, [0, 1]⟩) (tAfter none [] (exTreeProg.take 4)) = .ok () s' ∧
      s'.Represents (σ.put ⟨3, [0]⟩ u) own' := by
  obtain ⟨σ, own, h1, h2, h3, _⟩ := exTree_bound (st := false)
  obtain ⟨u, hu, ⟨s', own', g1, g2⟩ | ⟨e, s', σ', own', -, -, -, g⟩⟩ := C46_assign_from_own_part_partial (C := exTree none [])
    (x := ⟨3, [0]⟩) (t := ⟨3, [0, 1]⟩) (lv := .plain 1 (.wrap 3)) (k' := 2) (c' := .leaf 6) natOps_lawful h1 h2 h3 (by decide)
    (by decide +kernel) (by decide +kernel) (.inr ((copiesFirst_iff ..).mpr (by decide +kernel)))
  · exact ⟨σ, own, h1, u, hu, s', own', g1, g2⟩
  · cases g
example : TCmd.code (exTree none []) 16 (.assign ⟨3, [0]⟩ ⟨3, [0, 0]⟩) (tAfter none [] (exTreeProg.take 4)) = .fault .ub := by
  obtain ⟨σ, own, h1, h2, h3, _⟩ := exTree_bound (st := false)
  rcases C46_destroyed_before_read (C := exTree none []) (x := ⟨3, [0]⟩) (t := ⟨3, [0, 0]⟩) (lv := .plain 1 (.wrap 3)) (k' := 0)
    (c' := .leaf 5) natOps_lawful h1 h2 h3 (by decide) (by decide +kernel) (by decide +kernel) nofun
    (fun h => absurd ((copiesFirst_iff ..).mp h) (by decide +kernel)) with h | ⟨e, s', -, g, -⟩
  · exact h
  · cases g
example : ∃ σ own, (tAfter none [35] exTreeProg).Represents σ own ∧ ∃ u, σ.at ⟨2, [0]⟩ = some u ∧
    ((∃ s' own', TCmd.code (exTree none [35]) 4096 (.moveAssign ⟨2, []⟩ ⟨2, [0]⟩) (tAfter none [35] exTreeProg) = .ok () s' ∧
        s'.Represents (σ.put ⟨2, []⟩ u) own') ∨
      ∃ e s' own', TCmd.code (exTree none [35]) 4096 (.moveAssign ⟨2, []⟩ ⟨2, [0]⟩) (tAfter none [35] exTreeProg) = .exc e s' ∧
        s'.Represents σ own' ∧ (exTree none [35]).throws e.tick = true) := by
  obtain ⟨σ, own, _, h1, h2, h3⟩ := tAfter_rep (fb := none) (bad := [35]) (st := false) (cs := exTreeProg) nofun (by decide)
    (by decide +kernel)
  exact ⟨σ, own, h1, C51_move_from_own_part_partial (lv := .backup 1 6) (k' := 0) (c' := .leaf 5) natOps_lawful h1 h2 h3
    (by decide) (by decide +kernel) (by decide +kernel) ((moveCopiesFirst_iff ..).mpr (by decide +kernel))⟩
example : TCmd.code (exTree none []) 16 (.moveAssign ⟨3, []⟩ ⟨3, [1]⟩) (tAfter none [] (exTreeProg.take 4)) = .fault .ub := by
  obtain ⟨σ, own, h1, h2, h3, _⟩ := exTree_bound (st := false)
  rcases C51_destroyed_before_read (C := exTree none []) (x := ⟨3, []⟩) (t := ⟨3, [1]⟩) (lv := .plain 1 (.wrap 2)) (k' := 0)
    (c' := .leaf 5) natOps_lawful h1 h2 h3 (by decide) (by decide +kernel) (by decide +kernel) nofun
    (fun h => absurd ((moveCopiesFirst_iff ..).mp h) (by decide +kernel)) with h | ⟨e, s', -, g, -⟩
  · exact h
  · cases g

/-- C51: `3`, with a node in it, is move-assigned to a plain member of that node. Without a fallback type, or if members are moved one by one, this is
undefined; so it is with a member of `3` itself. But if the list of members is taken over, `3` is left without members, its new node `4` has
the inner node `3`, and that has the new node `4`. -/
example : tFaults none [] (exTreeProg.take 4) (.moveAssign ⟨3, [0, 0]⟩ ⟨3, []⟩) (st := true) = true ∧
    tFaults (some 0) [] (exTreeProg.take 4) (.moveAssign ⟨3, [0, 0]⟩ ⟨3, []⟩) = true ∧
    tFaults (some 0) [] (exTreeProg.take 4) (.moveAssign ⟨3, [1]⟩ ⟨3, []⟩) (st := true) = true ∧
    (tAfter (some 0) [] (exTreeProg.take 4 ++ [.moveAssign ⟨3, [0, 0]⟩ ⟨3, []⟩]) (st := true)).vars 3 = some (.plain 1 (.wrap 2)) ∧
    (tAfter (some 0) [] (exTreeProg.take 4 ++ [.moveAssign ⟨3, [0, 0]⟩ ⟨3, []⟩]) (st := true)).heap 2 = some (.node 0 []) ∧
    (tAfter (some 0) [] (exTreeProg.take 4 ++ [.moveAssign ⟨3, [0, 0]⟩ ⟨3, []⟩]) (st := true)).heap 4 =
      some (.node 8 [.plain 1 (.wrap 3), .plain 0 (.leaf 5), .plain 2 (.leaf 6)]) ∧
    (tAfter (some 0) [] (exTreeProg.take 4 ++ [.moveAssign ⟨3, [0, 0]⟩ ⟨3, []⟩]) (st := true)).heap 3 =
      some (.node 7 [.plain 1 (.wrap 4), .plain 2 (.leaf 6)]) := by
  decide +kernel

/-- C51: the two statements at those places. -/
example (s' : TreeSt Nat) :
    TCmd.code (exTree none [] true) 16 (.moveAssign ⟨3, [0, 0]⟩ ⟨3, []⟩) (tAfter none [] (exTreeProg.take 4) true) ≠ .ok () s' := by
  obtain ⟨σ, own, h1, h2, h3, _⟩ := exTree_bound (st := true)
  exact C51_part_of_right_side (lv := .plain 0 (.leaf 5)) (k' := 1) (c' := .wrap 2) natOps_lawful h1 h2 h3 (by decide)
    (by decide +kernel) (by decide +kernel) nofun (.inl rfl)
example (s' : TreeSt Nat) :
    TCmd.code (exTree (some 0) []) 4096 (.moveAssign ⟨3, [0, 0]⟩ ⟨3, []⟩) (tAfter (some 0) [] (exTreeProg.take 4)) ≠ .ok () s' := by
  obtain ⟨σ, own, _, h1, h2, h3⟩ := tAfter_rep (fb := some 0) (bad := []) (st := false) (cs := exTreeProg.take 4)
    (fun k h => by cases h; rfl) (by decide) (by decide +kernel)
  exact C51_part_of_right_side (lv := .plain 0 (.leaf 5)) (k' := 1) (c' := .wrap 2) natOps_lawful h1 h2 h3 (by decide)
    (by decide +kernel) (by decide +kernel) nofun (.inr fun _ => rfl)
example : ∃ s', TCmd.code (exTree (some 0) [] true) 4096 (.moveAssign ⟨3, [0, 0]⟩ ⟨3, []⟩) (tAfter (some 0) [] (exTreeProg.take 4) true) =
    .ok () s' ∧ ∃ σ' own', s'.Stores σ' own' ∧ ∃ p, s'.heap p ≠ none ∧ ∀ y, p ∉ own' y := by
  obtain ⟨σ, own, _, h1, h2, h3⟩ := tAfter_rep (fb := some 0) (bad := []) (st := true) (cs := exTreeProg.take 4)
    (fun k h => by cases h; rfl) (by decide) (by decide +kernel)
  have hsome : (tOkState (exTree (some 0) [] true) (.moveAssign ⟨3, [0, 0]⟩ ⟨3, []⟩) (tAfter (some 0) [] (exTreeProg.take 4) true)).isSome =
      true := by decide +kernel
  obtain ⟨s', hs⟩ := Option.isSome_iff_exists.mp hsome
  have hs := tOkState_run hs
  obtain ⟨a, f, own', _, g1, g2⟩ := C51_part_of_right_side_leaks (lv := .plain 0 (.leaf 5)) (k' := 1) (c' := .wrap 2) h1 h2 h3 (by decide)
    (by decide +kernel) (by decide +kernel) nofun rfl rfl hs
  exact ⟨s', hs, _, own', g1, g2⟩

end BVariant
