/-
C68, continued: exactly what can leave an assignment of a value.
-/
import Verif.Props.CanThrowSame

namespace BVariant

section
variable {V : Type} {C : Cfg V} {w w' : World V} {k kr : TyIx} {e : ExcKind} {m : Mode}

/-- Specification: for some choice of the operations that throw, in some reached state, `x = t`, for a variant that holds type `k` and an operand
that gives type `kr`, lets an exception of kind `e` out. -/
def ValueCanThrow (C : Cfg V) (m : Mode) (k kr : TyIx) (e : ExcKind) : Prop :=
  ∃ f w x vx v ex w', ReachedBy (C.withThrows f) w ∧ w.holds x k vx ∧ (valueAssign m x kr v).code (C.withThrows f) w = .exc ex w' ∧ ex.kind = e

/-- Specification: what constructing an object of type `kr` from the operand can throw. -/
def BuildThrows (C : Cfg V) (kr : TyIx) (e : ExcKind) : Mode → Prop
  | .L | .VL => e = .copyCtor kr ∧ (C.tr kr).nothrowCopy = false
  | .R | .VR => e = .moveCtor kr ∧ (C.tr kr).nothrowMove = false
  | .C => e = .convert kr ∨ e = .moveCtor kr ∧ (C.tr kr).nothrowMove = false

/-- Specification: what `x = t` can throw if `x` holds type `k` and the operand gives type `kr`. An operand of the held type is assigned to the content.
From any other a temporary is made and moved to `x`. -/
def ValueThrows (C : Cfg V) (m : Mode) (k kr : TyIx) (e : ExcKind) : Prop :=
  if k = kr ∧ m = .L then e = .copyAssign k
  else if k = kr ∧ m = .R then e = .moveAssign k ∧ (C.tr k).nothrowMoveAssign = false
  else BuildThrows C kr e m ∨ if k = kr then MoveSameThrows C k e else MoveThrows C k kr e

/-- The operation throws, or is stopped in a cleanup. -/
def Stops {α : Type} (a : M V α) (w : World V) (e : ExcKind) : Prop := (∃ ex w', a w = .exc ex w' ∧ ex.kind = e) ∨ ∃ g, a w = .fault g

theorem Stops.withLocal {α : Type} {a : M V α} {b : M V Unit} (h : Stops a w e) : Stops (M.withLocal a b) w e := by
  rcases h with ⟨ex, w', h, rfl⟩ | ⟨g, h⟩
  · simp only [Stops, M.withLocal, h]
    cases b w' with
    | ok _ w'' => exact .inl ⟨ex, w'', rfl, rfl⟩
    | exc _ _ => exact .inr ⟨_, rfl⟩
    | fault g => exact .inr ⟨g, rfl⟩
  · exact .inr ⟨g, by simp only [M.withLocal, h]⟩

theorem Stops.bind {α β : Type} {a : M V α} {b : α → M V β} (h : Stops a w e) : Stops (a >>= b) w e := by
  rcases h with ⟨ex, w', h, rfl⟩ | ⟨g, h⟩
  · exact .inl ⟨ex, w', by simp only [Bind.bind, M.bind, h], rfl⟩
  · exact .inr ⟨g, by simp only [Bind.bind, M.bind, h]⟩

theorem Stops.then {α β : Type} {a : M V α} {b : α → M V β} {x : α} (ha : a w = .ok x w') (h : Stops (b x) w' e) : Stops (a >>= b) w e := by
  have : (a >>= b) w = b x w' := by simp only [Bind.bind, M.bind, ha]
  simp only [Stops, this]
  exact h

theorem Stops.of_wp {α : Type} {a : M V α} {E : Exc → World V → Prop} (h : wp a (fun _ _ => False) E w) (hE : ∀ ex w', E ex w' → ex.kind = e) :
    Stops a w e := by
  rcases wp_elim h with ⟨_, _, _, hh⟩ | ⟨ex, w', hh, hex⟩
  · exact hh.elim
  · exact .inl ⟨ex, w', hh, hE _ _ hex⟩

/-- The state in which the library is called: the operand of the program exists. -/
def operandWorld (m : Mode) (kr : TyIx) (v : V) (w : World V) : World V := if m = .C then w else addElem kr v w

/-- An assignment in the program throws what the library call throws. -/
theorem Stops.valueAssign {x : Nat} {v : V} (h : Stops (assignValue C (.user x) (m.src kr v w.next)) (operandWorld m kr v w) e) :
    Stops ((valueAssign m x kr v).code C) w e := by
  cases m with
  | C => exact h
  | L | R | VL | VR => exact Stops.then (x := w.next) (w' := addElem kr v w) rfl (Stops.withLocal h)

/-- A value assignment that stops shows what can be thrown. -/
theorem Stops.canThrow (hs : Sane C) {f : Nat → Bool} (hre : ReachedBy (C.withThrows f) w) {x : Nat} {vx v : V} (hkr : kr < C.n) (hx : w.holds x k vx)
    (h : Stops (assignValue (C.withThrows f) (.user x) (m.src kr v w.next)) (operandWorld m kr v w) e) : ValueCanThrow C m k kr e := by
  have hg := hre.good (hs.withThrows f)
  obtain ⟨sx, ix, hxo⟩ := hg.holds hx
  have hwp := wp_valueAssign (v := v) (hs.withThrows f).blank hg m hxo (show kr < (C.withThrows f).n from hkr)
  rcases h.valueAssign with ⟨ex, w', h, he⟩ | ⟨g, h⟩
  · exact ⟨f, w, x, vx, v, ex, w', hre, hx, h, he⟩
  · simp only [wp, h] at hwp

/-- The direct part is not used. -/
theorem directAssign_no {l : VarId} {s : VarSt} {i : ObjId} {vl : V} {src : Src V} (hl : Owns C w l s i k vl) (hh : ¬ src.holds k) :
    directAssign C l src w = .ok false w := by
  rw [directAssign, applyVisitor_eq C _ hl.var hl.rep hl.obj]
  cases src with
  | lref k r f => have : ¬ (f = false ∧ _ = k) := hh; simp only [this, if_false]; rfl
  | rref k r f => have : ¬ (f = false ∧ _ = k) := hh; simp only [this, if_false]; rfl
  | conv k v => rfl

/-- Operations that may throw in the construction of the temporary. -/
def Mode.ticks : Mode → Nat
  | .C => 2
  | _ => 1

/-- The state after the temporary has been constructed. -/
structure TempBuilt (w w1 : World V) (kr : TyIx) (n t : Nat) : Prop where
  vars : w1.vars = upd w.vars (.tmp 0) (some ⟨(kr : Int), .obj (n + 1)⟩)
  low : ∀ i, i < n → w1.objs i = w.objs i
  obj : ∃ a, w1.objs (n + 1) = some (kr, a)
  next : w1.next = n + 2
  tick : w1.tick = t
  sub : w1.sub = w.sub

theorem tempBuilt (m : Mode) (kr : TyIx) (v : V) {n t : Nat} (hn : w.next = n) (ht : w.tick = t) (hfl : ∀ i, w.sub i = [])
    (hq : ∀ u, t ≤ u → u < t + m.ticks → C.throws u = false) :
    ∃ w1, convertConstruct C (.tmp 0) (m.src kr v w.next) (operandWorld m kr v w) = .ok () w1 ∧ TempBuilt w w1 kr n (t + m.ticks) := by
  suffices h : wp (convertConstruct C (.tmp 0) (m.src kr v w.next)) (fun _ w1 => TempBuilt w w1 kr n (t + m.ticks)) (fun _ _ => False)
      (operandWorld m kr v w) by
    rcases wp_elim h with ⟨_, w1, h1, h2⟩ | ⟨_, _, _, h⟩
    · exact ⟨w1, h1, h2⟩
    · exact h.elim
  have q0 : C.throws t = false := hq t (Nat.le_refl _) (by cases m <;> simp [Mode.ticks])
  subst hn ht
  have e1 : w.next ≠ w.next + 1 := by omega
  have low : ∀ (o : ObjId → Option (TyIx × V)) a b c, ∀ i, i < w.next → upd (upd (upd o w.next a) w.next b) (w.next + 1) c i = o i := by
    intro o a b c i hi
    rw [upd_ne _ _ (by omega), upd_ne _ _ (by omega), upd_ne _ _ (by omega)]
  cases m with
  | L | VL =>
    simp only [Mode.src, operandWorld, addElem, convertConstruct, initializeFrom, wp_bind, wpx_copyCtor, upd_same, if_true, q0, Bool.false_eq_true,
      and_false, if_false, wp_pure, wp_beginVar, indicateWhich, reduceCtorEq]
    refine ⟨rfl, fun i hi => ?_, ⟨_, upd_same _ _ _⟩, rfl, rfl, rfl⟩
    show upd (upd _ _ _) _ _ i = _
    rw [upd_ne _ _ (by omega), upd_ne _ _ (by omega)]
  | R | VR =>
    simp only [Mode.src, operandWorld, addElem, convertConstruct, initializeFrom, wp_bind, wpx_moveCtor, upd_same, if_true, q0, Bool.false_eq_true,
      and_false, if_false, wp_pure, wp_beginVar, indicateWhich, reduceCtorEq]
    exact ⟨rfl, low _ _ _ _, ⟨_, upd_same _ _ _⟩, rfl, rfl, rfl⟩
  | C =>
    have q1 : C.throws (w.tick + 1) = false := hq _ (by omega) (by simp [Mode.ticks])
    simp only [Mode.src, operandWorld, convertConstruct, initializeFrom, wp_bind, wpx_moveCtor, upd_same, if_true, q0, q1, Bool.false_eq_true,
      and_false, if_false, wp_pure, wp_beginVar, indicateWhich, wp_mayThrow, wp_newObj, wp_withLocal, wpx_destroyObj, upd_ne _ _ e1, hfl, implies_true]
    refine ⟨rfl, fun i hi => ?_, ⟨C.ops.move kr v, ?_⟩, rfl, rfl, rfl⟩
    · show upd _ _ _ i = _
      rw [upd_ne _ _ (by omega)]; exact low _ _ _ _ i hi
    · show upd _ _ _ (w.next + 1) = _
      rw [upd_ne _ _ (by omega), upd_same]

/-- The construction of the temporary throws. -/
theorem build_stops (v : V) (t : Nat) (h : BuildThrows C kr e m) :
    ∃ u, t ≤ u ∧ ∀ (f : Nat → Bool) (w : World V), w.tick = t → (∀ i, w.sub i = []) → (∀ s, t ≤ s → s < u → f s = false) → f u = true →
      Stops (convertConstruct (C.withThrows f) (.tmp 0) (m.src kr v w.next)) (operandWorld m kr v w) e := by
  have tr : ∀ f k, (C.withThrows f).tr k = C.tr k := fun _ _ => rfl
  have th : ∀ (f : Nat → Bool) t, (C.withThrows f).throws t = f t := fun _ _ => rfl
  cases m with
  | L | VL =>
    obtain ⟨rfl, hc⟩ := h
    refine ⟨t, Nat.le_refl _, fun f w ht hfl _ hf => Stops.of_wp (E := fun ex _ => ex.kind = .copyCtor kr) ?_ fun _ _ h => h⟩
    simp only [Mode.src, operandWorld, addElem, convertConstruct, initializeFrom, wp_bind, wpx_copyCtor, upd_same, if_true, tr, th, ht, hf, hc,
      and_self, reduceCtorEq, if_false]
  | R | VR =>
    obtain ⟨rfl, hc⟩ := h
    refine ⟨t, Nat.le_refl _, fun f w ht hfl _ hf => Stops.of_wp (E := fun ex _ => ex.kind = .moveCtor kr) ?_ fun _ _ h => h⟩
    simp only [Mode.src, operandWorld, addElem, convertConstruct, initializeFrom, wp_bind, wpx_moveCtor, upd_same, if_true, tr, th, ht, hf, hc,
      and_self, reduceCtorEq, if_false]
  | C =>
    rcases h with rfl | ⟨rfl, hc⟩
    · refine ⟨t, Nat.le_refl _, fun f w ht hfl _ hf => Stops.of_wp (E := fun ex _ => ex.kind = .convert kr) ?_ fun _ _ h => h⟩
      simp only [Mode.src, operandWorld, convertConstruct, initializeFrom, wp_bind, wp_mayThrow, th, ht, hf, if_true, and_self]
    · refine ⟨t + 1, by omega, fun f w ht hfl h0 hf => Stops.of_wp (E := fun ex _ => ex.kind = .moveCtor kr) ?_ fun _ _ h => h⟩
      have q0 := h0 t (Nat.le_refl _) (by omega)
      simp only [Mode.src, operandWorld, convertConstruct, initializeFrom, wp_bind, wp_mayThrow, th, tr, ht, hf, hc, q0, if_true, and_self, wp_newObj,
        wp_withLocal, wpx_moveCtor, upd_same, Bool.false_eq_true, and_false, if_false, wpx_destroyObj, hfl, implies_true]

/-- The move from the temporary throws. -/
theorem move_stops (hs : Sane C) (hk : k < C.n) (hkr : kr < C.n) (hne : k ≠ kr) (h : MoveThrows C k kr e) :
    ∃ o, ∀ (f : Nat → Bool) (w : World V) l r i j n t, At w l r k kr i j n t → (∀ u, t ≤ u → u < t + o → f u = false) → f (t + o) = true →
      Stops (variantMoveAssign (C.withThrows f) l r) w e := by
  have fin : ∀ (f : Nat → Bool) (w : World V) l r (E : Exc → World V → Prop), (∀ ex w', E ex w' → ex.kind = e) →
      wp (moveAssign (C.withThrows f) l r) (fun _ _ => False) E w → Stops (variantMoveAssign (C.withThrows f) l r) w e := by
    intro f w l r E hE h
    rw [moveAssign, wp_noexceptIf] at h
    exact Stops.of_wp h fun _ _ h => hE _ _ h.2
  rcases h with ⟨rfl, hf, hm, hc⟩ | ⟨rfl, hb⟩ | ⟨rfl | rfl, hb, hm⟩
  · exact ⟨0, fun f w l r i j n t ha _ ht => fin f w l r _ (fun _ _ h => h.1) (ha.fallbackMove (C := C.withThrows f) hs.blank hk hkr hne hf hm hc ht)⟩
  · cases hmk : (C.tr k).nothrowMove with
    | true =>
      refine ⟨1, fun f w l r i j n t ha _ ht => ?_⟩
      have := ha.backupMoved (C := C.withThrows f) hk hb.2.2 hmk ht
      rw [← ha.moveIsBackup (C := C.withThrows f) hkr hne hb] at this
      exact fin f w l r _ (fun _ _ h => h.1) this
    | false =>
      refine ⟨2, fun f w l r i j n t ha hq ht => ?_⟩
      have := ha.backupHeap2 (C := C.withThrows f) hk hmk hb.2.2 (hq t (by omega) (by omega)) (hq (t + 1) (by omega) (by omega)) ht
      rw [← ha.moveIsBackup (C := C.withThrows f) hkr hne hb] at this
      exact fin f w l r _ (fun _ _ h => h.1) this
  · refine ⟨0, fun f w l r i j n t ha hq ht => ?_⟩
    have := ha.backupHeap0 (C := C.withThrows f) hk hm ht
    rw [← ha.moveIsBackup (C := C.withThrows f) hkr hne hb] at this
    exact fin f w l r _ (fun _ _ h => h.1) this
  · refine ⟨1, fun f w l r i j n t ha hq ht => ?_⟩
    have := ha.backupHeap1 (C := C.withThrows f) hk hm (hs.mayBackup hb hk hkr hm).2.2 (hq t (by omega) (by omega)) ht
    rw [← ha.moveIsBackup (C := C.withThrows f) hkr hne hb] at this
    exact fin f w l r _ (fun _ _ h => h.1) this

/-- The operand is assigned to the content only if it is an element of the held type. -/
theorem src_holds_iff (m : Mode) {v : V} {i : ObjId} : (m.src kr v i).holds k ↔ m.direct = true ∧ k = kr := by
  cases m <;> simp [Mode.src, Src.holds, Mode.direct]

/-- An assignment from a temporary stops where the temporary's move stops. -/
theorem assign_stops {l : VarId} {s : VarSt} {i : ObjId} {vl : V} {src : Src V} {w1 : World V} (hl : Owns C w l s i k vl) (hh : ¬ src.holds k)
    (h1 : convertConstruct C (.tmp 0) src w = .ok () w1) (h : Stops (variantMoveAssign C l (.tmp 0)) w1 e) : Stops (assignValue C l src) w e :=
  Stops.then (directAssign_no hl hh) (Stops.then (b := fun _ => M.withLocal (variantMoveAssign C l (.tmp 0)) (destroyVar C (.tmp 0))) h1 h.withLocal)

/-- An assignment through a temporary stops where the temporary's construction stops. -/
theorem assign_stops_build {l : VarId} {s : VarSt} {i : ObjId} {vl : V} {src : Src V} (hl : Owns C w l s i k vl) (hh : ¬ src.holds k)
    (h : Stops (convertConstruct C (.tmp 0) src) w e) : Stops (assignValue C l src) w e :=
  Stops.then (directAssign_no hl hh) h.bind

theorem operand_owns {l : VarId} {s : VarSt} {i : ObjId} {vl v : V} (hl : Owns C w l s i k vl) (hn : i ≠ w.next) :
    Owns C (operandWorld m kr v w) l s i k vl := by
  unfold operandWorld
  split
  · exact hl
  · exact ⟨hl.var, hl.rep, (upd_ne _ _ hn).trans hl.obj⟩

/-- C68, assignment of a value, what it throws is in the table. -/
theorem valueAssign_kind (hs : Sane C) {f : Nat → Bool} (v₀ : V) (hre : ReachedBy (C.withThrows f) w) {x : Nat} {vx v : V} (hkr : kr < C.n)
    (hx : w.holds x k vx) {ex : Exc} (h : (valueAssign m x kr v).code (C.withThrows f) w = .exc ex w') : ValueThrows C m k kr ex.kind := by
  have hg := hre.good (hs.withThrows f)
  obtain ⟨sx, ix, hxo⟩ := hg.holds hx
  have hel := (C14_exceptions_come_from_elements _ _ _ _ _ h).2
  have hbuild : m.excKind kr ex.kind → BuildThrows C kr ex.kind m := by
    intro he
    cases m with
    | L | VL | R | VR => refine ⟨he, ?_⟩; rw [show ex.kind = _ from he] at hel; exact hel
    | C =>
      rcases he with he | he
      · exact .inl he
      · refine .inr ⟨he, ?_⟩; rw [he] at hel; exact hel
  have hnd : m.direct = false ∨ k ≠ kr → ¬ (k = kr ∧ m = .L) ∧ ¬ (k = kr ∧ m = .R) := by
    rintro (hd | hd) <;> refine ⟨?_, ?_⟩ <;> rintro ⟨h1, rfl⟩
    · cases hd
    · cases hd
    · exact hd h1
    · exact hd h1
  rw [ValueThrows]
  rcases (wp_exc (wp_valueAssign (hs.withThrows f).blank hg m hxo hkr) h).2 with
    ⟨hd, hk, hek, _⟩ | ⟨hd, hek, _⟩ | ⟨hd, hw, hek, _⟩ | ⟨hd, hw, hek, _⟩
  · subst hk
    cases m with
    | L => simp; exact hek
    | R =>
      simp
      refine ⟨hek, ?_⟩
      rw [show ex.kind = _ from hek] at hel; exact hel
    | C | VL | VR => cases hd
  · rw [if_neg (hnd hd).1, if_neg (hnd hd).2]
    exact .inl (hbuild hek)
  · have hk : k = kr := (hxo.rep.same_which (Rep.inPlace (C := C.withThrows f) 0 kr hkr) hw).1
    rw [if_neg (hnd (.inl hd)).1, if_neg (hnd (.inl hd)).2, if_pos hk]
    refine .inr (.inl ⟨hek, ?_⟩)
    rw [hek] at hel; exact hel
  · rw [if_neg (hnd hd).1, if_neg (hnd hd).2]
    refine .inr ?_
    split
    · rename_i hk
      refine .inr ⟨hek.2 hk, hre.canBeBackedUp hs v₀ hxo ?_⟩
      rw [← hk] at hw
      rw [(hxo.rep.backed_of_ne hw).1]
      show -((k : Int) + 1) < 0
      omega
    · rcases hek.1 with he | ⟨hb, he | ⟨he, hm⟩⟩
      · exact .inl he
      · exact .inr (.inl ⟨he, hb⟩)
      · exact .inr (.inr ⟨he.symm, hb, hm⟩)

/-- Variable 0 has been put into a heap backup of type `k`, and any later operations throw. -/
theorem reached_backup_then {j : TyIx} (hk : k < C.n) (hj : j < C.n) (hne : k ≠ j) (hb : C.mayBackup j) (hm : (C.tr k).nothrowMove = false)
    {f : Nat → Bool} (hf : ∀ t, t < 6 → f t = false) (h6 : f 6 = true) (v : V) :
    ∃ w, ReachedBy (C.withThrows f) w ∧ BackedUp (C.withThrows f) w k j := by
  obtain ⟨w, hr, hp, -⟩ := prepared (C := C.withThrows f) hk hj (fun t ht => hf t (by omega)) v
  obtain ⟨e, w1, hc, hw1⟩ := hp.backup hk hj hne hb hm (hf 4 (by omega)) (hf 5 (by omega)) h6
  refine ⟨w1, ⟨[.constructC 0 k v, .constructC 1 j v] ++ [.copyAssign 0 1], ?_, .inr ?_⟩, hw1⟩
  · rw [run_append, hr]
    simp only [Option.bind, run, Cmd.valid, hp.v0, hp.v1, Option.isSome_some, Bool.and_self, if_true, hc]
  · rw [avoids_append (by intro c hc w; simp at hc; rcases hc with rfl | rfl <;> rfl) hr]
    simp only [avoidsBackupReads, Cmd.valid, hp.v0, hp.v1, Option.isSome_some, Bool.and_self, if_true, hc, Cmd.readsBackup, World.backedUp]
    simp

/-- C68, assignment of a value, everything in the table can be thrown: the content is assigned. -/
theorem direct_canThrow (hs : Sane C) (v : V) (hk : k < C.n) (hm : m = .L ∧ e = .copyAssign k ∨ m = .R ∧ e = .moveAssign k ∧ (C.tr k).nothrowMoveAssign = false) :
    ValueCanThrow C m k k e := by
  obtain ⟨w, hre, hp, h0, -⟩ := reached_prepared (C := C) hk hk (f := (· == 4)) (from4 4 (by omega)) v
  refine Stops.canThrow (v := v) hs hre hk h0 ?_
  obtain ⟨a, ol⟩ := hp.o0
  have hk' : k < (C.withThrows (· == 4)).n := hk
  have e1 : (1 : Nat) ≠ w.next := by rw [hp.next]; decide
  have h4 : (C.withThrows (· == 4)).throws w.tick = true := by rw [hp.tick]; rfl
  rcases hm with ⟨rfl, rfl⟩ | ⟨rfl, rfl, hna⟩
  · refine Stops.bind (Stops.of_wp (E := fun ex _ => ex.kind = .copyAssign k) ?_ fun _ _ h => h)
    rw [directAssign, wp_applyVisitor _ (w := operandWorld .L k v w) hp.v0 (.inPlace _ _ hk') ((upd_ne _ _ e1).trans ol)]
    simp only [Mode.src, and_self, if_true, wp_bind]
    rw [wpx_assignObj (w := operandWorld .L k v w) (vl := a) (vr := v) _ k ((upd_ne _ _ e1).trans ol) (upd_same _ _ _)]
    rw [if_pos (show (C.withThrows (· == 4)).throws (operandWorld .L k v w).tick = true from h4)]
  · refine Stops.bind (Stops.of_wp (E := fun ex _ => ex.kind = .moveAssign k) ?_ fun _ _ h => h)
    rw [directAssign, wp_applyVisitor _ (w := operandWorld .R k v w) hp.v0 (.inPlace _ _ hk') ((upd_ne _ _ e1).trans ol)]
    simp only [Mode.src, and_self, if_true, wp_bind]
    rw [wpx_moveAssignObj (w := operandWorld .R k v w) (vl := a) (vr := v) _ k e1 ((upd_ne _ _ e1).trans ol) (upd_same _ _ _)]
    rw [if_pos (show ((C.withThrows (· == 4)).tr k).nothrowMoveAssign = false ∧ (C.withThrows (· == 4)).throws (operandWorld .R k v w).tick = true from ⟨hna, h4⟩)]

/-- C68, assignment of a value, everything in the table can be thrown: a temporary is made. -/
theorem temp_canThrow (hs : Sane C) (v : V) (hk : k < C.n) (hkr : kr < C.n) (hd : ¬ (m.direct = true ∧ k = kr))
    (h : BuildThrows C kr e m ∨ if k = kr then MoveSameThrows C k e else MoveThrows C k kr e) : ValueCanThrow C m k kr e := by
  have atTemp : ∀ {f : Nat → Bool} {w w1 : World V}, Prepared (C.withThrows f) w k kr → TempBuilt w w1 kr 4 (4 + m.ticks) →
      At w1 (.user 0) (.tmp 0) k kr 1 5 6 (4 + m.ticks) := by
    intro f w w1 hp ht
    refine ⟨?_, ?_, ?_, ht.obj, by simp, by decide, by decide, by decide, ht.next, ht.tick, fun i => by rw [ht.sub]; exact hp.flat i⟩
    · rw [ht.vars, upd_ne _ _ (by simp)]; exact hp.v0
    · rw [ht.vars, upd_same]
    · rw [ht.low 1 (by decide)]; exact hp.o0
  have hh : ∀ i, ¬ (m.src kr v i).holds k := fun i => by rw [src_holds_iff]; exact hd
  -- the state in which variable 0 is in place
  have inPlace : ∀ (o : Nat), (∀ (f : Nat → Bool) (w : World V), At w (.user 0) (.tmp 0) k kr 1 5 6 (4 + m.ticks) →
      (∀ u, 4 + m.ticks ≤ u → u < 4 + m.ticks + o → f u = false) → f (4 + m.ticks + o) = true →
      Stops (variantMoveAssign (C.withThrows f) (.user 0) (.tmp 0)) w e) → ValueCanThrow C m k kr e := by
    intro o ho
    have hft : ∀ t, t < 4 + m.ticks + o → (· == 4 + m.ticks + o : Nat → Bool) t = false := fun t ht => by simp; omega
    obtain ⟨w, hre, hp, h0, -⟩ := reached_prepared (C := C) hk hkr (fun t ht => hft t (by omega)) v
    obtain ⟨w1, hc, ht⟩ := tempBuilt (C := C.withThrows (· == 4 + m.ticks + o)) m kr v hp.next hp.tick hp.flat fun u _ hu => hft u (by omega)
    obtain ⟨a, o0⟩ := hp.o0
    refine Stops.canThrow (v := v) hs hre hkr h0 (assign_stops (operand_owns ⟨hp.v0, .inPlace _ _ hk, o0⟩ ?_) (hh _) hc ?_)
    · rw [hp.next]; decide
    · exact ho _ _ (atTemp hp ht) (fun u _ hu => hft u hu) (by simp)
  rcases h with h | h
  · obtain ⟨u, hu, key⟩ := build_stops v 4 h
    obtain ⟨w, hre, hp, h0, -⟩ := reached_prepared (C := C) hk hkr (from4 u hu) v
    obtain ⟨a, o0⟩ := hp.o0
    refine Stops.canThrow (v := v) hs hre hkr h0 (assign_stops_build (operand_owns ⟨hp.v0, .inPlace _ _ hk, o0⟩ ?_) (hh _)
      (key _ w hp.tick hp.flat (fun s _ hs => by simp; omega) (by simp)))
    rw [hp.next]; decide
  · split at h
    · subst ‹k = kr›
      rcases h with ⟨rfl, hm⟩ | ⟨rfl, hb, j, hj, hne, hbj⟩
      · refine inPlace 0 fun f w ha _ h => ?_
        have := ha.moveSame (C := C.withThrows f) hk hm h
        rw [moveAssign, wp_noexceptIf] at this
        exact Stops.of_wp this fun _ _ h => h.2
      · have hft : ∀ t, t ≠ 6 → t ≠ 7 + m.ticks → (fun t : Nat => t == 6 || t == 7 + m.ticks) t = false := fun t h1 h2 => by simp [h1, h2]
        obtain ⟨w, hre, hp⟩ := reached_backup_then (C := C) hk hj hne.symm hbj hb.2.1 (f := fun t => t == 6 || t == 7 + m.ticks)
          (fun t ht => hft t (by omega) (by omega)) (by simp) v
        obtain ⟨w1, hc, ht⟩ := tempBuilt (C := C.withThrows (fun t => t == 6 || t == 7 + m.ticks)) m k v hp.next hp.tick hp.flat
          fun u h1 h2 => hft u (by omega) (by omega)
        obtain ⟨a, o0⟩ := hp.o0
        obtain ⟨b, ob⟩ := ht.obj
        have h0 : w.holds 0 k a := by simp [World.holds, World.content, hp.v0, VarSt.contentId, o0]
        refine Stops.canThrow (v := v) hs hre hk h0 (assign_stops (operand_owns ⟨hp.v0, .inBackup _ _ hk hb, o0⟩ ?_) (hh _) hc ?_)
        · rw [hp.next]; decide
        · have vl : w1.vars (.user 0) = some ⟨-((k : Int) + 1), .holder k (some 4)⟩ := by rw [ht.vars, upd_ne _ _ (by simp)]; exact hp.v0
          have vr : w1.vars (.tmp 0) = some ⟨(k : Int), .obj 6⟩ := by rw [ht.vars, upd_same]
          have key := wp_backedTarget (C := C.withThrows (fun t => t == 6 || t == 7 + m.ticks)) (w := w1) (q := 6) vl ((ht.low 4 (by decide)).trans o0)
            (fun i => by rw [ht.sub]; exact hp.flat i) ob (by rw [ht.next]; decide) hk hb hb
          rw [← moveAssign_backed (C := C.withThrows (fun t => t == 6 || t == 7 + m.ticks)) vl vr ob hk hb, moveAssign, wp_noexceptIf, ht.tick] at key
          exact Stops.of_wp (wp_mono key (fun _ _ h => by simp [Cfg.withThrows] at h) fun _ _ h => h) fun _ _ h => h.2.1
    · obtain ⟨o, ho⟩ := move_stops hs hk hkr ‹_› h
      exact inPlace o fun f w ha => ho f w _ _ _ _ _ _ ha

/-- C68, assignment of a value: exactly what it can throw. (`v` is any value.) -/
theorem C68_value_assignment (hs : Sane C) (v : V) (hk : k < C.n) (hkr : kr < C.n) : ValueCanThrow C m k kr e ↔ ValueThrows C m k kr e := by
  constructor
  · rintro ⟨f, w, x, vx, v', ex, w', hre, hx, h, rfl⟩
    exact valueAssign_kind hs v hre hkr hx h
  · intro h
    rw [ValueThrows] at h
    split at h
    · obtain ⟨rfl, rfl⟩ := ‹k = kr ∧ m = .L›
      exact direct_canThrow hs v hk (.inl ⟨rfl, h⟩)
    · split at h
      · obtain ⟨rfl, rfl⟩ := ‹k = kr ∧ m = .R›
        exact direct_canThrow hs v hk (.inr ⟨rfl, h⟩)
      · refine temp_canThrow hs v hk hkr ?_ h
        rintro ⟨hd, rfl⟩
        cases m <;> simp_all [Mode.direct]

end

/-! ### Examples -/

/-- Two types that throw. An lvalue of the held type: only its copy assignment. Of the other type: the copy constructors of both and an allocation,
but no move constructor. -/
example : ValueCanThrow exTwo .L 0 0 (.copyAssign 0) ∧ ¬ ValueCanThrow exTwo .L 0 0 (.copyCtor 0) ∧ ValueCanThrow exTwo .L 0 1 .badAlloc ∧
    ValueCanThrow exTwo .L 0 1 (.copyCtor 0) ∧ ¬ ValueCanThrow exTwo .L 0 1 (.moveCtor 1) ∧ ValueCanThrow exTwo .R 0 1 (.moveCtor 1) := by
  have t := fun {m k kr e} (hk : k < 2) (hkr : kr < 2) => C68_value_assignment (m := m) (k := k) (kr := kr) (e := e) exTwo_sane 0 hk hkr
  have b1 : exTwo.mayBackup 1 := by unfold Cfg.mayBackup; decide
  have m0 : (exTwo.tr 0).nothrowMove = false := by decide
  refine ⟨(t (by decide) (by decide)).mpr rfl, fun h => ?_, (t (by decide) (by decide)).mpr ?_, (t (by decide) (by decide)).mpr ?_, fun h => ?_,
    (t (by decide) (by decide)).mpr ?_⟩
  · have := (t (by decide) (by decide)).mp h
    simp [ValueThrows] at this
  · simp [ValueThrows, MoveThrows, b1, m0]
  · simp [ValueThrows, MoveThrows, b1, m0]
  · have := (t (by decide) (by decide)).mp h
    simp [ValueThrows, MoveThrows, BuildThrows] at this
    exact absurd this.1 (by decide)
  · simp [ValueThrows, BuildThrows]; exact .inl (by decide)

/-- A converted operand of the held type, for a type that is never in a backup: the conversion, the temporary's move construction and the content's
move assignment. -/
example : ValueCanThrow exHalf .C 1 1 (.convert 1) ∧ ValueCanThrow exHalf .C 1 1 (.moveCtor 1) ∧ ValueCanThrow exHalf .C 1 1 (.moveAssign 1) ∧
    ¬ ValueCanThrow exHalf .C 1 1 (.copyAssign 1) := by
  have t := fun {e} => C68_value_assignment (m := .C) (k := 1) (kr := 1) (e := e) exHalf_sane 0 (by decide) (by decide)
  refine ⟨t.mpr (.inl (.inl rfl)), t.mpr (.inl (.inr ⟨rfl, by decide⟩)), t.mpr (.inr (.inl ⟨rfl, by decide⟩)), fun h => ?_⟩
  have := t.mp h
  simp [ValueThrows, BuildThrows, MoveSameThrows] at this

end BVariant
