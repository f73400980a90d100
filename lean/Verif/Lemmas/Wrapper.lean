/-
Lemmas on the model of `recursive_wrapper`.
-/
import Verif.Spec.Wrapper

set_option linter.unusedSimpArgs false

namespace BVariant

section
variable {V : Type} {C : WrapCfg V} {s s' : WrapSt V} {x y : Nat} {p q : ObjId} {u v : V} {l r : Loc} {t : Place}

/-- Lvalue `l` is what place `t` denotes. -/
inductive Denotes (s : WrapSt V) : Place → Loc → Prop
  | get {x : Nat} {p : ObjId} : s.wraps x = some p → Denotes s (.get x) (.heap p)
  | loc {n : Nat} {v : V} : s.locals n = some v → Denotes s (.local n) (.loc n)

/-- The parts of the state that matter for the store. -/
structure SameStore (s s' : WrapSt V) : Prop where
  heap : s'.heap = s.heap
  wraps : s'.wraps = s.wraps
  locals : s'.locals = s.locals
  next : s.next ≤ s'.next

theorem SameStore.inv (h : SameStore s s') (hi : WrapInv s) : WrapInv s' where
  owns := by rw [h.heap, h.wraps]; exact hi.owns
  inj := by rw [h.wraps]; exact hi.inj
  noLeak := by rw [h.heap, h.wraps]; exact hi.noLeak
  fresh := by rw [h.heap]; intro p hp; exact hi.fresh p (Nat.le_trans h.next hp)

theorem SameStore.store (h : SameStore s s') : s'.store = s.store := by
  unfold WrapSt.store WrapSt.content
  rw [h.heap, h.wraps, h.locals]

theorem WrapInv.lt (hi : WrapInv s) {b : Block V} (h : s.heap p = some b) : p < s.next := by
  rcases Nat.lt_or_ge p s.next with h1 | h1
  · exact h1
  · rw [hi.fresh p h1] at h; cases h

theorem content_eq (h : s.wraps x = some p) (hv : s.heap p = some (.live v)) : s.content x = some v := by
  simp only [WrapSt.content, h, hv]

theorem WrapInv.content (hi : WrapInv s) (h : s.wraps x = some p) : ∃ v, s.heap p = some (.live v) ∧ s.content x = some v := by
  obtain ⟨v, hv⟩ := hi.owns x p h
  exact ⟨v, hv, content_eq h hv⟩

theorem content_none : s.wraps x = none → s.content x = none := by
  intro h; simp only [WrapSt.content, h]

theorem WrapInv.content_none_iff (hi : WrapInv s) : s.content x = none ↔ s.wraps x = none := by
  constructor
  · intro h
    cases hw : s.wraps x with
    | none => rfl
    | some p =>
      obtain ⟨v, _, hv⟩ := hi.content hw
      rw [h] at hv; cases hv
  · exact content_none

theorem Denotes.read (hi : WrapInv s) (h : Denotes s t l) : ∃ v, l.read s = .ok v s ∧ s.store.val t = some v := by
  cases h with
  | @get x p hw =>
    obtain ⟨v, h1, h2⟩ := hi.content hw
    exact ⟨v, by simp only [Loc.read, h1], h2⟩
  | @loc n v hl => exact ⟨v, by simp only [Loc.read, hl], hl⟩

/-- Reading does not depend on the counters, nor on new blocks. -/
theorem Denotes.read_of (h : Denotes s t l) (hr : l.read s = .ok v s) (hh : ∀ p b, s.heap p = some b → s'.heap p = some b)
    (hl : s'.locals = s.locals) : l.read s' = .ok v s' := by
  cases h with
  | @get x p hw =>
    simp only [Loc.read] at hr ⊢
    cases hp : s.heap p with
    | none => rw [hp] at hr; cases hr
    | some b =>
      rw [hp] at hr
      rw [hh p b hp]
      cases b with
      | raw => cases hr
      | live v' => simp only [Res.ok.injEq] at hr ⊢; exact ⟨hr.1, trivial⟩
  | @loc n v' hv =>
    simp only [Loc.read, hl, hv] at hr ⊢
    simp only [Res.ok.injEq] at hr ⊢
    exact ⟨hr.1, trivial⟩

theorem Denotes.of_same (hw : s'.wraps = s.wraps) (hl : s'.locals = s.locals) (h : Denotes s t l) : Denotes s' t l := by
  cases h with
  | get h => exact .get (hw ▸ h)
  | loc h => exact .loc (hl ▸ h)

theorem Denotes.set_inv (hi : WrapInv s) (h : Denotes s t l) (v : V) : WrapInv (l.set v s) := by
  cases h with
  | @get x p hw =>
    refine ⟨?_, hi.inj, ?_, ?_⟩
    · intro y q hq
      simp only [Loc.set, upd]
      by_cases hqp : q = p
      · exact ⟨v, by simp [hqp]⟩
      · simp only [hqp, if_false]; exact hi.owns y q hq
    · intro q hq
      simp only [Loc.set, upd] at hq ⊢
      by_cases hqp : q = p
      · exact ⟨x, hqp ▸ hw⟩
      · simp only [hqp, if_false] at hq; exact hi.noLeak q hq
    · intro q hq
      obtain ⟨v', hv'⟩ := hi.owns x p hw
      have := hi.lt hv'
      simp only [Loc.set, upd] at hq ⊢
      rw [if_neg (by omega)]; exact hi.fresh q hq
  | loc hl => exact ⟨hi.owns, hi.inj, hi.noLeak, hi.fresh⟩

theorem Denotes.set_store (hi : WrapInv s) (h : Denotes s t l) (v : V) : (l.set v s).store = s.store.put t v := by
  cases h with
  | @get x p hw =>
    simp only [WrapSt.store, WStore.put, Loc.set, WStore.mk.injEq, and_true]
    funext y
    simp only [WrapSt.content, upd]
    by_cases hy : y = x
    · subst hy; simp [hw]
    · simp only [hy, if_false]
      cases hwy : s.wraps y with
      | none => rfl
      | some q =>
        have hqp : q ≠ p := fun h => hy (hi.inj y x p (h ▸ hwy) hw)
        simp only [hqp, if_false]
  | loc hl => rfl

theorem Denotes.set_other {t' : Place} {l' : Loc} (h' : Denotes s t' l') (v : V) (h : Denotes s t l) :
    Denotes (l'.set v s) t l := by
  cases h' with
  | get hw' =>
    cases h with
    | get hw => exact .get hw
    | loc hl => exact .loc hl
  | @loc n _ hl' =>
    cases h with
    | get hw => exact .get hw
    | @loc m v' hl =>
      by_cases hm : m = n
      · exact .loc (v := v) (by simp [Loc.set, hm])
      · exact .loc (v := v') (by simpa [Loc.set, upd, hm] using hl)

/-- A new block owned by a new wrapper. -/
theorem new_inv (hi : WrapInv s) (hx : s.wraps x = none) (v : V) (tk al : Nat) :
    WrapInv { s with heap := upd s.heap s.next (some (.live v)), next := s.next + 1, wraps := upd s.wraps x (some s.next),
                     tick := tk, allocs := al } := by
  have hne : ∀ y q, s.wraps y = some q → q ≠ s.next := by
    intro y q hq h
    obtain ⟨v, hv⟩ := hi.owns y q hq
    have := hi.lt hv; omega
  refine ⟨?_, ?_, ?_, ?_⟩
  · intro y q hq
    simp only [upd] at hq ⊢
    by_cases hy : y = x
    · simp only [hy, if_true, Option.some.injEq] at hq
      exact ⟨v, by simp [hq]⟩
    · simp only [hy, if_false] at hq
      simp only [hne y q hq, if_false]; exact hi.owns y q hq
  · intro y z q hy hz
    simp only [upd] at hy hz
    by_cases h1 : y = x
    · by_cases h2 : z = x
      · rw [h1, h2]
      · simp only [h1, if_true, Option.some.injEq, h2, if_false] at hy hz
        exact absurd hy.symm (hne z q hz)
    · by_cases h2 : z = x
      · simp only [h2, if_true, Option.some.injEq, h1, if_false] at hy hz
        exact absurd hz.symm (hne y q hy)
      · simp only [h1, h2, if_false] at hy hz
        exact hi.inj y z q hy hz
  · intro q hq
    simp only [upd] at hq ⊢
    by_cases hqn : q = s.next
    · exact ⟨x, by simp [hqn]⟩
    · simp only [hqn, if_false] at hq
      obtain ⟨y, hy⟩ := hi.noLeak q hq
      have : y ≠ x := by rintro rfl; rw [hx] at hy; cases hy
      exact ⟨y, by simp only [this, if_false]; exact hy⟩
  · intro q hq
    simp only [upd] at hq ⊢
    rw [if_neg (by omega)]; exact hi.fresh q (by omega)

theorem new_store (hi : WrapInv s) (v : V) (tk al : Nat) :
    WrapSt.store { s with heap := upd s.heap s.next (some (.live v)), next := s.next + 1, wraps := upd s.wraps x (some s.next),
                          tick := tk, allocs := al } = s.store.put (.get x) v := by
  simp only [WrapSt.store, WStore.put, WStore.mk.injEq, and_true]
  funext y
  simp only [WrapSt.content, upd]
  by_cases hy : y = x
  · simp [hy]
  · simp only [hy, if_false]
    cases hwy : s.wraps y with
    | none => rfl
    | some q =>
      obtain ⟨v', hv'⟩ := hi.owns y q hwy
      have := hi.lt hv'
      have : q ≠ s.next := by omega
      simp only [this, if_false]

/-- A failed `new` leaves no block. -/
theorem upd_upd_none (hi : WrapInv s) (b : Option (Block V)) : upd (upd s.heap s.next b) s.next none = s.heap := by
  funext q
  simp only [upd]
  split
  · rename_i h; rw [h, hi.fresh _ (Nat.le_refl _)]
  · rfl

/-! ### The constructors -/

theorem wAlloc_run (s : WrapSt V) : wAlloc C s = if C.throws s.tick = true then
      .exc ⟨.badAlloc, s.tick⟩ { s with tick := s.tick + 1, allocs := s.allocs + 1 }
    else .ok s.next { s with heap := upd s.heap s.next (some .raw), next := s.next + 1, tick := s.tick + 1, allocs := s.allocs + 1 } := by
  simp only [wAlloc, bind, Eff.bind, Eff.modify, wMayThrow]
  cases C.throws s.tick <;> simp

theorem wNew_run (ctor : Eff (WrapSt V) V) (s : WrapSt V) : wNew C ctor s = if C.throws s.tick = true then
      .exc ⟨.badAlloc, s.tick⟩ { s with tick := s.tick + 1, allocs := s.allocs + 1 }
    else match ctor { s with heap := upd s.heap s.next (some .raw), next := s.next + 1, tick := s.tick + 1, allocs := s.allocs + 1 } with
      | .ok v s2 => (match s2.heap s.next with
        | some .raw => .ok s.next { s2 with heap := upd s2.heap s.next (some (.live v)) }
        | _ => .fault .ub)
      | .exc e s2 => (match s2.heap s.next with
        | some .raw => .exc e { s2 with heap := upd s2.heap s.next none }
        | _ => .fault .ub)
      | .fault f => .fault f := by
  simp only [wNew, bind, Eff.bind, wAlloc_run]
  by_cases h : C.throws s.tick = true
  · simp only [h, if_true]
  · simp only [h, Bool.false_eq_true, if_false, Eff.onExc, wConstruct, bind, Eff.bind]
    cases hc : ctor { s with heap := upd s.heap s.next (some .raw), next := s.next + 1, tick := s.tick + 1,
                             allocs := s.allocs + 1 } with
    | fault f => rfl
    | exc e s2 =>
      simp only [wFree]
      cases hh : s2.heap s.next with
      | none => rfl
      | some b => cases b <;> rfl
    | ok v s2 =>
      cases hh : s2.heap s.next with
      | none => simp only [hh]
      | some b => cases b <;> simp only [hh, pure, Eff.pure]

/-- What a statement may do. -/
def WStep (C : WrapCfg V) (c : WCmd V) (s : WrapSt V) (r : Res (WrapSt V) Unit) : Prop :=
  (∃ s', r = .ok () s' ∧ WrapInv s' ∧ WOk C.ops c s.store s'.store) ∨
  (∃ e s', r = .exc e s' ∧ WrapInv s' ∧ WExc C.ops c e.kind s.store s'.store ∧
    s.tick ≤ e.tick ∧ e.tick < s'.tick ∧ C.throws e.tick = true)

theorem Denotes.ne_next (hi : WrapInv s) (h : Denotes s t l) : l ≠ .heap s.next := by
  cases h with
  | @get x p hw =>
    rintro h
    cases h
    obtain ⟨v, hv⟩ := hi.owns x _ hw
    have := hi.lt hv; omega
  | loc _ => simp

/-- A wrapper made by `new T`. -/
theorem default_run (hi : WrapInv s) (hx : s.wraps x = none) :
    WStep C (.defaultConstruct x) s (wDefaultConstruct C x s) := by
  simp only [wDefaultConstruct, bind, Eff.bind, wNew_run]
  by_cases h : C.throws s.tick = true
  · simp only [h, if_true]
    refine .inr ⟨_, _, rfl, SameStore.inv (s := s) ⟨rfl, rfl, rfl, Nat.le_refl _⟩ hi, ?_, Nat.le_refl _, Nat.lt_succ_self _, h⟩
    rw [SameStore.store (s := s) ⟨rfl, rfl, rfl, Nat.le_refl _⟩]
    exact .noMemory (.inl ⟨x, rfl⟩)
  · simp only [h, Bool.false_eq_true, if_false, wDefaultT, bind, Eff.bind, wMayThrow]
    by_cases h2 : (!C.tr.nothrowDefault && C.throws (s.tick + 1)) = true
    · simp only [h2, if_true, id, upd_same]
      have hss : SameStore s { s with heap := upd (upd s.heap s.next (some .raw)) s.next none, next := s.next + 1, tick := s.tick + 1 + 1, allocs := s.allocs + 1 } :=
        ⟨upd_upd_none hi _, rfl, rfl, Nat.le_succ _⟩
      refine .inr ⟨_, _, rfl, hss.inv hi, ?_, Nat.le_succ _, Nat.lt_succ_self _, ?_⟩
      · rw [hss.store]; exact .defaultConstruct
      · simp only [Bool.and_eq_true] at h2; exact h2.2
    · simp only [h2, Bool.false_eq_true, if_false, pure, Eff.pure, upd_same, wBegin, Eff.modify]
      have hheap : upd (upd s.heap s.next (some .raw)) s.next (some (Block.live (C.ops.defaultInit 0))) =
          upd s.heap s.next (some (.live (C.ops.defaultInit 0))) := by
        funext q; simp only [upd]; split <;> rfl
      rw [hheap]
      refine .inl ⟨_, rfl, new_inv hi hx _ _ _, ?_⟩
      rw [new_store hi]; exact .defaultConstruct

/-- A wrapper made by `new T(t)`. -/
theorem copy_run (hi : WrapInv s) (hx : s.wraps x = none) (hd : Denotes s t l) {c : WCmd V}
    (hok : ∀ v, s.store.val t = some v → WOk C.ops c s.store (s.store.put (.get x) (C.ops.copy 0 v)))
    (hmem : WExc C.ops c .badAlloc s.store s.store) (hexc : WExc C.ops c (.copyCtor 0) s.store s.store) :
    WStep C c s (wConstructVal C x l s) := by
  obtain ⟨v, hr, hv⟩ := hd.read hi
  simp only [wConstructVal, bind, Eff.bind, wNew_run]
  by_cases h : C.throws s.tick = true
  · simp only [h, if_true]
    refine .inr ⟨_, _, rfl, SameStore.inv (s := s) ⟨rfl, rfl, rfl, Nat.le_refl _⟩ hi, ?_, Nat.le_refl _, Nat.lt_succ_self _, h⟩
    rw [SameStore.store (s := s) ⟨rfl, rfl, rfl, Nat.le_refl _⟩]
    exact hmem
  · have hr' : l.read { s with heap := upd s.heap s.next (some .raw), next := s.next + 1, tick := s.tick + 1, allocs := s.allocs + 1 } =
        .ok v { s with heap := upd s.heap s.next (some .raw), next := s.next + 1, tick := s.tick + 1, allocs := s.allocs + 1 } := by
      refine hd.read_of hr (fun p b hp => ?_) rfl
      have := hi.lt hp
      simp only [upd]; rw [if_neg (by omega)]; exact hp
    simp only [h, Bool.false_eq_true, if_false, wCopyT, bind, Eff.bind, hr', wMayThrow]
    by_cases h2 : (!C.tr.nothrowCopy && C.throws (s.tick + 1)) = true
    · simp only [h2, if_true, id, upd_same]
      have hss : SameStore s { s with heap := upd (upd s.heap s.next (some .raw)) s.next none, next := s.next + 1, tick := s.tick + 1 + 1, allocs := s.allocs + 1 } :=
        ⟨upd_upd_none hi _, rfl, rfl, Nat.le_succ _⟩
      refine .inr ⟨_, _, rfl, hss.inv hi, ?_, Nat.le_succ _, Nat.lt_succ_self _, ?_⟩
      · rw [hss.store]; exact hexc
      · simp only [Bool.and_eq_true] at h2; exact h2.2
    · simp only [h2, Bool.false_eq_true, if_false, pure, Eff.pure, upd_same, wBegin, Eff.modify]
      have hheap : upd (upd s.heap s.next (some .raw)) s.next (some (Block.live (C.ops.copy 0 v))) =
          upd s.heap s.next (some (.live (C.ops.copy 0 v))) := by
        funext q; simp only [upd]; split <;> rfl
      rw [hheap]
      refine .inl ⟨_, rfl, new_inv hi hx _ _ _, ?_⟩
      rw [new_store hi]; exact hok v hv

theorem set_fields (l : Loc) (v : V) (s : WrapSt V) : (l.set v s).next = s.next ∧ (l.set v s).wraps = s.wraps ∧
    (l.set v s).tick = s.tick ∧ (l.set v s).allocs = s.allocs := by
  cases l <;> exact ⟨rfl, rfl, rfl, rfl⟩

/-- Changing an old object and making a block commute. -/
theorem set_raw (hl : l ≠ .heap s.next) (m : V) (b : Option (Block V)) (tk al : Nat) :
    l.set m { s with heap := upd s.heap s.next b, next := s.next + 1, tick := tk, allocs := al } =
      { l.set m s with heap := upd (l.set m s).heap s.next b, next := s.next + 1, tick := tk, allocs := al } := by
  cases l with
  | loc n => rfl
  | heap p =>
    have hp : p ≠ s.next := fun h => hl (by rw [h])
    simp only [Loc.set, WrapSt.mk.injEq, and_true]
    funext q
    simp only [upd]
    by_cases h1 : q = p
    · subst h1; simp [hp]
    · simp [h1]

/-- A wrapper made by `new T(std::move(t))`. -/
theorem move_run (hi : WrapInv s) (hx : s.wraps x = none) (hd : Denotes s t l) {c : WCmd V}
    (hok : ∀ v, s.store.val t = some v →
      WOk C.ops c s.store ((s.store.put t (C.ops.movedFrom 0 v)).put (.get x) (C.ops.move 0 v)))
    (hmem : WExc C.ops c .badAlloc s.store s.store)
    (hexc : ∀ v, s.store.val t = some v → WExc C.ops c (.moveCtor 0) s.store (s.store.put t (C.ops.moveFailSrc 0 v))) :
    WStep C c s (wMoveConstructVal C x l s) := by
  obtain ⟨v, hr, hv⟩ := hd.read hi
  have hnn := hd.ne_next hi
  simp only [wMoveConstructVal, bind, Eff.bind, wNew_run]
  by_cases h : C.throws s.tick = true
  · simp only [h, if_true]
    refine .inr ⟨_, _, rfl, SameStore.inv (s := s) ⟨rfl, rfl, rfl, Nat.le_refl _⟩ hi, ?_, Nat.le_refl _, Nat.lt_succ_self _, h⟩
    rw [SameStore.store (s := s) ⟨rfl, rfl, rfl, Nat.le_refl _⟩]
    exact hmem
  · have hr' : l.read { s with heap := upd s.heap s.next (some .raw), next := s.next + 1, tick := s.tick + 1, allocs := s.allocs + 1 } =
        .ok v { s with heap := upd s.heap s.next (some .raw), next := s.next + 1, tick := s.tick + 1, allocs := s.allocs + 1 } := by
      refine hd.read_of hr (fun p b hp => ?_) rfl
      have := hi.lt hp
      simp only [upd]; rw [if_neg (by omega)]; exact hp
    simp only [h, Bool.false_eq_true, if_false, wMoveT, bind, Eff.bind, hr', wMayThrow]
    by_cases h2 : (!C.tr.nothrowMove && C.throws (s.tick + 1)) = true
    · have hi' := hd.set_inv hi (C.ops.moveFailSrc 0 v)
      have hst := hd.set_store hi (C.ops.moveFailSrc 0 v)
      obtain ⟨f1, f2, f3, f4⟩ := set_fields l (C.ops.moveFailSrc 0 v) s
      simp only [h2, if_true]
      rw [set_raw hnn]
      simp only [upd_same]
      have hup := upd_upd_none hi' (some .raw)
      rw [f1] at hup
      have hss : SameStore (l.set (C.ops.moveFailSrc 0 v) s) { l.set (C.ops.moveFailSrc 0 v) s with
          heap := upd (upd (l.set (C.ops.moveFailSrc 0 v) s).heap s.next (some .raw)) s.next none, next := s.next + 1,
          tick := s.tick + 1 + 1, allocs := s.allocs + 1 } := ⟨hup, rfl, rfl, by rw [f1]; exact Nat.le_succ _⟩
      refine .inr ⟨_, _, rfl, hss.inv hi', ?_, Nat.le_succ _, Nat.lt_succ_self _, ?_⟩
      · rw [hss.store, hst]; exact hexc v hv
      · simp only [Bool.and_eq_true] at h2; exact h2.2
    · have hi' := hd.set_inv hi (C.ops.movedFrom 0 v)
      have hst := hd.set_store hi (C.ops.movedFrom 0 v)
      obtain ⟨f1, f2, f3, f4⟩ := set_fields l (C.ops.movedFrom 0 v) s
      simp only [h2, Bool.false_eq_true, if_false, pure, Eff.pure, Eff.modify]
      rw [set_raw hnn]
      simp only [upd_same, wBegin, Eff.modify]
      have hheap : upd (upd (l.set (C.ops.movedFrom 0 v) s).heap s.next (some .raw)) s.next (some (Block.live (C.ops.move 0 v))) =
          upd (l.set (C.ops.movedFrom 0 v) s).heap s.next (some (.live (C.ops.move 0 v))) := by
        funext q; simp only [upd]; split <;> rfl
      rw [hheap]
      have hin := new_inv (x := x) hi' (f2 ▸ hx) (C.ops.move 0 v) (s.tick + 1 + 1) (s.allocs + 1)
      have hsn := new_store (x := x) hi' (C.ops.move 0 v) (s.tick + 1 + 1) (s.allocs + 1)
      rw [f1] at hin hsn
      refine .inl ⟨_, rfl, hin, ?_⟩
      rw [hsn, hst]; exact hok v hv

/-! ### Assignment -/

theorem tick_same (tk : Nat) : SameStore s { s with tick := tk } := ⟨rfl, rfl, rfl, Nat.le_refl _⟩

theorem set_tick (l : Loc) (v : V) (tk : Nat) : l.set v { s with tick := tk } = { l.set v s with tick := tk } := by
  cases l <;> rfl

theorem WStep.ok_of {c : WCmd V} {r : Res (WrapSt V) Unit} (tk : Nat) (hr : r = .ok () { s' with tick := tk }) (hi : WrapInv s')
    (h : WOk C.ops c s.store s'.store) : WStep C c s r := .inl ⟨_, hr, (tick_same tk).inv hi, h⟩

theorem WStep.exc_of {c : WCmd V} {r : Res (WrapSt V) Unit} {k : ExcKind}
    (hr : r = .exc ⟨k, s.tick⟩ { s' with tick := s.tick + 1 }) (hi : WrapInv s')
    (h : WExc C.ops c k s.store s'.store) (ht : C.throws s.tick = true) : WStep C c s r :=
  .inr ⟨_, _, hr, (tick_same _).inv hi, h, Nat.le_refl _, Nat.lt_succ_self _, ht⟩

theorem assign_run (hi : WrapInv s) (hw : s.wraps x = some p) (hd : Denotes s t l) {c : WCmd V}
    (hok : ∀ u v, s.store.val (.get x) = some u → s.store.val t = some v →
      WOk C.ops c s.store (s.store.put (.get x) (C.ops.assign 0 u v)))
    (hexc : ∀ u v, s.store.val (.get x) = some u → s.store.val t = some v →
      WExc C.ops c (.copyAssign 0) s.store (s.store.put (.get x) (C.ops.assignFail 0 u v))) :
    WStep C c s (wAssign C x l s) := by
  obtain ⟨v, hr, hv⟩ := hd.read hi
  have hdx : Denotes s (.get x) (.heap p) := .get hw
  obtain ⟨u, hru, hu⟩ := hdx.read hi
  have hrun : wAssign C x l s = if C.throws s.tick = true then
      .exc ⟨.copyAssign 0, s.tick⟩ { (Loc.heap p).set (C.ops.assignFail 0 u v) s with tick := s.tick + 1 }
      else .ok () { (Loc.heap p).set (C.ops.assign 0 u v) s with tick := s.tick + 1 } := by
    simp only [wAssign, wAssignT, bind, Eff.bind, wPtr, hw, hr, hru, wMayThrow]
    cases C.throws s.tick <;> simp [Eff.modify, set_tick]
  by_cases h : C.throws s.tick = true
  · rw [if_pos h] at hrun
    exact .exc_of hrun (hdx.set_inv hi _) (by rw [hdx.set_store hi]; exact hexc u v hu hv) h
  · rw [if_neg h] at hrun
    exact .ok_of _ hrun (hdx.set_inv hi _) (by rw [hdx.set_store hi]; exact hok u v hu hv)

theorem assignMove_run (hi : WrapInv s) (hw : s.wraps x = some p) (hd : Denotes s t l) :
    WStep C (.assignMove x t) s (wMoveAssignVal C x l s) := by
  obtain ⟨v, hr, hv⟩ := hd.read hi
  have hdx : Denotes s (.get x) (.heap p) := .get hw
  obtain ⟨u, hru, hu⟩ := hdx.read hi
  by_cases hl : Loc.heap p = l
  · subst hl
    have ht : t = .get x := by
      cases hd with
      | @get y q hy => rw [hi.inj y x p hy hw]
    subst ht
    have hrun : wMoveAssignVal C x (.heap p) s = if (!C.tr.nothrowMoveAssign && C.throws s.tick) = true then
        .exc ⟨.moveAssign 0, s.tick⟩ { (Loc.heap p).set (C.ops.selfMoveFail 0 u) s with tick := s.tick + 1 }
        else .ok () { (Loc.heap p).set (C.ops.selfMove 0 u) s with tick := s.tick + 1 } := by
      simp only [wMoveAssignVal, wMoveAssignT, bind, Eff.bind, wPtr, hw, hru, if_true, wMayThrow]
      cases (!C.tr.nothrowMoveAssign && C.throws s.tick) <;> simp [Eff.modify, set_tick]
    by_cases h : (!C.tr.nothrowMoveAssign && C.throws s.tick) = true
    · rw [if_pos h] at hrun
      simp only [Bool.and_eq_true] at h
      exact .exc_of hrun (hdx.set_inv hi _) (by rw [hdx.set_store hi]; exact .assignMoveSelf hu) h.2
    · rw [if_neg h] at hrun
      exact .ok_of _ hrun (hdx.set_inv hi _) (by rw [hdx.set_store hi]; exact .assignMoveSelf hu)
  · have ht : t ≠ .get x := by
      rintro rfl
      cases hd with
      | get h => rw [hw] at h; cases h; exact hl rfl
    have hd' : ∀ m, Denotes ((Loc.heap p).set m s) t l := fun m => hdx.set_other m hd
    have hrun : wMoveAssignVal C x l s = if (!C.tr.nothrowMoveAssign && C.throws s.tick) = true then
        .exc ⟨.moveAssign 0, s.tick⟩ { l.set (C.ops.moveAssignFailSrc 0 u v) ((Loc.heap p).set (C.ops.moveAssignFail 0 u v) s) with tick := s.tick + 1 }
        else .ok () { l.set (C.ops.moveAssignSrc 0 u v) ((Loc.heap p).set (C.ops.moveAssign 0 u v) s) with tick := s.tick + 1 } := by
      simp only [wMoveAssignVal, wMoveAssignT, bind, Eff.bind, wPtr, hw, hr, hru, hl, if_false, wMayThrow]
      cases (!C.tr.nothrowMoveAssign && C.throws s.tick) <;> simp [Eff.modify, set_tick]
    by_cases h : (!C.tr.nothrowMoveAssign && C.throws s.tick) = true
    · rw [if_pos h] at hrun
      simp only [Bool.and_eq_true] at h
      exact .exc_of hrun ((hd' _).set_inv (hdx.set_inv hi _) _)
        (by rw [(hd' _).set_store (hdx.set_inv hi _), hdx.set_store hi]; exact .assignMove hu hv ht) h.2
    · rw [if_neg h] at hrun
      exact .ok_of _ hrun ((hd' _).set_inv (hdx.set_inv hi _) _)
        (by rw [(hd' _).set_store (hdx.set_inv hi _), hdx.set_store hi]; exact .assignMove hu hv ht)

/-! ### Swap and destruction -/

/-- `swap` exchanges the pointers, and nothing else. -/
theorem wSwap_run (hx : s.wraps x = some p) (hy : s.wraps y = some q) :
    wSwap x y s = .ok () { s with wraps := upd (upd s.wraps y (some p)) x (some q) } := by
  simp only [wSwap, Eff.noexcept, bind, Eff.bind, wPtr, hx, hy, Eff.modify]

theorem wMoveAssign_run (hx : s.wraps x = some p) (hy : s.wraps y = some q) :
    wMoveAssign x y s = .ok () { s with wraps := upd (upd s.wraps y (some p)) x (some q) } := by
  simp only [wMoveAssign, Eff.noexcept, wSwap_run hx hy]

theorem swap_inv (hi : WrapInv s) (hx : s.wraps x = some p) (hy : s.wraps y = some q) :
    WrapInv { s with wraps := upd (upd s.wraps y (some p)) x (some q) } := by
  -- each wrapper has the pointer some wrapper had before
  have hpre : ∀ z r, upd (upd s.wraps y (some p)) x (some q) z = some r →
      s.wraps (if z = x then y else if z = y then x else z) = some r := by
    intro z r hz
    simp only [upd] at hz
    by_cases h1 : z = x
    · simp only [h1, if_true] at hz ⊢; rw [hy]; exact hz
    · by_cases h2 : z = y
      · subst h2
        simp only [h1, if_false, if_true] at hz ⊢
        rw [hx]; exact hz
      · simp only [h1, h2, if_false] at hz ⊢; exact hz
  refine ⟨fun z r hz => hi.owns _ r (hpre z r hz), ?_, ?_, hi.fresh⟩
  · intro z z' r hz hz'
    have := hi.inj _ _ r (hpre z r hz) (hpre z' r hz')
    by_cases h1 : z = x <;> by_cases h2 : z' = x <;> by_cases h3 : z = y <;> by_cases h4 : z' = y <;>
      simp_all
  · intro r hr
    obtain ⟨z, hz⟩ := hi.noLeak r hr
    by_cases h1 : z = x
    · subst h1
      rw [hx] at hz; cases hz
      by_cases h2 : z = y
      · subst h2; rw [hx] at hy; cases hy; exact ⟨z, by simp⟩
      · exact ⟨y, by simp only [upd]; rw [if_neg (fun h => h2 h.symm)]; simp⟩
    · by_cases h2 : z = y
      · subst h2
        rw [hy] at hz; cases hz
        exact ⟨x, by simp⟩
      · exact ⟨z, by simp only [upd, h1, h2, if_false]; exact hz⟩

theorem swap_store (hi : WrapInv s) (hx : s.wraps x = some p) (hy : s.wraps y = some q) :
    ∃ u v, s.store.val (.get x) = some u ∧ s.store.val (.get y) = some v ∧
      WrapSt.store { s with wraps := upd (upd s.wraps y (some p)) x (some q) } = (s.store.put (.get y) u).put (.get x) v := by
  obtain ⟨u, hu, hcu⟩ := hi.content hx
  obtain ⟨v, hv, hcv⟩ := hi.content hy
  refine ⟨u, v, hcu, hcv, ?_⟩
  simp only [WrapSt.store, WStore.put, WStore.mk.injEq, and_true]
  funext z
  simp only [WrapSt.content, upd]
  by_cases h1 : z = x
  · simp [h1, hv]
  · by_cases h2 : z = y
    · have h3 : ¬ y = x := h2 ▸ h1
      simp [h2, h3, hu]
    · simp [h1, h2]

theorem wDestroy_run (hi : WrapInv s) (hx : s.wraps x = some p) :
    wDestroy x s = .ok () { s with heap := upd s.heap p none, wraps := upd s.wraps x none } := by
  obtain ⟨v, hv⟩ := hi.owns x p hx
  have hheap : upd (upd s.heap p (some Block.raw)) p none = upd s.heap p none := by
    funext q; simp only [upd]; split <;> rfl
  simp only [wDestroy, wDelete, bind, Eff.bind, wPtr, hx, Loc.read, hv, Eff.modify, wFree, upd_same, hheap]

theorem destroy_inv (hi : WrapInv s) (hx : s.wraps x = some p) :
    WrapInv { s with heap := upd s.heap p none, wraps := upd s.wraps x none } := by
  have hne : ∀ y q, upd s.wraps x none y = some q → s.wraps y = some q ∧ q ≠ p := by
    intro y q hq
    simp only [upd] at hq
    by_cases hy : y = x
    · simp [hy] at hq
    · simp only [hy, if_false] at hq
      exact ⟨hq, fun h => hy (hi.inj y x p (h ▸ hq) hx)⟩
  refine ⟨?_, ?_, ?_, ?_⟩
  · intro y q hq
    obtain ⟨h1, h2⟩ := hne y q hq
    simp only [upd, h2, if_false]; exact hi.owns y q h1
  · intro y z q hy hz
    exact hi.inj y z q (hne y q hy).1 (hne z q hz).1
  · intro q hq
    simp only [upd] at hq ⊢
    by_cases hqp : q = p
    · simp [hqp] at hq
    · simp only [hqp, if_false] at hq
      obtain ⟨y, hy⟩ := hi.noLeak q hq
      have : y ≠ x := by rintro rfl; rw [hx] at hy; cases hy; exact hqp rfl
      exact ⟨y, by simp only [this, if_false]; exact hy⟩
  · intro q hq
    simp only [upd]
    split
    · rfl
    · exact hi.fresh q hq

theorem destroy_store (hi : WrapInv s) (hx : s.wraps x = some p) :
    WrapSt.store { s with heap := upd s.heap p none, wraps := upd s.wraps x none } =
      { s.store with wrap := upd s.store.wrap x none } := by
  simp only [WrapSt.store, WStore.mk.injEq, and_true]
  funext y
  simp only [WrapSt.content, upd]
  by_cases hy : y = x
  · simp [hy]
  · simp only [hy, if_false]
    cases hwy : s.wraps y with
    | none => rfl
    | some q =>
      have hqp : q ≠ p := fun h => hy (hi.inj y x p (h ▸ hwy) hx)
      simp only [hqp, if_false]

/-- Evaluation of a valid place. -/
theorem Place.eval_run (h : t.valid s = true) : ∃ l, Denotes s t l ∧ t.eval s = .ok l s := by
  cases t with
  | get x =>
    obtain ⟨p, hp⟩ := Option.isSome_iff_exists.mp h
    exact ⟨.heap p, .get hp, by simp only [Place.eval, bind, Eff.bind, wPtr, hp, pure, Eff.pure]⟩
  | «local» n =>
    obtain ⟨v, hv⟩ := Option.isSome_iff_exists.mp h
    exact ⟨.loc n, .loc hv, rfl⟩

/-- Every valid statement from a state that satisfies the invariant. -/
theorem wStep (hi : WrapInv s) {c : WCmd V} (hc : c.valid s = true) : WStep C c s (c.code C s) := by
  cases c with
  | defaultConstruct x =>
    exact default_run hi (Option.isNone_iff_eq_none.mp hc)
  | copyConstruct x y =>
    simp only [WCmd.valid, Bool.and_eq_true] at hc
    obtain ⟨q, hq⟩ := Option.isSome_iff_exists.mp hc.2
    have : WCmd.code C (.copyConstruct x y) s = wConstructVal C x (.heap q) s := by
      simp only [WCmd.code, wCopyConstruct, wConstructVal, bind, Eff.bind, wPtr, hq]
    rw [this]
    exact copy_run hi (Option.isNone_iff_eq_none.mp hc.1) (.get hq) (fun v hv => .copyConstruct hv)
      (.noMemory (.inr (.inl ⟨x, y, rfl⟩))) .copyConstruct
  | moveConstruct x y =>
    simp only [WCmd.valid, Bool.and_eq_true] at hc
    obtain ⟨q, hq⟩ := Option.isSome_iff_exists.mp hc.2
    have : WCmd.code C (.moveConstruct x y) s = wMoveConstructVal C x (.heap q) s := by
      simp only [WCmd.code, wMoveConstruct, wMoveConstructVal, bind, Eff.bind, wPtr, hq]
    rw [this]
    exact move_run hi (Option.isNone_iff_eq_none.mp hc.1) (.get hq) (fun v hv => .moveConstruct hv)
      (.noMemory (.inr (.inr (.inl ⟨x, y, rfl⟩)))) (fun v hv => .moveConstruct hv)
  | construct x t =>
    simp only [WCmd.valid, Bool.and_eq_true] at hc
    obtain ⟨l, hd, he⟩ := Place.eval_run hc.2
    have : WCmd.code C (.construct x t) s = wConstructVal C x l s := by
      simp only [WCmd.code, bind, Eff.bind, he]
    rw [this]
    exact copy_run hi (Option.isNone_iff_eq_none.mp hc.1) hd (fun v hv => .construct hv)
      (.noMemory (.inr (.inr (.inr (.inl ⟨x, t, rfl⟩))))) .construct
  | constructMove x t =>
    simp only [WCmd.valid, Bool.and_eq_true] at hc
    obtain ⟨l, hd, he⟩ := Place.eval_run hc.2
    have : WCmd.code C (.constructMove x t) s = wMoveConstructVal C x l s := by
      simp only [WCmd.code, bind, Eff.bind, he]
    rw [this]
    exact move_run hi (Option.isNone_iff_eq_none.mp hc.1) hd (fun v hv => .constructMove hv)
      (.noMemory (.inr (.inr (.inr (.inr ⟨x, t, rfl⟩))))) (fun v hv => .constructMove hv)
  | destroy x =>
    obtain ⟨p, hp⟩ := Option.isSome_iff_exists.mp hc
    refine .inl ⟨_, wDestroy_run hi hp, destroy_inv hi hp, ?_⟩
    rw [destroy_store hi hp]; exact .destroy
  | copyAssign x y =>
    simp only [WCmd.valid, Bool.and_eq_true] at hc
    obtain ⟨p, hp⟩ := Option.isSome_iff_exists.mp hc.1
    obtain ⟨q, hq⟩ := Option.isSome_iff_exists.mp hc.2
    have : WCmd.code C (.copyAssign x y) s = wAssign C x (.heap q) s := by
      simp only [WCmd.code, wCopyAssign, bind, Eff.bind, wPtr, hq]
    rw [this]
    exact assign_run hi hp (.get hq) (fun u v hu hv => .copyAssign hu hv) (fun u v hu hv => .copyAssign hu hv)
  | moveAssign x y =>
    simp only [WCmd.valid, Bool.and_eq_true] at hc
    obtain ⟨p, hp⟩ := Option.isSome_iff_exists.mp hc.1
    obtain ⟨q, hq⟩ := Option.isSome_iff_exists.mp hc.2
    obtain ⟨u, v, hu, hv, hst⟩ := swap_store hi hp hq
    refine .inl ⟨_, wMoveAssign_run hp hq, swap_inv hi hp hq, ?_⟩
    rw [hst]; exact .moveAssign hu hv
  | assign x t =>
    simp only [WCmd.valid, Bool.and_eq_true] at hc
    obtain ⟨p, hp⟩ := Option.isSome_iff_exists.mp hc.1
    obtain ⟨l, hd, he⟩ := Place.eval_run hc.2
    have : WCmd.code C (.assign x t) s = wAssign C x l s := by
      simp only [WCmd.code, bind, Eff.bind, he]
    rw [this]
    exact assign_run hi hp hd (fun u v hu hv => .assign hu hv) (fun u v hu hv => .assign hu hv)
  | assignMove x t =>
    simp only [WCmd.valid, Bool.and_eq_true] at hc
    obtain ⟨p, hp⟩ := Option.isSome_iff_exists.mp hc.1
    obtain ⟨l, hd, he⟩ := Place.eval_run hc.2
    have : WCmd.code C (.assignMove x t) s = wMoveAssignVal C x l s := by
      simp only [WCmd.code, bind, Eff.bind, he]
    rw [this]
    exact assignMove_run hi hp hd
  | swap x y =>
    simp only [WCmd.valid, Bool.and_eq_true] at hc
    obtain ⟨p, hp⟩ := Option.isSome_iff_exists.mp hc.1
    obtain ⟨q, hq⟩ := Option.isSome_iff_exists.mp hc.2
    obtain ⟨u, v, hu, hv, hst⟩ := swap_store hi hp hq
    refine .inl ⟨_, wSwap_run hp hq, swap_inv hi hp hq, ?_⟩
    rw [hst]; exact .swap hu hv
  | makeLocal n v =>
    exact .inl ⟨_, rfl, ⟨hi.owns, hi.inj, hi.noLeak, hi.fresh⟩, .makeLocal⟩
  | dropLocal n =>
    exact .inl ⟨_, rfl, ⟨hi.owns, hi.inj, hi.noLeak, hi.fresh⟩, .dropLocal⟩
  | store t v =>
    obtain ⟨l, hd, he⟩ := Place.eval_run hc
    obtain ⟨u, hr, _⟩ := hd.read hi
    have : WCmd.code C (.store t v) s = .ok () (l.set v s) := by
      simp only [WCmd.code, bind, Eff.bind, he, hr, Eff.modify]
    refine .inl ⟨_, this, hd.set_inv hi v, ?_⟩
    rw [hd.set_store hi]; exact .store

/-- Validity is the same in the state and in its store. -/
theorem Place.valid_iff (hi : WrapInv s) : t.valid s = true ↔ s.store.val t ≠ none := by
  cases t with
  | get x =>
    have h := hi.content_none_iff (x := x)
    simp only [Place.valid, WStore.val, WrapSt.store]
    cases hx : s.wraps x with
    | none => simp [h.mpr hx]
    | some p => simp [h, hx]
  | «local» n =>
    simp only [Place.valid, WStore.val, WrapSt.store]
    cases s.locals n <;> simp

theorem WCmd.valid_iff (hi : WrapInv s) (c : WCmd V) : c.valid s = true ↔ c.validIn s.store := by
  have hw : ∀ x, ((s.wraps x).isNone = true ↔ s.store.wrap x = none) ∧ ((s.wraps x).isSome = true ↔ s.store.wrap x ≠ none) := by
    intro x
    have h := hi.content_none_iff (x := x)
    simp only [WrapSt.store]
    cases hx : s.wraps x with
    | none => simp [h.mpr hx]
    | some p => simp [h, hx]
  have hl : ∀ n, ((s.locals n).isNone = true ↔ s.store.loc n = none) ∧ ((s.locals n).isSome = true ↔ s.store.loc n ≠ none) := by
    intro n
    simp only [WrapSt.store]
    cases s.locals n <;> simp
  cases c with
  | defaultConstruct x => exact (hw x).1
  | copyConstruct x y | moveConstruct x y => simp only [WCmd.valid, WCmd.validIn, Bool.and_eq_true, (hw x).1, (hw y).2]
  | construct x t | constructMove x t =>
    simp only [WCmd.valid, WCmd.validIn, Bool.and_eq_true, (hw x).1, Place.valid_iff hi]
  | destroy x => exact (hw x).2
  | copyAssign x y | moveAssign x y | swap x y => simp only [WCmd.valid, WCmd.validIn, Bool.and_eq_true, (hw x).2, (hw y).2]
  | assign x t | assignMove x t => simp only [WCmd.valid, WCmd.validIn, Bool.and_eq_true, (hw x).2, Place.valid_iff hi]
  | makeLocal n v => exact (hl n).1
  | dropLocal n => exact (hl n).2
  | store t v => exact Place.valid_iff hi

end

end BVariant
