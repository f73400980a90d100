/-
C35, C36: `recursive_wrapper` owns a live object and has value semantics.
-/
import Verif.Lemmas.Wrapper
import Verif.Spec.Examples

namespace BVariant

section
variable {V : Type} {C : WrapCfg V} {s s' s'' : WrapSt V} {x y : Nat}

theorem WrapInv.init : WrapInv (WrapSt.init V) :=
  ⟨fun _ _ h => by simp [WrapSt.init] at h, fun _ _ _ h => by simp [WrapSt.init] at h,
    fun _ h => absurd rfl h, fun _ _ => rfl⟩

/-- Runs from a state that satisfies the invariant. -/
theorem wRun_inv (cs : List (WCmd V)) (hi : WrapInv s) : ∃ s', wRun C cs s = some s' ∧ WrapInv s' := by
  induction cs generalizing s with
  | nil => exact ⟨s, rfl, hi⟩
  | cons c cs ih =>
    by_cases hc : c.valid s = true
    · rcases wStep (C := C) hi hc with ⟨s1, hr, h1, _⟩ | ⟨e, s1, hr, h1, _⟩
      · obtain ⟨s2, h2, h3⟩ := ih h1
        exact ⟨s2, by rw [wRun, if_pos hc, hr]; exact h2, h3⟩
      · obtain ⟨s2, h2, h3⟩ := ih h1
        exact ⟨s2, by rw [wRun, if_pos hc, hr]; exact h2, h3⟩
    · obtain ⟨s2, h2, h3⟩ := ih hi
      exact ⟨s2, by rw [wRun, if_neg hc]; exact h2, h3⟩

/-- **C35**: every program on wrappers runs without undefined behaviour and without `std::terminate`, whatever throws,
and ends in a state in which every live wrapper owns a live object, no two own the same, and there is no other memory. -/
theorem C35_every_wrapper_owns (C : WrapCfg V) (cs : List (WCmd V)) :
    ∃ s, wRun C cs (WrapSt.init V) = some s ∧
      (∀ x p, s.wraps x = some p → ∃ v, s.heap p = some (.live v)) ∧
      (∀ x y p, s.wraps x = some p → s.wraps y = some p → x = y) ∧
      (∀ p, s.heap p ≠ none → ∃ x, s.wraps x = some p) := by
  obtain ⟨s, h, hi⟩ := wRun_inv (C := C) cs WrapInv.init
  exact ⟨s, h, hi.owns, hi.inj, hi.noLeak⟩

/-- **C35**: a program that has destroyed its wrappers has freed all memory. -/
theorem C35_nothing_leaks (h : wRun C cs (WrapSt.init V) = some s) (hdead : ∀ x, s.wraps x = none) (p : ObjId) :
    s.heap p = none := by
  obtain ⟨s', h', hi⟩ := wRun_inv (C := C) cs WrapInv.init
  rw [h] at h'; cases h'
  cases hp : s.heap p with
  | none => rfl
  | some b =>
    obtain ⟨x, hx⟩ := hi.noLeak p (by rw [hp]; nofun)
    rw [hdead x] at hx; cases hx

/-- Runs from a state that satisfies the invariant refine the store. -/
theorem wRun_steps (cs : List (WCmd V)) (hi : WrapInv s) (h : wRun C cs s = some s') :
    WSteps C.ops cs s.store s'.store := by
  induction cs generalizing s with
  | nil => cases h; exact .nil
  | cons c cs ih =>
    by_cases hc : c.valid s = true
    · have hv := (WCmd.valid_iff hi c).mp hc
      rw [wRun, if_pos hc] at h
      rcases wStep (C := C) hi hc with ⟨s1, hr, h1, h2⟩ | ⟨e, s1, hr, h1, h2, _⟩ <;> rw [hr] at h
      · exact .ok hv h2 (ih h1 h)
      · exact .exc hv h2 (ih h1 h)
    · rw [wRun, if_neg hc] at h
      exact .skip (fun hv => hc ((WCmd.valid_iff hi c).mpr hv)) (ih hi h)

/-- **C36**: value semantics. What a program does to the contents of its wrappers is what it does to a store in which
wrappers are plain values: there are no pointers, no heap and no sharing in `WSteps`. -/
theorem C36_refines_plain_values (h : wRun C cs (WrapSt.init V) = some s) :
    WSteps C.ops cs ⟨fun _ => none, fun _ => none⟩ s.store :=
  wRun_steps cs WrapInv.init h

/-- The statement can change the content of wrapper `y`: it is constructed, destroyed, assigned to, swapped, moved from or
written through `y.get()`. -/
def WCmd.writes : WCmd V → Nat → Prop
  | .defaultConstruct x, y | .copyConstruct x _, y | .construct x _, y | .destroy x, y | .copyAssign x _, y
  | .assign x _, y => x = y
  | .moveConstruct x z, y | .moveAssign x z, y | .swap x z, y => x = y ∨ z = y
  | .constructMove x t, y | .assignMove x t, y => x = y ∨ t = .get y
  | .makeLocal _ _, _ | .dropLocal _, _ => False
  | .store t _, y => t = .get y

theorem WStore.put_other {σ : WStore V} {t : Place} (h : t ≠ .get y) (v : V) : (σ.put t v).wrap y = σ.wrap y := by
  cases t with
  | get x => simp only [WStore.put, upd]; rw [if_neg]; rintro rfl; exact h rfl
  | «local» n => rfl

theorem WOk.frame {o : Ops V} {c : WCmd V} {σ σ' : WStore V} (h : WOk o c σ σ') (hw : ¬ c.writes y) : σ'.wrap y = σ.wrap y := by
  cases h <;> simp only [WCmd.writes, not_or] at hw
  case destroy x => simp only [upd]; rw [if_neg (fun h => hw h.symm)]
  case dropLocal => rfl
  all_goals simp only [ne_eq, Place.get.injEq, hw, not_false_eq_true, WStore.put_other, reduceCtorEq]

theorem WExc.frame {o : Ops V} {c : WCmd V} {k : ExcKind} {σ σ' : WStore V} (h : WExc o c k σ σ') (hw : ¬ c.writes y) :
    σ'.wrap y = σ.wrap y := by
  cases h <;> simp only [WCmd.writes, not_or] at hw <;>
    simp only [ne_eq, Place.get.injEq, hw, not_false_eq_true, WStore.put_other]

theorem WSteps.frame {o : Ops V} {cs : List (WCmd V)} {σ σ' : WStore V} (h : WSteps o cs σ σ') (hw : ∀ c ∈ cs, ¬ c.writes y) :
    σ'.wrap y = σ.wrap y := by
  induction h with
  | nil => rfl
  | ok _ h _ ih => rw [ih fun c hc => hw c (.tail _ hc), h.frame (hw _ (.head _))]
  | exc _ h _ ih => rw [ih fun c hc => hw c (.tail _ hc), h.frame (hw _ (.head _))]
  | skip _ _ ih => exact ih fun c hc => hw c (.tail _ hc)

/-- **C36**: copying a wrapper (here: `recursive_wrapper x(y)`) copies the content; whatever a program then does, as long
as it does not write to `y` itself, `y` keeps its value, and as long as it does not write to `x` itself, `x` keeps the
copy. -/
theorem C36_copies_are_independent (hpre : wRun C pre (WrapSt.init V) = some s) (hv : s.content y = some v)
    (hr : wCopyConstruct C x y s = .ok () s') (hx : s.wraps x = none)
    (hcs : wRun C cs s' = some s'') :
    (s'.content x = some (C.ops.copy 0 v) ∧ s'.content y = some v) ∧
    ((∀ c ∈ cs, ¬ c.writes y) → s''.content y = some v) ∧
    ((∀ c ∈ cs, ¬ c.writes x) → s''.content x = some (C.ops.copy 0 v)) := by
  obtain ⟨s0, h0, hi⟩ := wRun_inv (C := C) pre WrapInv.init
  rw [hpre] at h0; cases h0
  have hy : s.wraps y ≠ none := fun h => by rw [content_none h] at hv; cases hv
  have hval : WCmd.valid s (.copyConstruct x y) = true := by
    simp only [WCmd.valid, hx, Option.isNone_none, Bool.true_and]
    exact Option.isSome_iff_ne_none.mpr hy
  have hxy : ¬ x = y := by rintro rfl; exact hy hx
  rcases wStep (C := C) hi hval with ⟨s1, hr1, hi1, hok⟩ | ⟨e, s1, hr1, _⟩
  · have : Res.ok () s' = Res.ok () s1 := hr.symm.trans hr1
    cases this
    have h1 : s'.content x = some (C.ops.copy 0 v) ∧ s'.content y = some v := by
      have hf := hok.frame (y := y) (by simpa [WCmd.writes] using hxy)
      refine ⟨?_, hf.trans hv⟩
      generalize hσ : s.store = σ at hok
      generalize hσ' : s'.store = σ' at hok
      cases hok with
      | copyConstruct h =>
        rename_i u
        have : some v = some u := by rw [← hv, ← h, ← hσ]; rfl
        cases this
        have : s'.store.wrap x = some (C.ops.copy 0 v) := by rw [hσ']; simp [WStore.put]
        exact this
    have hst := wRun_steps cs hi1 hcs
    exact ⟨h1, fun hw => (hst.frame hw).trans h1.2, fun hw => (hst.frame hw).trans h1.1⟩
  · have : Res.ok () s' = Res.exc e s1 := hr.symm.trans hr1
    cases this

/-- **C36**: copy assignment assigns the content; afterwards the two wrappers are independent. -/
theorem C36_assigned_are_independent (hpre : wRun C pre (WrapSt.init V) = some s) (hu : s.content x = some u)
    (hv : s.content y = some v) (hxy : x ≠ y) (hr : wCopyAssign C x y s = .ok () s') (hcs : wRun C cs s' = some s'') :
    (s'.content x = some (C.ops.assign 0 u v) ∧ s'.content y = some v) ∧
    ((∀ c ∈ cs, ¬ c.writes y) → s''.content y = some v) ∧
    ((∀ c ∈ cs, ¬ c.writes x) → s''.content x = some (C.ops.assign 0 u v)) := by
  obtain ⟨s0, h0, hi⟩ := wRun_inv (C := C) pre WrapInv.init
  rw [hpre] at h0; cases h0
  have hne : ∀ z w, s.content z = some w → (s.wraps z).isSome = true := fun z w h =>
    Option.isSome_iff_ne_none.mpr fun h' => by rw [content_none h'] at h; cases h
  have hval : WCmd.valid s (.copyAssign x y) = true := by simp only [WCmd.valid, hne x u hu, hne y v hv, Bool.and_self]
  rcases wStep (C := C) hi hval with ⟨s1, hr1, hi1, hok⟩ | ⟨e, s1, hr1, _⟩
  · have : Res.ok () s' = Res.ok () s1 := hr.symm.trans hr1
    cases this
    have h1 : s'.content x = some (C.ops.assign 0 u v) ∧ s'.content y = some v := by
      have hf := hok.frame (y := y) (by simpa [WCmd.writes] using hxy)
      refine ⟨?_, hf.trans hv⟩
      generalize hσ : s.store = σ at hok
      generalize hσ' : s'.store = σ' at hok
      cases hok with
      | copyAssign h1 h2 =>
        rename_i u' v'
        have : some u = some u' := by rw [← hu, ← h1, ← hσ]; rfl
        cases this
        have : some v = some v' := by rw [← hv, ← h2, ← hσ]; rfl
        cases this
        have : s'.store.wrap x = some (C.ops.assign 0 u v) := by rw [hσ']; simp [WStore.put]
        exact this
    have hst := wRun_steps cs hi1 hcs
    exact ⟨h1, fun hw => (hst.frame hw).trans h1.2, fun hw => (hst.frame hw).trans h1.1⟩
  · have : Res.ok () s' = Res.exc e s1 := hr.symm.trans hr1
    cases this

/-- **C36**: move construction takes the value and leaves the source alive with a moved-from `T`; every other wrapper is
unchanged. -/
theorem C36_move_construction (hpre : wRun C pre (WrapSt.init V) = some s) (hv : s.content y = some v)
    (hx : s.wraps x = none) (hr : wMoveConstruct C x y s = .ok () s') :
    s'.content x = some (C.ops.move 0 v) ∧ s'.content y = some (C.ops.movedFrom 0 v) ∧
    ∀ z, z ≠ x → z ≠ y → s'.content z = s.content z := by
  obtain ⟨s0, h0, hi⟩ := wRun_inv (C := C) pre WrapInv.init
  rw [hpre] at h0; cases h0
  have hy : s.wraps y ≠ none := fun h => by rw [content_none h] at hv; cases hv
  have hval : WCmd.valid s (.moveConstruct x y) = true := by
    simp only [WCmd.valid, hx, Option.isNone_none, Bool.true_and]
    exact Option.isSome_iff_ne_none.mpr hy
  have hxy : ¬ y = x := by rintro rfl; exact hy hx
  rcases wStep (C := C) hi hval with ⟨s1, hr1, hi1, hok⟩ | ⟨e, s1, hr1, _⟩
  · have : Res.ok () s' = Res.ok () s1 := hr.symm.trans hr1
    cases this
    have hf : ∀ z, z ≠ x → z ≠ y → s'.content z = s.content z := fun z h1 h2 =>
      hok.frame (y := z) (by simp only [WCmd.writes]; rintro (rfl | rfl); exact h1 rfl; exact h2 rfl)
    generalize hσ : s.store = σ at hok
    generalize hσ' : s'.store = σ' at hok
    cases hok with
    | moveConstruct h =>
      rename_i u
      have : some v = some u := by rw [← hv, ← h, ← hσ]; rfl
      cases this
      have h1 : s'.store.wrap x = some (C.ops.move 0 v) := by rw [hσ']; simp [WStore.put]
      have h2 : s'.store.wrap y = some (C.ops.movedFrom 0 v) := by rw [hσ']; simp [WStore.put, upd, hxy]
      exact ⟨h1, h2, hf⟩
  · have : Res.ok () s' = Res.exc e s1 := hr.symm.trans hr1
    cases this

/-- **C36**: move assignment and swap exchange the contents; they cannot throw (also not terminate), do not allocate,
perform no operation of `T`, and change nothing else. -/
theorem C36_exchange (hpre : wRun C pre (WrapSt.init V) = some s) (hu : s.content x = some u) (hv : s.content y = some v)
    (op : Nat → Nat → Eff (WrapSt V) Unit) (hop : op = wMoveAssign ∨ op = wSwap) :
    ∃ s', op x y s = .ok () s' ∧ s'.content x = some v ∧ s'.content y = some u ∧
      (∀ z, z ≠ x → z ≠ y → s'.content z = s.content z) ∧
      s'.heap = s.heap ∧ s'.locals = s.locals ∧ s'.tick = s.tick ∧ s'.allocs = s.allocs := by
  obtain ⟨s0, h0, hi⟩ := wRun_inv (C := C) pre WrapInv.init
  rw [hpre] at h0; cases h0
  have hne : ∀ z w, s.content z = some w → ∃ p, s.wraps z = some p := fun z w h =>
    Option.ne_none_iff_exists'.mp fun h' => by rw [content_none h'] at h; cases h
  obtain ⟨p, hp⟩ := hne x u hu
  obtain ⟨q, hq⟩ := hne y v hv
  obtain ⟨u', v', hu', hv', hst⟩ := swap_store hi hp hq
  have : some u = some u' := hu.symm.trans hu'
  cases this
  have : some v = some v' := hv.symm.trans hv'
  cases this
  have hrun : op x y s = .ok () { s with wraps := upd (upd s.wraps y (some p)) x (some q) } := by
    rcases hop with rfl | rfl
    · exact wMoveAssign_run hp hq
    · exact wSwap_run hp hq
  have hc : ∀ z, WrapSt.content { s with wraps := upd (upd s.wraps y (some p)) x (some q) } z =
      ((s.store.put (.get y) u).put (.get x) v).wrap z := fun z => by rw [← hst]; rfl
  refine ⟨_, hrun, ?_, ?_, ?_, rfl, rfl, rfl, rfl⟩
  · rw [hc]; simp [WStore.put]
  · rw [hc]
    simp only [WStore.put, upd]
    by_cases h : y = x
    · subst h
      simp only [if_true]
      exact hv.symm.trans hu
    · simp [h]
  · intro z h1 h2
    rw [hc]
    simp only [WStore.put, upd, h1, h2, if_false]; rfl

/-- **C36**: an exception leaves a statement only if an operation of `T` or an allocation threw during it. -/
theorem C36_throws_only_if_thrown (hpre : wRun C pre (WrapSt.init V) = some s) {c : WCmd V} (hc : c.valid s = true)
    (hr : c.code C s = .exc e s') : s.tick ≤ e.tick ∧ e.tick < s'.tick ∧ C.throws e.tick = true := by
  obtain ⟨s0, h0, hi⟩ := wRun_inv (C := C) pre WrapInv.init
  rw [hpre] at h0; cases h0
  rcases wStep (C := C) hi hc with ⟨s1, hr1, _⟩ | ⟨e', s1, hr1, _, _, h⟩
  · rw [hr] at hr1; cases hr1
  · rw [hr] at hr1; cases hr1; exact h

end

/-! ### Non-vacuity -/

/-- Wrappers of a type all of whose operations may throw; the operations number `bad` do. -/
def exWrap (bad : List Nat) : WrapCfg Nat := ⟨natOps, tThrowing, fun t => bad.contains t⟩

def exWrapProg : List (WCmd Nat) :=
  [.makeLocal 0 7, .construct 0 (.local 0), .copyConstruct 1 0, .store (.get 0) 8, .moveConstruct 2 0, .moveAssign 1 2]

def wAfter (bad : List Nat) (cs : List (WCmd Nat)) : WrapSt Nat := (wRun (exWrap bad) cs (WrapSt.init Nat)).getD (WrapSt.init Nat)

theorem wAfter_run (bad : List Nat) (cs : List (WCmd Nat)) : wRun (exWrap bad) cs (WrapSt.init Nat) = some (wAfter bad cs) := by
  obtain ⟨s, h, _⟩ := C35_every_wrapper_owns (exWrap bad) cs
  rw [wAfter, h]; rfl

/-- C35, C36: a run with a failed allocation (operation 2, of `copyConstruct`) and a failed move constructor (operation 5, of
`moveConstruct`), and one without failures. -/
example : (wAfter [2] exWrapProg).content 1 = none ∧ (wAfter [2] exWrapProg).content 2 = some 8 ∧
    (wAfter [] exWrapProg).content 0 = some 0 ∧ (wAfter [] exWrapProg).content 1 = some 8 ∧
    (wAfter [] exWrapProg).content 2 = some 7 ∧
    (wAfter [5] exWrapProg).content 2 = none ∧ (wAfter [5] exWrapProg).content 0 = some 8 ∧
    (wAfter [5] exWrapProg).allocs = 3 ∧ (wAfter [5] exWrapProg).heap 2 = none ∧ (wAfter [] exWrapProg).heap 2 = some (.live 8) := by
  decide +kernel

/-- C35: all wrappers destroyed. -/
example : ∀ p, (wAfter [5] (exWrapProg ++ [.destroy 0, .destroy 1, .destroy 2])).heap p = none :=
  C35_nothing_leaks (C := exWrap [5]) (wAfter_run _ _) (by
    intro x
    match x with
    | 0 => decide +kernel
    | 1 => decide +kernel
    | 2 => decide +kernel
    | n + 3 =>
      obtain ⟨s, h, hi⟩ := wRun_inv (C := exWrap [5]) (exWrapProg ++ [.destroy 0, .destroy 1, .destroy 2]) WrapInv.init
      have hst := wRun_steps _ WrapInv.init h
      rw [wAfter_run] at h; cases h
      refine hi.content_none_iff.mp (hst.frame (y := n + 3) ?_)
      simp [exWrapProg, WCmd.writes])

def Res.isOk {S α : Type} : Res S α → Bool
  | .ok _ _ => true
  | _ => false

/-- C36: the hypotheses of the statements on copies, moves and exchange. -/
example : ∃ s', wCopyConstruct (exWrap []) 5 0 (wAfter [] (exWrapProg.take 4)) = .ok () s' ∧
    s'.content 5 = some 8 ∧ s'.content 0 = some 8 := by
  have hrun : (wCopyConstruct (exWrap []) 5 0 (wAfter [] (exWrapProg.take 4))).isOk = true := by decide +kernel
  cases hr : wCopyConstruct (exWrap []) 5 0 (wAfter [] (exWrapProg.take 4)) with
  | ok u s' =>
    exact ⟨s', rfl, (C36_copies_are_independent (C := exWrap []) (v := 8) (cs := []) (wAfter_run _ _) (by decide +kernel) hr
      (by decide +kernel) rfl).1⟩
  | exc e s' => rw [hr] at hrun; cases hrun
  | fault f => rw [hr] at hrun; cases hrun

example : ∃ s', wMoveAssign 0 1 (wAfter [] (exWrapProg.take 4)) = .ok () s' ∧ s'.content 0 = some 7 ∧ s'.content 1 = some 8 := by
  obtain ⟨s', h, h1, h2, _⟩ := C36_exchange (C := exWrap []) (x := 0) (y := 1) (u := 8) (v := 7) (wAfter_run [] (exWrapProg.take 4))
    (by decide +kernel) (by decide +kernel) _ (.inl rfl)
  exact ⟨s', h, h1, h2⟩

/-- C36: assignment, and move construction, in a state with several wrappers. -/
example := C35_every_wrapper_owns (exWrap [5]) exWrapProg
example := C36_refines_plain_values (wAfter_run [5] exWrapProg)
example : ∃ s', wCopyAssign (exWrap []) 1 0 (wAfter [] (exWrapProg.take 4)) = .ok () s' ∧
    s'.content 1 = some 8 ∧ s'.content 0 = some 8 := by
  have hrun : (wCopyAssign (exWrap []) 1 0 (wAfter [] (exWrapProg.take 4))).isOk = true := by decide +kernel
  cases hr : wCopyAssign (exWrap []) 1 0 (wAfter [] (exWrapProg.take 4)) with
  | ok u s' =>
    exact ⟨s', rfl, (C36_assigned_are_independent (C := exWrap []) (u := 7) (v := 8) (cs := []) (wAfter_run _ _)
      (by decide +kernel) (by decide +kernel) (by decide) hr rfl).1⟩
  | exc e s' => rw [hr] at hrun; cases hrun
  | fault f => rw [hr] at hrun; cases hrun
example : ∃ s', wMoveConstruct (exWrap []) 5 0 (wAfter [] (exWrapProg.take 4)) = .ok () s' ∧
    s'.content 5 = some 8 ∧ s'.content 0 = some 0 ∧ s'.content 1 = some 7 := by
  have hrun : (wMoveConstruct (exWrap []) 5 0 (wAfter [] (exWrapProg.take 4))).isOk = true := by decide +kernel
  cases hr : wMoveConstruct (exWrap []) 5 0 (wAfter [] (exWrapProg.take 4)) with
  | ok u s' =>
    obtain ⟨h1, h2, h3⟩ := C36_move_construction (C := exWrap []) (v := 8) (wAfter_run _ _) (by decide +kernel)
      (by decide +kernel) hr
    exact ⟨s', rfl, h1, h2, (h3 1 (by decide) (by decide)).trans (by decide +kernel)⟩
  | exc e s' => rw [hr] at hrun; cases hrun
  | fault f => rw [hr] at hrun; cases hrun

/-! ### Instances -/

/-- C36: the move constructor that throws. -/
example : (match (WCmd.moveConstruct 2 0).code (exWrap [5]) (wAfter [5] (exWrapProg.take 4)) with | .exc _ _ => true | _ => false) = true := by
  decide +kernel

example (e : Exc) (s' : WrapSt Nat) (h : (WCmd.moveConstruct 2 0).code (exWrap [5]) (wAfter [5] (exWrapProg.take 4)) = .exc e s') :
    (exWrap [5]).throws e.tick = true :=
  (C36_throws_only_if_thrown (wAfter_run [5] (exWrapProg.take 4)) (by decide +kernel) h).2.2

end BVariant
