/-
C62: what a statement costs does not depend on how many types, variables or statements there are.

Counted are the potentially throwing operations (constructors, assignments and swaps of element types, conversions and
allocations), the element objects constructed, and the library's allocations. The documentation gives the library's
operations no complexity; the bounds here are the ones the code meets, and each is attained.
-/
import Verif.Lemmas.Cost
import Verif.Props.Structured
import Verif.Props.Multi
import Verif.Props.Identity

namespace BVariant

/-- A budget: operations, objects, allocations. -/
structure Budget where
  ops : Nat
  objs : Nat
  allocs : Nat
  deriving DecidableEq

/-- What a statement may cost. The object of the program from which `constructL`, `assignL` and the like start counts,
too. The worst case of an assignment is the heap backup: allocate, copy the old content there, copy the new one into
the storage. An assignment of a value makes a temporary variant first, `swap` is a move construction and two
assignments, and a conversion makes a temporary of the element type and moves it. -/
def Cmd.budget {V : Type} : Cmd V → Budget
  | .defaultConstruct _ | .copyConstruct _ _ | .moveConstruct _ _ | .constructGet _ _ _ => ⟨1, 1, 0⟩
  | .constructL _ _ _ | .constructR _ _ _ => ⟨1, 2, 0⟩
  | .constructC _ _ _ => ⟨2, 2, 0⟩
  | .destroy _ | .mutate _ _ => ⟨0, 0, 0⟩
  | .copyAssign _ _ | .moveAssign _ _ => ⟨3, 2, 1⟩
  | .assignL _ _ _ | .assignR _ _ _ | .assignVL _ _ _ | .assignVR _ _ _ => ⟨4, 4, 1⟩
  | .assignC _ _ _ => ⟨5, 4, 1⟩
  | .assignGet _ _ _ => ⟨4, 3, 1⟩
  | .swap _ _ => ⟨7, 5, 2⟩

/-- From `w` to `w'` the counters grew by at most the budget. -/
def Budget.covers {V : Type} (b : Budget) (w w' : World V) : Prop :=
  w'.tick ≤ w.tick + b.ops ∧ w'.next ≤ w.next + b.objs ∧ w'.allocs ≤ w.allocs + b.allocs

section
variable {V α : Type} {C : Cfg V}

theorem Cost.cmd (R : Prices) (c : Cmd V) :
    Cost R (c.code C) (fun _ => R.of c.budget.ops c.budget.objs c.budget.allocs)
      (R.of c.budget.ops c.budget.objs c.budget.allocs) := by
  have hsteps : ∀ rv k id, (refSrc (V := V) rv k id).steps = 1 := by
    intro rv k id; cases rv <;> rfl
  cases c <;> simp only [Cmd.budget] <;> simp only [Cmd.code]
  case defaultConstruct x => exact (Cost.defaultConstruct _).weaken (by intros; simp only [Prices.of]; omega) (by simp only [Prices.of]; omega)
  case copyConstruct x y => exact (Cost.copyConstruct _ _).weaken (by intros; simp only [Prices.of]; omega) (by simp only [Prices.of]; omega)
  case moveConstruct x y => exact (Cost.moveConstruct _ _).weaken (by intros; simp only [Prices.of]; omega) (by simp only [Prices.of]; omega)
  case constructL x k v =>
    have h : ∀ t, Cost R (BVariant.convertConstruct C (.user x) (.lref k t false)) (fun _ => 1 * R.op + 1 * R.obj) (1 * R.op + 1 * R.obj) :=
      fun t => Cost.convertConstruct _ _
    refine (Cost.withElem k v h).weaken ?_ ?_ <;> intros <;> simp only [Prices.of] <;> omega
  case constructR x k v =>
    have h : ∀ t, Cost R (BVariant.convertConstruct C (.user x) (.rref k t false)) (fun _ => 1 * R.op + 1 * R.obj) (1 * R.op + 1 * R.obj) :=
      fun t => Cost.convertConstruct _ _
    refine (Cost.withElem k v h).weaken ?_ ?_ <;> intros <;> simp only [Prices.of] <;> omega
  case constructC x k v =>
    refine (Cost.convertConstruct (.user x) (.conv k v)).weaken ?_ ?_ <;> intros <;>
      simp only [Prices.of, Src.steps] <;> omega
  case destroy x => exact (Cost.destroyVar _).weaken (by intros; simp only [Prices.of]; omega) (by simp only [Prices.of]; omega)
  case copyAssign x y => exact Cost.copyAssign _ _
  case moveAssign x y => exact Cost.moveAssign _ _
  case assignL x k v =>
    have h : ∀ t, Cost R (BVariant.assignValue C (.user x) (.lref k t false)) (fun _ => R.of 4 3 1) (R.of 4 3 1) :=
      fun t => Cost.assignValue _ _
    refine (Cost.withElem k v h).weaken ?_ ?_ <;> intros <;> simp only [Prices.of] <;> omega
  case assignR x k v =>
    have h : ∀ t, Cost R (BVariant.assignValue C (.user x) (.rref k t false)) (fun _ => R.of 4 3 1) (R.of 4 3 1) :=
      fun t => Cost.assignValue _ _
    refine (Cost.withElem k v h).weaken ?_ ?_ <;> intros <;> simp only [Prices.of] <;> omega
  case assignC x k v => exact Cost.assignValue _ _
  case assignVL x k v =>
    have h : ∀ t, Cost R (BVariant.assignValue C (.user x) (.lref k t true)) (fun _ => R.of 4 3 1) (R.of 4 3 1) :=
      fun t => Cost.assignValue _ _
    refine (Cost.withElem k v h).weaken ?_ ?_ <;> intros <;> simp only [Prices.of] <;> omega
  case assignVR x k v =>
    have h : ∀ t, Cost R (BVariant.assignValue C (.user x) (.rref k t true)) (fun _ => R.of 4 3 1) (R.of 4 3 1) :=
      fun t => Cost.assignValue _ _
    refine (Cost.withElem k v h).weaken ?_ ?_ <;> intros <;> simp only [Prices.of] <;> omega
  case swap x y => exact Cost.swap _ _
  case mutate x v =>
    exact (Cost.applyVisitor _ _ fun _ _ => Cost.modify (by intros; rfl) (by intros; rfl) (by intros; rfl)).weaken (by intros; simp only [Prices.of]; omega)
      (by simp only [Prices.of]; omega)
  case constructGet rv x y =>
    refine Cost.applyVisitor _ _ fun k id => (Cost.convertConstruct (.user x) (refSrc rv k id)).weaken ?_ ?_ <;> intros <;>
      simp only [Prices.of, hsteps] <;> omega
  case assignGet rv x y =>
    refine Cost.applyVisitor _ _ fun k id => (Cost.assignValue (.user x) (refSrc rv k id)).weaken ?_ ?_ <;> intros <;>
      simp only [Prices.of, hsteps] <;> omega

theorem Cost.covers {m : M V α} {b : Budget}
    (h : ∀ R : Prices, Cost R m (fun _ => R.of b.ops b.objs b.allocs) (R.of b.ops b.objs b.allocs)) (w w' : World V)
    (hr : (∃ a, m w = .ok a w') ∨ ∃ e, m w = .exc e w') : b.covers w w' := by
  have h1 := h ⟨1, 0, 0⟩ w
  have h2 := h ⟨0, 1, 0⟩ w
  have h3 := h ⟨0, 0, 1⟩ w
  rcases hr with ⟨a, hr⟩ | ⟨e, hr⟩ <;> rw [hr] at h1 h2 h3 <;> simp only [Prices.meter, Prices.of] at h1 h2 h3 <;>
    refine ⟨?_, ?_, ?_⟩ <;> omega

/-- C62: a statement costs at most its budget, from any state, of any configuration, whether it ends normally or with an
exception. The budget is a table of numbers: neither the number of bounded types, nor their operations, nor the other
variables, nor the past matter. -/
theorem C62_statement (c : Cmd V) (w w' : World V)
    (hr : (∃ a, c.code C w = .ok a w') ∨ ∃ e, c.code C w = .exc e w') : c.budget.covers w w' :=
  Cost.covers (fun R => Cost.cmd R c) w w' hr

/-- C62: a program costs at most the sum of the budgets of its statements. -/
theorem C62_program (cs : List (Cmd V)) (w w' : World V) (hr : run C cs w = some w') :
    Budget.covers ⟨(cs.map (·.budget.ops)).sum, (cs.map (·.budget.objs)).sum, (cs.map (·.budget.allocs)).sum⟩ w w' := by
  induction cs generalizing w with
  | nil => cases hr; exact ⟨Nat.le_refl _, Nat.le_refl _, Nat.le_refl _⟩
  | cons c cs ih =>
    simp only [run] at hr
    simp only [List.map_cons, List.sum_cons]
    have step : ∀ w1, c.budget.covers w w1 → run C cs w1 = some w' →
        Budget.covers ⟨c.budget.ops + (cs.map (·.budget.ops)).sum, c.budget.objs + (cs.map (·.budget.objs)).sum,
          c.budget.allocs + (cs.map (·.budget.allocs)).sum⟩ w w' := by
      intro w1 h1 h2
      have h2 := ih w1 h2
      simp only [Budget.covers] at h1 h2 ⊢
      omega
    split at hr
    · cases hm : c.code C w with
      | ok a w1 => rw [hm] at hr; exact step w1 (C62_statement c w w1 (.inl ⟨a, hm⟩)) hr
      | exc e w1 => rw [hm] at hr; exact step w1 (C62_statement c w w1 (.inr ⟨e, hm⟩)) hr
      | fault f => rw [hm] at hr; cases hr
    · exact step w ⟨Nat.le_add_right _ _, Nat.le_add_right _ _, Nat.le_add_right _ _⟩ hr

/-- C62: a program of `n` statements costs at most `7 n` operations, `5 n` objects and `2 n` allocations. -/
theorem C62_linear (cs : List (Cmd V)) (w w' : World V) (hr : run C cs w = some w') :
    Budget.covers ⟨7 * cs.length, 5 * cs.length, 2 * cs.length⟩ w w' := by
  have h := C62_program cs w w' hr
  have hb : ∀ c : Cmd V, c.budget.ops ≤ 7 ∧ c.budget.objs ≤ 5 ∧ c.budget.allocs ≤ 2 := by
    intro c; cases c <;> simp only [Cmd.budget] <;> omega
  have hs : ∀ cs : List (Cmd V), (cs.map (·.budget.ops)).sum ≤ 7 * cs.length ∧ (cs.map (·.budget.objs)).sum ≤ 5 * cs.length ∧
      (cs.map (·.budget.allocs)).sum ≤ 2 * cs.length := by
    intro cs
    induction cs with
    | nil => exact ⟨Nat.le_refl _, Nat.le_refl _, Nat.le_refl _⟩
    | cons c cs ih => have := hb c; simp only [List.map_cons, List.sum_cons, List.length_cons] at ih ⊢; omega
  have := hs cs
  simp only [Budget.covers] at h ⊢
  omega

end

/-! ### Programs with several variant types and control flow -/

/-- What a statement of a program with several variant types may cost; a conversion of a variant of another type is a
construction from, or an assignment of, its content. -/
def MixCmd.budget {V : Type} : MixCmd V → Budget
  | .on _ c => c.budget
  | .constructFrom _ _ _ _ => ⟨2, 2, 0⟩
  | .assignFrom _ _ _ _ => ⟨5, 4, 1⟩

section
variable {V : Type} {D : Decls V} {ρ : Nat → Nat}

theorem Cost.asBounded {R : Prices} (j k : TyIx) (id : ObjId) {m : M V Unit} {c : Unit → Nat} {x : Nat} (h : Cost R m c x) :
    Cost R (asBounded j k id m) c x := by
  intro w
  have := h (w.seenAs k id)
  simp only [BVariant.asBounded]
  cases hm : m (w.seenAs k id) with
  | ok a w' => rw [hm] at this; exact this
  | exc e w' => rw [hm] at this; exact this
  | fault f => trivial

theorem Prices.meter_if_setVal (R : Prices) (b : Bool) (j : TyIx) (id : ObjId) (v : V) (w : World V) :
    R.meter (if b then setVal j id v w else w) = R.meter w := by cases b <;> rfl

theorem Cost.convertingFrom {R : Prices} (cv : ConvVal V) (rv : Bool) (j k : TyIx) (id : ObjId) (v : V) {m : M V Unit}
    {c : Unit → Nat} {x : Nat} (h : Cost R m c x) : Cost R (convertingFrom cv rv j k id v m) c x := by
  intro w
  have := h w
  simp only [BVariant.convertingFrom]
  cases hm : m w with
  | ok a w' => rw [hm] at this; simp only [Prices.meter_if_setVal]; exact this
  | exc e w' => rw [hm] at this; simp only [Prices.meter_if_setVal]; exact this
  | fault f => trivial

theorem Cost.fromVariable {R : Prices} (C' : Cfg V) (F : Foreign) (cv : ConvVal V) (y : VarId) {use : Src V → M V Unit}
    {c x : Nat} (h : ∀ s, Cost R (use s) (fun _ => c) x) : Cost R (fromVariable C' F cv y use) (fun _ => c) x := by
  have hv : Cost R (BVariant.internalApplyVisitor C' y convertInto) (fun _ => 0) 0 :=
    Cost.internalApplyVisitor _ _ (fun _ _ => Cost.pure _) fun _ _ => (Cost.holderGet _).bind fun _ => Cost.pure _
  refine (hv.bind (K := fun _ => c) (X := x) fun p => ?_).weaken (by intros; omega) (by omega)
  refine ((Cost.readAs _ _).bind (K := fun _ => c) (X := x) fun v => ?_).weaken (by intros; omega) (by omega)
  split
  · exact Cost.ite (Cost.asBounded _ _ _ (h _)) (Cost.convertingFrom _ _ _ _ _ _ (h _))
  · exact Cost.fail _ _ _

theorem Cost.mixCmd (R : Prices) (c : MixCmd V) :
    Cost R (c.code D ρ) (fun _ => R.of c.budget.ops c.budget.objs c.budget.allocs)
      (R.of c.budget.ops c.budget.objs c.budget.allocs) := by
  cases c with
  | on vt c => exact Cost.cmd R c
  | constructFrom rv const x y =>
    refine Cost.fromVariable _ _ _ _ fun s => (Cost.convertConstruct (.user x) s).weaken ?_ ?_ <;> intros <;> cases s <;>
      simp only [Prices.of, MixCmd.budget, Src.steps] <;> omega
  | assignFrom rv const x y =>
    refine Cost.fromVariable _ _ _ _ fun s => (Cost.assignValue (.user x) s).weaken ?_ ?_ <;> intros <;> cases s <;>
      simp only [Prices.of, MixCmd.budget, Src.steps] <;> omega

/-- C62 for statements of programs with several variant types. -/
theorem C62_mixed_statement (c : MixCmd V) (w w' : World V)
    (hr : (∃ a, c.code D ρ w = .ok a w') ∨ ∃ e, c.code D ρ w = .exc e w') : c.budget.covers w w' :=
  Cost.covers (fun R => Cost.mixCmd R c) w w' hr

/-- C62 for programs with branches, loops, exceptions, scopes and several variant types: whatever the program does in `n`
steps of the machine costs at most `7 n` operations, `5 n` objects and `2 n` allocations. In particular, unwinding and the
ends of scopes are free of charge. -/
theorem C62_structured (n : Nat) (c : Conf V) (w' : World V)
    (hr : (∃ c', steps D ρ n c = .conf c' ∧ c'.w = w') ∨ ∃ b, steps D ρ n c = .done b w') :
    Budget.covers ⟨7 * n, 5 * n, 2 * n⟩ c.w w' := by
  have hb : ∀ c : MixCmd V, c.budget.ops ≤ 7 ∧ c.budget.objs ≤ 5 ∧ c.budget.allocs ≤ 2 := by
    intro c
    rcases c with ⟨vt, c⟩ | _ | _
    · cases c <;> simp only [MixCmd.budget, Cmd.budget] <;> omega
    · simp only [MixCmd.budget]; omega
    · simp only [MixCmd.budget]; omega
  have hrefl : ∀ w : World V, Budget.covers ⟨7, 5, 2⟩ w w := fun w =>
    ⟨Nat.le_add_right _ _, Nat.le_add_right _ _, Nat.le_add_right _ _⟩
  have hcmd : ∀ (c : MixCmd V) (w w' : World V), ((∃ a, c.code D ρ w = .ok a w') ∨ ∃ e, c.code D ρ w = .exc e w') →
      Budget.covers ⟨7, 5, 2⟩ w w' := by
    intro c w w' h
    have h1 := C62_mixed_statement c w w' h
    have h2 := hb c
    simp only [Budget.covers] at h1 ⊢
    omega
  have hend : ∀ x t k (w : World V) c', endScope D ρ x t k w = .conf c' → Budget.covers ⟨7, 5, 2⟩ w c'.w := by
    intro x t k w c' h
    unfold endScope at h
    split at h
    · split at h
      · rename_i w1 hd
        cases h
        have := Cost.covers (b := ⟨0, 0, 0⟩) (fun R => (Cost.destroyVar (R := R) (C := D.K (ρ x)) (.user x)).weaken
          (by intros; exact Nat.zero_le _) (Nat.zero_le _)) w w1 (.inl ⟨_, hd⟩)
        simp only [Budget.covers] at this ⊢
        omega
      · cases h
      · cases h
    · cases h; exact hrefl _
  have hstep : ∀ c c' : Conf V, step D ρ c = .conf c' → Budget.covers ⟨7, 5, 2⟩ c.w c'.w := by
    intro c c' h
    unfold step at h
    split at h
    case h_1 c k w =>
      split at h
      · cases hm : c.code D ρ w with
        | ok a w1 => rw [hm] at h; cases h; exact hcmd c w w1 (.inl ⟨_, hm⟩)
        | exc e w1 => rw [hm] at h; cases h; exact hcmd c w w1 (.inr ⟨_, hm⟩)
        | fault f => rw [hm] at h; cases h
      · cases h; exact hrefl _
    case h_12 => exact hend _ _ _ _ _ h
    case h_16 => exact hend _ _ _ _ _ h
    case h_5 => split at h <;> cases h <;> exact hrefl _
    case h_6 => split at h <;> cases h <;> exact hrefl _
    all_goals cases h; try exact hrefl _
  have hdone : ∀ (c : Conf V) b w', step D ρ c = .done b w' → w' = c.w := by
    intro c b w' h
    unfold step at h
    split at h
    case h_1 => repeat' (first | cases h | split at h)
    case h_12 => unfold endScope at h; repeat' (first | cases h | split at h)
    case h_16 => unfold endScope at h; repeat' (first | cases h | split at h)
    case h_5 => split at h <;> cases h
    case h_6 => split at h <;> cases h
    all_goals cases h; try rfl
  induction n generalizing c with
  | zero =>
    rcases hr with ⟨c', h, rfl⟩ | ⟨b, h⟩
    · cases h; exact ⟨Nat.le_refl _, Nat.le_refl _, Nat.le_refl _⟩
    · cases h
  | succ n ih =>
    simp only [steps] at hr
    cases hs : step D ρ c with
    | conf c1 =>
      rw [hs] at hr
      have h1 := ih c1 hr
      have h2 := hstep c c1 hs
      simp only [Budget.covers] at h1 h2 ⊢
      omega
    | done b w1 =>
      rw [hs] at hr
      rcases hr with ⟨c', h, _⟩ | ⟨b, h⟩
      · cases h
      · cases h; rw [hdone c _ _ hs]; exact ⟨Nat.le_add_right _ _, Nat.le_add_right _ _, Nat.le_add_right _ _⟩
    | fault f =>
      rw [hs] at hr
      rcases hr with ⟨c', h, _⟩ | ⟨b, h⟩ <;> cases h

end

/-! ### Visitation -/

section
variable {V α : Type} {K : Nat → Cfg V} {R : Prices}

/-- The moves (of const rvalues: copies) an n-ary visitation may make: one for every rvalue, to pass it to the visitor, and
one more for every rvalue but the first variant. -/
def movesOf : List Visitable → Nat
  | [] | [_] | [_, _] => 0
  | v1 :: vs => (v1 :: vs).countP (·.rvalue) + vs.countP (·.rvalue)

theorem Cost.applyVisitor1 {f : Arg → M V α} {k : α → Nat} {e : Nat} (v : Visitable)
    (h : ∀ a, a.rvalue = v.rvalue → Cost R (f a) k e) : Cost R (applyVisitor1 K f v) k e := by
  refine Cost.applyVisitor _ _ fun ty id => ?_
  by_cases hr : v.rvalue = true
  · rw [if_pos hr]; exact h _ hr.symm
  · rw [if_neg hr]; exact h _ (Bool.eq_false_iff.mpr hr).symm

theorem Cost.unwrapObj {C : Cfg V} (const : Bool) (ty : TyIx) (id : ObjId) :
    Cost R (unwrapObj C const ty id) (fun _ => R.op + R.obj) R.op := by
  cases const
  · exact Cost.moveCtor _ _
  · exact Cost.copyCtor _ _

theorem Cost.unwrapVar {C : Cfg V} (const : Bool) (x y : VarId) :
    Cost R (unwrapVar C const x y) (fun _ => R.op + R.obj) R.op := by
  cases const
  · exact Cost.moveConstruct _ _
  · exact Cost.copyConstruct _ _

theorem Cost.unwrapArgs (values : List Arg) (is : List Nat) (t : Nat → Option ObjId)
    {f : (Nat → Option ObjId) → M V α} {k : α → Nat} {e : Nat} (h : ∀ t, Cost R (f t) k e) :
    Cost R (unwrapArgs K values is t f)
      (fun a => is.countP (fun i => (values[i]?).any (·.rvalue)) * (R.op + R.obj) + k a)
      (is.countP (fun i => (values[i]?).any (·.rvalue)) * (R.op + R.obj) + e) := by
  induction is generalizing t with
  | nil => simp only [BVariant.unwrapArgs, List.countP_nil]; exact (h t).weaken (by intros; omega) (by omega)
  | cons i is ih =>
    simp only [BVariant.unwrapArgs]
    cases hv : values[i]? with
    | none =>
      rw [List.countP_cons_of_neg (by simp [hv])]
      exact ih _
    | some a =>
      dsimp only
      by_cases ha : a.rvalue = true
      · rw [if_pos ha, List.countP_cons_of_pos (by simp [hv, ha])]
        refine ((Cost.unwrapObj _ _ _).bind fun o => Cost.withLocal (ih _) (Cost.destroyObj _ _) (NoExc.destroyObj _ _)).weaken ?_ ?_
        · intro b; simp only [Nat.add_mul]; omega
        · simp only [Nat.add_mul]; omega
      · rw [if_neg ha, List.countP_cons_of_neg (by simp [hv, ha])]
        exact ih _

theorem countP_range_get {β : Type} (p : β → Bool) (l : List β) :
    (List.range l.length).countP (fun i => (l[i]?).any p) = l.countP p := by
  induction l with
  | nil => rfl
  | cons a l ih =>
    rw [List.length_cons, List.range_succ_eq_map, List.countP_cons, List.countP_map, List.countP_cons, ← ih]
    simp [Function.comp_def]

theorem Cost.doCall {order : Nat → List Nat} (hord : ∀ n, (order n).Perm (List.range n)) {f : List Arg → M V α}
    {k : α → Nat} {e : Nat} (h : ∀ l, Cost R (f l) k e) (values : List Arg) :
    Cost R (doCall K order f values) (fun a => values.countP (·.rvalue) * (R.op + R.obj) + k a)
      (values.countP (·.rvalue) * (R.op + R.obj) + e) := by
  have := Cost.unwrapArgs (K := K) (R := R) values (order values.length) (fun _ => none)
    (f := fun t => f (unwrapped values t)) fun t => h _
  rwa [(hord _).countP_eq, countP_range_get] at this

theorem Cost.unwrapVisitable (d : Nat) (v : Visitable) {body : Visitable → M V α} {k : α → Nat} {e : Nat}
    (h : ∀ v', v'.rvalue = v.rvalue → Cost R (body v') k e) :
    Cost R (unwrapVisitable K d v body) (fun a => (if v.rvalue then 1 else 0) * (R.op + R.obj) + k a)
      ((if v.rvalue then 1 else 0) * (R.op + R.obj) + e) := by
  unfold BVariant.unwrapVisitable
  by_cases hv : v.rvalue = true
  · rw [if_pos hv, if_pos hv]
    exact ((Cost.unwrapVar _ _ _).bind fun _ => Cost.withLocal (h _ hv.symm) (Cost.destroyVar _) (NoExc.destroyVar _)).weaken
      (by intros; omega) (by omega)
  · rw [if_neg hv, if_neg hv]
    exact (h _ (Bool.eq_false_iff.mpr hv).symm).weaken (by intros; omega) (by omega)

theorem Cost.oneByOne {order : Nat → List Nat} (hord : ∀ n, (order n).Perm (List.range n)) {f : List Arg → M V α}
    {k : α → Nat} {e : Nat} (h : ∀ l, Cost R (f l) k e) (vs : List Visitable) (d : Nat) (values : List Arg) (a : Arg) :
    Cost R (oneByOne K order f d vs values a)
      (fun b => (2 * vs.countP (·.rvalue) + (values ++ [a]).countP (·.rvalue)) * (R.op + R.obj) + k b)
      ((2 * vs.countP (·.rvalue) + (values ++ [a]).countP (·.rvalue)) * (R.op + R.obj) + e) := by
  induction vs generalizing d values a with
  | nil =>
    simp only [BVariant.oneByOne, List.countP_nil]
    exact (Cost.doCall hord h _).weaken (by intros; simp only [Nat.zero_add, Nat.mul_zero]; omega)
      (by simp only [Nat.zero_add, Nat.mul_zero]; omega)
  | cons v vs ih =>
    simp only [BVariant.oneByOne]
    have hstep := Cost.unwrapVisitable (K := K) (R := R) d v
      (body := fun v' => BVariant.applyVisitor1 K (BVariant.oneByOne K order f (d + 1) vs (values ++ [a])) v')
      (k := fun b => (2 * vs.countP (·.rvalue) + ((values ++ [a]).countP (·.rvalue) + if v.rvalue then 1 else 0)) * (R.op + R.obj) + k b)
      (e := (2 * vs.countP (·.rvalue) + ((values ++ [a]).countP (·.rvalue) + if v.rvalue then 1 else 0)) * (R.op + R.obj) + e)
      (fun v' hv' => Cost.applyVisitor1 v' fun a' ha' => by
        have := ih (d + 1) (values ++ [a]) a'
        rw [List.countP_append (l₁ := values ++ [a])] at this
        simp only [List.countP_cons, List.countP_nil, Nat.zero_add, ha', hv'] at this ⊢
        exact this)
    refine hstep.weaken ?_ ?_
    all_goals
      intros
      simp only [List.countP_cons]
      by_cases hv : v.rvalue = true
      · simp only [hv, if_true, Nat.add_mul, Nat.mul_add, Nat.one_mul]; omega
      · simp only [hv, Bool.false_eq_true, if_false, Nat.add_mul, Nat.mul_add, Nat.zero_mul, Nat.add_zero]; omega

/-- C62: what `apply_visitor` adds to the cost of the visitor: nothing for one or two variants, nothing for lvalues, and
at most two moves (of const rvalues: copies) for every rvalue (one for the first variant) from three variants on. The number of bounded types of the
variants does not matter, nor the order in which the compiler evaluates arguments. -/
theorem C62_visitation {order : Nat → List Nat} (hord : ∀ n, (order n).Perm (List.range n)) {f : List Arg → M V α}
    {k : α → Nat} {e : Nat} (h : ∀ l, Cost R (f l) k e) (vs : List Visitable) :
    Cost R (applyVisitorAny K order f vs) (fun a => R.of (movesOf vs) (movesOf vs) 0 + k a)
      (R.of (movesOf vs) (movesOf vs) 0 + e) := by
  match vs with
  | [] => exact Cost.fail _ _ _
  | [v] =>
    show Cost R (BVariant.applyVisitor1 K (fun a => f [a]) v) _ _
    refine (Cost.applyVisitor1 v fun a _ => h [a]).weaken ?_ ?_ <;> intros <;> exact Nat.le_add_left _ _
  | [v1, v2] =>
    have hi : ∀ a b : Arg, Cost R (binaryInvoke (fun a b => f [a, b]) a b) k e := by
      intro a b; unfold binaryInvoke; exact Cost.ite (h _) (h _)
    have hu : ∀ a : Arg, Cost R (binaryUnwrap K (fun a b => f [a, b]) v2 a) k e := by
      intro a; unfold binaryUnwrap
      exact Cost.ite (Cost.applyVisitor1 _ fun b _ => hi a b) (Cost.applyVisitor1 _ fun b _ => hi a b)
    show Cost R (BVariant.applyVisitor1 K (binaryUnwrap K (fun a b => f [a, b]) v2) v1) _ _
    refine (Cost.applyVisitor1 v1 fun a _ => hu a).weaken ?_ ?_ <;> intros <;> exact Nat.le_add_left _ _
  | v1 :: v2 :: v3 :: vs =>
    have hm : movesOf (v1 :: v2 :: v3 :: vs) =
      (v1 :: v2 :: v3 :: vs).countP (·.rvalue) + (v2 :: v3 :: vs).countP (·.rvalue) := rfl
    have := Cost.applyVisitor1 (K := K) (R := R) v1 (f := BVariant.oneByOne K order f 0 (v2 :: v3 :: vs) [])
      (k := fun b => (2 * (v2 :: v3 :: vs).countP (·.rvalue) + if v1.rvalue then 1 else 0) * (R.op + R.obj) + k b)
      (e := (2 * (v2 :: v3 :: vs).countP (·.rvalue) + if v1.rvalue then 1 else 0) * (R.op + R.obj) + e)
      (fun a ha => by
        have := Cost.oneByOne (K := K) (R := R) hord h (v2 :: v3 :: vs) 0 [] a
        rw [List.nil_append, List.countP_cons (a := a), List.countP_nil, Nat.zero_add, ha] at this
        exact this)
    rw [hm, List.countP_cons (a := v1)]
    generalize (v2 :: v3 :: vs).countP (·.rvalue) = n at this ⊢
    refine Cost.weaken this ?_ ?_
    all_goals
      intros
      simp only [Prices.of]
      by_cases hv : v1.rvalue = true
      · simp only [hv, if_true, Nat.add_mul, Nat.mul_add, Nat.two_mul, Nat.mul_comm R.op n, Nat.mul_comm R.obj n]; omega
      · simp only [hv, Bool.false_eq_true, if_false, Nat.add_mul, Nat.mul_add, Nat.two_mul, Nat.mul_comm R.op n, Nat.mul_comm R.obj n]; omega

/-- C62 for visitors that are free of charge, such as `get`, `operator==`, hashing and printing of the stored value:
visiting lvalues costs nothing at all. -/
theorem C62_lvalues {order : Nat → List Nat} (hord : ∀ n, (order n).Perm (List.range n)) {f : List Arg → M V α}
    (h : ∀ (R : Prices) l, Cost R (f l) (fun _ => 0) 0) {vs : List Visitable} (hl : ∀ v ∈ vs, v.rvalue = false)
    (w w' : World V) (hr : (∃ a, applyVisitorAny K order f vs w = .ok a w') ∨ ∃ e, applyVisitorAny K order f vs w = .exc e w') :
    Budget.covers ⟨0, 0, 0⟩ w w' := by
  have h0 : movesOf vs = 0 := by
    have hc : ∀ l : List Visitable, (∀ v ∈ l, v.rvalue = false) → l.countP (·.rvalue) = 0 := by
      intro l hl; exact List.countP_eq_zero.mpr fun v hv => by simp [hl v hv]
    match vs, hl with
    | [], _ | [_], _ | [_, _], _ => rfl
    | v1 :: v2 :: v3 :: vs, hl =>
      show (v1 :: v2 :: v3 :: vs).countP (·.rvalue) + (v2 :: v3 :: vs).countP (·.rvalue) = 0
      rw [hc _ hl, hc _ fun v hv => hl v (List.mem_cons_of_mem _ hv)]
  refine Cost.covers (b := ⟨0, 0, 0⟩) (fun R => ?_) w w' hr
  have := C62_visitation (K := K) (R := R) hord (h R) vs
  rw [h0] at this
  exact this

end

/-! ### Examples: every budget is attained -/

/-- The counters grew by exactly the budget in the statement `c` after the program `cs`. -/
def exhausts (C : Cfg Nat) (cs : List (Cmd Nat)) (c : Cmd Nat) : Bool :=
  match c.code C (stateAfter C cs) with
  | .ok _ w' => decide (w'.tick = (stateAfter C cs).tick + c.budget.ops) && decide (w'.next = (stateAfter C cs).next + c.budget.objs) &&
    decide (w'.allocs = (stateAfter C cs).allocs + c.budget.allocs)
  | _ => false

/-- Two types whose operations may all throw: no fallback, and assignments need the heap backup. -/
def exHeavy : Cfg Nat := exCfg [tThrowing, tThrowing] []

def exHeavyProg : List (Cmd Nat) := [.constructC 0 0 5, .constructC 1 1 7]

example : [Cmd.defaultConstruct 2, .copyConstruct 2 0, .moveConstruct 2 0, .constructGet false 2 0, .constructL 2 0 1,
    .constructR 2 0 1, .constructC 2 0 1, .destroy 0, .mutate 0 1, .copyAssign 0 1, .moveAssign 0 1, .assignL 0 1 1,
    .assignR 0 1 1, .assignC 0 1 1, .assignVL 0 1 1, .assignVR 0 1 1, .assignGet true 0 1, .swap 0 1].all
      (exhausts exHeavy exHeavyProg) = true := by decide +kernel

/-- A visitation of three rvalues, one of them const, makes five moves and copies, so `movesOf` is attained, too. -/
example : movesOf [⟨0, .user 0, ⟨true, false⟩⟩, ⟨0, .user 1, ⟨true, true⟩⟩, ⟨0, .user 2, ⟨true, false⟩⟩] = 5 ∧
    ∃ w', applyVisitorAny (fun _ => exHeavy) rightToLeft (fun _ => (pure () : M Nat Unit))
      [⟨0, .user 0, ⟨true, false⟩⟩, ⟨0, .user 1, ⟨true, true⟩⟩, ⟨0, .user 2, ⟨true, false⟩⟩] (stateAfter exHeavy (exHeavyProg ++ [.constructC 2 1 9])) = .ok () w' ∧
      w'.tick = (stateAfter exHeavy (exHeavyProg ++ [.constructC 2 1 9])).tick + 5 := by
  refine ⟨by decide, ?_⟩
  have h : (match applyVisitorAny (fun _ => exHeavy) rightToLeft (fun _ => (pure () : M Nat Unit))
      [⟨0, .user 0, ⟨true, false⟩⟩, ⟨0, .user 1, ⟨true, true⟩⟩, ⟨0, .user 2, ⟨true, false⟩⟩] (stateAfter exHeavy (exHeavyProg ++ [.constructC 2 1 9])) with
      | .ok _ w' => decide (w'.tick = (stateAfter exHeavy (exHeavyProg ++ [.constructC 2 1 9])).tick + 5)
      | _ => false) = true := by decide +kernel
  split at h
  · exact ⟨_, ‹_›, by simpa using h⟩
  · cases h

/-- The structured program of Props/Structured.lean, which ends after 60 steps at most. -/
example : ∃ u w, steps exDecls exMixR 60 (exStm.start (World.init Nat)) = .done u w ∧ w.tick ≤ 420 := by
  have h : (match steps exDecls exMixR 60 (exStm.start (World.init Nat)) with | .done u _ => u | _ => false) = true := by decide +kernel
  cases hst : steps exDecls exMixR 60 (exStm.start (World.init Nat)) with
  | conf c => rw [hst] at h; cases h
  | fault f => rw [hst] at h; cases h
  | done u w =>
    have := C62_structured 60 (exStm.start (World.init Nat)) w (.inr ⟨u, hst⟩)
    exact ⟨u, w, rfl, Nat.le_trans this.1 (Nat.le_of_eq rfl)⟩

/-! ### Instances -/

/-- C62: an assignment that throws, the program it is in, and conversions between two variant types. -/
example : (match (Cmd.copyAssign 0 1).code exTwo (stateAfter exTwo (exProg.take 2)) with | .exc _ _ => true | _ => false) = true := by decide +kernel
example : (run exTwo exProg (World.init Nat)).isSome = true := by decide +kernel
example : (match (MixCmd.constructFrom false false 2 1).code exDecls exMixR exMix with | .ok _ _ => true | _ => false) = true := by decide +kernel
example (e : Exc) (w' : World Nat) (h : (Cmd.copyAssign 0 1).code exTwo (stateAfter exTwo (exProg.take 2)) = .exc e w') :=
  C62_statement _ _ _ (.inr ⟨e, h⟩)
example (w' : World Nat) (h : run exTwo exProg (World.init Nat) = some w') := And.intro (C62_program _ _ _ h) (C62_linear _ _ _ h)
example (w' : World Nat) (h : (MixCmd.constructFrom false false 2 1).code exDecls exMixR exMix = .ok () w') :=
  C62_mixed_statement _ _ _ (.inl ⟨_, h⟩)

/-- C62: visiting three variants, two of them rvalues, with a visitor that only looks. -/
example (R : Prices) := C62_visitation (K := exVisitK [8]) (R := R) rightToLeft_perm (f := fun _ => (pure 0 : M Nat Nat)) (k := fun _ => 0) (e := 0)
  (fun _ => Cost.pure _) (visitables exMixR exThreeVis)

/-- C62: three lvalues. -/
example (w w' : World Nat) := C62_lvalues (K := exVisitK [8]) rightToLeft_perm (f := fun _ => (pure 0 : M Nat Nat)) (fun _ _ => Cost.pure _)
  (vs := visitables exMixR [(0, ⟨false, false⟩), (1, ⟨false, false⟩), (2, ⟨false, true⟩)]) (by decide) w w'

end BVariant
