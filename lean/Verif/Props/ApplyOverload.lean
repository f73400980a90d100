/-
C61: which overload of `apply_visitor` a call selects, for every visitor and every number of variants.
-/
import Verif.Meta.ApplyOverload

namespace BVariant

/-- The arguments are variants: none converts to `bool`. -/
def Variants (vs : List VisitableArg) : Prop := ∀ v ∈ vs, v.toBool = false

theorem Variants.head {v : VisitableArg} {vs : List VisitableArg} (h : Variants (v :: vs)) :
    v = ⟨false⟩ ∧ Variants vs := by
  refine ⟨?_, fun u hu => h u (List.mem_cons_of_mem _ hu)⟩
  have := h v List.mem_cons_self
  cases v
  simp_all

theorem Variants.getLast {vs : List VisitableArg} (h : Variants vs) :
    (vs.getLast?.map (·.toBool) == some true) = false := by
  cases hl : vs.getLast? with
  | none => rfl
  | some v =>
    have hv := h v (List.mem_of_getLast? hl)
    simp [hv]

/-- What an overload does with any number of variants. -/
theorem accept_variants (o : ApplyOverload) {vs : List VisitableArg} (h : Variants vs) :
    o.accept vs = if (o.pack && !o.flag) = true ∧ o.fixed ≤ vs.length ∨
        ¬(o.pack && !o.flag) = true ∧ vs.length = o.fixed then some (List.replicate vs.length false) else none := by
  have hm : (vs.map fun _ => false) = List.replicate vs.length false := by
    clear h
    induction vs with
    | nil => rfl
    | cons v vs ih => simp [List.replicate_succ, ih]
  unfold ApplyOverload.accept
  rw [h.getLast, hm]
  by_cases hp : (o.pack && !o.flag) = true <;> simp [hp]

theorem passesBetter_replicate (o o' : ApplyOverload) (t t' : VisitorTy) (n : Nat) :
    Viable.passesBetter ⟨o, t, List.replicate n false⟩ ⟨o', t', List.replicate n false⟩ = false := by
  unfold Viable.passesBetter
  induction n with
  | zero => rfl
  | succ n ih => simp

theorem visited_replicate (o : ApplyOverload) (t : VisitorTy) (n : Nat) :
    Viable.visited ⟨o, t, List.replicate n false⟩ = n := by
  unfold Viable.visited
  induction n with
  | zero => rfl
  | succ n ih => simp

/-- For four and more variants only the last two overloads of the first family are viable. -/
theorem viable_many (a : VisitorArg) {vs : List VisitableArg} (h : Variants vs) (hn : 4 ≤ vs.length) :
    (overloads.filterMap fun o => o.viable a vs) =
      ([⟨.constLref, 3, true, false, .resultType⟩, ⟨.lref, 3, true, false, .resultType⟩] : List ApplyOverload).filterMap
        fun o => o.viable a vs := by
  have h0 : vs.length ≠ 0 := by omega
  have h1 : vs.length ≠ 1 := by omega
  have h2 : vs.length ≠ 2 := by omega
  have h3 : vs.length ≠ 3 := by omega
  simp only [overloads, List.filterMap_cons, List.filterMap_nil, ApplyOverload.viable, accept_variants _ h]
  obtain ⟨r, c, v⟩ := a
  cases r <;> cases c <;> cases v <;> simp [VisitorParam.deduce, ApplyOverload.enabled, hasResultType, h0, h1, h2, h3]

theorem resolve_many (a : VisitorArg) {vs : List VisitableArg} (h : Variants vs) (hn : 4 ≤ vs.length) :
    resolveApply a vs =
      if a.hasResult then
        some ⟨⟨if a.const || a.rvalue then .constLref else .lref, 3, true, false, .resultType⟩, ⟨false, false⟩,
          List.replicate vs.length false⟩
      else none := by
  have h3 : 3 ≤ vs.length := by omega
  unfold resolveApply
  rw [viable_many a h hn]
  simp only [List.filterMap_cons, List.filterMap_nil, ApplyOverload.viable, accept_variants _ h]
  obtain ⟨r, c, v⟩ := a
  cases r <;> cases c <;> cases v <;>
    simp [VisitorParam.deduce, ApplyOverload.enabled, hasResultType, h3, bestOf, Viable.better, Viable.bindsBetter,
      Viable.bound, passesBetter_replicate, ApplyOverload.moreSpecialised, VisitorParam.rank]

/-- The selection in all cases. -/
theorem resolve_few (a : VisitorArg) {vs : List VisitableArg} (h : Variants vs) (h1 : vs ≠ []) (hn : vs.length ≤ 3) :
    ∃ c, resolveApply a vs = some c ∧ c.overload.family = (if a.hasResult then .resultType else .deduced) ∧
      c.overload.fixed = vs.length ∧ c.visited = vs.length ∧
      c.callsConst = (a.const || (a.rvalue && (a.hasResult || vs.length != 1))) := by
  obtain ⟨r, c, v⟩ := a
  match vs, h, h1, hn with
  | [_], h, _, _ =>
    obtain ⟨rfl, -⟩ := h.head
    cases r <;> cases c <;> cases v <;> exact ⟨_, rfl, by decide⟩
  | [_, _], h, _, _ =>
    obtain ⟨rfl, ha⟩ := h.head
    obtain ⟨rfl, hb⟩ := ha.head
    cases r <;> cases c <;> cases v <;> exact ⟨_, rfl, by decide⟩
  | [_, _, _], h, _, _ =>
    obtain ⟨rfl, ha⟩ := h.head
    obtain ⟨rfl, hb⟩ := ha.head
    obtain ⟨rfl, hc⟩ := hb.head
    cases r <;> cases c <;> cases v <;> exact ⟨_, rfl, by decide⟩

/-- A visitor with a `result_type`, however it is passed, with any positive number of variants: the call is not
ambiguous, the function selected returns `Visitor::result_type` and visits all the variants. It calls the visitor as a
const object exactly if the visitor is const or a temporary. -/
theorem C61_result_type (a : VisitorArg) (ha : a.hasResult = true) (vs : List VisitableArg) (h : Variants vs)
    (h1 : vs ≠ []) :
    ∃ c, resolveApply a vs = some c ∧ c.overload.family = .resultType ∧ c.visited = vs.length ∧
      c.callsConst = (a.const || a.rvalue) := by
  by_cases hn : vs.length ≤ 3
  · obtain ⟨c, hc, hf, _, hv, hk⟩ := resolve_few a h h1 hn
    refine ⟨c, hc, by simpa [ha] using hf, hv, by simpa [ha] using hk⟩
  · refine ⟨_, by rw [resolve_many a h (by omega), ha]; rfl, rfl, visited_replicate _ _ _, ?_⟩
    cases a.const <;> cases a.rvalue <;> rfl

/-- A visitor without a `result_type`, however it is passed, with one, two or three variants: the call is not ambiguous,
the function selected deduces its return type and visits all the variants. It calls the visitor as a const object exactly
if the visitor is const, or a temporary and there is more than one variant. Missing: more than three variants
(`C61_four_variants`). -/
theorem C61_deduced_partial (a : VisitorArg) (ha : a.hasResult = false) (vs : List VisitableArg) (h : Variants vs)
    (h1 : vs ≠ []) (h3 : vs.length ≤ 3) :
    ∃ c, resolveApply a vs = some c ∧ c.overload.family = .deduced ∧ c.visited = vs.length ∧
      c.callsConst = (a.const || (a.rvalue && vs.length != 1)) := by
  obtain ⟨c, hc, hf, _, hv, hk⟩ := resolve_few a h h1 h3
  exact ⟨c, hc, by simpa [ha] using hf, hv, by simpa [ha] using hk⟩

/-- F24: no visitor without a `result_type` can visit four or more variants: the parameter pack of the overload is followed
by another parameter, so it is never deduced, and no overload is viable. -/
theorem C61_four_variants (a : VisitorArg) (ha : a.hasResult = false) (vs : List VisitableArg) (h : Variants vs)
    (h4 : 4 ≤ vs.length) : resolveApply a vs = none ∧ ∀ o ∈ overloads, o.viable a vs = none := by
  have := viable_many a h h4
  refine ⟨by rw [resolve_many a h h4, ha]; rfl, fun o ho => ?_⟩
  cases ho' : o.viable a vs with
  | none => rfl
  | some c =>
    exfalso
    have hm : c ∈ overloads.filterMap fun o => o.viable a vs := List.mem_filterMap.2 ⟨o, ho, ho'⟩
    rw [this] at hm
    obtain ⟨r, k, v⟩ := a
    cases ha
    cases k <;> cases v <;>
      simp [ApplyOverload.viable, VisitorParam.deduce, ApplyOverload.enabled, hasResultType] at hm

/-- F24, the other half: if the fourth argument, unlike a variant, converts to `bool`, the call compiles (here for a visitor
passed as an lvalue) and the fourth argument is not visited. -/
theorem C61_fourth_ignored (a : VisitorArg) (ha : a.hasResult = false) (v1 v2 v3 v4 : VisitableArg)
    (h4 : v4.toBool = true) :
    ∃ c, resolveApply a [v1, v2, v3, v4] = some c ∧ c.visited = 3 := by
  obtain ⟨r, k, v⟩ := a
  obtain ⟨b1⟩ := v1
  obtain ⟨b2⟩ := v2
  obtain ⟨b3⟩ := v3
  obtain ⟨b4⟩ := v4
  cases ha
  cases h4
  cases k <;> cases v <;> exact ⟨_, rfl, by rfl⟩

/-! ### Arguments of any type -/

theorem map_false (vs : List VisitableArg) : (vs.map fun _ => false) = List.replicate vs.length false := by
  induction vs with
  | nil => rfl
  | cons v vs ih => simp [List.replicate_succ, ih]

/-- For five and more arguments of any type, the selection is as for variants. -/
theorem resolve_five (a : VisitorArg) {vs : List VisitableArg} (hn : 5 ≤ vs.length) :
    resolveApply a vs =
      if a.hasResult then
        some ⟨⟨if a.const || a.rvalue then .constLref else .lref, 3, true, false, .resultType⟩, ⟨false, false⟩,
          List.replicate vs.length false⟩
      else none := by
  have h0 : vs.length ≠ 0 := by omega
  have h1 : vs.length ≠ 1 := by omega
  have h2 : vs.length ≠ 2 := by omega
  have h3 : vs.length ≠ 3 := by omega
  have h4 : vs.length ≠ 4 := by omega
  have h3' : 3 ≤ vs.length := by omega
  unfold resolveApply
  simp only [overloads, List.filterMap_cons, List.filterMap_nil, ApplyOverload.viable, ApplyOverload.accept, map_false]
  obtain ⟨r, c, v⟩ := a
  cases r <;> cases c <;> cases v <;>
    simp [VisitorParam.deduce, ApplyOverload.enabled, hasResultType, h0, h1, h2, h3, h4, h3', bestOf, Viable.better, Viable.bindsBetter,
      Viable.bound, passesBetter_replicate, ApplyOverload.moreSpecialised, VisitorParam.rank]

/-- Calls that no overload takes: the visitor has no `result_type`, and there are five or more arguments, or four of which the last
does not convert to `bool`, or the visitor is a temporary and there are two of which the last converts to `bool`. -/
def Rejected (a : VisitorArg) (vs : List VisitableArg) : Prop :=
  a.hasResult = false ∧ (5 ≤ vs.length ∨ (vs.length = 4 ∧ vs.getLast? = some ⟨false⟩) ∨
    (vs.length = 2 ∧ vs.getLast? = some ⟨true⟩ ∧ a.rvalue = true))

/-- C61, any arguments: whatever the arguments after the visitor are, classes that convert to `bool` included, and however many, the calls
that do not compile are those of `Rejected`. All others select a function of the family of the visitor, which visits all the
arguments, except that of four it visits three if the visitor has no `result_type` (F24). -/
theorem C61_any_arguments (a : VisitorArg) (vs : List VisitableArg) (h1 : vs ≠ []) :
    (resolveApply a vs = none ↔ Rejected a vs) ∧
      ∀ c, resolveApply a vs = some c → c.overload.family = (if a.hasResult then .resultType else .deduced) ∧
        c.visited = if a.hasResult = false ∧ vs.length = 4 then 3 else vs.length := by
  obtain ⟨r, k, v⟩ := a
  match vs, h1 with
  | [⟨b1⟩], _ => cases r <;> cases k <;> cases v <;> cases b1 <;>
      exact ⟨by simp [Rejected]; decide, fun c h => by cases h; decide⟩
  | [⟨b1⟩, ⟨b2⟩], _ => cases r <;> cases k <;> cases v <;> cases b1 <;> cases b2 <;>
      exact ⟨by simp [Rejected]; decide, fun c h => by cases h <;> decide⟩
  | [⟨b1⟩, ⟨b2⟩, ⟨b3⟩], _ => cases r <;> cases k <;> cases v <;> cases b1 <;> cases b2 <;> cases b3 <;>
      exact ⟨by simp [Rejected]; decide, fun c h => by cases h <;> decide⟩
  | [⟨b1⟩, ⟨b2⟩, ⟨b3⟩, ⟨b4⟩], _ => cases r <;> cases k <;> cases v <;> cases b1 <;> cases b2 <;> cases b3 <;> cases b4 <;>
      exact ⟨by simp [Rejected]; decide, fun c h => by cases h <;> decide⟩
  | v1 :: v2 :: v3 :: v4 :: v5 :: vs, _ =>
    rw [resolve_five _ (by simp)]
    cases r with
    | false => exact ⟨by simp [Rejected], fun c h => by cases h⟩
    | true =>
      refine ⟨by simp [Rejected], fun c h => ?_⟩
      cases h
      exact ⟨rfl, by simp [visited_replicate]⟩

/-- A temporary lambda, a variant and an object of a class that converts to `bool`: the overload for one variant binds the lambda better, that for
two variants passes the object better. -/
example : resolveApply ⟨false, false, true⟩ [⟨false⟩, ⟨true⟩] = none :=
  (C61_any_arguments _ _ (by simp)).1.mpr ⟨rfl, .inr (.inr ⟨rfl, rfl, rfl⟩)⟩

/-- The same lambda with a name: both are visited. -/
example : ∃ c, resolveApply ⟨false, false, false⟩ [⟨false⟩, ⟨true⟩] = some c ∧ c.visited = 2 := ⟨_, rfl, by decide⟩

theorem mapM_helper (f : Family) (temporary : Bool) {vs : List VisitableArg} (h : Variants vs) :
    ∃ cs, (vs.mapM fun v => resolveApply (f.helper temporary) [v]) = some cs ∧ cs.length = vs.length ∧
      ∀ c ∈ cs, c.overload.family = f ∧ c.overload.fixed = 1 ∧ c.visited = 1 ∧
        (temporary = false → c.callsConst = false) := by
  induction vs with
  | nil => exact ⟨[], rfl, rfl, by simp⟩
  | cons v vs ih =>
    obtain ⟨rfl, ht⟩ := h.head
    obtain ⟨cs, hcs, hl, hall⟩ := ih ht
    have hx : ∃ x, resolveApply (f.helper temporary) [⟨false⟩] = some x ∧ x.overload.family = f ∧ x.overload.fixed = 1 ∧
        x.visited = 1 ∧ (temporary = false → x.callsConst = false) := by
      cases f <;> cases temporary <;> exact ⟨_, rfl, by decide⟩
    obtain ⟨x, hx, hp⟩ := hx
    refine ⟨x :: cs, by simp [List.mapM_cons, hx, hcs], by simp [hl], fun c hc => ?_⟩
    rcases List.mem_cons.1 hc with rfl | hc
    · exact hp
    · exact hall c hc

/-- The whole call, with the calls that the selected function and the helper visitors make, compiles for a positive number
of variants exactly if the visitor has a `result_type` or there are at most three variants. Then all the overloads selected
on the way are of the family of the visitor; besides the user's call there is one for each variant (none if there is only
one). -/
theorem C61_whole_call (a : VisitorArg) (vs : List VisitableArg) (h : Variants vs) (h1 : vs ≠ []) :
    ((applyChain a vs).isSome ↔ a.hasResult = true ∨ vs.length ≤ 3) ∧
      ∀ cs, applyChain a vs = some cs →
        (∀ c ∈ cs, c.overload.family = if a.hasResult then .resultType else .deduced) ∧
        cs.length = if vs.length = 1 then 1 else vs.length + 1 := by
  by_cases hn : vs.length ≤ 3
  · obtain ⟨c, hc, hf, hx, hv, -⟩ := resolve_few a h h1 hn
    have hpos : vs.length ≠ 0 := by simpa using h1
    have ht : vs.take c.visited = vs := by rw [hv, List.take_length]
    obtain ⟨cs, hcs, hl, hall⟩ := mapM_helper c.overload.family false h
    obtain ⟨cs', hcs', hl', hall'⟩ := mapM_helper c.overload.family true h
    have : vs.length = 1 ∨ vs.length = 2 ∨ vs.length = 3 := by omega
    rcases this with h' | h' | h'
    · rw [h'] at hx
      have hr : applyChain a vs = some [c] := by simp [applyChain, hc, hx]
      refine ⟨by simp [hr, hn], fun cs hcs => ?_⟩
      cases hr.symm.trans hcs
      simp [hf, h']
    · rw [h'] at hx
      have hr : applyChain a vs = some (c :: cs) := by simp [applyChain, hc, hx, ht, hcs]
      refine ⟨by simp [hr, hn], fun cs' hcs' => ?_⟩
      cases hr.symm.trans hcs'
      refine ⟨fun d hd => ?_, by simp [hl, h']⟩
      rcases List.mem_cons.1 hd with rfl | hd
      · exact hf
      · rw [(hall d hd).1, hf]
    · rw [h'] at hx
      have hr : applyChain a vs = some (c :: cs') := by simp [applyChain, hc, hx, ht, hcs']
      refine ⟨by simp [hr, hn], fun cs hcs => ?_⟩
      cases hr.symm.trans hcs
      refine ⟨fun d hd => ?_, by simp [hl', h']⟩
      rcases List.mem_cons.1 hd with rfl | hd
      · exact hf
      · rw [(hall' d hd).1, hf]
  · have hr := resolve_many a h (by omega)
    cases ha : a.hasResult with
    | false =>
      have : applyChain a vs = none := by simp [applyChain, hr, ha]
      simp [this, hn]
    | true =>
      obtain ⟨cs', hcs', hl', hall'⟩ := mapM_helper .resultType true h
      have hr' : applyChain a vs = some (⟨⟨if a.const || a.rvalue then .constLref else .lref, 3, true, false, .resultType⟩,
          ⟨false, false⟩, List.replicate vs.length false⟩ :: cs') := by
        simp only [applyChain, hr, ha, if_true, visited_replicate, List.take_length, hcs', Option.map_some]
      refine ⟨by simp [hr'], fun cs hcs => ?_⟩
      cases hr'.symm.trans hcs
      refine ⟨fun d hd => ?_, by simp [hl']; omega⟩
      rcases List.mem_cons.1 hd with rfl | hd
      · rfl
      · exact (hall' d hd).1

/-- The delayed form `apply_visitor(visitor)(v...)` accepts exactly the visitors that are not temporaries, or are const, and
then what `apply_visitor(visitor, v...)` accepts. So a temporary of const type is accepted although the function object
keeps a reference to it (the comment at apply_visitor_delayed.hpp 37-39 says that this is prevented). -/
theorem C61_delayed (a : VisitorArg) (vs : List VisitableArg) (h : Variants vs) (h1 : vs ≠ []) :
    (applyDelayed a vs).isSome ↔ (a.rvalue = false ∨ a.const = true) ∧ (a.hasResult = true ∨ vs.length ≤ 3) := by
  have key : resolveApply a [] = if a.rvalue && !a.const then none else
      some ⟨⟨.lref, 0, false, false, if a.hasResult then .resultType else .deduced⟩, ⟨false, a.const⟩, []⟩ := by
    obtain ⟨r, k, v⟩ := a
    cases r <;> cases k <;> cases v <;> rfl
  have hw := (C61_whole_call ⟨a.hasResult, a.const, false⟩ vs h h1).1
  unfold applyDelayed
  rw [key]
  cases hk : a.const <;> cases hv : a.rvalue <;> simp only [hk] at hw <;> simp [hw]

/-! Concrete cases: a temporary lambda for three variants; a visitor with `result_type` for five. -/

example : (resolveApply ⟨false, false, true⟩ [⟨false⟩, ⟨false⟩, ⟨false⟩]).map (fun c => (c.overload.visitor, c.visited)) =
    some (.constLref, 3) := by rfl

example : ∃ c, resolveApply ⟨true, false, false⟩ (List.replicate 5 ⟨false⟩) = some c ∧ c.overload.family = .resultType ∧
    c.visited = 5 ∧ c.callsConst = false :=
  C61_result_type _ rfl _ (by simp [Variants]) (by decide)

example : resolveApply ⟨false, false, false⟩ (List.replicate 4 ⟨false⟩) = none :=
  (C61_four_variants _ rfl _ (by simp [Variants]) (by decide)).1

example : ∃ c, resolveApply ⟨false, false, true⟩ [⟨false⟩] = some c ∧ c.overload.family = .deduced ∧ c.visited = 1 ∧
    c.callsConst = false :=
  C61_deduced_partial _ rfl _ (by simp [Variants]) (by decide) (by decide)

example : ∃ c, resolveApply ⟨false, true, false⟩ [⟨false⟩, ⟨false⟩, ⟨false⟩, ⟨true⟩] = some c ∧ c.visited = 3 :=
  C61_fourth_ignored _ rfl _ _ _ _ rfl

example : (applyChain ⟨true, false, true⟩ (List.replicate 6 ⟨false⟩)).map List.length = some 7 := by decide +kernel

example : (applyDelayed ⟨false, true, true⟩ [⟨false⟩]).isSome = true := by decide +kernel

/-! ### Instances -/

/-- Six rvalues and a visitor with `result_type`; four variants and one without. -/
example : (applyChain ⟨true, false, true⟩ (List.replicate 6 ⟨false⟩)).isSome = true :=
  (C61_whole_call _ _ (by unfold Variants; decide) (by decide)).1.mpr (.inl rfl)

example : (applyDelayed ⟨true, false, true⟩ [⟨false⟩]).isSome = false := by
  have := C61_delayed ⟨true, false, true⟩ [⟨false⟩] (by unfold Variants; decide) (by decide)
  cases h : (applyDelayed ⟨true, false, true⟩ [⟨false⟩]).isSome with
  | false => rfl
  | true => exact absurd (this.mp h).1 (by decide)

end BVariant
