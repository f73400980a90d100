/-
C43 the backup state is unobservable.

Two variants `x` (in world `w`) and `x'` (in world `w'`, which may be the same) hold the same value of the same type; how
each of them stores it is left open. All the operations below give the same results on both.
-/
import Verif.Props.Get
import Verif.Props.Identity

namespace BVariant

/-- The result of an execution without the final world: a value, an exception, or (`error none`) a fault. -/
def Out.res {V α : Type} : Out V α → Except (Option Exc) α
  | .ok a _ => .ok a
  | .exc e _ => .error (some e)
  | .fault _ => .error none

/-- The final world of an execution. -/
def Out.world? {V α : Type} : Out V α → Option (World V)
  | .ok _ w => some w
  | .exc _ w => some w
  | .fault _ => none

/-- Content of variable `x` at the end of an execution. -/
def Out.content {V α : Type} (o : Out V α) (x : Nat) : Option (TyIx × V) := o.world?.bind fun w => w.content (.user x)

section
variable {V α : Type} {C : Cfg V} {w w' : World V} {x x' y y' z z' : Nat} {k i j : TyIx} {v a b : V} {id ix iy : ObjId}

/-- The result of the visitor depends on type and value of the content only. -/
def ValueVisitor (f : TyIx → ObjId → M V α) : Prop :=
  ∀ k v id id' (w w' : World V), w.objs id = some (k, v) → w'.objs id' = some (k, v) → (f k id w).res = (f k id' w').res

/-- C43: visitation. -/
theorem C43_visitation (f : TyIx → ObjId → M V α) (hf : ValueVisitor f) (hg : Good C w) (hg' : Good C w')
    (hx : w.holds x k v) (hx' : w'.holds x' k v) :
    (applyVisitor C (.user x) f w).res = (applyVisitor C (.user x') f w').res := by
  obtain ⟨s, id, ho⟩ := hg.holds hx
  obtain ⟨s', id', ho'⟩ := hg'.holds hx'
  rw [ho.apply, ho'.apply]
  exact hf _ _ _ _ _ _ ho.obj ho'.obj

/-- C43: `which()`, `type()`, `empty()`. -/
theorem C43_queries (hg : Good C w) (hg' : Good C w') (hx : w.holds x k v) (hx' : w'.holds x' k v) :
    (which (.user x) w).res = (which (.user x') w').res ∧ (typeOf C (.user x) w).res = (typeOf C (.user x') w').res ∧
      (empty (.user x) w).res = (empty (.user x') w').res := by
  obtain ⟨s, id, ho⟩ := hg.holds hx
  obtain ⟨s', id', ho'⟩ := hg'.holds hx'
  obtain ⟨h1, h2, h3, -⟩ := C47_type_and_empty hg hx ho.objOf
  obtain ⟨h1', h2', h3', -⟩ := C47_type_and_empty hg' hx' ho'.objOf
  rw [h1, h2, h3, h1', h2', h3']
  exact ⟨rfl, rfl, rfl⟩

/-- C43: `get` and `polymorphic_get` find the content of both or of neither. -/
theorem C43_get (D : Decl) (o : Operand) (u : GetArg) (hg : Good C w) (hg' : Good C w')
    (hx : w.holds x k v) (hx' : w'.holds x' k v) :
    ((relaxedGetPtr C D o u (some (.user x)) w).res = .ok (w.objOf x) ∧
        (relaxedGetPtr C D o u (some (.user x')) w').res = .ok (w'.objOf x') ∨
      (relaxedGetPtr C D o u (some (.user x)) w).res = .ok none ∧
        (relaxedGetPtr C D o u (some (.user x')) w').res = .ok none) ∧
    ((polymorphicRelaxedGetPtr C D o u (some (.user x)) w).res = .ok (w.objOf x) ∧
        (polymorphicRelaxedGetPtr C D o u (some (.user x')) w').res = .ok (w'.objOf x') ∨
      (polymorphicRelaxedGetPtr C D o u (some (.user x)) w).res = .ok none ∧
        (polymorphicRelaxedGetPtr C D o u (some (.user x')) w').res = .ok none) := by
  obtain ⟨s, id, ho⟩ := hg.holds hx
  obtain ⟨s', id', ho'⟩ := hg'.holds hx'
  rw [relaxedGetPtr_eq o u hg hx ho.objOf, relaxedGetPtr_eq o u hg' hx' ho'.objOf,
    polymorphicRelaxedGetPtr_eq o u hg hx ho.objOf, polymorphicRelaxedGetPtr_eq o u hg' hx' ho'.objOf, ho.objOf, ho'.objOf]
  constructor
  · split
    · exact Or.inl ⟨rfl, rfl⟩
    · exact Or.inr ⟨rfl, rfl⟩
  · split
    · exact Or.inl ⟨rfl, rfl⟩
    · exact Or.inr ⟨rfl, rfl⟩

/-- C43: comparison, in both positions. -/
theorem C43_comparison (r : TyIx → V → V → Bool) (hg : Good C w) (hg' : Good C w')
    (hx : w.holds x i a) (hx' : w'.holds x' i a) (hy : w.holds y j b) (hy' : w'.holds y' j b) :
    (opEq C (elemCmp r) (.user x) (.user y) w).res = (opEq C (elemCmp r) (.user x') (.user y') w').res ∧
    (opLt C (elemCmp r) (.user x) (.user y) w).res = (opLt C (elemCmp r) (.user x') (.user y') w').res := by
  rw [opEq_eq hg hx hy, opEq_eq hg' hx' hy', opLt_eq hg hx hy, opLt_eq hg' hx' hy']
  exact ⟨rfl, rfl⟩

/-- C43: hashing and streaming. -/
theorem C43_hash_and_stream {H S : Type} (h : TyIx → V → H) (combine : H → Int → H) (pr : TyIx → V → S → S) (out : S)
    (hg : Good C w) (hg' : Good C w') (hx : w.holds x k v) (hx' : w'.holds x' k v) :
    (hashValue C (elemHash h) combine (.user x) w).res = (hashValue C (elemHash h) combine (.user x') w').res ∧
    (streamOut C (elemPrint pr) out (.user x) w).res = (streamOut C (elemPrint pr) out (.user x') w').res := by
  rw [(C27_hash_result h combine hg hx).1, (C27_hash_result h combine hg' hx').1, C41_streaming pr out hg hx,
    C41_streaming pr out hg' hx']
  exact ⟨rfl, rfl⟩

theorem copyConstruct_run (hg : Good C w) (hx : w.holds x k v) :
    copyConstruct C (.user z) (.user x) w =
      if (!(C.tr k).nothrowCopy && C.throws w.tick) = true then .exc ⟨.copyCtor k, w.tick⟩ { w with tick := w.tick + 1 }
      else .ok () { w with
        tick := w.tick + 1
        objs := upd w.objs w.next (some (k, C.ops.copy k v))
        next := w.next + 1
        vars := upd w.vars (.user z) (some ⟨(k : Int), .obj w.next⟩) } := by
  obtain ⟨s, id, ho⟩ := hg.holds hx
  have hiav : internalApplyVisitor C (.user x) (copyInto C) w = copyCtor C k id w := by
    obtain ⟨h1, h2, h3⟩ := ho
    cases h2 with
    | inPlace _ _ hk => rw [iav_inPlace C _ h1 hk h3]; rfl
    | inBackup _ _ hk hb => rw [iav_backup C _ h1 hk hb]; rfl
  simp only [copyConstruct, bind, M.bind, hiav, copyCtor, readAs, ho.obj, if_true, mayThrow]
  by_cases ht : (!(C.tr k).nothrowCopy && C.throws w.tick) = true
  · simp only [ht, if_true]; rfl
  · simp only [ht, Bool.false_eq_true, if_false, newObj, which, bind, M.bind, getVar, ho.var, pure, M.pure, beginVar,
      M.modify, ho.rep.which, indicateWhich]

theorem moveConstruct_run (hg : Good C w) (hx : w.holds x k v) (hi : w.objOf x = some id) :
    moveConstruct C (.user z) (.user x) w =
      if (!(C.tr k).nothrowMove && C.throws w.tick) = true then
        .exc ⟨.moveCtor k, w.tick⟩ { w with tick := w.tick + 1, objs := upd w.objs id (some (k, C.ops.moveFailSrc k v)) }
      else .ok () { w with
        tick := w.tick + 1
        objs := upd (upd w.objs id (some (k, C.ops.movedFrom k v))) w.next (some (k, C.ops.move k v))
        next := w.next + 1
        vars := upd w.vars (.user z) (some ⟨(k : Int), .obj w.next⟩) } := by
  obtain ⟨s, p, ho⟩ := hg.holds hx
  obtain rfl : p = id := by rw [ho.objOf] at hi; exact Option.some.inj hi
  have hmv : moveCtor C k p w = if (!(C.tr k).nothrowMove && C.throws w.tick) = true then
        .exc ⟨.moveCtor k, w.tick⟩ { w with tick := w.tick + 1, objs := upd w.objs p (some (k, C.ops.moveFailSrc k v)) }
      else .ok w.next { w with
        tick := w.tick + 1
        objs := upd (upd w.objs p (some (k, C.ops.movedFrom k v))) w.next (some (k, C.ops.move k v))
        next := w.next + 1 } := by
    simp only [moveCtor, bind, M.bind, readAs, ho.obj, if_true, mayThrow]
    by_cases ht : (!(C.tr k).nothrowMove && C.throws w.tick) = true
    · simp only [ht, if_true]; rfl
    · simp only [ht, Bool.false_eq_true, if_false]; rfl
  have hall : moveNoexceptConstructible C = true → (C.tr k).nothrowMove = true := by
    intro h
    have hk := ho.rep.lt
    rw [moveNoexceptConstructible, List.all_eq_true] at h
    have : C.tr k ∈ C.types := by
      simp only [Cfg.tr, Cfg.n] at hk ⊢
      simp [List.getD, List.getElem?_eq_getElem hk]
    exact h _ this
  have hiav : internalApplyVisitor C (.user x) (moveInto C) w = moveCtor C k p w := by
    obtain ⟨h1, h2, h3⟩ := ho
    cases h2 with
    | inPlace _ _ hk =>
      rw [iav_inPlace C _ h1 hk h3]
      show M.noexceptIf _ _ w = _
      simp only [M.noexceptIf, hmv]
      cases hnm : (C.tr k).nothrowMove with
      | true => simp
      | false => cases C.throws w.tick <;> simp
    | inBackup _ _ hk hb => rw [iav_backup C _ h1 hk hb]; rfl
  by_cases ht : (!(C.tr k).nothrowMove && C.throws w.tick) = true
  · have hne : moveNoexceptConstructible C = false := by
      cases hm : moveNoexceptConstructible C with
      | false => rfl
      | true => simp [hall hm] at ht
    simp only [moveConstruct, M.noexceptIf, bind, M.bind, hiav, hmv, ht, if_true, hne, Bool.false_eq_true, if_false]
  · simp only [moveConstruct, M.noexceptIf, bind, M.bind, hiav, hmv, ht, Bool.false_eq_true, if_false, which, getVar, ho.var,
      pure, M.pure, beginVar, M.modify, ho.rep.which, indicateWhich]

/-- C43: copy construction from `x` and from `x'`, with the same future of the exception oracle, gives the same new content,
or throws the same exception; and the source ends up with the same content. -/
theorem C43_copy_construction (hg : Good C w) (hg' : Good C w') (ht : w.tick = w'.tick) (hx : w.holds x k v)
    (hx' : w'.holds x' k v) (hz : w.vars (.user z) = none) (hz' : w'.vars (.user z') = none) :
    let o := copyConstruct C (.user z) (.user x) w
    let o' := copyConstruct C (.user z') (.user x') w'
    o.res = o'.res ∧ o.content z = o'.content z' ∧ o.content x = o'.content x' := by
  obtain ⟨s, id, ho⟩ := hg.holds hx
  obtain ⟨s', id', ho'⟩ := hg'.holds hx'
  have hlt := hg.wf.toFresh.lt ho.obj
  have hlt' := hg'.wf.toFresh.lt ho'.obj
  have hne : x ≠ z := by rintro rfl; rw [ho.var] at hz; cases hz
  have hne' : x' ≠ z' := by rintro rfl; rw [ho'.var] at hz'; cases hz'
  have n1 : id ≠ w.next := by omega
  have n2 : id' ≠ w'.next := by omega
  simp only [copyConstruct_run hg hx, copyConstruct_run hg' hx', ← ht]
  split
  · refine ⟨rfl, ?_, ?_⟩
    · simp [Out.content, Out.world?, World.content, hz, hz']
    · simp [Out.content, Out.world?, World.content, ho.var, ho'.var, ho.rep.contentId, ho'.rep.contentId, ho.obj, ho'.obj]
  · refine ⟨rfl, ?_, ?_⟩
    · simp [Out.content, Out.world?, World.content, VarSt.contentId]
    · simp [Out.content, Out.world?, World.content, ho.var, ho'.var, ho.rep.contentId, ho'.rep.contentId, ho.obj,
        ho'.obj, hne, hne', n1, n2]

/-- C43: the same for move construction. -/
theorem C43_move_construction (hg : Good C w) (hg' : Good C w') (ht : w.tick = w'.tick) (hx : w.holds x k v)
    (hx' : w'.holds x' k v) (hz : w.vars (.user z) = none) (hz' : w'.vars (.user z') = none) :
    let o := moveConstruct C (.user z) (.user x) w
    let o' := moveConstruct C (.user z') (.user x') w'
    o.res = o'.res ∧ o.content z = o'.content z' ∧ o.content x = o'.content x' := by
  obtain ⟨s, id, ho⟩ := hg.holds hx
  obtain ⟨s', id', ho'⟩ := hg'.holds hx'
  have hlt := hg.wf.toFresh.lt ho.obj
  have hlt' := hg'.wf.toFresh.lt ho'.obj
  have hne : x ≠ z := by rintro rfl; rw [ho.var] at hz; cases hz
  have hne' : x' ≠ z' := by rintro rfl; rw [ho'.var] at hz'; cases hz'
  have n1 : id ≠ w.next := by omega
  have n2 : id' ≠ w'.next := by omega
  simp only [moveConstruct_run hg hx ho.objOf, moveConstruct_run hg' hx' ho'.objOf, ← ht]
  split
  · refine ⟨rfl, ?_, ?_⟩
    · simp [Out.content, Out.world?, World.content, hz, hz']
    · simp [Out.content, Out.world?, World.content, ho.var, ho'.var, ho.rep.contentId, ho'.rep.contentId]
  · refine ⟨rfl, ?_, ?_⟩
    · simp [Out.content, Out.world?, World.content, VarSt.contentId]
    · simp [Out.content, Out.world?, World.content, ho.var, ho'.var, ho.rep.contentId, ho'.rep.contentId, hne, hne', n1, n2]

theorem swap_same_run (hg : Good C w) (hxy : x ≠ y) (hx : w.holds x k a) (hy : w.holds y k b)
    (hix : w.objOf x = some ix) (hiy : w.objOf y = some iy) :
    swap C (.user x) (.user y) w =
      if C.throws w.tick = true then
        .exc ⟨.swap k, w.tick⟩ { w with tick := w.tick + 1, objs := upd (upd w.objs ix (some (k, C.ops.swapFailL k a b))) iy (some (k, C.ops.swapFailR k a b)) }
      else .ok () { w with tick := w.tick + 1, objs := upd (upd w.objs ix (some (k, C.ops.swapL k a b))) iy (some (k, C.ops.swapR k a b)) } := by
  obtain ⟨sx, p, hxo⟩ := hg.holds hx
  obtain ⟨sy, q, hyo⟩ := hg.holds hy
  obtain rfl : p = ix := by rw [hxo.objOf] at hix; exact Option.some.inj hix
  obtain rfl : q = iy := by rw [hyo.objOf] at hiy; exact Option.some.inj hiy
  have hid : p ≠ q := by
    rcases hg.wf.distinct hxo hyo with ⟨he, -⟩ | ⟨-, h⟩
    · exact absurd (VarId.user.inj he) hxy
    · exact h
  have : swap C (.user x) (.user y) w = swapObj C k p q w := by
    simp only [swap, bind, M.bind, hxo.which_eq, hyo.which_eq, if_true]
    rw [hxo.apply]
    simp only [swapWith, bind, M.bind]
    rw [hyo.apply]
    simp [knownGet, pure, M.pure]
  rw [this]
  simp only [swapObj, bind, M.bind, readAs, hxo.obj, hyo.obj, if_true, hid, if_false, mayThrow, Bool.not_false, Bool.true_and]
  by_cases ht : C.throws w.tick = true
  · simp only [ht, if_true]; rfl
  · simp only [ht]; rfl

/-- C43: swapping two variants that hold the same type: the element's own swap runs on the contents, with the same
results whatever the storage states are. -/
theorem C43_same_type_swap (hg : Good C w) (hg' : Good C w') (ht : w.tick = w'.tick) (hxy : x ≠ y) (hxy' : x' ≠ y')
    (hx : w.holds x k a) (hy : w.holds y k b) (hx' : w'.holds x' k a) (hy' : w'.holds y' k b) :
    let o := swap C (.user x) (.user y) w
    let o' := swap C (.user x') (.user y') w'
    o.res = o'.res ∧ o.content x = o'.content x' ∧ o.content y = o'.content y' := by
  obtain ⟨sx, ix, hxo⟩ := hg.holds hx
  obtain ⟨sy, iy, hyo⟩ := hg.holds hy
  obtain ⟨sx', ix', hxo'⟩ := hg'.holds hx'
  obtain ⟨sy', iy', hyo'⟩ := hg'.holds hy'
  have hid : ix ≠ iy := by
    rcases hg.wf.distinct hxo hyo with ⟨he, -⟩ | ⟨-, h⟩
    · exact absurd (VarId.user.inj he) hxy
    · exact h
  have hid' : ix' ≠ iy' := by
    rcases hg'.wf.distinct hxo' hyo' with ⟨he, -⟩ | ⟨-, h⟩
    · exact absurd (VarId.user.inj he) hxy'
    · exact h
  simp only [swap_same_run hg hxy hx hy hxo.objOf hyo.objOf, swap_same_run hg' hxy' hx' hy' hxo'.objOf hyo'.objOf, ← ht]
  split
  · refine ⟨rfl, ?_, ?_⟩
    · simp [Out.content, Out.world?, World.content, hxo.var, hxo'.var, hxo.rep.contentId, hxo'.rep.contentId, hid, hid']
    · simp [Out.content, Out.world?, World.content, hyo.var, hyo'.var, hyo.rep.contentId, hyo'.rep.contentId]
  · refine ⟨rfl, ?_, ?_⟩
    · simp [Out.content, Out.world?, World.content, hxo.var, hxo'.var, hxo.rep.contentId, hxo'.rep.contentId, hid, hid']
    · simp [Out.content, Out.world?, World.content, hyo.var, hyo'.var, hyo.rep.contentId, hyo'.rep.contentId]

end

/-! ### Non-vacuity -/

/-- In `exThree` variable 0 holds 5 in a heap backup and variable 2 holds 5 in place. -/
example := C43_queries exThree_good exThree_good exThree_facts.1 exThree_facts.2.2.1
example := C43_get exDecl .const ⟨⟨2, false, false⟩, false⟩ exThree_good exThree_good exThree_facts.1 exThree_facts.2.2.1
example := C43_comparison natLt exThree_good exThree_good exThree_facts.1 exThree_facts.2.2.1 exThree_facts.2.1
  exThree_facts.2.1
example := C43_hash_and_stream (fun _ a => a % 8) (fun s i => 31 * s + i.toNat) (fun _ v out => out ++ [v]) [1]
  exThree_good exThree_good exThree_facts.1 exThree_facts.2.2.1
example := C43_copy_construction (z := 5) (z' := 6) exThree_good exThree_good rfl exThree_facts.1 exThree_facts.2.2.1
  (by decide +kernel) (by decide +kernel)
example := C43_move_construction (z := 5) (z' := 5) exThree_good exThree_good rfl exThree_facts.1 exThree_facts.2.2.1
  (by decide +kernel) (by decide +kernel)
example := C43_same_type_swap exThree_good exThree_good rfl (by decide) (by decide) exThree_facts.1 exThree_facts.2.2.1
  exThree_facts.2.2.1 exThree_facts.1

/-- A visitor that depends on the value only. -/
def seeOne (k : TyIx) (id : ObjId) : M Nat (Option Nat) := fun w => .ok ((w.objs id).map fun p => 10 * k + p.2) w

example := C43_visitation seeOne (by
  intro k v id id' w w' h h'
  simp only [seeOne, h, h', Out.res]) exThree_good exThree_good exThree_facts.1 exThree_facts.2.2.1

end BVariant
