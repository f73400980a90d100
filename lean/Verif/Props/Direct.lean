import Verif.Spec.Direct
import Verif.Props.Observe
import Verif.Props.Swap
import Verif.Props.ValueAssign

/-
C85: on which content value assignment, swap, comparison and `type()` act, for bounded types with qualifiers and references.
-/

namespace BVariant

theorem picksOverDeduced_iff (cl : Classes) (a r : CvTy) : cl.picksOverDeduced a r = true ↔ r = a := by
  simp only [Classes.picksOverDeduced, Classes.binds, Bool.and_eq_true, Bool.not_eq_true', decide_eq_true_eq]
  constructor
  · rintro ⟨⟨⟨⟨h1, -⟩, -⟩, -⟩, h3⟩
    by_cases e : r = a
    · exact e
    · rw [h1] at h3; simp [e] at h3
  · rintro rfl
    simp [CvTy.cvGe]

theorem Elem.is_iff {e : Elem} {t : CvTy} : e.Is t ↔ e.lvalue false = t := by
  cases e <;> constructor <;> intro h
  all_goals first
    | (cases h; rfl)
    | (cases h; constructor)

/-- **C85.** `direct_assigner<T>`, `direct_mover<T>` (on a variant that is not const) act on the content exactly if its bounded type is `T`, `recursive_wrapper<T>` or
`T&`, the qualifiers included; not if it is a class derived from `T`, nor if `T` is derived from it, nor if it is const. `known_get<T>` accepts the content exactly if
it is seen as a `T` in the variant, const or not. -/
theorem C85_overloads (D : Decl) (k : TyIx) :
    (∀ rhs, D.classes.picksOverDeduced ((D.elem k).lvalue false) (deducedOperand rhs) = true ↔ (D.elem k).Is { rhs with const := false }) ∧
    (∀ rhs t, (D.elem k).Is t → D.classes.picksOverDeduced ((D.elem k).lvalue false) (deducedOperand rhs) = true →
      t.const = false ∧ t.base = rhs.base ∧ t.volatile = rhs.volatile) ∧
    ∀ const t, D.classes.picksOverDeduced ((D.elem k).lvalue const) t = true ↔ t = (D.elem k).lvalue const := by
  have h1 : ∀ rhs, D.classes.picksOverDeduced ((D.elem k).lvalue false) (deducedOperand rhs) = true ↔ (D.elem k).Is { rhs with const := false } := fun rhs => by
    rw [picksOverDeduced_iff, Elem.is_iff]
    exact ⟨fun h => h.symm, fun h => h.symm⟩
  refine ⟨h1, fun rhs t ht h => ?_, fun const t => picksOverDeduced_iff _ _ _⟩
  have e1 := Elem.is_iff.mp ((h1 rhs).mp h)
  have e2 := Elem.is_iff.mp ht
  have e : t = { rhs with const := false } := by rw [← e2, e1]
  subst e
  exact ⟨rfl, rfl, rfl⟩

section
variable {V : Type} {C : Cfg V} {D : Decl} {w w' : World V} {x y : Nat} {k i j : TyIx} {v a b : V} {id r : ObjId} {rhs : CvTy}

/-- **C85.** If the content is of the operand's type, value assignment is the assignment of that type, on the content as it is, and nothing else: also if the type occurs
more than once among the bounded types, in whatever form, and the operand would be converted to another one of them. -/
theorem C85_assigns_in_place (hg : Good C w) (hx : w.holds x j v) (ho : w.objOf x = some id) (ht : (D.elem j).Is { rhs with const := false }) (k : TyIx)
    (foreign : Bool) :
    assignValueOf C D (.user x) rhs (.lref k r foreign) w = assignObj C j id r w ∧
    assignValueOf C D (.user x) rhs (.rref k r foreign) w = moveAssignObj C j id r w := by
  obtain ⟨s, p, h⟩ := hg.holds hx
  obtain rfl : p = id := by rw [h.objOf] at ho; exact Option.some.inj ho
  have hp := ((C85_overloads D j).1 rhs).mpr ht
  constructor
  · simp only [assignValueOf, directAssignOf, bind, M.bind, h.apply, hp, if_true]
    cases assignObj C j p r w <;> rfl
  · simp only [assignValueOf, directAssignOf, bind, M.bind, h.apply, hp, if_true]
    cases moveAssignObj C j p r w <;> rfl

/-- **C85.** If the content is of another type, whatever the relation between the two types, a temporary variant is made from the operand and move-assigned. -/
theorem C85_else_converts (hg : Good C w) (hx : w.holds x j v) (ht : ¬ (D.elem j).Is { rhs with const := false }) (s : Src V) :
    assignValueOf C D (.user x) rhs s w =
      (do convertConstruct C (.tmp 0) s
          M.withLocal (variantMoveAssign C (.user x) (.tmp 0)) (destroyVar C (.tmp 0))) w := by
  obtain ⟨_, p, h⟩ := hg.holds hx
  have hp : D.classes.picksOverDeduced ((D.elem j).lvalue false) (deducedOperand rhs) = false :=
    Bool.eq_false_iff.mpr fun hp => ht (((C85_overloads D j).1 rhs).mp hp)
  simp only [assignValueOf, directAssignOf, bind, M.bind, h.apply, hp, pure]
  rfl

/-- **C85.** If no type occurs twice, value assignment is what the model of the other claims says, where types are positions. -/
theorem C85_value_assignment (hg : Good C w) (hn : C.n = D.elems.length) (hd : D.AllDifferent) (hx : w.alive x) {s : Src V} (hs : OperandOf D rhs s) :
    assignValueOf C D (.user x) rhs s w = assignValue C (.user x) s w := by
  obtain ⟨st, p, j, v, h⟩ := hg.owns hx
  have hj : j < D.elems.length := by rw [← hn]; exact h.rep.lt
  have hp : D.classes.picksOverDeduced ((D.elem j).lvalue false) (deducedOperand rhs) = true ↔ (D.elem j).Is { rhs with const := false } := (C85_overloads D j).1 rhs
  have key : directAssignOf C D (.user x) rhs s w = directAssign C (.user x) s w := by
    simp only [directAssignOf, directAssign, h.apply]
    match s, hs with
    | .lref k r false, hs =>
      by_cases e : j = k
      · subst e; simp [hp.mpr hs.2]
      · have : D.classes.picksOverDeduced ((D.elem j).lvalue false) (deducedOperand rhs) = false :=
          Bool.eq_false_iff.mpr fun g => e (hd _ _ _ hj hs.1 (hp.mp g) hs.2)
        simp [this, e]
    | .rref k r false, hs =>
      by_cases e : j = k
      · subst e; simp [hp.mpr hs.2]
      · have : D.classes.picksOverDeduced ((D.elem j).lvalue false) (deducedOperand rhs) = false :=
          Bool.eq_false_iff.mpr fun g => e (hd _ _ _ hj hs.1 (hp.mp g) hs.2)
        simp [this, e]
    | .lref k r true, hs =>
      have : D.classes.picksOverDeduced ((D.elem j).lvalue false) (deducedOperand rhs) = false :=
        Bool.eq_false_iff.mpr fun g => hs j hj (hp.mp g)
      simp [this]
    | .rref k r true, hs =>
      have : D.classes.picksOverDeduced ((D.elem j).lvalue false) (deducedOperand rhs) = false :=
        Bool.eq_false_iff.mpr fun g => hs j hj (hp.mp g)
      simp [this]
    | .conv k u, hs =>
      have : D.classes.picksOverDeduced ((D.elem j).lvalue false) (deducedOperand rhs) = false :=
        Bool.eq_false_iff.mpr fun g => hs j hj (hp.mp g)
      simp [this]
  simp only [assignValueOf, assignValue, bind, M.bind, key]

theorem known_self (const : Bool) (k : TyIx) (id : ObjId) : knownGetOf C D const ((D.elem k).lvalue const) k id = (pure id : M V ObjId) := by
  simp only [knownGetOf, (picksOverDeduced_iff _ _ _).mpr rfl, if_true]

/-- **C85.** `swap` finds the content of the other variant, whatever the bounded types are, also if they are const, references, base classes of each other or the
same: it is what the model of the other claims says. -/
theorem C85_swap (hg : Good C w) (D : Decl) (hx : w.alive x) (hy : w.alive y) :
    swapOf C D (.user x) (.user y) w = swap C (.user x) (.user y) w := by
  obtain ⟨sx, p, i, a, hxo⟩ := hg.owns hx
  obtain ⟨sy, q, j, b, hyo⟩ := hg.owns hy
  simp only [swapOf, swap, bind, M.bind, hxo.which_eq, hyo.which_eq]
  by_cases h : (i : Int) = j
  · have e : i = j := by omega
    subst e
    simp only [if_true, hxo.apply, swapWithOf, swapWith, bind, M.bind, hyo.apply, known_self, knownGet]
  · simp only [h, if_false]

/-- **C85.** `==` and `<` find the content of the left variant, whatever the bounded types are: they are what the model of the other claims says. -/
theorem C85_compare (hg : Good C w) (D : Decl) (cmp : ElemCmp V) (hx : w.alive x) (hy : w.alive y) :
    opEqOf C D cmp (.user x) (.user y) w = opEq C cmp (.user x) (.user y) w ∧
    opLtOf C D cmp (.user x) (.user y) w = opLt C cmp (.user x) (.user y) w := by
  obtain ⟨sx, p, i, a, hxo⟩ := hg.owns hx
  obtain ⟨sy, q, j, b, hyo⟩ := hg.owns hy
  simp only [opEqOf, opEq, opLtOf, opLt, bind, M.bind, hxo.which_eq, hyo.which_eq]
  by_cases h : (i : Int) = j
  · have e : i = j := by omega
    subst e
    simp only [ne_eq, not_true_eq_false, if_false, hyo.apply, comparerOf, comparer, bind, M.bind, hxo.apply, known_self, knownGet, if_true, and_self]
  · simp only [ne_eq, h, not_false_eq_true, if_true, and_self]

/-- **C85.** `type()` is the type of the content without qualifiers and references. So it tells the bounded types apart exactly if no two of them differ in these only. -/
theorem C85_type (hg : Good C w) {t : CvTy} (hx : w.holds x k v) (ht : (D.elem k).Is t) : typeIdOf C D (.user x) w = .ok t.base w := by
  obtain ⟨s, p, h⟩ := hg.holds hx
  simp only [typeIdOf, h.apply, pure, M.pure]
  cases he : D.elem k <;> rw [he] at ht <;> cases ht <;> rfl

/-- **C85.** Two variants have the same `type()` exactly if the bounded types are made from the same unqualified type. -/
theorem C85_same_type (hg : Good C w) {t u : CvTy} (hx : w.holds x i a) (hy : w.holds y j b) (ht : (D.elem i).Is t) (hu : (D.elem j).Is u) :
    ∃ m n, typeIdOf C D (.user x) w = .ok m w ∧ typeIdOf C D (.user y) w = .ok n w ∧ (m = n ↔ t.removeCv = u.removeCv) := by
  refine ⟨_, _, C85_type hg hx ht, C85_type hg hy hu, ?_⟩
  cases t; cases u
  simp [CvTy.removeCv]

end

/-! ### Concrete cases -/

/-- `variant<B, const X, recursive_wrapper<D>, X&, volatile X>`, where `B` is 1, `D` is 2 and derived from `B`, `X` is 3. -/
def exDirect : Decl := ⟨[.val ⟨1, false, false⟩, .val ⟨3, true, false⟩, .wrapped ⟨2, false, false⟩, .ref ⟨3, false, false⟩, .val ⟨3, false, true⟩],
  ⟨fun _ => true, fun b d => b == 1 && d == 2⟩⟩

/-- An operand of type `B`, `const D`, `X` is assigned directly to contents of the first, third and fourth type only. -/
example : [CvTy.mk 1 false false, ⟨2, true, false⟩, ⟨3, false, false⟩, ⟨3, true, true⟩].map (fun rhs =>
      (List.range 5).filter fun k => exDirect.classes.picksOverDeduced ((exDirect.elem k).lvalue false) (deducedOperand rhs)) =
    [[0], [2], [3], [4]] := by decide
example := (C85_overloads exDirect 3).1 ⟨3, true, false⟩
theorem exDirect_different : exDirect.AllDifferent := by
  intro i j t hi hj h1 h2
  have e1 := Elem.is_iff.mp h1
  have e2 := Elem.is_iff.mp h2
  have : ∀ i, i < 5 → ∀ j, j < 5 → (exDirect.elem i).lvalue false = (exDirect.elem j).lvalue false → i = j := by decide
  exact this i hi j hj (e1.trans e2.symm)

/-- `variant<B, recursive_wrapper<D>>` and `variant<X, recursive_wrapper<X>>`. -/
def exBaseFirst : Decl := ⟨[.val ⟨1, false, false⟩, .wrapped ⟨2, false, false⟩], exDirect.classes⟩
def exTwice : Decl := ⟨[.val ⟨3, false, false⟩, .wrapped ⟨3, false, false⟩], exDirect.classes⟩

theorem exBaseFirst_different : exBaseFirst.AllDifferent := by
  intro i j t hi hj h1 h2
  have e1 := Elem.is_iff.mp h1
  have e2 := Elem.is_iff.mp h2
  have : ∀ i, i < 2 → ∀ j, j < 2 → (exBaseFirst.elem i).lvalue false = (exBaseFirst.elem j).lvalue false → i = j := by decide
  exact this i hi j hj (e1.trans e2.symm)

/-- Three variables; variable 0 holds the first type, the others hold the second. (The construction of a fourth one throws.) -/
def exDirectSt : World Nat := stateAfter exTwo [.constructC 0 0 5, .constructC 1 1 7, .constructC 2 1 9, .constructC 3 0 4]

theorem exDirectSt_good : Good exTwo exDirectSt := stateAfter_good exTwo_sane (by decide +kernel)

/-- The contents of the variables after an operation that succeeds. -/
def exDirectRun (m : M Nat Unit) : Option (List (Option (TyIx × Nat))) :=
  match m exDirectSt with
  | .ok _ w => some ([0, 1, 2].map fun x => w.content (.user x))
  | _ => none

/-- The content of variable 2, a `recursive_wrapper<X>`, is assigned in place to variable 1: it does not matter that the operand, an `X`, would be converted to the first type
(0). -/
example : (exDirectSt.objOf 2).bind (fun r => exDirectRun (assignValueOf exTwo exTwice (.user 1) ⟨3, true, false⟩ (.lref 0 r false))) =
    some [some (0, 5), some (1, 9), some (1, 9)] := by decide +kernel
example := C85_assigns_in_place (D := exTwice) (rhs := ⟨3, true, false⟩) (x := 1) (j := 1) (v := 7) (id := 3) (r := 5) exDirectSt_good (by unfold World.holds; decide +kernel)
  (by decide +kernel) (.wrapped _) 0 false

/-- A `D` is not assigned to a `B`: the content is replaced. -/
example : (exDirectSt.objOf 2).bind (fun r => exDirectRun (assignValueOf exTwo exBaseFirst (.user 0) ⟨2, false, false⟩ (.lref 1 r false))) =
    some [some (1, 9), some (1, 7), some (1, 9)] := by decide +kernel
example := C85_else_converts (D := exBaseFirst) (rhs := ⟨2, false, false⟩) (x := 0) (j := 0) (v := 5) exDirectSt_good (by unfold World.holds; decide +kernel) nofun (.lref 1 5 false)
example := C85_value_assignment (D := exBaseFirst) (rhs := ⟨2, false, false⟩) (x := 0) exDirectSt_good rfl exBaseFirst_different (by unfold World.alive; decide +kernel)
  (s := .lref 1 5 false) ⟨by decide, .wrapped _⟩
example := C85_value_assignment (D := exBaseFirst) (rhs := ⟨9, false, false⟩) (x := 1) exDirectSt_good rfl exBaseFirst_different (by unfold World.alive; decide +kernel)
  (s := .conv 1 8) (by
    intro k hk h
    have := Elem.is_iff.mp h
    have h2 : ∀ k, k < 2 → (exBaseFirst.elem k).lvalue false ≠ ⟨9, false, false⟩ := by decide
    exact h2 k hk this)

/-- Swapping variables with the same type and with types that occur twice. -/
example : exDirectRun (swapOf exTwo exTwice (.user 1) (.user 2)) = some [some (0, 5), some (1, 9), some (1, 7)] ∧
    exDirectRun (swapOf exTwo exTwice (.user 0) (.user 2)) = some [some (1, 9), some (1, 7), some (0, 5)] := by decide +kernel
example := C85_swap exDirectSt_good exTwice (x := 1) (y := 2) (by unfold World.alive; decide +kernel) (by unfold World.alive; decide +kernel)
example := C85_compare exDirectSt_good exTwice (elemCmp fun _ a b => decide (a < b)) (x := 1) (y := 2) (by unfold World.alive; decide +kernel)
  (by unfold World.alive; decide +kernel)

/-- `type()` is the same for the two types of the second variant, and differs for those of the first. -/
example := C85_type (D := exTwice) exDirectSt_good (x := 1) (k := 1) (v := 7) (by unfold World.holds; decide +kernel) (.wrapped _)
example : ∃ m n, typeIdOf exTwo exTwice (.user 0) exDirectSt = .ok m exDirectSt ∧ typeIdOf exTwo exTwice (.user 1) exDirectSt = .ok n exDirectSt ∧ m = n := by
  obtain ⟨m, n, h1, h2, h3⟩ := C85_same_type (D := exTwice) exDirectSt_good (x := 0) (y := 1) (i := 0) (j := 1) (a := 5) (b := 7) (by unfold World.holds; decide +kernel) (by unfold World.holds; decide +kernel)
    (.val _) (.wrapped _)
  exact ⟨m, n, h1, h2, h3.mpr rfl⟩

end BVariant
