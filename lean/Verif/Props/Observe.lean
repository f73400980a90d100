/-
C25 equality, C26 ordering, C27 hashing, C41 streaming, C47 type() and empty().
-/
import Verif.Core.Observe
import Verif.Spec.Order
import Verif.Props.Construction

namespace BVariant

section
variable {V : Type} {C : Cfg V} {w w' : World V} {x y z : Nat} {k i j : TyIx} {v a b : V} {id ix iy : ObjId}

theorem Owns.which_eq {x : VarId} {s : VarSt} (h : Owns C w x s id k v) : which x w = .ok (k : Int) w := by
  simp only [which, bind, M.bind, getVar, h.var, pure, M.pure, h.rep.which]

theorem Owns.apply {α : Type} {x : VarId} {s : VarSt} (h : Owns C w x s id k v) (f : TyIx → ObjId → M V α) :
    applyVisitor C x f w = f k id w := applyVisitor_eq C f h.var h.rep h.obj

/-- Variables `x` and `y` compare equal in `w`. -/
def Eqv (C : Cfg V) (eq : TyIx → V → V → Bool) (w : World V) (x y : Nat) : Prop :=
  opEq C (elemCmp eq) (.user x) (.user y) w = .ok true w

/-- Variable `x` compares less than `y` in `w`. -/
def Less (C : Cfg V) (lt : TyIx → V → V → Bool) (w : World V) (x y : Nat) : Prop :=
  opLt C (elemCmp lt) (.user x) (.user y) w = .ok true w

theorem compare_runs {cmp : ElemCmp V} {sx sy : VarSt} (hx : Owns C w (.user x) sx ix k a)
    (hy : Owns C w (.user y) sy iy k b) :
    applyVisitor C (.user y) (comparer C cmp (.user x)) w = cmp k ix iy w := by
  rw [hy.apply]
  simp only [comparer, bind, M.bind]
  rw [hx.apply]
  simp [knownGet, pure, M.pure]

/-- C25: `x == y` calls the element's `==` exactly when the types agree, and then on the contents of `x` and `y`
themselves, in this order. The element's comparison is arbitrary code. -/
theorem C25_equality_runs (hg : Good C w) (cmp : ElemCmp V) (hx : w.holds x i a) (hy : w.holds y j b)
    (hix : w.objOf x = some ix) (hiy : w.objOf y = some iy) :
    opEq C cmp (.user x) (.user y) w = if i = j then cmp i ix iy w else .ok false w := by
  obtain ⟨sx, p, hxo⟩ := hg.holds hx
  obtain ⟨sy, q, hyo⟩ := hg.holds hy
  obtain rfl : p = ix := by rw [hxo.objOf] at hix; exact Option.some.inj hix
  obtain rfl : q = iy := by rw [hyo.objOf] at hiy; exact Option.some.inj hiy
  simp only [opEq, bind, M.bind, hxo.which_eq, hyo.which_eq]
  by_cases h : i = j
  · subst h
    simp only [ne_eq, not_true_eq_false, if_false, if_true]
    exact compare_runs hxo hyo
  · have : (i : Int) ≠ j := by omega
    simp [this, h, pure, M.pure]

/-- C26: the same for `<`; if the types differ, their positions decide. -/
theorem C26_less_runs (hg : Good C w) (cmp : ElemCmp V) (hx : w.holds x i a) (hy : w.holds y j b)
    (hix : w.objOf x = some ix) (hiy : w.objOf y = some iy) :
    opLt C cmp (.user x) (.user y) w = if i = j then cmp i ix iy w else .ok (decide (i < j)) w := by
  obtain ⟨sx, p, hxo⟩ := hg.holds hx
  obtain ⟨sy, q, hyo⟩ := hg.holds hy
  obtain rfl : p = ix := by rw [hxo.objOf] at hix; exact Option.some.inj hix
  obtain rfl : q = iy := by rw [hyo.objOf] at hiy; exact Option.some.inj hiy
  simp only [opLt, bind, M.bind, hxo.which_eq, hyo.which_eq]
  by_cases h : i = j
  · subst h
    simp only [ne_eq, not_true_eq_false, if_false, if_true]
    exact compare_runs hxo hyo
  · have h1 : (i : Int) ≠ j := by omega
    have h2 : ((i : Int) < j) ↔ i < j := by omega
    simp [h1, h, pure, M.pure, h2]

theorem elemCmp_eq {r : TyIx → V → V → Bool} {sx sy : VarSt} (hx : Owns C w (.user x) sx ix k a)
    (hy : Owns C w (.user y) sy iy k b) : elemCmp r k ix iy w = .ok (r k a b) w := by
  simp [elemCmp, bind, M.bind, readAs, hx.obj, hy.obj, pure, M.pure]

theorem opEq_owns {eq : TyIx → V → V → Bool} {sx sy : VarSt} (hx : Owns C w (.user x) sx ix i a) (hy : Owns C w (.user y) sy iy j b) :
    opEq C (elemCmp eq) (.user x) (.user y) w = .ok (decide (i = j) && eq i a b) w := by
  simp only [opEq, bind, M.bind, hx.which_eq, hy.which_eq]
  by_cases h : i = j
  · subst h
    simp only [ne_eq, not_true_eq_false, if_false, compare_runs hx hy, elemCmp_eq hx hy, decide_true, Bool.true_and]
  · have : (i : Int) ≠ j := by omega
    simp [this, h, pure, M.pure]

theorem opLt_owns {lt : TyIx → V → V → Bool} {sx sy : VarSt} (hx : Owns C w (.user x) sx ix i a) (hy : Owns C w (.user y) sy iy j b) :
    opLt C (elemCmp lt) (.user x) (.user y) w = .ok (if i = j then lt i a b else decide (i < j)) w := by
  simp only [opLt, bind, M.bind, hx.which_eq, hy.which_eq]
  by_cases h : i = j
  · subst h
    simp only [ne_eq, not_true_eq_false, if_false, if_true, compare_runs hx hy, elemCmp_eq hx hy]
  · have h1 : (i : Int) ≠ j := by omega
    have h2 : ((i : Int) < j) ↔ i < j := by omega
    simp [h1, h, pure, M.pure, h2]

theorem opEq_eq {eq : TyIx → V → V → Bool} (hg : Good C w) (hx : w.holds x i a) (hy : w.holds y j b) :
    opEq C (elemCmp eq) (.user x) (.user y) w = .ok (decide (i = j) && eq i a b) w := by
  obtain ⟨sx, p, hxo⟩ := hg.holds hx
  obtain ⟨sy, q, hyo⟩ := hg.holds hy
  exact opEq_owns hxo hyo

theorem opLt_eq {lt : TyIx → V → V → Bool} (hg : Good C w) (hx : w.holds x i a) (hy : w.holds y j b) :
    opLt C (elemCmp lt) (.user x) (.user y) w = .ok (if i = j then lt i a b else decide (i < j)) w := by
  obtain ⟨sx, p, hxo⟩ := hg.holds hx
  obtain ⟨sy, q, hyo⟩ := hg.holds hy
  exact opLt_owns hxo hyo

/-- C25: the result of `x == y`, and that `!=` is its negation. Nothing but types and values of the contents matters, so
the storage state does not. -/
theorem C25_equality_result (eq : TyIx → V → V → Bool) (hg : Good C w) (hx : w.holds x i a) (hy : w.holds y j b) :
    ∃ r, opEq C (elemCmp eq) (.user x) (.user y) w = .ok r w ∧ opNe C (elemCmp eq) (.user x) (.user y) w = .ok (!r) w ∧
      (r = true ↔ i = j ∧ eq i a b = true) := by
  refine ⟨_, opEq_eq hg hx hy, ?_, by simp⟩
  simp only [opNe, bind, M.bind, opEq_eq hg hx hy, pure, M.pure]

theorem alive_holds (hg : Good C w) (hx : w.alive x) : ∃ k v, k < C.n ∧ w.holds x k v := by
  obtain ⟨s, id, k, v, h⟩ := hg.owns hx
  exact ⟨k, v, h.rep.lt, h.holds⟩

theorem eqv_iff {eq : TyIx → V → V → Bool} (hg : Good C w) (hx : w.holds x i a) (hy : w.holds y j b) :
    Eqv C eq w x y ↔ i = j ∧ eq i a b = true := by
  simp [Eqv, opEq_eq hg hx hy]

theorem less_iff {lt : TyIx → V → V → Bool} (hg : Good C w) (hx : w.holds x i a) (hy : w.holds y j b) :
    Less C lt w x y ↔ i < j ∨ (i = j ∧ lt i a b = true) := by
  simp only [Less, opLt_eq hg hx hy, Out.ok.injEq, and_true]
  by_cases h : i = j
  · subst h; simp
  · simp [h]

/-- C25: if every bounded type's `==` is an equivalence, so is `==` on the live variants. -/
theorem C25_equality_equivalence (eq : TyIx → V → V → Bool) (hg : Good C w)
    (he : ∀ k, k < C.n → EquivOn (fun _ => True) (BRel (eq k))) : EquivOn w.alive (Eqv C eq w) where
  refl := by
    intro x hx
    obtain ⟨i, a, hi, h⟩ := alive_holds hg hx
    exact (eqv_iff hg h h).mpr ⟨rfl, (he i hi).refl a trivial⟩
  symm := by
    intro x y hx hy h
    obtain ⟨i, a, hi, h1⟩ := alive_holds hg hx
    obtain ⟨j, b, hj, h2⟩ := alive_holds hg hy
    obtain ⟨rfl, h3⟩ := (eqv_iff hg h1 h2).mp h
    exact (eqv_iff hg h2 h1).mpr ⟨rfl, (he _ hi).symm a b trivial trivial h3⟩
  trans := by
    intro x y z hx hy hz h h'
    obtain ⟨i, a, hi, h1⟩ := alive_holds hg hx
    obtain ⟨j, b, hj, h2⟩ := alive_holds hg hy
    obtain ⟨l, c, hl, h3⟩ := alive_holds hg hz
    obtain ⟨rfl, h4⟩ := (eqv_iff hg h1 h2).mp h
    obtain ⟨rfl, h5⟩ := (eqv_iff hg h2 h3).mp h'
    exact (eqv_iff hg h1 h3).mpr ⟨rfl, (he _ hi).trans a b c trivial trivial trivial h4 h5⟩

/-- C25, one law at a time: symmetric element tests give a symmetric `==`, whatever else they do. -/
theorem C25_equality_symmetric (eq : TyIx → V → V → Bool) (hg : Good C w) (hs : ∀ k a b, k < C.n → eq k a b = eq k b a)
    (hx : w.alive x) (hy : w.alive y) :
    ∃ r, opEq C (elemCmp eq) (.user x) (.user y) w = .ok r w ∧ opEq C (elemCmp eq) (.user y) (.user x) w = .ok r w := by
  obtain ⟨i, a, hi, h1⟩ := alive_holds hg hx
  obtain ⟨j, b, hj, h2⟩ := alive_holds hg hy
  refine ⟨_, opEq_eq hg h1 h2, ?_⟩
  rw [opEq_eq hg h2 h1]
  by_cases h : i = j
  · subst h; rw [hs _ a b hi]
  · have h' : j ≠ i := fun e => h e.symm
    simp [h, h']

/-- C26: if every bounded type's `<` is a strict weak order, so is `<` on the live variants. -/
theorem C26_less_strict_weak (lt : TyIx → V → V → Bool) (hg : Good C w)
    (hl : ∀ k, k < C.n → StrictWeakOn (fun _ => True) (BRel (lt k))) : StrictWeakOn w.alive (Less C lt w) where
  irrefl := by
    intro x hx
    obtain ⟨i, a, hi, h⟩ := alive_holds hg hx
    rw [less_iff hg h h]
    rintro (h1 | ⟨-, h1⟩)
    · omega
    · exact (hl i hi).irrefl a trivial h1
  trans := by
    intro x y z hx hy hz h h'
    obtain ⟨i, a, hi, h1⟩ := alive_holds hg hx
    obtain ⟨j, b, hj, h2⟩ := alive_holds hg hy
    obtain ⟨l, c, hl', h3⟩ := alive_holds hg hz
    rw [less_iff hg h1 h2] at h
    rw [less_iff hg h2 h3] at h'
    rw [less_iff hg h1 h3]
    rcases h with h | ⟨rfl, h⟩
    · rcases h' with h' | ⟨rfl, h'⟩
      · left; omega
      · left; exact h
    · rcases h' with h' | ⟨rfl, h'⟩
      · left; exact h'
      · right; exact ⟨rfl, (hl _ hi).trans a b c trivial trivial trivial h h'⟩
  incomp := by
    intro x y z hx hy hz n1 n2 n3 n4
    obtain ⟨i, a, hi, h1⟩ := alive_holds hg hx
    obtain ⟨j, b, hj, h2⟩ := alive_holds hg hy
    obtain ⟨l, c, hl', h3⟩ := alive_holds hg hz
    rw [less_iff hg h1 h2] at n1
    rw [less_iff hg h2 h1] at n2
    rw [less_iff hg h2 h3] at n3
    rw [less_iff hg h3 h2] at n4
    rw [less_iff hg h1 h3, less_iff hg h3 h1]
    have e1 : i = j := by omega
    have e2 : j = l := by omega
    subst e1; subst e2
    have n1' : ¬ BRel (lt i) a b := fun h => n1 (Or.inr ⟨rfl, h⟩)
    have n2' : ¬ BRel (lt i) b a := fun h => n2 (Or.inr ⟨rfl, h⟩)
    have n3' : ¬ BRel (lt i) b c := fun h => n3 (Or.inr ⟨rfl, h⟩)
    have n4' : ¬ BRel (lt i) c b := fun h => n4 (Or.inr ⟨rfl, h⟩)
    obtain ⟨m1, m2⟩ := (hl i hi).incomp a b c trivial trivial trivial n1' n2' n3' n4'
    constructor
    · rintro (h | ⟨-, h⟩)
      · omega
      · exact m1 h
    · rintro (h | ⟨-, h⟩)
      · omega
      · exact m2 h

/-- C26: types are compared by position first, then contents. -/
theorem C26_less_lexicographic (lt : TyIx → V → V → Bool) (hg : Good C w) (hx : w.holds x i a) (hy : w.holds y j b) :
    Less C lt w x y ↔ i < j ∨ (i = j ∧ lt i a b = true) := less_iff hg hx hy

/-- C26: if the elements' `<` are total up to the elements' `==`, so is `<` on variants up to `==`. -/
theorem C26_less_total (lt eq : TyIx → V → V → Bool) (hg : Good C w)
    (ht : ∀ k, k < C.n → TotalOn (fun _ => True) (BRel (lt k)) (BRel (eq k))) :
    TotalOn w.alive (Less C lt w) (Eqv C eq w) := by
  intro x y hx hy
  obtain ⟨i, a, hi, h1⟩ := alive_holds hg hx
  obtain ⟨j, b, hj, h2⟩ := alive_holds hg hy
  rw [less_iff hg h1 h2, less_iff hg h2 h1, eqv_iff hg h1 h2]
  rcases Nat.lt_trichotomy i j with h | rfl | h
  · exact Or.inl (Or.inl h)
  · rcases ht i hi a b trivial trivial with h | h | h
    · exact Or.inl (Or.inr ⟨rfl, h⟩)
    · exact Or.inr (Or.inl ⟨rfl, h⟩)
    · exact Or.inr (Or.inr (Or.inr ⟨rfl, h⟩))
  · exact Or.inr (Or.inr (Or.inl h))

/-- C26: `<` and `==` exclude each other if they do for the elements. -/
theorem C26_less_equal_exclusive (lt eq : TyIx → V → V → Bool) (hg : Good C w)
    (hc : ∀ k a b, k < C.n → ¬ (lt k a b = true ∧ eq k a b = true)) (hx : w.alive x) (hy : w.alive y) :
    ¬ (Less C lt w x y ∧ Eqv C eq w x y) := by
  obtain ⟨i, a, hi, h1⟩ := alive_holds hg hx
  obtain ⟨j, b, hj, h2⟩ := alive_holds hg hy
  rw [less_iff hg h1 h2, eqv_iff hg h1 h2]
  rintro ⟨h | ⟨-, h⟩, rfl, h'⟩
  · omega
  · exact hc i a b hi ⟨h, h'⟩

/-- C26: `x > y` is `y < x`, `x <= y` is `!(y < x)`, `x >= y` is `!(x < y)`; all return without changing anything. -/
theorem C26_derived_operators (lt : TyIx → V → V → Bool) (hg : Good C w) (hx : w.alive x) (hy : w.alive y) :
    ∃ xy yx : Bool, (xy = true ↔ Less C lt w x y) ∧ (yx = true ↔ Less C lt w y x) ∧
      opLt C (elemCmp lt) (.user x) (.user y) w = .ok xy w ∧
      opGt C (elemCmp lt) (.user x) (.user y) w = .ok yx w ∧
      opLe C (elemCmp lt) (.user x) (.user y) w = .ok (!yx) w ∧
      opGe C (elemCmp lt) (.user x) (.user y) w = .ok (!xy) w := by
  obtain ⟨i, a, hi, h1⟩ := alive_holds hg hx
  obtain ⟨j, b, hj, h2⟩ := alive_holds hg hy
  have e1 := opLt_eq (lt := lt) hg h1 h2
  have e2 := opLt_eq (lt := lt) hg h2 h1
  refine ⟨_, _, ?_, ?_, e1, e2, ?_, ?_⟩
  · rw [Less, e1]; simp
  · rw [Less, e2]; simp
  · simp only [opLe, opGt, bind, M.bind, e2, pure, M.pure]
  · simp only [opGe, bind, M.bind, e1, pure, M.pure]

/-- C25 and C26, exceptions: between variants of different indices no comparison throws, whatever the elements' operators do: none is called. Between
variants of one index, a comparison that throws throws what the operator of that element type threw, called once on the contained
objects: in this order for `==`, `!=`, `<` and `>=`, the other way round for `>` and `<=`. -/
theorem C26_comparison_exceptions (hg : Good C w) (cmp : ElemCmp V) (hx : w.holds x i a) (hy : w.holds y j b)
    (hix : w.objOf x = some ix) (hiy : w.objOf y = some iy) :
    (i ≠ j → opEq C cmp (.user x) (.user y) w = .ok false w ∧ opNe C cmp (.user x) (.user y) w = .ok true w ∧
      opLt C cmp (.user x) (.user y) w = .ok (decide (i < j)) w ∧ opGt C cmp (.user x) (.user y) w = .ok (decide (j < i)) w ∧
      opLe C cmp (.user x) (.user y) w = .ok (decide (i < j)) w ∧ opGe C cmp (.user x) (.user y) w = .ok (decide (j < i)) w) ∧
    (i = j → ∀ e w',
      (opEq C cmp (.user x) (.user y) w = .exc e w' ↔ cmp i ix iy w = .exc e w') ∧
      (opNe C cmp (.user x) (.user y) w = .exc e w' ↔ cmp i ix iy w = .exc e w') ∧
      (opLt C cmp (.user x) (.user y) w = .exc e w' ↔ cmp i ix iy w = .exc e w') ∧
      (opGe C cmp (.user x) (.user y) w = .exc e w' ↔ cmp i ix iy w = .exc e w') ∧
      (opGt C cmp (.user x) (.user y) w = .exc e w' ↔ cmp i iy ix w = .exc e w') ∧
      (opLe C cmp (.user x) (.user y) w = .exc e w' ↔ cmp i iy ix w = .exc e w')) := by
  have e1 := C25_equality_runs hg cmp hx hy hix hiy
  have e2 := C26_less_runs hg cmp hx hy hix hiy
  have e3 := C26_less_runs hg cmp hy hx hiy hix
  constructor
  · intro h
    have h' : j ≠ i := fun e => h e.symm
    simp only [h, h', if_false] at e1 e2 e3
    refine ⟨e1, ?_, e2, e3, ?_, ?_⟩
    · simp only [opNe, bind, M.bind, e1, pure, M.pure]; rfl
    · simp only [opLe, opGt, bind, M.bind, e3, pure, M.pure]
      congr 1
      by_cases hlt : j < i <;> simp [hlt] <;> omega
    · simp only [opGe, bind, M.bind, e2, pure, M.pure]
      congr 1
      by_cases hlt : i < j <;> simp [hlt] <;> omega
  · rintro rfl e w'
    simp only [if_true] at e1 e2 e3
    refine ⟨by rw [e1], ?_, by rw [e2], ?_, by rw [opGt, e3], ?_⟩
    · simp only [opNe, bind, M.bind, e1]
      cases cmp i ix iy w <;> simp [pure, M.pure]
    · simp only [opGe, bind, M.bind, e2]
      cases cmp i ix iy w <;> simp [pure, M.pure]
    · simp only [opLe, opGt, bind, M.bind, e3]
      cases cmp i iy ix w <;> simp [pure, M.pure]

/-! ### C27 -/

/-- C27: the hash is a function of `which()` and of the hash of the content, for `boost::hash` and for `std::hash`; both
reach `hash_combine`. -/
theorem C27_hash_result {H : Type} (h : TyIx → V → H) (combine : H → Int → H) (hg : Good C w) (hx : w.holds x k v) :
    hashValue C (elemHash h) combine (.user x) w = .ok (combine (h k v) k) w ∧
      stdHash C (elemHash h) combine (.user x) w = .ok (combine (h k v) k) w := by
  obtain ⟨s, id, ho⟩ := hg.holds hx
  have : hashValue C (elemHash h) combine (.user x) w = .ok (combine (h k v) k) w := by
    simp only [hashValue, bind, M.bind, ho.apply, variantHasher, elemHash, readAs, ho.obj, if_true, pure, M.pure, ho.which_eq]
  exact ⟨this, this⟩

/-- C27, any code: hashing calls the hash function of the contained type once, on the contained object. If that throws, the exception
comes out and nothing more is done; if it returns and has left the variant itself as it was, the index is combined with the result. -/
theorem C27_hash_runs {H : Type} (h : ElemHash V H) (combine : H → Int → H) (hg : Good C w) (hx : w.holds x k v)
    (hix : w.objOf x = some ix) :
    (∀ e w', h k ix w = .exc e w' → hashValue C h combine (.user x) w = .exc e w' ∧ stdHash C h combine (.user x) w = .exc e w') ∧
    (∀ r w', h k ix w = .ok r w' → w'.vars (.user x) = w.vars (.user x) →
      hashValue C h combine (.user x) w = .ok (combine r k) w' ∧ stdHash C h combine (.user x) w = .ok (combine r k) w') := by
  obtain ⟨s, p, ho⟩ := hg.holds hx
  obtain rfl : p = ix := by rw [ho.objOf] at hix; exact Option.some.inj hix
  have hw := ho.which_eq
  refine ⟨fun e w' he => ?_, fun r w' he hv => ?_⟩
  · have : hashValue C h combine (.user x) w = .exc e w' := by
      simp only [hashValue, bind, M.bind, ho.apply, variantHasher, he]
    exact ⟨this, this⟩
  · have hw' : which (.user x) w' = .ok (k : Int) w' := by
      simp only [which, bind, M.bind, getVar, hv, ho.var, pure, M.pure] at hw ⊢
      cases hw' : whichOf s.which_ <;> simp_all
    have : hashValue C h combine (.user x) w = .ok (combine r k) w' := by
      simp only [hashValue, bind, M.bind, ho.apply, variantHasher, he, hw', pure, M.pure]
    exact ⟨this, this⟩

/-- C27: if element hashing respects element equality, equal variants have equal hashes. -/
theorem C27_equal_variants_equal_hashes {H : Type} (h : TyIx → V → H) (combine : H → Int → H) (eq : TyIx → V → V → Bool)
    (hg : Good C w) (hh : ∀ k a b, k < C.n → eq k a b = true → h k a = h k b) (hx : w.alive x) (hy : w.alive y)
    (he : Eqv C eq w x y) :
    ∃ r, hashValue C (elemHash h) combine (.user x) w = .ok r w ∧ hashValue C (elemHash h) combine (.user y) w = .ok r w ∧
      stdHash C (elemHash h) combine (.user x) w = .ok r w ∧ stdHash C (elemHash h) combine (.user y) w = .ok r w := by
  obtain ⟨i, a, hi, h1⟩ := alive_holds hg hx
  obtain ⟨j, b, hj, h2⟩ := alive_holds hg hy
  obtain ⟨rfl, h3⟩ := (eqv_iff hg h1 h2).mp he
  obtain ⟨e1, e2⟩ := C27_hash_result h combine hg h1
  obtain ⟨e3, e4⟩ := C27_hash_result h combine hg h2
  rw [← hh i a b hi h3] at e3 e4
  exact ⟨_, e1, e3, e2, e4⟩

/-- C27: if the contents have the same hash but different types, the hashes differ whenever `hash_combine` keeps
different indices apart. -/
theorem C27_hash_distinguishes_types {H : Type} (h : TyIx → V → H) (combine : H → Int → H)
    (hc : ∀ s m n, combine s m = combine s n → m = n) (hg : Good C w) (hx : w.holds x i a) (hy : w.holds y j b)
    (hs : h i a = h j b) (hij : i ≠ j) :
    ∃ r r', hashValue C (elemHash h) combine (.user x) w = .ok r w ∧ hashValue C (elemHash h) combine (.user y) w = .ok r' w ∧ r ≠ r' := by
  refine ⟨_, _, (C27_hash_result h combine hg hx).1, (C27_hash_result h combine hg hy).1, ?_⟩
  rw [hs]
  intro he
  have := hc _ _ _ he
  omega

/-! ### C41 -/

/-- C41: `out << x` does to the stream what `out << content` does, and nothing else. -/
theorem C41_streaming {S : Type} (pr : TyIx → V → S → S) (out : S) (hg : Good C w) (hx : w.holds x k v) :
    streamOut C (elemPrint pr) out (.user x) w = .ok (pr k v out) w := by
  obtain ⟨s, id, ho⟩ := hg.holds hx
  simp only [streamOut, ho.apply, printer, elemPrint, bind, M.bind, readAs, ho.obj, if_true, pure, M.pure]

/-- C41, any code: streaming is the streaming of the contained object, whatever that does. -/
theorem C41_streaming_runs {S : Type} (pr : ElemPrint V S) (out : S) (hg : Good C w) (hx : w.holds x k v) (hix : w.objOf x = some ix) :
    streamOut C pr out (.user x) w = pr k ix out w := by
  obtain ⟨s, p, ho⟩ := hg.holds hx
  obtain rfl : p = ix := by rw [ho.objOf] at hix; exact Option.some.inj hix
  simp only [streamOut, ho.apply, printer]

/-- Every variant in the nest has a proper record of a type index below `n`: in place, or backed up. -/
def Nested.Proper {A : Type} (n : Nat) : Nested A → Prop
  | .leaf _ _ => True
  | .variant i c => (∃ k : Nat, k < n ∧ (i = k ∨ i = -((k : Int) + 1))) ∧ c.Proper n

/-- The innermost value. -/
def Nested.core {A : Type} : Nested A → TyIx × A
  | .leaf ty a => (ty, a)
  | .variant _ c => c.core

/-- C41: for any nesting of variants, in place or backed up at each level, exactly the innermost value is written. -/
theorem C41_streaming_nested {A S : Type} (L n : Nat) (pr : TyIx → A → S → S) (bad : S) (t : Nested A) (ht : t.Proper n)
    (out : S) : streamNested L n pr bad t out = pr t.core.1 t.core.2 out := by
  induction t with
  | leaf ty a => rfl
  | variant i c ih =>
    obtain ⟨⟨k, hk, hi⟩, hc⟩ := ht
    have hw : whichOf i = k := by rcases hi with rfl | rfl <;> simp
    simp only [streamNested, hw]
    rw [visitation_range L n k hk (fun _ => streamNested L n pr bad c out) bad]
    exact ih hc

/-! ### C47 -/

/-- C47: `type()` names the type of the content, which is also the type at which visitation delivers it, whatever the
visitor does; `which()` is its position; `empty()` is false. -/
theorem C47_type_and_empty (hg : Good C w) (hx : w.holds x k v) (hi : w.objOf x = some id) :
    typeOf C (.user x) w = .ok k w ∧ empty (.user x) w = .ok false w ∧ which (.user x) w = .ok (k : Int) w ∧
      (∀ {α : Type} (f : TyIx → ObjId → M V α), applyVisitor C (.user x) f w = f k id w) ∧ w.objs id = some (k, v) := by
  obtain ⟨s, p, ho⟩ := hg.holds hx
  obtain rfl : p = id := by rw [ho.objOf] at hi; exact Option.some.inj hi
  exact ⟨by rw [typeOf, ho.apply]; rfl, rfl, ho.which_eq, fun f => ho.apply f, ho.obj⟩

end

/-! ### Non-vacuity -/

/-- Variables 0 (in the heap-backup state), 1 and 2 hold 5 of type 0, 7 of type 1 and 5 of type 0. -/
def exThree : World Nat := stateAfter exTwo (exProg.take 3 ++ [.constructC 2 0 5])

theorem exThree_good : Good exTwo exThree := stateAfter_good exTwo_sane (by decide +kernel)

theorem exThree_facts : exThree.holds 0 0 5 ∧ exThree.holds 1 1 7 ∧ exThree.holds 2 0 5 ∧ exThree.backedUp 0 = true ∧
    exThree.backedUp 2 = false ∧ exThree.alive 0 ∧ exThree.alive 1 ∧ exThree.alive 2 := by
  unfold World.holds World.alive; decide +kernel

/-- `==` of natural numbers, whatever the type. -/
def natEq : TyIx → Nat → Nat → Bool := fun _ a b => a == b

/-- `<` of natural numbers, whatever the type. -/
def natLt : TyIx → Nat → Nat → Bool := fun _ a b => decide (a < b)

theorem natEq_equiv (k : TyIx) : EquivOn (fun _ => True) (BRel (natEq k)) := by
  constructor <;> simp [BRel, natEq] <;> omega

theorem natLt_strict (k : TyIx) : StrictWeakOn (fun _ => True) (BRel (natLt k)) := by
  constructor <;> simp [BRel, natLt] <;> omega

/-- C25 and C43: a backed-up and an in-place variant compare equal. -/
example : Eqv exTwo natEq exThree 0 2 :=
  (eqv_iff exThree_good exThree_facts.1 exThree_facts.2.2.1).mpr ⟨rfl, rfl⟩
example : ¬ Eqv exTwo natEq exThree 0 1 := by
  rw [eqv_iff exThree_good exThree_facts.1 exThree_facts.2.1]; simp
example : EquivOn exThree.alive (Eqv exTwo natEq exThree) :=
  C25_equality_equivalence natEq exThree_good fun k _ => natEq_equiv k
/-- C26 -/
example : StrictWeakOn exThree.alive (Less exTwo natLt exThree) :=
  C26_less_strict_weak natLt exThree_good fun k _ => natLt_strict k
example : TotalOn exThree.alive (Less exTwo natLt exThree) (Eqv exTwo natEq exThree) :=
  C26_less_total natLt natEq exThree_good fun k _ a b _ _ => by simp [BRel, natLt, natEq]; omega
example : Less exTwo natLt exThree 0 1 :=
  (C26_less_lexicographic natLt exThree_good exThree_facts.1 exThree_facts.2.1).mpr (by simp)
/-- C27 -/
example := C27_equal_variants_equal_hashes (fun _ a => a % 8) (fun s i => 31 * s + i.toNat) natEq exThree_good
  (fun k a b _ h => by simp [natEq] at h; rw [h]) exThree_facts.2.2.2.2.2.1 exThree_facts.2.2.2.2.2.2.2
  ((eqv_iff exThree_good exThree_facts.1 exThree_facts.2.2.1).mpr ⟨rfl, rfl⟩)
example := C27_hash_distinguishes_types (fun _ _ => (0 : Int)) (fun s i => s + i) (fun _ _ _ h => by omega) exThree_good
  exThree_facts.1 exThree_facts.2.1 rfl (by decide)
/-- C41 -/
example : streamOut exTwo (elemPrint fun _ v out => out ++ [v]) [1, 2] (.user 0) exThree = .ok [1, 2, 5] exThree :=
  C41_streaming _ _ exThree_good exThree_facts.1
example : streamNested 2 5 (fun _ (v : Nat) out => out ++ [v]) [] (.variant 4 (.variant (-3) (.leaf 1 9))) [1] = [1, 9] :=
  C41_streaming_nested 2 5 _ _ (.variant 4 (.variant (-3) (.leaf 1 9)))
    (by unfold Nested.Proper Nested.Proper Nested.Proper; exact ⟨⟨4, by decide, Or.inl rfl⟩, ⟨2, by decide, Or.inr rfl⟩, trivial⟩) _
/-- Element code that throws: the exception is thrown by a user function at its first call. -/
example : opLe exTwo (fun _ _ _ => M.throwExc ⟨.visitor, 3⟩) (.user 0) (.user 2) exThree = .exc ⟨.visitor, 3⟩ exThree ∧
    opLe exTwo (fun _ _ _ => M.throwExc ⟨.visitor, 3⟩) (.user 0) (.user 1) exThree = .ok true exThree := by
  obtain ⟨i0, h0⟩ : ∃ i, exThree.objOf 0 = some i := Option.isSome_iff_exists.mp (by decide +kernel)
  obtain ⟨i1, h1⟩ : ∃ i, exThree.objOf 1 = some i := Option.isSome_iff_exists.mp (by decide +kernel)
  obtain ⟨i2, h2⟩ : ∃ i, exThree.objOf 2 = some i := Option.isSome_iff_exists.mp (by decide +kernel)
  exact ⟨((C26_comparison_exceptions exThree_good _ exThree_facts.1 exThree_facts.2.2.1 h0 h2).2 rfl _ _).2.2.2.2.2.mpr rfl,
    ((C26_comparison_exceptions exThree_good _ exThree_facts.1 exThree_facts.2.1 h0 h1).1 (by decide)).2.2.2.2.1⟩
example : hashValue exTwo (fun _ _ => M.throwExc ⟨.visitor, 3⟩) (fun (s : Nat) _ => s) (.user 0) exThree = .exc ⟨.visitor, 3⟩ exThree := by
  obtain ⟨i0, h0⟩ : ∃ i, exThree.objOf 0 = some i := Option.isSome_iff_exists.mp (by decide +kernel)
  exact ((C27_hash_runs _ _ exThree_good exThree_facts.1 h0).1 _ _ rfl).1
example : streamOut exTwo (fun _ _ (_ : Nat) => M.throwExc ⟨.visitor, 3⟩) 4 (.user 0) exThree = .exc ⟨.visitor, 3⟩ exThree := by
  obtain ⟨i0, h0⟩ : ∃ i, exThree.objOf 0 = some i := Option.isSome_iff_exists.mp (by decide +kernel)
  exact C41_streaming_runs _ _ exThree_good exThree_facts.1 h0
/-- C47 -/
example : typeOf exTwo (.user 0) exThree = .ok 0 exThree := by
  have h : (exThree.objOf 0).isSome = true := by decide +kernel
  obtain ⟨id, hid⟩ := Option.isSome_iff_exists.mp h
  exact (C47_type_and_empty exThree_good exThree_facts.1 hid).1

/-- C25, C26 and C27 on a backed-up variant and on one in place that hold the same, and on variants of different types. -/
example : opEq exTwo (elemCmp natEq) (.user 0) (.user 1) exThree = .ok false exThree ∧
    opLt exTwo (elemCmp natLt) (.user 0) (.user 1) exThree = .ok true exThree := by
  obtain ⟨i0, h0⟩ : ∃ i, exThree.objOf 0 = some i := Option.isSome_iff_exists.mp (by decide +kernel)
  obtain ⟨i1, h1⟩ : ∃ i, exThree.objOf 1 = some i := Option.isSome_iff_exists.mp (by decide +kernel)
  exact ⟨C25_equality_runs exThree_good _ exThree_facts.1 exThree_facts.2.1 h0 h1,
    C26_less_runs exThree_good _ exThree_facts.1 exThree_facts.2.1 h0 h1⟩
example : opEq exTwo (elemCmp natEq) (.user 0) (.user 2) exThree = .ok true exThree ∧
    opNe exTwo (elemCmp natEq) (.user 0) (.user 2) exThree = .ok false exThree := by
  obtain ⟨r, h1, h2, h3⟩ := C25_equality_result natEq exThree_good exThree_facts.1 exThree_facts.2.2.1
  have : r = true := h3.mpr ⟨rfl, rfl⟩
  subst this
  exact ⟨h1, h2⟩
example := C25_equality_symmetric (x := 0) (y := 2) natEq exThree_good (fun _ _ _ _ => BEq.comm) exThree_facts.2.2.2.2.2.1 exThree_facts.2.2.2.2.2.2.2
example := C26_less_equal_exclusive (x := 0) (y := 2) natLt natEq exThree_good (fun _ a b _ => by
  simp only [natLt, natEq, decide_eq_true_eq, beq_iff_eq]; omega) exThree_facts.2.2.2.2.2.1 exThree_facts.2.2.2.2.2.2.2
example : ∃ xy yx, opLt exTwo (elemCmp natLt) (.user 0) (.user 1) exThree = .ok xy exThree ∧ xy = true ∧ yx = false ∧
    opGe exTwo (elemCmp natLt) (.user 0) (.user 1) exThree = .ok (!xy) exThree ∧
    opLe exTwo (elemCmp natLt) (.user 0) (.user 1) exThree = .ok (!yx) exThree := by
  obtain ⟨xy, yx, h1, h2, h3, -, h5, h6⟩ := C26_derived_operators natLt exThree_good exThree_facts.2.2.2.2.2.1
    exThree_facts.2.2.2.2.2.2.1
  refine ⟨xy, yx, h3, h1.mpr ?_, ?_, h6, h5⟩
  · exact (C26_less_lexicographic natLt exThree_good exThree_facts.1 exThree_facts.2.1).mpr (by simp)
  · cases hb : yx with
    | false => rfl
    | true =>
      have := (C26_less_lexicographic natLt exThree_good exThree_facts.2.1 exThree_facts.1).mp (h2.mp hb)
      simp at this
example : hashValue exTwo (elemHash fun _ a => a + 100) (fun s i => 31 * s + i.toNat) (.user 1) exThree = .ok (31 * 107 + 1) exThree ∧
    stdHash exTwo (elemHash fun _ a => a + 100) (fun s i => 31 * s + i.toNat) (.user 1) exThree = .ok (31 * 107 + 1) exThree :=
  C27_hash_result _ _ exThree_good exThree_facts.2.1

end BVariant
