import Verif.Core.Direct

/-
What is said about value assignment, swap, comparison and `type()` for types with qualifiers and references.
-/

namespace BVariant

/-- The bounded type is `T`, `recursive_wrapper<T>` or `T&`. -/
inductive Elem.Is : Elem → CvTy → Prop
  | val (t : CvTy) : Elem.Is (.val t) t
  | wrapped (t : CvTy) : Elem.Is (.wrapped t) t
  | ref (t : CvTy) : Elem.Is (.ref t) t

/-- No two bounded types are the same `T`, be it as `T`, as `recursive_wrapper<T>` or as `T&`. -/
def Decl.AllDifferent (D : Decl) : Prop :=
  ∀ i j t, i < D.elems.length → j < D.elems.length → (D.elem i).Is t → (D.elem j).Is t → i = j

/-- The operand of type `rhs` (const or not) is what the model says it is: an object of the bounded type `T` at a position, if `T` is one of them and the operand a `T`;
otherwise it is converted, and no bounded type is `T`. -/
def OperandOf {V : Type} (D : Decl) (rhs : CvTy) : Src V → Prop
  | .lref k _ false | .rref k _ false => k < D.elems.length ∧ (D.elem k).Is { rhs with const := false }
  | _ => ∀ k, k < D.elems.length → ¬ (D.elem k).Is { rhs with const := false }

end BVariant
