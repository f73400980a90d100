/-
Model of the operations that only look at variants: comparison, hashing, streaming.
/repo/include/boost/variant/variant.hpp 916-975 and 2123-2169, detail/hash_variant.hpp, detail/std_hash.hpp,
detail/variant_io.hpp.
-/
import Verif.Core.Variant

namespace BVariant

section
variable {V α : Type} (C : Cfg V)

/-! ### Comparison -/

/-- A comparison of element objects, left operand first (`Comp`, variant.hpp 954-975, calls the element type's
`operator==` or `operator<`). It is arbitrary code here. -/
abbrev ElemCmp (V : Type) := TyIx → ObjId → ObjId → M V Bool

/-- The comparison of element objects given by a function on their values. (`equal_comp` and `less_comp`, variant.hpp
954-975, applied to elements.) -/
def elemCmp (r : TyIx → V → V → Bool) : ElemCmp V := fun ty l rt => do
  let vl ← readAs ty l
  let vr ← readAs ty rt
  pure (r ty vl vr)

/-- `comparer<Variant, Comp>` for the left operand `lhs`, variant.hpp 916-947, visiting the content of the right
operand. -/
def comparer (cmp : ElemCmp V) (lhs : VarId) : TyIx → ObjId → M V Bool := fun ty rhs => do
  let l ← applyVisitor C lhs (knownGet C ty)
  cmp ty l rhs

/-- `operator==`, variant.hpp 2123-2132. -/
def opEq (cmp : ElemCmp V) (x y : VarId) : M V Bool := do
  let i ← which x
  let j ← which y
  if i ≠ j then pure false
  else applyVisitor C y (comparer C cmp x)

/-- `operator<`, variant.hpp 2134-2147. -/
def opLt (cmp : ElemCmp V) (x y : VarId) : M V Bool := do
  let i ← which x
  let j ← which y
  if i ≠ j then pure (decide (i < j))
  else applyVisitor C y (comparer C cmp x)

/-- `operator!=`, variant.hpp 2151-2154. -/
def opNe (cmp : ElemCmp V) (x y : VarId) : M V Bool := do
  let r ← opEq C cmp x y
  pure (!r)

/-- `operator>`, variant.hpp 2156-2159. -/
def opGt (cmp : ElemCmp V) (x y : VarId) : M V Bool := opLt C cmp y x

/-- `operator<=`, variant.hpp 2161-2164. -/
def opLe (cmp : ElemCmp V) (x y : VarId) : M V Bool := do
  let r ← opGt C cmp x y
  pure (!r)

/-- `operator>=`, variant.hpp 2166-2169. -/
def opGe (cmp : ElemCmp V) (x y : VarId) : M V Bool := do
  let r ← opLt C cmp x y
  pure (!r)

/-! ### Hashing -/

/-- Hashing of element objects (`boost::hash<T>`, called at hash_variant.hpp 31-32). It is arbitrary code here. -/
abbrev ElemHash (V H : Type) := TyIx → ObjId → M V H

/-- The hashing of element objects given by a function on their values. (`boost::hash<T>`, hash_variant.hpp 31-32.) -/
def elemHash {H : Type} (h : TyIx → V → H) : ElemHash V H := fun ty id => do
  let v ← readAs ty id
  pure (h ty v)

/-- `variant_hasher`, hash_variant.hpp 28-34. -/
def variantHasher {H : Type} (h : ElemHash V H) : TyIx → ObjId → M V H := fun ty id => h ty id

/-- `hash_value`, hash_variant.hpp 37-42; `combine seed i` is the seed after `hash_combine(seed, i)`. -/
def hashValue {H : Type} (h : ElemHash V H) (combine : H → Int → H) (x : VarId) : M V H := do
  let seed ← applyVisitor C x (variantHasher h)
  let i ← which x
  pure (combine seed i)

/-- `std::hash<boost::variant<...>>::operator()`, std_hash.hpp 35-40. -/
def stdHash {H : Type} (h : ElemHash V H) (combine : H → Int → H) (x : VarId) : M V H := hashValue C h combine x

/-! ### Streaming -/

/-- Streaming of element objects: `pr ty id out` gives the stream after `out << operand` (variant_io.hpp 56). It is arbitrary code
here. -/
abbrev ElemPrint (V S : Type) := TyIx → ObjId → S → M V S

/-- The streaming of element objects given by a function on their values. (`out_ << operand`, variant_io.hpp 56.) -/
def elemPrint {S : Type} (pr : TyIx → V → S → S) : ElemPrint V S := fun ty id out => do
  let v ← readAs ty id
  pure (pr ty v out)

/-- `printer`, variant_io.hpp 37-63. -/
def printer {S : Type} (pr : ElemPrint V S) (out : S) : TyIx → ObjId → M V S := fun ty id => pr ty id out

/-- `operator<<`, variant_io.hpp 67-79. -/
def streamOut {S : Type} (pr : ElemPrint V S) (out : S) (x : VarId) : M V S := applyVisitor C x (printer pr out)

end

/-! ### Nested variants -/

/-- A value of an element type that may itself be a variant: a plain value, or a variant with its raw `which_` and
the value of its content. (An element type that is itself a `variant`, for which `out_ << operand`, variant_io.hpp 54-58,
is the operator at 67-79 again.) -/
inductive Nested (A : Type)
  | leaf (ty : TyIx) (a : A)
  | variant (which_ : Int) (content : Nested A)

/-- `out << operand` for an operand that may be a variant, variant_io.hpp 54-58 and 67-79: if it is a variant,
`apply_visitor` dispatches over its `n` types to the instance of `printer::operator()` selected by `which()`, which
streams the content; `bad` is the result of the unreachable end of the dispatch. -/
def streamNested {A S : Type} (L : Nat) (n : Nat) (pr : TyIx → A → S → S) (bad : S) : Nested A → S → S
  | .leaf ty a, out => pr ty a out
  | .variant i c, out =>
    visitationImpl L (whichOf i) 0 (List.range n) (fun _ => streamNested L n pr bad c out) bad

end BVariant
