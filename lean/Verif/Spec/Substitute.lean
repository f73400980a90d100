/-
Specification for the substitution of `recursive_variant_` (C38): positions in a type expression, and which of them the
library promises to reach.
-/
import Verif.Meta.Substitute

namespace BVariant

def CTys.get : CTys → Nat → Option CTy
  | .nil, _ => none
  | .cons t _, 0 => some t
  | .cons _ ts, i + 1 => ts.get i

def CTys.length : CTys → Nat
  | .nil => 0
  | .cons _ ts => ts.length + 1

/-- The type at a position of a type expression: a position is a list of argument numbers. What a pointer points to, what a
reference refers to, and the elements of an array are number 0; for a function the result is number 0 and the parameters
follow. -/
def CTy.at : CTy → List Nat → Option CTy
  | t, [] => some t
  | .mk _ _ as, i :: p =>
    match as.get i with
    | some a => a.at p
    | none => none

/-- No qualifiers. -/
def Cv.none : Cv := ⟨false, false⟩

/-- The positions that substitution reaches: through pointers and lvalue references, into the arguments of class templates
and the alternatives of variants that are not themselves recursive, and into the signature of a pointer to a function. The
template, the variant and the pointer to a function must have no qualifiers. -/
inductive Reached : CTy → List Nat → Prop
  | here {t : CTy} : Reached t []
  | pointee {q : Cv} {as : CTys} {i : Nat} {a : CTy} {p : List Nat} : as.get i = some a → Reached a p →
      Reached (.mk q .ptr as) (i :: p)
  | signature {as bs : CTys} {i j : Nat} {r : Cv} {b : CTy} {p : List Nat} : as.get i = some (.mk r (.fn false) bs) →
      bs.get j = some b → Reached b p → Reached (.mk .none .ptr as) (i :: j :: p)
  | referee {q : Cv} {as : CTys} {i : Nat} {a : CTy} {p : List Nat} : as.get i = some a → Reached a p →
      Reached (.mk q .lref as) (i :: p)
  | templateArg {f : Nat} {as : CTys} {i : Nat} {a : CTy} {p : List Nat} : as.get i = some a → Reached a p →
      Reached (.mk .none (.tmpl f) as) (i :: p)
  | wrapped {as : CTys} {i : Nat} {a : CTy} {p : List Nat} : as.get i = some a → Reached a p →
      Reached (.mk .none .wrapper as) (i :: p)
  | alternative {f : VariantForm} {as : CTys} {i : Nat} {a : CTy} {p : List Nat} : f ≠ .flag → as.get i = some a → Reached a p →
      Reached (.mk .none (.variant f) as) (i :: p)

/-- `recursive_variant_` with qualifiers `q`. -/
def CTy.recursiveVariant_ (q : Cv) : CTy := .mk q .tag .nil

/-- `D` with the qualifiers of the tag it replaces as well: `const` if either is, `volatile` if either is. -/
inductive Qualified (q : Cv) : CTy → CTy → Prop
  | both {dc dv : Bool} {h : TyHead} {as : CTys} : Qualified q (.mk ⟨dc, dv⟩ h as) (.mk ⟨dc || q.const, dv || q.volatile⟩ h as)

/-- A pointer or a reference, with any qualifiers. -/
inductive CTy.PointerOrReference : CTy → Prop
  | pointer {q : Cv} {as : CTys} : CTy.PointerOrReference (.mk q .ptr as)
  | lvalueReference {q : Cv} {as : CTys} : CTy.PointerOrReference (.mk q .lref as)
  | rvalueReference {q : Cv} {as : CTys} : CTy.PointerOrReference (.mk q .rref as)

/-- `recursive_wrapper<T>`. -/
def CTy.wrapperOf (t : CTy) : CTy := .mk .none .wrapper (.cons t .nil)

/-- Some position that is reached has the tag. -/
def CTy.Mentions (t : CTy) : Prop := ∃ p q, Reached t p ∧ t.at p = some (.recursiveVariant_ q)

end BVariant
