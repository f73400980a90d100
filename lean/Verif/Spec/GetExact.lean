/-
Specification vocabulary for C77: what a variant type lists.
-/
import Verif.Spec.Get

namespace BVariant

/-- `T`, `recursive_wrapper<T>` or `T&` is a bounded type. -/
def Decl.Lists (D : Decl) (t : CvTy) : Prop := .val t ∈ D.elems ∨ .wrapped t ∈ D.elems ∨ .ref t ∈ D.elems

/-- The type without const and volatile. -/
def CvTy.plain (t : CvTy) : CvTy := ⟨t.base, false, false⟩

/-- A request that compiles, but for which the content is never found: it asks for `const volatile T`, and `T` is listed, but neither
`volatile T` nor `const volatile T`; or it asks for a reference `U&` in a const variant, `U` is not const, and `U` is listed without and with
its qualifiers, but never as a reference. -/
def UselessGet (D : Decl) (o : Operand) (u : GetArg) : Prop :=
  (AskedFor o u = ⟨u.ty.base, true, true⟩ ∧ D.Lists u.ty.plain ∧
    ¬ D.Lists ⟨u.ty.base, false, true⟩ ∧ ¬ D.Lists ⟨u.ty.base, true, true⟩) ∨
  (o = .const ∧ u.isRef = true ∧ u.ty.const = false ∧ (D.Lists u.ty ∨ D.Lists u.ty.plain) ∧
    .ref u.ty ∉ D.elems ∧ .ref u.ty.plain ∉ D.elems)

/-- A request that is rejected, although it would find some content: it asks for `const volatile T`, and `volatile T` is listed, but neither `T`
nor `const volatile T`. -/
def MissedGet (D : Decl) (o : Operand) (u : GetArg) : Prop :=
  AskedFor o u = ⟨u.ty.base, true, true⟩ ∧ D.Lists ⟨u.ty.base, false, true⟩ ∧ ¬ D.Lists u.ty.plain ∧ ¬ D.Lists ⟨u.ty.base, true, true⟩

/-- The type that the bounded type is about. -/
def Elem.named : Elem → CvTy
  | .val t | .wrapped t | .ref t => t

/-- The bounded type is not a reference. -/
def Elem.Stored : Elem → Prop
  | .val _ | .wrapped _ => True
  | .ref _ => False

/-- `U` is a class, and the bounded type is about it or a class derived from it. -/
def ClassOf (D : Decl) (u : GetArg) (e : Elem) : Prop :=
  D.classes.isClass u.ty.base = true ∧ D.classes.isClass e.named.base = true ∧
    (u.ty.base = e.named.base ∨ D.classes.baseOf u.ty.base e.named.base = true)

/-- The bounded type is about `U` or a class derived from it. -/
def Related (D : Decl) (u : GetArg) (e : Elem) : Prop := u.ty.base = e.named.base ∨ ClassOf D u e

/-- The content is const when it is seen through the operand. -/
def SeenConst (o : Operand) (e : Elem) : Prop := e.named.const = true ∨ (o = .const ∧ e.Stored)

/-- A polymorphic request that compiles, but for which the content is never found: it does not ask for a const type; some bounded type that is not
a reference is a class derived from `U` or `U` itself, but all the bounded types about `U` or such classes are seen as const. -/
def UselessPolymorphicGet (D : Decl) (o : Operand) (u : GetArg) : Prop :=
  (AskedFor o u).const = false ∧ (∃ e ∈ D.elems, e.Stored ∧ (ClassOf D u e ∨ e.named = u.ty)) ∧
    ∀ e ∈ D.elems, Related D u e → SeenConst o e

/-- A polymorphic request that is rejected, although it would find some content: some bounded type about `U` or a class derived from it could be
found, but all of these are references (or `U` is no class), and none of them is `U` up to added const. -/
def MissedPolymorphicGet (D : Decl) (o : Operand) (u : GetArg) : Prop :=
  (∃ e ∈ D.elems, Related D u e ∧ (SeenConst o e → (AskedFor o u).const = true)) ∧
    ∀ e ∈ D.elems, (ClassOf D u e → ¬ e.Stored) ∧ (u.ty.base = e.named.base → e.named.const = true ∧ u.ty.const = false)

end BVariant
