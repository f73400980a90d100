/-
Specification vocabulary for get, polymorphic_get and visitor_ptr: when a request for a type matches the type of the
content.
-/
import Verif.Core.Get

namespace BVariant

/-- The type of the content of a variant that holds bounded type `e`, as seen through a const or non-const variant: const
variants have const contents, except that a reference still refers to what it did. -/
inductive SeenAs (constVariant : Bool) : Elem → CvTy → Prop
  | val (b : Nat) (c v : Bool) : SeenAs constVariant (.val ⟨b, c, v⟩) ⟨b, c || constVariant, v⟩
  | wrapped (b : Nat) (c v : Bool) : SeenAs constVariant (.wrapped ⟨b, c, v⟩) ⟨b, c || constVariant, v⟩
  | ref (t : CvTy) : SeenAs constVariant (.ref t) t

/-- The type that `get<U>` asks for: `U`, or `const U` for a const variant (which changes nothing if `U` is a
reference). -/
def AskedFor (o : Operand) (u : GetArg) : CvTy :=
  ⟨u.ty.base, u.ty.const || (decide (o = .const) && !u.isRef), u.ty.volatile⟩

/-- `asked` is the type `t`, possibly with const added. -/
def UpToConst (t asked : CvTy) : Prop := asked.base = t.base ∧ (t.const = true → asked.const = true)

/-- `asked` is the type `t` or a base class of it, possibly with const added. -/
def BaseUpToConst (cl : Classes) (t asked : CvTy) : Prop :=
  (asked.base = t.base ∨ (cl.isClass asked.base = true ∧ cl.isClass t.base = true ∧ cl.baseOf asked.base t.base = true)) ∧
    (t.const = true → asked.const = true)

/-- The bounded type mentions no volatile type. -/
def Elem.NotVolatile : Elem → Prop
  | .val t | .wrapped t | .ref t => t.volatile = false

/-- The bounded type is neither const nor a reference. -/
def Elem.Plain : Elem → Prop
  | .val t | .wrapped t => t.const = false
  | .ref _ => False

/-- No bounded type mentions a volatile type. -/
def Decl.NotVolatile (D : Decl) : Prop := ∀ e, e ∈ D.elems → e.NotVolatile

/-- The parameter of a function given to `visitor_ptr` accepts content of type `t`: it is of that type, passed by value
or by a reference that drops no const; a non-const reference does not accept an rvalue. -/
def Accepts (rv : Bool) (p : ParamTy) (t : CvTy) : Prop :=
  p.ty.base = t.base ∧ (p.isRef = true → (t.const = true → p.ty.const = true) ∧ (rv = true → p.ty.const = true))

end BVariant
