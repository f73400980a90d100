import Verif.Meta.InternalVisit

/-
What an internal visitor should work on: specified by saying which templates it sees through.
-/

namespace BVariant

/-- `SeesThrough R a b`: beginning at an lvalue of type `a`, and going into the objects that the templates in `R` hold, one comes to an lvalue of type
`b` and no further. One does not go into a volatile object. What is in a const object is const, but not what a reference refers to. -/
inductive SeesThrough (R : Tmpl → Prop) : LTy → LTy → Prop
  | stop (a : LTy) : (∀ t c v s, a.ty = .spec t c v s → R t → a.volatile = true) → SeesThrough R a a
  | into {k c v : Bool} {t : Tmpl} {s : STy} {b : LTy} : R t → SeesThrough R ⟨c || (k && t ≠ .referenceContent), v, s⟩ b →
      SeesThrough R ⟨k, false, .spec t c v s⟩ b

/-- The lvalue is of a class that the user derived from one of these templates, and is not volatile. -/
def LTy.IsDerived (R : Tmpl → Prop) (a : LTy) : Prop := a.volatile = false ∧ ∃ n t c v s, a.ty = .derived n t c v s ∧ R t

end BVariant
