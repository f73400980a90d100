/-
What C40 says: giving a variant of another type is giving its content.
-/
import Verif.Core.Convert
import Verif.Spec.Initializer
import Verif.Spec.Outcome

namespace BVariant

/-- What is assumed of the language: `arg rv t` is an argument of type `t`, and a parameter `T&&` is not bound to an lvalue of type
`T`. -/
structure Lang.Lawful (L : Lang) : Prop where
  ty : ∀ rv t, (L.arg rv t).ty = t
  lvalue : ∀ t s, t.addConst = s.addConst → (L.arg false t).rvOk s = false

/-- The bounded type `d` can be constructed from an argument: a `recursive_wrapper<T>` from a (const) `T`, any other type as the
language says. -/
def InitArg.Makes (a : InitArg) (d : Elem) : Prop :=
  (∃ t, d = .wrapped t ∧ (a.ty = t ∨ a.ty = t.addConst)) ∨ ((∀ t, d ≠ .wrapped t) ∧ a.ctor d = true)

/-- The destination's bounded type `d` can be constructed from the source's bounded type: from an rvalue of it, from an lvalue of
what a reference refers to; from a `recursive_wrapper` a `recursive_wrapper` of the same type, or what the language says. -/
def Foreign.Makes (F : Foreign) (d : Elem) : Elem → Prop
  | .val t => (F.L.arg true t).Makes d
  | .ref t => (F.L.arg false t).Makes d
  | .wrapped t => d = .wrapped t ∨ ((∀ t', d ≠ .wrapped t') ∧ F.L.wrapCtor t d = true)

section
variable {V : Type}

/-- The execution `r` in the two worlds goes the way `o` goes in the destination's: it returns or throws the same, with the same
final world; and the source ends in a world with `P`. Neither ends in a fault. -/
def Follows (o : Out V Unit) (r : Res (Two V) Unit) (P : Option Exc → World V → Prop) : Prop :=
  match o with
  | .ok _ w' => ∃ ws', r = .ok () (ws', w') ∧ P none ws'
  | .exc e w' => ∃ ws', r = .exc e (ws', w') ∧ P (some e) ws'
  | .fault _ => False

end

end BVariant
