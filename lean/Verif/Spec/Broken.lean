/-
Specification vocabulary for what the findings F1, F2 and F10 leave behind.
-/
import Verif.Spec.Program

namespace BVariant

section
variable {V : Type} (C : Cfg V)

/-- The storage of a variant with this record holds no object at the place at which the library looks for one: the record says
that the content is in place, and it is not (findings F1 and F10); or it is in a heap backup of a type for which the library
takes it to be in place whatever the record says (finding F2). -/
inductive Broken : VarSt → Prop
  | inPlace (k : TyIx) (t : Slot) (hk : k < C.n) (hs : ∀ id, t ≠ .obj id) : Broken ⟨(k : Int), t⟩
  | inBackup (k : TyIx) (t : Slot) (hk : k < C.n) 
      (hn : C.fallback ≠ none ∨ (C.tr k).nothrowMove = true ∨ (C.tr k).nothrowCopy = true) (hs : ∀ id, t ≠ .obj id) :
      Broken ⟨-((k : Int) + 1), t⟩

/-- The variant `x` is alive and broken. -/
def World.broken (w : World V) (x : VarId) : Prop := ∃ s, w.vars x = some s ∧ Broken C s

end

end BVariant
