import Verif.Meta.Params

/-
C87: what lists of template parameters and of template arguments mean in C++.
-/

namespace BVariant

/-- The tokens declare type parameters; `true` for packs. -/
inductive DeclaresParams : List PTok → List (String × Bool) → Prop
  | one {k x} : k = "class" ∨ k = "typename" → DeclaresParams [.id k, .id x] [(x, false)]
  | pack {k x} : k = "class" ∨ k = "typename" → DeclaresParams [.id k, .dots, .id x] [(x, true)]
  | more {ts us ps qs} : DeclaresParams ts ps → DeclaresParams us qs → DeclaresParams (ts ++ .comma :: us) (ps ++ qs)

/-- The parameters stand for these arguments: each parameter for one, a pack, which is the last one, for all that are left. -/
inductive BindsArgs {A : Type} : List (String × Bool) → List A → (String → List A) → Prop
  | nil {e} : BindsArgs [] [] e
  | one {x ps a as e} : e x = [a] → BindsArgs ps as e → BindsArgs ((x, false) :: ps) (a :: as) e
  | pack {x as e} : e x = as → BindsArgs [(x, true)] as e

/-- The tokens, as template arguments, are these arguments where the names stand for those of `e`: a name stands for one argument; with
dots it stands for as many as the pack has. -/
inductive DenotesArgs {A : Type} (e : String → List A) : List PTok → List A → Prop
  | one {x a} : e x = [a] → DenotesArgs e [.id x] [a]
  | pack {x} : DenotesArgs e [.id x, .dots] (e x)
  | more {ts us as bs} : DenotesArgs e ts as → DenotesArgs e us bs → DenotesArgs e (ts ++ .comma :: us) (as ++ bs)

end BVariant
