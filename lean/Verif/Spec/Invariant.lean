/-
Specification vocabulary for the run-time theorems. These definitions talk about the state of the world
only; they use nothing of the model's operations.
-/
import Verif.Core.World

namespace BVariant

/-- The element object a variant owns: the one in its storage, or the one its backup pointer points to. -/
def VarSt.contentId (s : VarSt) : Option ObjId :=
  match s.slot with
  | .obj id => some id
  | .holder _ (some id) => some id
  | _ => none

/-- Bounded type and value of the object that variant `x` owns. -/
def World.content {V : Type} (w : World V) (x : VarId) : Option (TyIx × V) :=
  (w.vars x).bind fun s => s.contentId.bind w.objs

/-- Variant `x` stores its content in place, and records type `k`. -/
def World.inPlace {V : Type} (w : World V) (x : VarId) (k : TyIx) (id : ObjId) : Prop :=
  w.vars x = some ⟨(k : Int), .obj id⟩

/-- Variant `x` holds its content in a heap backup, and records type `k`. -/
def World.inBackup {V : Type} (w : World V) (x : VarId) (k : TyIx) (id : ObjId) : Prop :=
  w.vars x = some ⟨-((k : Int) + 1), .holder k (some id)⟩

/-- A bounded type whose content may be put into a heap backup: there is no fallback type and neither
copying nor moving it is nothrow. -/
def Cfg.mayBackup {V : Type} (C : Cfg V) (k : TyIx) : Prop :=
  C.hasFallback = false ∧ (C.tr k).nothrowMove = false ∧ (C.tr k).nothrowCopy = false

/-- `s` is a proper representation of a variant that owns object `id` of bounded type `k`. -/
inductive Rep {V : Type} (C : Cfg V) : VarSt → ObjId → TyIx → Prop
  | inPlace (id : ObjId) (k : TyIx) : k < C.n → Rep C ⟨(k : Int), .obj id⟩ id k
  | inBackup (id : ObjId) (k : TyIx) : k < C.n → C.mayBackup k →
      Rep C ⟨-((k : Int) + 1), .holder k (some id)⟩ id k

/-- The state between API calls: every live variant properly represents exactly one live object, no two
variants share an object, every live object is owned by a live variant. -/
structure WF {V : Type} (C : Cfg V) (w : World V) : Prop where
  rep : ∀ x s, w.vars x = some s → ∃ id k v, Rep C s id k ∧ w.objs id = some (k, v)
  inj : ∀ x y sx sy id, w.vars x = some sx → w.vars y = some sy →
    sx.contentId = some id → sy.contentId = some id → x = y
  noLeak : ∀ id, w.objs id ≠ none → ∃ x s, w.vars x = some s ∧ s.contentId = some id
  fresh : ∀ id, w.next ≤ id → w.objs id = none
  flat : ∀ id, w.sub id = []

/-- A fact on `boost/blank.hpp`: `boost::blank` is nothrow default constructible. -/
def BlankOk {V : Type} (C : Cfg V) : Prop := ∀ t, t ∈ C.types → t.isBlank = true → t.nothrowDefault = true

/-- Outside finding F10: what the library default-constructs as fallback content is an object of the fallback type,
or that type needs no construction, or the library never does so, because no content that changes the type of a variant can
fail to be copied or moved there. -/
def FallbackBuilt {V : Type} (C : Cfg V) : Prop :=
  ∀ fb, C.fallback = some fb → C.fallbackCtor = .element ∨ (C.tr fb).trivialDefault = true ∨
    ∀ k kr, k < C.n → kr < C.n → k ≠ kr → (C.tr kr).nothrowMove = true ∨ (C.tr kr).nothrowCopy = true

/-- Configurations outside findings F2 and F10: if content of some bounded type is assigned by the heap-backup
strategy, then every nothrow copy constructible bounded type is also nothrow move constructible; the
fallback object is really constructed; and (a fact on boost/blank.hpp) `boost::blank` is nothrow default
constructible. That these conditions are needed, too, is `C60_conditions_are_needed`. -/
structure Sane {V : Type} (C : Cfg V) : Prop where
  blank : BlankOk C
  copyMove : ∀ k kr, k < C.n → kr < C.n → C.mayBackup kr → (C.tr k).nothrowCopy = true →
    (C.tr k).nothrowMove = true
  fallback : FallbackBuilt C

end BVariant
