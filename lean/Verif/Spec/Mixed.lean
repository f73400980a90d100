/-
Specification vocabulary for programs with variables of several variant types.
-/
import Verif.Core.Mixed
import Verif.Spec.Program
import Verif.Spec.Outcome

namespace BVariant

section
variable {V : Type}

/-- The invariant between statements (`Good`) for variables of several variant types: `ρ` gives the declared type of every
variable, `K` is the table of the types. -/
structure GoodMix (K : Nat → Cfg V) (ρ : Nat → Nat) (w : World V) : Prop where
  rep : ∀ x s, w.vars (.user x) = some s → ∃ id k v, Rep (K (ρ x)) s id k ∧ w.objs id = some (k, v)
  inj : ∀ x y sx sy id, w.vars (.user x) = some sx → w.vars (.user y) = some sy →
    sx.contentId = some id → sy.contentId = some id → x = y
  noLeak : ∀ id, w.objs id ≠ none → ∃ x s, w.vars (.user x) = some s ∧ s.contentId = some id
  fresh : ∀ id, w.next ≤ id → w.objs id = none
  flat : ∀ id, w.sub id = []
  noTmp : ∀ n, w.vars (.tmp n) = none

/-- The object is the content of a variable of another type than `vt`. -/
def World.foreign (ρ : Nat → Nat) (vt : Nat) (w : World V) (i : ObjId) : Prop :=
  ∃ x s, ρ x ≠ vt ∧ w.vars (.user x) = some s ∧ s.contentId = some i

open Classical in
/-- The world as it is if only the variables of type `vt` exist. -/
noncomputable def World.only (ρ : Nat → Nat) (vt : Nat) (w : World V) : World V :=
  { w with
    objs := fun i => if w.foreign ρ vt i then none else w.objs i
    vars := fun x => match x with
      | .user n => if ρ n = vt then w.vars (.user n) else none
      | .tmp n => w.vars (.tmp n) }

/-- What a step of the variables of type `vt` alone, to `wh'`, means for all variables. -/
structure LikeAlone (ρ : Nat → Nat) (vt : Nat) (w w' wh' : World V) : Prop where
  only : w'.only ρ vt = wh'
  others : ∀ x, ρ x ≠ vt → Unchanged w w' (.user x)

/-- The run of a program from `w` executes no statement concerned by finding F1. -/
def avoidsBackupReadsMix (K : Nat → Cfg V) (ρ : Nat → Nat) : List (Nat × Cmd V) → World V → Bool
  | [], _ => true
  | (vt, c) :: cs, w =>
    if c.names.all (fun x => ρ x == vt) && c.valid (K vt) w then
      !c.readsBackup w &&
        match c.code (K vt) w with
        | .ok _ w' => avoidsBackupReadsMix K ρ cs w'
        | .exc _ w' => avoidsBackupReadsMix K ρ cs w'
        | .fault _ => true
    else avoidsBackupReadsMix K ρ cs w

end

end BVariant
