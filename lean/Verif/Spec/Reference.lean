/-
Specification vocabulary for programs that keep references into variants.
-/
import Verif.Core.Reference
import Verif.Spec.Program
import Verif.Spec.Outcome

namespace BVariant

section
variable {V : Type} (C : Cfg V)

/-- Variable `x` holds content of type `k`. -/
def World.holdsType (w : World V) (x : Nat) (k : TyIx) : Bool :=
  match w.content (.user x) with
  | some p => decide (p.1 = k)
  | none => false

/-- Two variants hold the same type in the same storage state. -/
def World.sameShape (w : World V) (x y : Nat) : Bool := !w.typesDiffer x y && w.backedUp x == w.backedUp y

/-- The statement leaves the content object of the live variant `x` in place, whatever it does to its value: it does not
destroy `x`; it assigns to `x` from a variant only if that holds the same type in the same storage state; it assigns a value or
a reference to `x` only if `x` holds that type (and, if the operand has to be converted first, not in a heap backup); it
swaps `x` only with a variant that holds the same type. -/
def Cmd.keeps (w : World V) (x : Nat) : Cmd V → Bool
  | .destroy y => decide (y ≠ x)
  | .copyAssign y z | .moveAssign y z => decide (y ≠ x) || w.sameShape y z
  | .assignL y k _ | .assignR y k _ => decide (y ≠ x) || w.holdsType y k
  | .assignC y k _ | .assignVL y k _ | .assignVR y k _ => decide (y ≠ x) || (w.holdsType y k && !w.backedUp y)
  | .swap y z => (decide (y ≠ x) && decide (z ≠ x)) || !w.typesDiffer y z
  | .assignGet _ y z => decide (y ≠ x) || !w.typesDiffer y z
  | _ => true

/-- What the programmer knows of the references: the variant each was taken from, if it is still good. -/
abbrev Loans := Nat → Option Nat

/-- The loans after a statement run in `w`. -/
def Loans.after (b : Loans) (w : World V) : RCmd V → Loans
  | .stmt c => fun r => (b r).filter fun x => !c.valid C w || c.keeps w x
  | .bind r x => upd b r (some x)
  | _ => b

/-- The statement, run in `w`, uses only good references, takes references only from live variants, and is not one of
finding F1. -/
def Loans.allows (b : Loans) (w : World V) : RCmd V → Bool
  | .stmt c => !c.valid C w || !c.readsBackup w
  | .bind _ x | .look x => (w.vars (.user x)).isSome
  | .read r | .write r _ => (b r).isSome

/-- The whole run of the program uses only good references. -/
def careful : List (RCmd V) → Loans → RSt V → Bool
  | [], _, _ => true
  | c :: cs, b, s => b.allows C s.w c &&
    match rStep C s c with
    | some s' => careful cs (b.after C s.w c) s'
    | none => true

/-- The program without references: each use of a reference is replaced by a new `get` on the variant the reference was taken
from. -/
def inline : List (RCmd V) → Loans → List (RCmd V)
  | [], _ => []
  | .stmt c :: cs, b => .stmt c :: inline cs b
  | .bind r x :: cs, b => inline cs (upd b r (some x))
  | .read r :: cs, b => (match b r with | some x => [.look x] | none => []) ++ inline cs b
  | .write r v :: cs, b => (match b r with | some x => [.stmt (.mutate x v)] | none => []) ++ inline cs b
  | .look x :: cs, b => .look x :: inline cs b

/-- The reference refers to a live object of its type. -/
def Ref.alive (p : Ref) (w : World V) : Prop := ∃ v, w.objs p.id = some (p.ty, v)

/-- The reference refers to the content object of variant `x`, which is alive and of its type. -/
def Ref.into (p : Ref) (w : World V) (x : Nat) : Prop := w.objOf x = some p.id ∧ p.alive w

/-- Every good reference refers to the content object of the variant it was taken from. -/
def Loans.Sound (b : Loans) (s : RSt V) : Prop := ∀ r x, b r = some x → ∃ p, s.refs r = some p ∧ p.into s.w x

/-- A state between two statements of a program that keeps references: a good state in which every reference was
bound to some object of its type, which may be dead by now. -/
structure RGood (s : RSt V) : Prop where
  good : Good C s.w
  refs : ∀ r p, s.refs r = some p → p.id < s.w.next ∧ ∀ k v, s.w.objs p.id = some (k, v) → k = p.ty

/-- The statement, if it is run in `w`, is not one concerned by finding F1. -/
def RCmd.outsideF1 (w : World V) : RCmd V → Bool
  | .stmt c => !c.valid C w || !c.readsBackup w
  | _ => true

/-- The run of a program executes no statement concerned by finding F1. -/
def rAvoids : List (RCmd V) → RSt V → Bool
  | [], _ => true
  | c :: cs, s =>
    c.outsideF1 C s.w &&
    match rStep C s c with
    | some s' => rAvoids cs s'
    | none => true

/-- The statement uses the reference named `r`. -/
def RCmd.uses (r : Nat) : RCmd V → Prop
  | .read q | .write q _ => q = r
  | _ => False

/-- The run of a program from `s` comes to a statement that uses a reference to an object that is dead. -/
def UsesDead (cs : List (RCmd V)) (s : RSt V) : Prop :=
  ∃ pre c post s' r p, cs = pre ++ c :: post ∧ rRun C pre s = some s' ∧ c.uses r ∧ s'.refs r = some p ∧ s'.w.objs p.id = none

/-- The program does not bind the name `r`. -/
def NotBound (r : Nat) (cs : List (RCmd V)) : Prop := ∀ x, .bind r x ∉ cs

end

end BVariant
