/-
Specification vocabulary for programs with conversions between variables of several variant types.
-/
import Verif.Core.MixedConvert
import Verif.Spec.Mixed
import Verif.Spec.Convert

namespace BVariant

section
variable {V : Type}

/-- The number of bounded types of every variant type is as declared. -/
def Decls.Fits (D : Decls V) : Prop := ∀ vt, (D.K vt).n = (D.cls vt).elems.length

/-- The statement is one of those concerned by finding F1. Conversions are not. -/
def MixCmd.readsBackup (w : World V) : MixCmd V → Bool
  | .on _ c => c.readsBackup w
  | .constructFrom .. | .assignFrom .. => false

/-- The run of a program from `w` executes no statement concerned by finding F1. -/
def avoidsBackupReadsConv (D : Decls V) (ρ : Nat → Nat) : List (MixCmd V) → World V → Bool
  | [], _ => true
  | c :: cs, w =>
    if c.valid D ρ w then
      !c.readsBackup w &&
        match c.code D ρ w with
        | .ok _ w' => avoidsBackupReadsConv D ρ cs w'
        | .exc _ w' => avoidsBackupReadsConv D ρ cs w'
        | .fault _ => true
    else avoidsBackupReadsConv D ρ cs w

end

end BVariant
