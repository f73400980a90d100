/-
Specification vocabulary for programs with control flow.
-/
import Verif.Core.Structured
import Verif.Spec.MixedConvert

namespace BVariant

section
variable {V : Type} (D : Decls V) (ρ : Nat → Nat)

/-- The variants and objects in a state of the machine, or at the end. -/
def Next.world : Next V → Option (World V)
  | .conf c => some c.w
  | .done _ w => some w
  | .fault _ => none

/-- The machine is about to execute a statement concerned by finding F1. -/
def Conf.readsBackup (c : Conf V) : Bool :=
  match c.ctl with
  | .run (.cmd m) => m.valid D ρ c.w && m.readsBackup c.w
  | _ => false

/-- In no execution of the program from `c` is such a statement reached. -/
def NeverReadsBackup (c : Conf V) : Prop := ∀ n c', steps D ρ n c = .conf c' → c'.readsBackup D ρ = false

/-- No variant type makes heap backups (as the single-storage conditions imply). -/
def Decls.BackupFree (D : Decls V) : Prop := ∀ vt, BVariant.BackupFree (D.K vt)

/-- The statement uses only variables that are declared around it: `xs` are those declared outside. No variable is
declared twice. -/
def Stm.scoped : List Nat → Stm V → Prop
  | xs, .cmd c => ∀ x ∈ c.names, x ∈ xs
  | _, .skip | _, .raise => True
  | xs, .seq s t | xs, .cond _ s t | xs, .guarded s t => s.scoped xs ∧ t.scoped xs
  | xs, .loop _ s => s.scoped xs
  | xs, .scope x s => x ∉ xs ∧ s.scoped (x :: xs)

/-- The variables whose scope is open, where `k` is to be done after the current statement. -/
def scopes : List (Frame V) → List Nat
  | [] => []
  | .ends x :: k => x :: scopes k
  | _ :: k => scopes k

/-- It is a handler. -/
def Frame.isHandler : Frame V → Bool
  | .handler _ => true
  | _ => false

/-- The program that executes the statements one after the other, each in a `try` block with an empty handler. -/
def Stm.ofList : List (MixCmd V) → Stm V
  | [] => .skip
  | c :: cs => .seq (.guarded (.cmd c) .skip) (.ofList cs)

end

end BVariant
