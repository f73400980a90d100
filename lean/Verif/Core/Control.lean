/-
Programs with control flow, over statements and conditions of any kind: sequences, branches, loops, exceptions that carry a value, with
handlers, and scopes with local variables. (Core/Structured.lean has such programs for the statements of Core/MixedConvert.lean.) Then
the statements of Core/Program.lean and of Core/Tree.lean, with conditions that compare variants and look at their types.
-/
import Verif.Core.Program
import Verif.Core.Observe
import Verif.Core.TreeObserve

namespace BVariant

/-! ### The language -/

/-- A condition: one that looks at variants, or one that does not (the user's program decides, or throws). (The language.) -/
inductive Ask (B : Type)
  | test (b : B)
  | input

/-- A program. (The user's program; the library has no such code.) -/
inductive Prog (A B : Type)
  /-- a statement on variants: a call of the library -/
  | act (a : A)
  | skip
  /-- `throw e` -/
  | raise (e : Exc)
  | seq (p q : Prog A B)
  /-- `if (c) p else q` -/
  | cond (c : Ask B) (p q : Prog A B)
  /-- `while (c) p` -/
  | loop (c : Ask B) (p : Prog A B)
  /-- `try { p } catch (...) { h }` -/
  | guarded (p h : Prog A B)
  /-- `{ p }` where `p` declares the variant `x` -/
  | scope (x : Nat) (p : Prog A B)

/-- What statements and conditions do, and the statement that ends the life of a variable, if it is alive. (The language; the calls of
the library are put in below.) -/
structure Actions (A B S : Type) where
  act : A → Eff S Unit
  test : B → Eff S Bool
  close : Nat → A

/-- What is to be done after the current statement. (The language: the stack of the machine.) -/
inductive CFrame (A B : Type)
  /-- the next statement; skipped by an exception -/
  | next (p : Prog A B)
  /-- a handler; skipped without an exception -/
  | handler (h : Prog A B)
  /-- the end of the scope of `x` -/
  | ends (x : Nat)

/-- What the machine is about to do: execute a statement, go on after one, or look for a handler. (The language.) -/
inductive CCtl (A B : Type)
  | run (p : Prog A B)
  | ret
  | unwind (e : Exc)

/-- A state of the machine; `asked` counts the decisions of the user's program. (The language.) -/
structure CConf (A B S : Type) where
  ctl : CCtl A B
  stack : List (CFrame A B)
  asked : Nat
  st : S

/-- What a step leads to: another state; the end of the program, normally or by an exception that nothing catches; or a fault.
(The language.) -/
inductive CNext (A B S : Type)
  | conf (c : CConf A B S)
  | done (uncaught : Option Exc) (asked : Nat) (s : S)
  | fault (f : Fault)

section
variable {A B S : Type} (M : Actions A B S) (inp : Nat → Except Exc Bool)

/-- A condition is evaluated. (The language.) -/
def ask (c : Ask B) (i : Nat) : S → Res (Nat × S) Bool := fun s =>
  match c with
  | .test b =>
    match M.test b s with
    | .ok v s' => .ok v (i, s')
    | .exc e s' => .exc e (i, s')
    | .fault f => .fault f
  | .input =>
    match inp i with
    | .ok v => .ok v (i + 1, s)
    | .error e => .exc e (i + 1, s)

/-- The end of a scope: the destructor of `x`, if it is alive. An exception from it would call `std::terminate`. (The language; for
variants variant.hpp 1259-1262.) -/
def pEnd (x : Nat) (then_ : CCtl A B) (k : List (CFrame A B)) (i : Nat) (s : S) : CNext A B S :=
  match M.act (M.close x) s with
  | .ok _ s' => .conf ⟨then_, k, i, s'⟩
  | .exc _ _ => .fault .terminate
  | .fault f => .fault f

/-- One step. (The language.) -/
def pstep : CConf A B S → CNext A B S
  | ⟨.run (.act a), k, i, s⟩ =>
    match M.act a s with
    | .ok _ s' => .conf ⟨.ret, k, i, s'⟩
    | .exc e s' => .conf ⟨.unwind e, k, i, s'⟩
    | .fault f => .fault f
  | ⟨.run .skip, k, i, s⟩ => .conf ⟨.ret, k, i, s⟩
  | ⟨.run (.raise e), k, i, s⟩ => .conf ⟨.unwind e, k, i, s⟩
  | ⟨.run (.seq p q), k, i, s⟩ => .conf ⟨.run p, .next q :: k, i, s⟩
  | ⟨.run (.cond c p q), k, i, s⟩ =>
    match ask M inp c i s with
    | .ok true (j, s') => .conf ⟨.run p, k, j, s'⟩
    | .ok false (j, s') => .conf ⟨.run q, k, j, s'⟩
    | .exc e (j, s') => .conf ⟨.unwind e, k, j, s'⟩
    | .fault f => .fault f
  | ⟨.run (.loop c p), k, i, s⟩ =>
    match ask M inp c i s with
    | .ok true (j, s') => .conf ⟨.run p, .next (.loop c p) :: k, j, s'⟩
    | .ok false (j, s') => .conf ⟨.ret, k, j, s'⟩
    | .exc e (j, s') => .conf ⟨.unwind e, k, j, s'⟩
    | .fault f => .fault f
  | ⟨.run (.guarded p h), k, i, s⟩ => .conf ⟨.run p, .handler h :: k, i, s⟩
  | ⟨.run (.scope x p), k, i, s⟩ => .conf ⟨.run p, .ends x :: k, i, s⟩
  | ⟨.ret, [], i, s⟩ => .done none i s
  | ⟨.ret, .next q :: k, i, s⟩ => .conf ⟨.run q, k, i, s⟩
  | ⟨.ret, .handler _ :: k, i, s⟩ => .conf ⟨.ret, k, i, s⟩
  | ⟨.ret, .ends x :: k, i, s⟩ => pEnd M x .ret k i s
  | ⟨.unwind e, [], i, s⟩ => .done (some e) i s
  | ⟨.unwind e, .next _ :: k, i, s⟩ => .conf ⟨.unwind e, k, i, s⟩
  | ⟨.unwind _, .handler h :: k, i, s⟩ => .conf ⟨.run h, k, i, s⟩
  | ⟨.unwind e, .ends x :: k, i, s⟩ => pEnd M x (.unwind e) k i s

/-- Up to `n` steps. (The language.) -/
def psteps : Nat → CConf A B S → CNext A B S
  | 0, c => .conf c
  | n + 1, c =>
    match pstep M inp c with
    | .conf c' => psteps n c'
    | r => r

/-- The machine at the beginning of a program. (The language.) -/
def Prog.start (p : Prog A B) (s : S) : CConf A B S := ⟨.run p, [], 0, s⟩

end

/-! ### Conditions on variants -/

/-- A condition on the variants at some places: `x == y`, `x < y`, `x.which() == k`, and combinations. A comparison with something that
is not there is not made, and counts as false. (The user's program; variant.hpp 2123-2147 and 1231-1240.) -/
inductive Test (P : Type)
  | eq (x y : P)
  | lt (x y : P)
  | is (x : P) (k : TyIx)
  | not (b : Test P)
  | and (b c : Test P)

/-- How to look at variants. (The calls of the library are put in below.) -/
structure Looks (P S : Type) where
  there : S → P → Bool
  eq : P → P → Eff S Bool
  lt : P → P → Eff S Bool
  is : P → TyIx → Eff S Bool

/-- A condition is evaluated, `&&` from left to right. (The user's program.) -/
def Test.code {P S : Type} (L : Looks P S) : Test P → Eff S Bool
  | .eq x y => fun s => if L.there s x && L.there s y then L.eq x y s else .ok false s
  | .lt x y => fun s => if L.there s x && L.there s y then L.lt x y s else .ok false s
  | .is x k => fun s => if L.there s x then L.is x k s else .ok false s
  | .not b => do
    let v ← b.code L
    pure (!v)
  | .and b c => do
    let v ← b.code L
    if v then c.code L else pure false

section
variable {V : Type}

/-- The code of Core/World.lean in the notation used here. (Device of the model.) -/
def M.eff {α : Type} (m : M V α) : Eff (World V) α := fun w =>
  match m w with
  | .ok a w' => .ok a w'
  | .exc e w' => .exc e w'
  | .fault f => .fault f

/-- Looking at variants: `operator==`, variant.hpp 2123-2132, `operator<`, 2134-2147, and `which()`, 1231-1240. -/
def varLooks (C : Cfg V) (eq lt : TyIx → V → V → Bool) : Looks Nat (World V) where
  there w x := (w.vars (.user x)).isSome
  eq x y := (opEq C (elemCmp eq) (.user x) (.user y)).eff
  lt x y := (opLt C (elemCmp lt) (.user x) (.user y)).eff
  is x k := do
    let i ← (which (V := V) (.user x)).eff
    pure (decide (i = (k : Int)))

/-- Statements on variants; those that are not valid are skipped. (variant.hpp 1259-1284, 1589-1654 and 2001-2062, see
Core/Program.lean.) -/
def varActions (C : Cfg V) (eq lt : TyIx → V → V → Bool) : Actions (Cmd V) (Test Nat) (World V) where
  act c := fun w => if c.valid C w then (c.code C).eff w else .ok () w
  test b := b.code (varLooks C eq lt)
  close x := .destroy x

/-- `x.which()` for a variant anywhere in a tree, variant.hpp 1231-1240. -/
def tWhich (x : TPlace) : Eff (TreeSt V) TyIx := do
  let l ← x.eval
  let u ← l.read
  pure u.which

/-- Looking at recursive variants: `operator==`, variant.hpp 2123-2132, `operator<`, 2134-2147, and `which()`, 1231-1240. -/
def treeLooks (eq lt : TyIx → V → V → Bool) (n : Nat) : Looks TPlace (TreeSt V) where
  there s x := x.valid s
  eq x y := tEq eq n x y
  lt x y := tLt lt n x y
  is x k := do
    let i ← tWhich x
    pure (decide (i = k))

/-- Statements on recursive variants; those that are not valid are skipped. (variant.hpp 370-1923, see Core/Tree.lean.) -/
def treeActions (C : TreeCfg V) (eq lt : TyIx → V → V → Bool) (n : Nat) : Actions (TCmd V) (Test TPlace) (TreeSt V) where
  act c := fun s => if c.valid C s then c.code C n s else .ok () s
  test b := b.code (treeLooks eq lt n)
  close x := .destroy x

end

end BVariant
