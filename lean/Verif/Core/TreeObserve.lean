/-
Model of comparing, hashing and streaming recursive variants (variant.hpp 916-975 and 2123-2169, detail/hash_variant.hpp,
detail/variant_io.hpp), on the memory of Core/Tree.lean.

What these operations do with a node is left to its class `T`. Here `T` compares, hashes and prints its own value and then its
list of variants, in order, as a class with a `std::vector` of variants would do; this is where the operations recurse. As in
Core/Tree.lean the first number is the depth of the stack.
-/
import Verif.Core.Tree

namespace BVariant

section
variable {V : Type}

/-! ### Comparison -/

/-- `std::equal` of two lists of the same length, from the first pair on until one differs. (The user's wrapped type; each
member is compared by variant.hpp 2123-2132.) -/
def tEqList (f : TVar V → TVar V → Eff (TreeSt V) Bool) : List (TVar V) → List (TVar V) → Eff (TreeSt V) Bool
  | x :: xs, y :: ys => do
    let b ← f x y
    if b then tEqList f xs ys else pure false
  | _, _ => pure true

/-- `T::operator==`: the values, then the lists (which are different if their lengths are). (The user's wrapped type,
called at variant.hpp 954-961.) -/
def tEqNode (eq : V → V → Bool) (f : TVar V → TVar V → Eff (TreeSt V) Bool) (m n : V × List (TVar V)) : Eff (TreeSt V) Bool :=
  if eq m.1 n.1 then
    if m.2.length = n.2.length then tEqList f m.2 n.2 else pure false
  else pure false

/-- `operator==`, variant.hpp 2123-2132, with `comparer`, 916-947, which visits the right side and reads the left side by
`known_get`, 395-413; for a wrapper with the node inside it (937-941). -/
def tEqVar (eq : TyIx → V → V → Bool) : Nat → TVar V → TVar V → Eff (TreeSt V) Bool
  | 0, _, _ => Eff.fail .ub
  | n + 1, x, y =>
    if x.which ≠ y.which then pure false
    else do
      let r ← tContent y
      let l ← tContent x
      match l, r with
      | .leaf u, .leaf v => pure (eq y.which u v)
      | .wrap p, .wrap q => do
        let a ← tReadNode p
        let b ← tReadNode q
        tEqNode (eq y.which) (tEqVar eq n) a b
      | _, _ => Eff.fail .ub

/-- `std::lexicographical_compare` with `operator<`. (The user's wrapped type; each member is compared by variant.hpp
2134-2147.) -/
def tLtList (f : TVar V → TVar V → Eff (TreeSt V) Bool) : List (TVar V) → List (TVar V) → Eff (TreeSt V) Bool
  | x :: xs, y :: ys => do
    let b ← f x y
    if b then pure true
    else do
      let b' ← f y x
      if b' then pure false else tLtList f xs ys
  | [], _ :: _ => pure true
  | _, [] => pure false

/-- `T::operator<`: the values, then (if neither is less) the lists. (The user's wrapped type, called at variant.hpp
968-975.) -/
def tLtNode (lt : V → V → Bool) (f : TVar V → TVar V → Eff (TreeSt V) Bool) (m n : V × List (TVar V)) : Eff (TreeSt V) Bool :=
  if lt m.1 n.1 then pure true
  else if lt n.1 m.1 then pure false
  else tLtList f m.2 n.2

/-- `operator<`, variant.hpp 2134-2147, with `comparer`, 916-947. -/
def tLtVar (lt : TyIx → V → V → Bool) : Nat → TVar V → TVar V → Eff (TreeSt V) Bool
  | 0, _, _ => Eff.fail .ub
  | n + 1, x, y =>
    if x.which ≠ y.which then pure (decide (x.which < y.which))
    else do
      let r ← tContent y
      let l ← tContent x
      match l, r with
      | .leaf u, .leaf v => pure (lt y.which u v)
      | .wrap p, .wrap q => do
        let a ← tReadNode p
        let b ← tReadNode q
        tLtNode (lt y.which) (tLtVar lt n) a b
      | _, _ => Eff.fail .ub

/-! ### Hashing -/

/-- The hashes of the members, in order. (The user's wrapped type; each member is hashed by hash_variant.hpp 37-42.) -/
def tHashList {H : Type} (f : TVar V → Eff (TreeSt V) H) : List (TVar V) → Eff (TreeSt V) (List H)
  | [] => pure []
  | x :: xs => do
    let a ← f x
    let as ← tHashList f xs
    pure (a :: as)

/-- `hash_value`, hash_variant.hpp 37-42, with `variant_hasher`, 28-34. `h` is the hash of a plain value, `hn` that of a node from
its value and the hashes of its members; `combine seed i` is the seed after `hash_combine(seed, i)`. -/
def tHashVar {H : Type} (h : TyIx → V → H) (hn : TyIx → V → List H → H) (combine : H → TyIx → H) : Nat → TVar V → Eff (TreeSt V) H
  | 0, _ => Eff.fail .ub
  | n + 1, x => do
    let c ← tContent x
    match c with
    | .leaf v => pure (combine (h x.which v) x.which)
    | .wrap p => do
      let m ← tReadNode p
      let hs ← tHashList (tHashVar h hn combine n) m.2
      pure (combine (hn x.which m.1 hs) x.which)
    | .dead => Eff.fail .ub

/-! ### Streaming -/

/-- How plain values and nodes are printed: `pr k v out` is the stream after `out << v`; a node prints something before its
members and something after them. (The user's types, called at variant_io.hpp 54-58.) -/
structure Printer (V S : Type) where
  pr : TyIx → V → S → S
  before : TyIx → V → S → S
  after : TyIx → V → S → S

/-- The members are printed in order. (The user's wrapped type; each member is printed by variant_io.hpp 67-79.) -/
def tPrintList {S : Type} (f : TVar V → S → Eff (TreeSt V) S) : List (TVar V) → S → Eff (TreeSt V) S
  | [], out => pure out
  | x :: xs, out => do
    let out' ← f x out
    tPrintList f xs out'

/-- `operator<<`, variant_io.hpp 67-79, with `printer`, 37-63. -/
def tPrintVar {S : Type} (P : Printer V S) : Nat → TVar V → S → Eff (TreeSt V) S
  | 0, _, _ => Eff.fail .ub
  | n + 1, x, out => do
    let c ← tContent x
    match c with
    | .leaf v => pure (P.pr x.which v out)
    | .wrap p => do
      let m ← tReadNode p
      let out' ← tPrintList (tPrintVar P n) m.2 (P.before x.which m.1 out)
      pure (P.after x.which m.1 out')
    | .dead => Eff.fail .ub

/-! ### Of variants anywhere in a tree -/

/-- `x == y`, where `x` and `y` are variables or members of nodes, and either may be a part of the other. (variant.hpp
2123-2132.) -/
def tEq (eq : TyIx → V → V → Bool) (n : Nat) (x y : TPlace) : Eff (TreeSt V) Bool := do
  let l ← x.eval
  let r ← y.eval
  let u ← l.read
  let v ← r.read
  tEqVar eq n u v

/-- `x < y` (variant.hpp 2134-2147.) -/
def tLt (lt : TyIx → V → V → Bool) (n : Nat) (x y : TPlace) : Eff (TreeSt V) Bool := do
  let l ← x.eval
  let r ← y.eval
  let u ← l.read
  let v ← r.read
  tLtVar lt n u v

/-- `hash_value(x)` (hash_variant.hpp 37-42.) -/
def tHash {H : Type} (h : TyIx → V → H) (hn : TyIx → V → List H → H) (combine : H → TyIx → H) (n : Nat) (x : TPlace) :
    Eff (TreeSt V) H := do
  let l ← x.eval
  let u ← l.read
  tHashVar h hn combine n u

/-- `out << x` (variant_io.hpp 67-79.) -/
def tPrint {S : Type} (P : Printer V S) (n : Nat) (x : TPlace) (out : S) : Eff (TreeSt V) S := do
  let l ← x.eval
  let u ← l.read
  tPrintVar P n u out

end

end BVariant
