/-
Programs: finite sequences of API calls on any number of variants of one type.
-/
import Verif.Core.Variant

namespace BVariant

/-- One statement of a program. `x`, `y` are variables (numbers), `k` a bounded type, `v` a value. (Calls of the functions
at variant.hpp 1259-1284, 1589-1654 and 2001-2062.) -/
inductive Cmd (V : Type)
  /-- `variant x;` -/
  | defaultConstruct (x : Nat)
  /-- `variant x(y);` -/
  | copyConstruct (x y : Nat)
  /-- `variant x(std::move(y));` -/
  | moveConstruct (x y : Nat)
  /-- `T_k t(v); variant x(t);` -/
  | constructL (x : Nat) (k : TyIx) (v : V)
  /-- `variant x(T_k(v));` -/
  | constructR (x : Nat) (k : TyIx) (v : V)
  /-- `variant x(s);` with `s` of another type, for which overload resolution selects `T_k` and
  conversion gives the value `v` -/
  | constructC (x : Nat) (k : TyIx) (v : V)
  /-- end of the life of `x` -/
  | destroy (x : Nat)
  /-- `x = y;` -/
  | copyAssign (x y : Nat)
  /-- `x = std::move(y);` -/
  | moveAssign (x y : Nat)
  /-- `T_k t(v); x = t;` -/
  | assignL (x : Nat) (k : TyIx) (v : V)
  /-- `x = T_k(v);` -/
  | assignR (x : Nat) (k : TyIx) (v : V)
  /-- `x = s;` with `s` as for `constructC` -/
  | assignC (x : Nat) (k : TyIx) (v : V)
  /-- `x = u;` with `u` a variant of another type with content of type `T_k` and value `v` -/
  | assignVL (x : Nat) (k : TyIx) (v : V)
  /-- `x = std::move(u);` with `u` as for `assignVL` -/
  | assignVR (x : Nat) (k : TyIx) (v : V)
  /-- `x.swap(y);` or `swap(x, y);` -/
  | swap (x y : Nat)
  /-- a visitor or `get` gives access to the content of `x` and the user stores a value into it -/
  | mutate (x : Nat) (v : V)
  /-- `variant x(get<T>(y));` or, if `rv`, `variant x(std::move(get<T>(y)));` with `T` the type of the content of `y`
  (a visitor gives the same reference) -/
  | constructGet (rv : Bool) (x y : Nat)
  /-- `x = get<T>(y);` or, if `rv`, `x = std::move(get<T>(y));` with `T` as for `constructGet`; `y` may be `x` -/
  | assignGet (rv : Bool) (x y : Nat)

section
variable {V : Type} (C : Cfg V)

/-- Run `f` with a local element object of the program (constructing and destroying it is the
program's business and is assumed not to fail). (The user's program.) -/
def withElem {α : Type} (k : TyIx) (v : V) (f : ObjId → M V α) : M V α := do
  let t ← newObj k v
  M.withLocal (f t) (destroyObj k t)

/-- The operand that is a reference to an object of the bounded type `k`. (`get<T_k>(y)`, get.hpp 148-201, as operand of
variant.hpp 1589-1631 or 2001-2028.) -/
def refSrc (rv : Bool) (k : TyIx) (id : ObjId) : Src V := if rv then .rref k id false else .lref k id false

/-- The library call(s) a statement stands for. The reference into the content of `y` in `constructGet` and `assignGet` is
obtained by visitation, as `get` does (get.hpp 73-384; see also `Verif.Core.Get`). -/
def Cmd.code : Cmd V → M V Unit
  | .defaultConstruct x => BVariant.defaultConstruct C (.user x)
  | .copyConstruct x y => BVariant.copyConstruct C (.user x) (.user y)
  | .moveConstruct x y => BVariant.moveConstruct C (.user x) (.user y)
  | .constructL x k v => withElem k v fun t => convertConstruct C (.user x) (.lref k t false)
  | .constructR x k v => withElem k v fun t => convertConstruct C (.user x) (.rref k t false)
  | .constructC x k v => convertConstruct C (.user x) (.conv k v)
  | .destroy x => destroyVar C (.user x)
  | .copyAssign x y => BVariant.copyAssign C (.user x) (.user y)
  | .moveAssign x y => BVariant.moveAssign C (.user x) (.user y)
  | .assignL x k v => withElem k v fun t => assignValue C (.user x) (.lref k t false)
  | .assignR x k v => withElem k v fun t => assignValue C (.user x) (.rref k t false)
  | .assignC x k v => assignValue C (.user x) (.conv k v)
  | .assignVL x k v => withElem k v fun t => assignValue C (.user x) (.lref k t true)
  | .assignVR x k v => withElem k v fun t => assignValue C (.user x) (.rref k t true)
  | .swap x y => BVariant.swap C (.user x) (.user y)
  | .mutate x v => applyVisitor C (.user x) fun ty id => M.modify (setVal ty id v)
  | .constructGet rv x y => applyVisitor C (.user y) fun k id => convertConstruct C (.user x) (refSrc rv k id)
  | .assignGet rv x y => applyVisitor C (.user y) fun k id => assignValue C (.user x) (refSrc rv k id)

/-- The variables a statement names. (Device of the model.) -/
def Cmd.names : Cmd V → List Nat
  | .defaultConstruct x => [x]
  | .copyConstruct x y | .moveConstruct x y | .constructGet _ x y | .assignGet _ x y => [x, y]
  | .constructL x _ _ | .constructR x _ _ | .constructC x _ _ => [x]
  | .destroy x | .mutate x _ => [x]
  | .copyAssign x y | .moveAssign x y | .swap x y => [x, y]
  | .assignL x _ _ | .assignR x _ _ | .assignC x _ _ | .assignVL x _ _ | .assignVR x _ _ => [x]

/-- The statement is valid C++ in the given state: constructors get a dead variable, all other operands
are alive, bounded types exist. (The language: object lifetime.) -/
def Cmd.valid (w : World V) : Cmd V → Bool
  | .defaultConstruct x => (w.vars (.user x)).isNone && decide (0 < C.n)
  | .copyConstruct x y | .moveConstruct x y | .constructGet _ x y =>
    (w.vars (.user x)).isNone && (w.vars (.user y)).isSome
  | .constructL x k _ | .constructR x k _ | .constructC x k _ =>
    (w.vars (.user x)).isNone && decide (k < C.n)
  | .destroy x | .mutate x _ => (w.vars (.user x)).isSome
  | .copyAssign x y | .moveAssign x y | .swap x y | .assignGet _ x y =>
    (w.vars (.user x)).isSome && (w.vars (.user y)).isSome
  | .assignL x k _ | .assignR x k _ | .assignC x k _ | .assignVL x k _ | .assignVR x k _ =>
    (w.vars (.user x)).isSome && decide (k < C.n)

/-- Run a program. Exceptions are caught after each statement and the program goes on. Statements that
are not valid in the current state are skipped. `none`: some statement ended in a fault. (The user's program; the library
has no such code.) -/
def run : List (Cmd V) → World V → Option (World V)
  | [], w => some w
  | c :: cs, w =>
    if c.valid C w then
      match c.code C w with
      | .ok _ w' => run cs w'
      | .exc _ w' => run cs w'
      | .fault _ => none
    else run cs w

end

end BVariant
