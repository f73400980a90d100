/-
Model of the macros that write the template parameters of a variant: `BOOST_VARIANT_ENUM_PARAMS` and
`BOOST_VARIANT_ENUM_SHIFTED_PARAMS` (variant_fwd.hpp 41-79), as functions on lists of preprocessing tokens.

Each macro is a function from the tokens of its argument to the tokens that its expansion leaves. Identifiers of the user are taken
not to be macros themselves. The directives that read `a ## b` glue the two tokens next to `##`.
-/

namespace BVariant

/-- A preprocessing token. (The language; as far as variant_fwd.hpp 41-79 needs them.) -/
inductive PTok
  | id (s : String)
  | comma
  | dots
  | lpar
  | rpar
  deriving DecidableEq, Repr

/-- `pre ## x`: the identifier `pre` glued to the first token of `x`; `def_` says what the result expands to.
(The language; variant_fwd.hpp 48, 74, 78.) -/
def pasteFront (def_ : String → List PTok) : List PTok → List PTok
  | .id s :: r => def_ s ++ r
  | r => r

/-- `x ## suf`: the last token of `x` glued to `suf`. (The language; variant_fwd.hpp 47, 48, 73.) -/
def pasteBack (suf : String) : List PTok → List PTok
  | [] => []
  | [.id s] => [.id (s ++ suf)]
  | t :: r => t :: pasteBack suf r

/-- `BOOST_VARIANT_CLASS_OR_TYPENAME_TO_SEQ_s`: a macro if `s` is `class` or `typename`, and an identifier otherwise.
(variant_fwd.hpp 41-42.) -/
def toSeqMacro (s : String) : List PTok :=
  if s = "class" then [.id "class", .rpar, .lpar]
  else if s = "typename" then [.id "typename", .rpar, .lpar]
  else [.id ("BOOST_VARIANT_CLASS_OR_TYPENAME_TO_SEQ_" ++ s)]

/-- `BOOST_VARIANT_CLASS_OR_TYPENAME_TO_VARIADIC_s`, likewise. (variant_fwd.hpp 44-45.) -/
def toVariadicMacro (s : String) : List PTok :=
  if s = "class" then [.id "class", .dots]
  else if s = "typename" then [.id "typename", .dots]
  else [.id ("BOOST_VARIANT_CLASS_OR_TYPENAME_TO_VARIADIC_" ++ s)]

/-- `ARGS_VARIADER_1(x)`: `x ## N...`. (variant_fwd.hpp 47.) -/
def argsVariader1 (x : List PTok) : List PTok := pasteBack "N" x ++ [.dots]

/-- `ARGS_VARIADER_2(x)`: `BOOST_VARIANT_CLASS_OR_TYPENAME_TO_VARIADIC_ ## x ## N`. (variant_fwd.hpp 48.) -/
def argsVariader2 (x : List PTok) : List PTok := pasteFront toVariadicMacro (pasteBack "N" x)

/-- `BOOST_PP_SEQ_SIZE`: the number of parenthesised groups, `d` parentheses being open. (Boost.Preprocessor; used in
variant_fwd.hpp 50.) -/
def seqSize (d : Nat) : List PTok → Nat
  | [] => 0
  | .lpar :: r => (if d = 0 then 1 else 0) + seqSize (d + 1) r
  | .rpar :: r => seqSize (d - 1) r
  | _ :: r => seqSize d r

/-- `BOOST_VARIANT_MAKE_VARIADIC(sequence, x)`; sequences of other sizes have no `ARGS_VARIADER`. (variant_fwd.hpp 50-52.) -/
def makeVariadic (sequence x : List PTok) : Option (List PTok) :=
  match seqSize 0 sequence with
  | 1 => some (argsVariader1 x)
  | 2 => some (argsVariader2 x)
  | _ => none

/-- `(BOOST_VARIANT_CLASS_OR_TYPENAME_TO_SEQ_ ## x)`. (variant_fwd.hpp 74, 78.) -/
def wordSeq (x : List PTok) : List PTok := .lpar :: pasteFront toSeqMacro x ++ [.rpar]

/-- `BOOST_VARIANT_ENUM_SHIFTED_PARAMS(x)`. (variant_fwd.hpp 77-79.) -/
def enumShiftedParams (x : List PTok) : Option (List PTok) := makeVariadic (wordSeq x) x

/-- `BOOST_VARIANT_ENUM_PARAMS(x)`: `x ## 0`, a comma, and the rest. (variant_fwd.hpp 72-75.) -/
def enumParams (x : List PTok) : Option (List PTok) := (makeVariadic (wordSeq x) x).map fun r => pasteBack "0" x ++ .comma :: r

end BVariant
