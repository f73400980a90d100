/-
The model against the library's own tests: the run-time assertions of some files in /repo/test, as statements about the model. These are
examples, not claims; they show that the model gives the results that the library's authors expect of the code.
-/
import Verif.Props.TreeVisit
import Verif.Core.Observe
import Verif.Core.Get
import Verif.Props.Multi
import Verif.Props.Substitute
import Verif.Props.ApplyOverload

namespace BVariant

/-! ### test/recursive_variant_test.cpp -/

/-- `make_recursive_variant<int, std::vector<recursive_variant_>>::type`, and with `std::tuple<int, recursive_variant_>` (test/recursive_variant_test.cpp 94-97 and
209-212): a fallback type `int`; a vector's move constructor takes over the list. -/
def rtTypes : TreeCfg Nat :=
  { exTree (some 0) [] true with tr := fun k => if k = 0 then tInt else tThrowing }

/-- `printer` (test/recursive_variant_test.cpp 36-90). -/
def rtPrinter (k : TyIx) (v : Nat) (rs : List String) : String :=
  if k = 0 then toString v ++ " " else "( " ++ (if v = 0 then "" else toString v ++ " ") ++ String.join rs ++ ") "

def rtPrint (cs : List (TCmd Nat)) (x : TPlace) : Option String :=
  (tRun rtTypes 4096 cs (TreeSt.init Nat)).bind fun s => resVal (tVisit (foldVisitor rtPrinter) 4096 x () s)

/-- `var1` is variable 3 (test/recursive_variant_test.cpp 99-105). -/
def rtProg1 : List (TCmd Nat) :=
  [.leaf 0 0 3, .leaf 1 0 5, .leaf 7 0 7, .node 2 1 0 [⟨0, []⟩, ⟨1, []⟩], .node 3 1 0 [⟨0, []⟩, ⟨1, []⟩, ⟨2, []⟩, ⟨7, []⟩]]

example : rtPrint rtProg1 ⟨3, []⟩ = some "( 3 5 ( 3 5 ) 7 ) " := by decide +kernel

/-- `vec1_copy` is variable 5; `var1 = vec1_copy;` (test/recursive_variant_test.cpp 111-114). -/
def rtProg2 : List (TCmd Nat) :=
  rtProg1 ++ [.node 4 1 0 [⟨0, []⟩, ⟨1, []⟩, ⟨7, []⟩], .node 5 1 0 [⟨0, []⟩, ⟨1, []⟩, ⟨4, []⟩, ⟨7, []⟩], .assign ⟨3, []⟩ ⟨5, []⟩]

example : rtPrint rtProg2 ⟨3, []⟩ = some "( 3 5 ( 3 5 7 ) 7 ) " := by decide +kernel

/-- Move construction from a copy (test/recursive_variant_test.cpp 119-126). -/
example : rtPrint (rtProg2 ++ [.copy 8 ⟨5, []⟩, .move 9 ⟨8, []⟩]) ⟨9, []⟩ = some "( 3 5 ( 3 5 7 ) 7 ) " := by decide +kernel

/-- `vec1_another_copy` is variable 6; `vec1_copy[2].swap(vec1_another_copy);` (test/recursive_variant_test.cpp 129-130). -/
def rtProg3 : List (TCmd Nat) := rtProg2 ++ [.copy 6 ⟨5, []⟩, .swap ⟨5, [2]⟩ ⟨6, []⟩ 9]

example : rtPrint rtProg3 ⟨5, []⟩ = some "( 3 5 ( 3 5 ( 3 5 7 ) 7 ) 7 ) " ∧ rtPrint rtProg3 ⟨6, []⟩ = some "( 3 5 7 ) " := by decide +kernel

/-- `vec1_copy[2].swap(vec1_copy[2]);` (test/recursive_variant_test.cpp 141). -/
example : rtPrint (rtProg3 ++ [.swap ⟨5, [2]⟩ ⟨5, [2]⟩ 9]) ⟨5, []⟩ = some "( 3 5 ( 3 5 ( 3 5 7 ) 7 ) 7 ) " := by decide +kernel

/-- `var7` is variable 0 (test/recursive_variant_test.cpp 213-220). -/
example : rtPrint [.leaf 0 0 0, .node 1 1 1 [⟨0, []⟩], .assign ⟨0, []⟩ ⟨1, []⟩, .node 2 1 2 [⟨0, []⟩], .assign ⟨0, []⟩ ⟨2, []⟩] ⟨0, []⟩ =
    some "( 2 ( 1 0 ) ) " := by decide +kernel

/-! ### test/variant_comparison_test.cpp -/

/-- `variant<int, std::string>` with `3`, `5`, `"goodbye"` and `"hello"` (test/variant_comparison_test.cpp 137-142; the strings are numbers, in their order). -/
def rtCmp : World Nat := stateAfter (exCfg [tInt, tString] []) [.constructR 1 0 3, .constructR 2 0 5, .constructC 3 1 0, .constructC 4 1 1]

def rtSee (m : M Nat Bool) : Option Bool :=
  match m rtCmp with
  | .ok b _ => some b
  | _ => none

/-- The relations of `assert_equality_comparable` and `assert_less_than_comparable` (test/variant_comparison_test.cpp 28-108) for two of the variants. -/
def rtRelations (x y : Nat) : List (Option Bool) :=
  let C := exCfg [tInt, tString] []
  let eq := elemCmp fun _ (a b : Nat) => a == b
  let lt := elemCmp fun _ (a b : Nat) => decide (a < b)
  [opEq C eq (.user x) (.user y), opNe C eq (.user x) (.user y), opLt C lt (.user x) (.user y), opGt C lt (.user x) (.user y),
   opLe C lt (.user x) (.user y), opGe C lt (.user x) (.user y)].map rtSee

example : (∀ x ∈ [1, 2, 3, 4], rtRelations x x = [some true, some false, some false, some false, some true, some true]) ∧
    (∀ p ∈ [(1, 2), (2, 3), (1, 3), (3, 4), (2, 4)],
      rtRelations p.1 p.2 = [some false, some true, some true, some false, some true, some false] ∧
      rtRelations p.2 p.1 = [some false, some true, some false, some true, some false, some true]) := by decide +kernel

/-! ### test/variant_swap_test.cpp -/

/-- `swap` of two variants with contents of different types, and back (test/variant_swap_test.cpp 19-83), for `variant<int, T*>`, for two types of vectors and for
`variant<int, double>`. -/
example : ∀ ts ∈ [[tInt, tInt], [tString, tString]],
    contentAfter (exCfg ts []) [.constructL 0 0 1, .constructL 1 1 2, .swap 0 1] 0 = some (1, 2) ∧
    contentAfter (exCfg ts []) [.constructL 0 0 1, .constructL 1 1 2, .swap 0 1] 1 = some (0, 1) ∧
    contentAfter (exCfg ts []) [.constructL 0 0 1, .constructL 1 1 2, .swap 0 1, .swap 0 1] 0 = some (0, 1) ∧
    contentAfter (exCfg ts []) [.constructL 0 0 1, .constructL 1 1 2, .swap 0 1, .swap 0 1] 1 = some (1, 2) := by decide +kernel

/-! ### test/rvalue_test.cpp -/

/-- The value of an object is how often it has been copied, times 100, and moved, on its way from the object that the program made. This is what
`move_copy_conting_class` counts (test/rvalue_test.cpp 34-56), except for other objects. -/
def rtCountOps : Ops Nat :=
  { natOps with
    copy := fun _ v => v + 100
    move := fun _ v => v + 1
    movedFrom := fun _ v => v
    assign := fun _ _ r => r + 100
    moveAssign := fun _ _ r => r + 1
    moveAssignSrc := fun _ _ r => r }

/-- `variant<int, move_copy_conting_class>` (test/rvalue_test.cpp 63). -/
def rtCount (cs : List (Cmd Nat)) (x : Nat) : Option (TyIx × Nat) := contentAfter { exCfg [tInt, tThrowing] [] with ops := rtCountOps } cs x

/-- An assignment from an rvalue moves and does not copy; one from an lvalue makes as many copies and moves at least (test/rvalue_test.cpp 70-83). -/
example : rtCount [.defaultConstruct 1, .assignR 1 1 0] 1 = some (1, 2) ∧ rtCount [.defaultConstruct 1, .assignL 1 1 0] 1 = some (1, 101) := by
  decide +kernel

/-- Move assignment from a variant with content of the other type, and of the same type: moved once, never copied; copy assignment: copied (test/rvalue_test.cpp 85-104). -/
example : rtCount [.defaultConstruct 1, .defaultConstruct 2, .assignR 1 1 0, .mutate 1 0, .moveAssign 2 1] 2 = some (1, 1) ∧
    rtCount [.defaultConstruct 1, .defaultConstruct 2, .assignR 1 1 0, .assignR 2 1 0, .mutate 1 0, .moveAssign 2 1] 2 = some (1, 1) ∧
    rtCount [.defaultConstruct 1, .defaultConstruct 2, .assignR 2 1 0, .mutate 2 0, .copyAssign 1 2] 1 = some (1, 100) := by
  decide +kernel

/-- Move construction and copy construction, and construction from an rvalue (test/rvalue_test.cpp 124-152). -/
example : rtCount [.constructR 1 1 0] 1 = some (1, 1) ∧ rtCount [.constructR 1 1 0, .mutate 1 0, .moveConstruct 5 1] 5 = some (1, 1) ∧
    rtCount [.constructR 1 1 0, .mutate 1 0, .copyConstruct 6 1] 6 = some (1, 100) := by decide +kernel

/-- A class that can only be moved (test/rvalue_test.cpp 170-196). -/
example : contentAfter (exCfg [tInt, tThrowing] []) [.defaultConstruct 0] 0 = some (0, 0) ∧
    contentAfter (exCfg [tInt, tThrowing] []) [.constructR 1 1 7] 1 = some (1, 7) ∧
    contentAfter (exCfg [tInt, tThrowing] []) [.constructR 1 1 7, .assignR 1 0 10] 1 = some (0, 10) ∧
    contentAfter (exCfg [tInt, tThrowing] []) [.defaultConstruct 0, .assignR 0 0 10, .assignR 0 1 7] 0 = some (1, 7) ∧
    contentAfter (exCfg [tThrowing, tInt] []) [.constructR 2 1 1, .assignR 2 0 7] 2 = some (0, 7) ∧
    contentAfter (exCfg [tThrowing, tInt] []) [.constructR 2 1 1, .assignR 2 0 7, .assignR 2 1 1, .assignVR 2 0 7] 2 = some (0, 7) := by
  decide +kernel

/-! ### test/variant_nonempty_check.cpp

For `nonthrowing_class3` the fallback content has no object (finding F10); the tests look at `which()` only, and pass. -/

/-- The operations numbered 0 to 7 fail as given, all later ones do. -/
def rtFails (bs : List Bool) (ts : List Traits) : Cfg Nat := { exCfg ts [] with throws := fun t => bs.getD t true }

/-- Whether the last statement has thrown, and what `which()` is then; `none` if something faulted. -/
def rtTry (C : Cfg Nat) (cs : List (Cmd Nat)) (c : Cmd Nat) (x : Nat) : Option (Bool × Option Int) :=
  (run C cs (World.init Nat)).bind fun w =>
    match c.code C w with
    | .ok _ w' => some (false, (w'.vars (.user x)).map fun v => whichOf v.which_)
    | .exc _ w' => some (true, (w'.vars (.user x)).map fun v => whichOf v.which_)
    | .fault _ => none

/-- The traits of `nonthrowing_class`, `2`, `3`, `4` and `boost::blank` (test/variant_nonempty_check.cpp 102-186). -/
def rtNonthrowing : List Traits :=
  [tThrowing, ⟨false, true, true, true, false, false⟩, ⟨true, false, false, false, false, false⟩, tMovable, tBlank]

/-- `check_1`: `variant<throwing_class, Nonthrowing> v; v = throwing_class(helper);`, and from an lvalue, with any operations of the assignment failing:
`v` holds a `throwing_class` (test/variant_nonempty_check.cpp 192-216). -/
example : ∀ ts ∈ rtNonthrowing, ∀ b c d : Bool, ∀ rv : Bool,
    (rtTry (rtFails [false, b, c, d] [tThrowing, ts]) [.defaultConstruct 0] (if rv then .assignR 0 0 5 else .assignL 0 0 5) 0).map (·.2) = some (some 0) := by
  decide +kernel

/-- `check_2`: `variant<Nonthrowing, throwing_class> v; v = throwing_class(helper);`, and from an lvalue: `v` holds a `throwing_class` if the assignment succeeds, and a
`Nonthrowing` if it throws (test/variant_nonempty_check.cpp 227-251). -/
example : ∀ ts ∈ rtNonthrowing, ∀ b c d e : Bool, ∀ rv : Bool,
    (rtTry (rtFails [false, b, c, d, e] [ts, tThrowing]) [.defaultConstruct 0] (if rv then .assignR 0 1 5 else .assignL 0 1 5) 0) ∈
      [some (false, some 1), some (true, some 0)] := by
  decide +kernel

/-- Both occur. -/
example : ∀ ts ∈ rtNonthrowing, rtTry (rtFails [false, false, false, false, false, false] [ts, tThrowing]) [.defaultConstruct 0] (.assignR 0 1 5) 0 = some (false, some 1) ∧
    rtTry (rtFails [false, true] [ts, tThrowing]) [.defaultConstruct 0] (.assignR 0 1 5) 0 = some (true, some 0) := by
  decide +kernel

/-- `check_5`: the assignment to a `variant<Nonthrowing, throwing_class>` that holds a `throwing_class`: it holds one afterwards
(test/variant_nonempty_check.cpp 345-361). -/
example : ∀ ts ∈ rtNonthrowing, ∀ b c : Bool,
    (rtTry (rtFails [false, b, c] [ts, tThrowing]) [.constructR 0 1 5] (.assignR 0 1 5) 0).map (·.2) = some (some 1) := by
  decide +kernel

/-! ### test/variant_get_test.cpp -/

/-- `int` 0, `base` 1, `derived1` 2, `derived2` 3, `std::string` 4, `recursive_structure` 5; types that no variant of the test holds are 6 and 7
(test/variant_get_test.cpp 23-56). -/
def rtClasses : Classes := { isClass := fun n => decide (1 ≤ n ∧ n ≤ 5), baseOf := fun b d => b == 1 && (d == 2 || d == 3) }

def rtVal (n : Nat) : Elem := .val ⟨n, false, false⟩

/-- `var_t`, `var_ref_t`, `var_req_t` (test/variant_get_test.cpp 46, 49 and 53-55). -/
def rtVars : List Decl :=
  [⟨[0, 1, 2, 3, 4].map rtVal, rtClasses⟩, ⟨[0, 1, 2, 3, 4].map fun n => .ref ⟨n, false, false⟩, rtClasses⟩,
   ⟨[0, 1, 2, 3, 4].map rtVal ++ [.wrapped ⟨5, false, false⟩], rtClasses⟩]

/-- `var_t_shortened`, `var_t_no_fallback` and `var_cref_t` (test/variant_get_test.cpp 47, 48 and 50). -/
def rtShort : Decl := ⟨[0, 2, 3, 4].map rtVal, rtClasses⟩
def rtNoFallback : Decl := ⟨[1, 2, 3].map rtVal, rtClasses⟩
def rtCref : Decl := ⟨[0, 1, 2, 3, 4].map fun n => .ref ⟨n, true, false⟩, rtClasses⟩

/-- Whether `f` gives an address, for a variant with content of its type `k`. -/
def rtFinds (k : Nat) (f : Cfg Nat → M Nat (Option ObjId)) : Option Bool :=
  let C := exCfg [tInt, tString, tString, tString, tString, tString] []
  match f C (stateAfter C [.constructR 0 k 7]) with
  | .ok r _ => some r.isSome
  | _ => none

/-- `TestType`, `const TestType`, `const TestType&` and `TestType&`. -/
def rtArgs (n : Nat) : List GetArg := [⟨⟨n, false, false⟩, false⟩, ⟨⟨n, true, false⟩, false⟩, ⟨⟨n, true, false⟩, true⟩, ⟨⟨n, false, false⟩, true⟩]

/-- All the calls of `check_get_on_types_impl_single_type` and `check_polymorphic_get_on_types_impl_single_type` compile, with `V` const or not
(test/variant_get_test.cpp 58-186). -/
example : ∀ D ∈ rtVars, ∀ n ∈ [0, 1, 2, 3, 4], ∀ u ∈ rtArgs n, ∀ o ∈ [Operand.nonconst, .const],
    strictGetAllowed D o u = true ∧ polymorphicStrictGetAllowed D u = true ∧ (n ≠ 1 → polymorphicVisitorCompiles D o u = true) := by decide +kernel

/-- `get`, `strict_get`, `relaxed_get` find the content if `TestType` is its type, and not otherwise (test/variant_get_test.cpp 96-132 and 151-156, as called at
188-204, 242-268 and 291-307). -/
example : ∀ D ∈ rtVars, ∀ k ∈ [0, 1, 2, 3, 4], ∀ n ∈ [0, 1, 2, 3, 4, 6, 7], ∀ u ∈ (rtArgs n).take 2, ∀ o ∈ [Operand.nonconst, .const],
    rtFinds k (fun C => relaxedGetPtr C D o u (some (.user 0))) = some (decide (k = n)) := by decide +kernel

/-- The same for `const TestType&` (test/variant_get_test.cpp 112-114), and for `TestType&` if the variant holds references (test/variant_get_test.cpp 116-123). -/
example : (∀ D ∈ rtVars, ∀ k ∈ [0, 1, 2, 3, 4], ∀ o ∈ [Operand.nonconst, .const],
      rtFinds k (fun C => relaxedGetPtr C D o ⟨⟨k, true, false⟩, true⟩ (some (.user 0))) = some true) ∧
    ∀ k ∈ [0, 1, 2, 3, 4], ∀ o ∈ [Operand.nonconst, .const],
      rtFinds k (fun C => relaxedGetPtr C (rtVars.getD 1 rtShort) o ⟨⟨k, false, false⟩, true⟩ (some (.user 0))) = some true := by decide +kernel

/-- `polymorphic_get` for the types other than `base` (test/variant_get_test.cpp 58-94, as called at 134-163). -/
example : ∀ D ∈ rtVars, ∀ k ∈ [0, 1, 2, 3, 4], ∀ n ∈ [0, 2, 3, 4, 6, 7], ∀ u ∈ (rtArgs n).take 2, ∀ o ∈ [Operand.nonconst, .const],
    rtFinds k (fun C => polymorphicRelaxedGetPtr C D o u (some (.user 0))) = some (decide (k = n)) := by decide +kernel

/-- `var_t_shortened` with a `derived2` and a `derived1`: `polymorphic_get` does not find an `int`, and finds a `base`; the calls compile
(test/variant_get_test.cpp 205-217). -/
example : ∀ o ∈ [Operand.nonconst, .const], ∀ k ∈ [2, 1],
    (∀ u ∈ (rtArgs 0).take 2, rtFinds k (fun C => polymorphicRelaxedGetPtr C rtShort o u (some (.user 0))) = some false) ∧
    (∀ u ∈ (rtArgs 1).take 3, rtFinds k (fun C => polymorphicRelaxedGetPtr C rtShort o u (some (.user 0))) = some true) ∧
    ∀ n ∈ [0, 1], ∀ u ∈ rtArgs n, polymorphicStrictGetAllowed rtShort u = true ∧ polymorphicVisitorCompiles rtShort o u = true := by decide +kernel

/-- `var_t_no_fallback`: `polymorphic_get<base>` finds all contents, and `get` the content's type (test/variant_get_test.cpp 220-240). -/
example : ∀ o ∈ [Operand.nonconst, .const], ∀ k ∈ [0, 1, 2],
    (∀ u ∈ (rtArgs 1).take 3, rtFinds k (fun C => polymorphicRelaxedGetPtr C rtNoFallback o u (some (.user 0))) = some true) ∧
    (∀ u ∈ (rtArgs (k + 1)).take 3, strictGetAllowed rtNoFallback o u = true ∧
      rtFinds k (fun C => relaxedGetPtr C rtNoFallback o u (some (.user 0))) = some true) := by decide +kernel

/-- `get_cref_test` (test/variant_get_test.cpp 271-289). -/
example : (∀ n ∈ [0, 1, 2], strictGetAllowed rtCref .nonconst ⟨⟨n, true, false⟩, false⟩ = true) ∧ strictGetAllowed rtCref .nonconst ⟨⟨0, true, false⟩, true⟩ = true ∧
    rtFinds 0 (fun C => relaxedGetPtr C rtCref .nonconst ⟨⟨0, true, false⟩, false⟩ (some (.user 0))) = some true ∧
    rtFinds 0 (fun C => relaxedGetPtr C rtCref .nonconst ⟨⟨0, true, false⟩, true⟩ (some (.user 0))) = some true ∧
    rtFinds 0 (fun C => relaxedGetPtr C rtCref .nonconst ⟨⟨1, true, false⟩, false⟩ (some (.user 0))) = some false ∧
    rtFinds 1 (fun C => relaxedGetPtr C rtCref .nonconst ⟨⟨1, true, false⟩, false⟩ (some (.user 0))) = some true ∧
    rtFinds 1 (fun C => relaxedGetPtr C rtCref .nonconst ⟨⟨2, true, false⟩, false⟩ (some (.user 0))) = some false ∧
    rtFinds 1 (fun C => relaxedGetPtr C rtCref .nonconst ⟨⟨0, true, false⟩, false⟩ (some (.user 0))) = some false ∧
    rtFinds 4 (fun C => relaxedGetPtr C rtCref .const ⟨⟨4, true, false⟩, false⟩ (some (.user 0))) = some true ∧
    rtFinds 4 (fun C => relaxedGetPtr C rtCref .const ⟨⟨0, true, false⟩, false⟩ (some (.user 0))) = some false := by decide +kernel

/-- `get_recursive_test` with a `recursive_structure` (test/variant_get_test.cpp 309-311). -/
example : ∀ o ∈ [Operand.nonconst, .const], ∀ n ∈ [0, 1, 2, 3, 4, 5], ∀ u ∈ (rtArgs n).take 2, ∀ D ∈ rtVars.drop 2,
    strictGetAllowed D o u = true ∧ rtFinds 5 (fun C => relaxedGetPtr C D o u (some (.user 0))) = some (decide (n = 5)) := by decide +kernel

/-- `check_that_does_not_exist` (test/variant_get_test.cpp 313-361). -/
example : (∀ D ∈ rtCref :: rtVars, holdsElement D ⟨⟨0, true, false⟩, false⟩ = true ∧ holdsElementPolymorphic D ⟨⟨0, true, false⟩, false⟩ = true ∧
      ∀ n ∈ [6, 7], ∀ c : Bool, holdsElement D ⟨⟨n, c, false⟩, false⟩ = false ∧ holdsElementPolymorphic D ⟨⟨n, c, false⟩, false⟩ = false) ∧
    (∀ D ∈ rtVars, holdsElement D ⟨⟨0, false, false⟩, false⟩ = true) ∧ holdsElement rtCref ⟨⟨0, false, false⟩, false⟩ = false := by decide +kernel

/-- `get_rvref_test`: the calls compile (test/variant_get_test.cpp 378-400). -/
example : strictGetAllowed ⟨[rtVal 0, rtVal 4], rtClasses⟩ .const ⟨⟨4, false, false⟩, false⟩ = true ∧
    (∀ o ∈ [Operand.nonconst, .rvalue], strictGetAllowed ⟨[rtVal 4, rtVal 0], rtClasses⟩ o ⟨⟨4, false, false⟩, false⟩ = true) := by decide +kernel

/-! ### test/variant_polymorphic_get_test.cpp -/

/-- `polymorphic_get<u>` of a `variant<int, base, derived1, derived2>` with content of type `k` and value 777, const or not: by pointer, and the value by reference;
`none` stands for an exception, which is a `bad_polymorphic_get` (test/variant_polymorphic_get_test.cpp 28-38). -/
def rtPoly (k : Nat) (o : Operand) (u : GetArg) : Option Bool × Option (Option Nat) :=
  let C := exCfg [tInt, tString, tString, tString] []
  let D : Decl := ⟨[0, 1, 2, 3].map rtVal, rtClasses⟩
  (rtFinds k fun C => polymorphicRelaxedGetPtr C D o u (some (.user 0)),
   match polymorphicRelaxedGet C D o u (.user 0) (stateAfter C [.constructR 0 k 777]) with
   | .ok id w => some ((w.objs id).map (·.2))
   | .exc e _ => if e.kind = .badPolymorphicGet then some none else none
   | .fault _ => none)

/-- `main` (test/variant_polymorphic_get_test.cpp 42-67). -/
example : (∀ u ∈ (rtArgs 1).take 2, ∀ o ∈ [Operand.nonconst, .const], rtPoly 0 o u = (some false, some none)) ∧
    (∀ k ∈ [2, 3], ∀ u ∈ (rtArgs 1).take 2, ∀ o ∈ [Operand.nonconst, .const], rtPoly k o u = (some true, some (some 777))) ∧
    (∀ u ∈ (rtArgs 0).take 2, rtPoly 0 .nonconst u = (some true, some (some 777))) := by decide +kernel

/-! ### test/hash_variant_test.cpp -/

/-- `variant<bool, int, unsigned int, char>`; the hash of an element is its value (test/hash_variant_test.cpp 30-37). -/
def rtHash (k : TyIx) (v : Nat) : Option Int :=
  let C := exCfg [tInt, tInt, tInt, tInt] []
  match hashValue C (elemHash fun _ (v : Nat) => (v : Int)) (fun seed i => seed + 31 * (i + 7)) (.user 0) (stateAfter C [.constructR 0 k v]) with
  | .ok h _ => some h
  | _ => none

/-- test/hash_variant_test.cpp 40-46. -/
example : rtHash 0 1 ≠ rtHash 0 0 ∧ rtHash 0 1 = rtHash 0 1 ∧ rtHash 1 1 ≠ rtHash 2 1 ∧ rtHash 3 1 ≠ rtHash 2 1 ∧ rtHash 3 1 ≠ rtHash 3 2 ∧
    (rtHash 0 1).isSome = true := by decide +kernel

/-! ### test/const_ref_apply_visitor.cpp -/

/-- What `lvalue_rvalue_detector` is passed, for some of four `variant<construction_logger, std::string>` made from `construction_logger`s; the value and whether it is
an rvalue (test/const_ref_apply_visitor.cpp 70-98 and 241-257). -/
def rtDetect (vs : List (Nat × PassedAs)) : Option (List (Option (TyIx × Nat) × Bool)) :=
  let C := exCfg [tThrowing, tString] []
  match applyVisitorAny (fun _ => C) rightToLeft seeAll (visitables (fun _ => 0) vs)
      (stateAfter C [.constructR 0 0 10, .constructR 1 0 20, .constructR 2 0 30, .constructR 3 0 40]) with
  | .ok a _ => some a
  | _ => none

/-- const lvalues are lvalues, rvalues are rvalues, for one, two and four variants (test/const_ref_apply_visitor.cpp 100-144). -/
example : ∀ n ∈ [1, 2, 4], ∀ c ∈ [PassedAs.mk false true, ⟨true, false⟩],
    rtDetect ((List.range n).map fun x => (x, c)) = some ((List.range n).map fun x => (some (0, 10 * x + 10), c.rvalue)) := by decide +kernel

/-- `run_mixed_tests` and `run_cpp14_mixed_tests`: two, three and four variants, passed in the ways tried there (test/const_ref_apply_visitor.cpp 259-297). -/
example : ∀ bs ∈ [[false, true], [true, false], [true, false, true], [false, true, false, true], [true, false, false], [false, true, false]],
    rtDetect (bs.zipIdx.map fun p => (p.2, ⟨p.1, false⟩)) = some (bs.zipIdx.map fun p => (some (0, 10 * p.2 + 10), p.1)) := by decide +kernel

/-- Every call of the file compiles: with a temporary `lvalue_rvalue_detector`, for one to four variants, and with a temporary lambda, for one to three. The file does
not call `apply_visitor` with a lambda and four variants, which does not compile. -/
example : (∀ n ∈ [1, 2, 3, 4], (applyChain ⟨true, false, true⟩ (List.replicate n ⟨false⟩)).isSome = true) ∧
    (∀ n ∈ [1, 2, 3], (applyChain ⟨false, false, true⟩ (List.replicate n ⟨false⟩)).isSome = true) ∧
    applyChain ⟨false, false, true⟩ (List.replicate 4 ⟨false⟩) = none := by decide +kernel

/-! ### test/variant_multivisit_test.cpp -/

/-- `variant5_t`, with content of type `k` and value `k` in the variant numbered `k`; all passed as lvalues (test/variant_multivisit_test.cpp 28 and 110-128). -/
example : let C := exCfg [tInt, tInt, tInt, tInt, tInt] []
    let w := stateAfter C ((List.range 5).map Cmd.defaultConstruct ++ (List.range 5).map fun k => .assignR k k k)
    ∀ n ∈ [3, 4, 5], ∀ order ∈ [List.range, rightToLeft],
      (match applyVisitorAny (fun _ => C) order seeAll (visitables (fun _ => 0) ((List.range n).map fun x => (x, ⟨false, false⟩))) w with
        | .ok a _ => some a
        | _ => none) = some ((List.range n).map fun k => (some (k, k), false)) := by decide +kernel

/-- `if_visitor`: 0 stands for false; the value and the type of what is returned are those of the second or third argument. -/
def rtIf (args : List Arg) : M Nat (Option (TyIx × Nat)) := fun w =>
  match args.map fun a => w.objs a.id with
  | [some (_, b), v1, v2] => .ok (if b ≠ 0 then v1 else v2) w
  | _ => .fault .ub

/-- `bool_like_t v0(1), v1(true), v2(1.0);` with `if_visitor`, directly and delayed (test/variant_multivisit_test.cpp 130-142; `double` 1.0 is the number 10). The
variants are of type `variant<int, double, bool>`. -/
example : let C := exCfg [tInt, tInt, tInt] []
    let w := stateAfter C [.constructR 0 0 1, .constructR 1 2 1, .constructR 2 1 10]
    (match applyVisitorAny (fun _ => C) rightToLeft rtIf (visitables (fun _ => 0) [(0, ⟨false, false⟩), (1, ⟨false, false⟩), (2, ⟨false, false⟩)]) w with
      | .ok a _ => a
      | _ => none) = some (2, 1) ∧
    (match applyVisitorDelayed (fun _ => C) rightToLeft rtIf [(0, .user 0, false), (0, .user 1, false), (0, .user 2, false)] w with
      | .ok a _ => a
      | _ => none) = some (2, 1) := by decide +kernel

/-- Its calls compile: with a visitor that is an lvalue or a temporary, directly for three variants, and delayed for an lvalue. -/
example : (∀ c ∈ [VisitorArg.mk true false false, ⟨true, false, true⟩], (applyChain c (List.replicate 3 ⟨false⟩)).isSome = true) ∧
    (applyDelayed ⟨true, false, false⟩ (List.replicate 3 ⟨false⟩)).isSome = true := by decide +kernel

/-! ### test/issue42.cpp -/

/-- `std::string`, `double`, `bool` are the types 1, 2, 3; `std::shared_ptr`, `std::map`, `std::vector`, `func` are the templates 1 to 4; the arguments that have
defaults are left out (test/issue42.cpp 20-61). -/
def rtNode3 : CTy := makeRecursiveVariant (CTys.ofList [cInt, cTmpl 4 [cPtr (cFn [cTag, cRef cTag, cRef (cTag ⟨true, false⟩)])],
  cPtr (cFn [cRef cTag, cTag, cPtr cTag]), cTmpl 1 [cTag]])

/-- `node3 x3 = func<node3(*)(node3&, const node3&)>();`: this is one of the types of `node3`, and the others are made in the same way
(test/issue42.cpp 52-59). -/
example : rtNode3.types = [cInt, cTmpl 4 [cPtr (cFn [rtNode3, cRef rtNode3, cRef (rtNode3.addCv ⟨true, false⟩)])],
    cPtr (cFn [cRef rtNode3, rtNode3, cPtr rtNode3]), cTmpl 1 [rtNode3]] := by decide +kernel

def rtNode2 : CTy := makeRecursiveVariant (CTys.ofList [.mk {} (.base 1) .nil, cInt, .mk {} (.base 2) .nil, .mk {} (.base 3) .nil, cTmpl 1 [cTag],
  cTmpl 2 [.mk ⟨true, false⟩ (.base 1) .nil, cTag], cTmpl 3 [cTag]])

/-- `node2` (test/issue42.cpp 40-48). -/
example : rtNode2.types = [.mk {} (.base 1) .nil, cInt, .mk {} (.base 2) .nil, .mk {} (.base 3) .nil, cTmpl 1 [rtNode2],
    cTmpl 2 [.mk ⟨true, false⟩ (.base 1) .nil, rtNode2], cTmpl 3 [rtNode2]] := by decide +kernel

end BVariant
