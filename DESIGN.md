# Boost.Variant: formal model and proofs

Source under study: `/repo` (boostorg/variant, header-only C++). The sources were read as text. Nothing was compiled or run.
The model and proofs are in `lean/Verif` (Lean 4.33.0). This file gives the plan per property, the trusted base and the findings.

## 1. Shape of the model

The library is a set of templates, so there are two kinds of model.

* **Run-time model** (`Verif/Core`). A world of variant objects, element objects with identity, and a heap.
  * A variant is `which_` (an integer) plus storage. Storage is raw, or holds an element object, or holds a `backup_holder<T>` (a pointer, possibly null).
  * Each element object has an identity, a bounded type (its index in the type list) and a value from an arbitrary type `V`.
  * Element types are arbitrary: a list of traits (`has_nothrow_copy`, `is_nothrow_move_constructible`, ...) of any length, and arbitrary functions for what copy, move, assignment and swap do to values, on success and on failure.
  * Exceptions: an arbitrary oracle says for each potentially throwing operation (copy, move, assignment, swap, default construction, conversion, allocation) whether it throws. An operation whose trait says nothrow never throws. All theorems quantify over the oracle.
  * Outcomes of an operation: normal return, exception, or a fault. Faults are: undefined behaviour, failed `BOOST_ASSERT`, `std::terminate` (an exception leaving a `noexcept` function).
  * Reading a dead object, reading storage at the wrong type, destroying twice and dereferencing a null backup are faults, so "no fault" is part of every safety theorem.
  * Programs are lists of commands on any number of variables. Exceptions are caught by the program and it goes on. Commands that are not valid C++ in the current state (for instance constructing a live variable) are skipped.
* **Compile-time model**. The metafunctions are modelled as functions on lists of traits or on an inductive type of C++ type expressions: fallback search, storage layout, discriminator, visitation unrolling, `holds_element`, overload sets, `substitute`, `enable_recursive`, index sequences.

`Core/Program.lean` has programs with variables of one variant type, `Core/Mixed.lean` programs with variables of any number of types (a table of configurations). The theorems on single operations are stated for one type; `Lemmas/Frame.lean` proves for every function of the model that objects and variables it is not given do not matter, which carries them over (C52). `Core/MixedConvert.lean` adds conversions between variables of different types to these programs; the content of the source is seen as an object of the target's bounded type during the call. `Core/Structured.lean` puts branches, loops, exceptions with handlers and scopes around these statements. `Core/Multi.lean` has visitation of several variants of any types, with lvalue and rvalue arguments.

Next to the main run-time model are two smaller ones, for parts it does not contain:

* `Core/Wrapper.lean`: `recursive_wrapper` objects, their pointers and a heap.
* `Core/Tree.lean`: recursive variants as trees in a heap. A program may construct, copy, move, assign, move-assign, swap, change and destroy variables and parts of trees at any depth, with any operation failing. The functions take the depth of the stack as an argument; the theorems on statements hold for every depth that is at least the height of the trees, those on programs for every depth that is at least 2 to the length of the program (`x` can be made a part of itself by copies, so heights can double). Swapping two nodes is left to the node class by the library; here it swaps the values, which may fail, and then the lists.
* `Core/TreeMembers.lean`: assignment of these trees for classes that assign member by member; in `Core/Tree.lean` node classes copy first and then swap.
* `Core/TreeVisit.lean`: visitors that visit the members of these trees in turn, write and throw.
* `Core/TreeVisitN.lean`: the same for visitors of several variants, which may overlap.
* `Core/TreeObserve.lean`: comparison, hashing and streaming of these trees. A node class is assumed to compare, hash and print its own value and then its list of variants; the library leaves this to the class. Element comparisons, hashes and printers are arbitrary functions of the values that do not throw.

`Core/Eff.lean` has the state, exception and fault monad of these two.

`Props/RepoTests.lean` states run-time assertions of the library's own tests (`test/recursive_variant_test.cpp`, `variant_comparison_test.cpp`, `variant_swap_test.cpp`, `rvalue_test.cpp`, `variant_nonempty_check.cpp`) about the model, as a check of its faithfulness. They are examples and count towards no claim.

Property theorems are in `Verif/Props`, one file per group. Definitions needed to state them are in `Verif/Spec`. Helper lemmas are elsewhere. Concrete non-vacuity examples stand beside each theorem.

## 2. Trusted base

* Lean's kernel. Theorems depend at most on `propext`, `Classical.choice`, `Quot.sound`. No axioms are added, and there is no `sorry`, `native_decide` or `bv_decide`.
* The faithfulness of the model to the C++ text. Every definition cites file and lines, and says where it simplifies.
* C++ language facts that the model encodes by hand: overload resolution between the few visitor overloads, and between the members that C61, C65, C69, C84 and C85 are about, RAII order of locals, `noexcept` meaning terminate, lifetime rules for placement new and explicit destructor calls.
* The rules of C++ for `decltype`, `declval` and the conditional operator on operands of one type (`Meta/ResultType`), and on operands of different arithmetic types (`Meta/Arithmetic`), pointer types (`Meta/Pointers`) and classes by value (`Meta/ClassValues`).
* The rules of C++ for template argument deduction, ranking of reference bindings and partial ordering, as far as the overloads of `apply_visitor` need them (`Meta/ApplyOverload`).
* Facts on other Boost libraries that are not in the sandbox: `mpl::iter_fold_if` stops at the first element whose predicate is false and passes the *iterator* to the predicate (see finding F3), `mpl::find_if`, `static_lcm`, the traits of `boost::blank`, `reference_content`, `boost::hash_combine` (an arbitrary function here).
* Element types behave: traits are honest (a nothrow operation does not throw), destructors do not throw, element operations act only on their own operands. Bounded types are pairwise different, as `variant_fwd.hpp` requires.

Not modelled: pre-C++11 workarounds, compilers without exceptions, threads, `BOOST_VARIANT_NO_FULL_RECURSIVE_VARIANT_SUPPORT`, `any`-like conversions from convertible-to-anything types, Borland/MSVC branches.

## 3. Findings (behaviour of the code that contradicts the documentation or a property)

* **F1** Assigning from a variant in the heap-backup state to a variant with another raw `which_` copies the `backup_holder` itself: `assigner` and `move_assigner` have no `backup_holder` overload. `BOOST_ASSERT(false)` fires, or with `NDEBUG` the target claims to hold a `T` while its storage holds a null holder. Reached also by `swap` when the left side is in the backup state.
* **F2** A type with a nothrow copy but a throwing move constructor, and no fallback type: `backup_assigner` makes a heap backup, but visitation assumes such types never use one. The next visit reads a pointer as a `T`.
* **F3** The search for `boost::blank` in `find_fallback_type` compares the iterator, not the type, with `blank`. Under MPL's convention it never matches, so `blank` is not preferred.
* **F4** The fallback object is default-initialised (`new fallback_type_`), so a scalar fallback is indeterminate.
* **F5** Assigning a variant from a variant nested in its own content destroys the source before reading it in all strategies but two: the copy-to-temporary one (nothrow move, throwing copy) and the one for a left side already in a heap backup without a fallback type. An assignment of the same type in place is left to `T::operator=`, so there it depends on `T`.
* **F6** A type-changing assignment without fallback may throw an exception of the *left* type's copy constructor, and move assignment may copy. Both contradict the throws clauses in `doc/reference/variant.xml`.
* **F7** A successful assignment of the same type to a variant in the heap-backup state leaves it in the heap-backup state, contrary to `doc/design.xml`.
* **F8** `substitute` does not reach the tag in arrays, behind rvalue references, in pointers to members, in arguments of cv-qualified templates and of templates with non-type parameters (`std::array<recursive_variant_, 3>`), and in functions unless behind a non-const pointer to a function without `noexcept`. So `std::function<void(recursive_variant_)>` is left as it is.
* **F9** A failed swap of different types may lose one of the two values (basic guarantee only).
* **F10** `fallback_type_` is `fallback_type_result_::second` (variant.hpp 1148-1149), which is the MPL iterator of the chosen type, not the type. `construct_fallback` (1726-1735) therefore constructs an empty iterator object in the storage. For a trivially default constructible fallback type this only leaves the value indeterminate; for any other type there is no object, although `which()` names it. The model has a switch, `FallbackCtor`, for the code as written (`iterator`) and as intended (`element`).
* **F11** Volatile types and `get`: `strict_get<const volatile T>` compiles for an element `T` but never succeeds; `strict_get<volatile T>` on a const variant with element `volatile T` is rejected although `relaxed_get` would succeed; `polymorphic_get` misses a `const volatile` request on a volatile scalar element.
* **F12** `strict_get<T&>` on a const variant compiles but never succeeds.
* **F13** The static check of `polymorphic_strict_get` is inexact. It rejects `Base` for `variant<Derived&>`, accepts `Base` for `variant<const Derived>` (always null), and rejects `int` for a const `variant<const int>`, because the const overloads test `U`, not `const U`.
* **F14** In `make_recursive_variant<..., recursive_wrapper<T>, ...>` an alternative that is already wrapped and mentions the tag is wrapped once more. `types` then lists `recursive_wrapper<T>` instead of `T`.
* **F15** The converting constructors ask `is_constructible<recursive_wrapper<T>, A>`, which is specialised to be true only if `A` is `T`. So `variant<recursive_wrapper<T>>` cannot be constructed from something that converts to `T`, while `variant<T>` can, and whether it can depends on the other bounded types.
* **F16** If both `T` and `const T&` are bounded types, the `initialize` overload of the later one hides that of the earlier one; an ambiguity is not reported, and the content depends on the order of the list.
* **F17** Conversion from `variant<U...>` asks whether each `U` as declared, `recursive_wrapper` included, can be made into a bounded type as declared. So `variant<recursive_wrapper<T>>` does not convert to `variant<T>`, although `convert_copy_into` unwraps the content; and `variant<recursive_wrapper<variant<U>>>` cannot be constructed from a `variant<U>`.
* **F18** `convert_move_into` moves from what a reference content refers to: converting an rvalue `variant<T&>` to a `variant<T>` moves out of an object that the variant does not own.
* **F19** Assigning a `variant<U...>` never assigns to the held object directly, while assigning its content would: another operation of the element type gives the value, and content in a heap backup is replaced instead of being kept there.
* **F20** Move assignment between variants with wrapped contents of the same type swaps the pointers of the wrappers. If one variant is a part of the other (`x = std::move(get<T>(x).members[0])`) the outer one gets the right value, but its old node becomes a part of itself: a cycle that nothing owns and that is never freed. With contents of different types the left content is destroyed before the right one is read (as F5), except for a left side in a heap backup without a fallback type. If the left side is a part of the right side, of another type, the right side is copied or moved while its part is without content; if there is a fallback type and the node on the right gives its list of members away (a `std::vector`), this goes through and makes a cycle in the same way. `swap` of a variant with a part of it leaks in the same way if the types are equal (the members of the two nodes are exchanged), and does not succeed if they differ and nodes move their members one by one.
* **F21** The type deduced for a visitor without `result_type` is a fold of `true ? call : declval<rest>()`. `declval<T>()` is an rvalue of type `T&&` also where the rest returns `T` by value. So if the overload for the first bounded type returns `T&&` and another one `T`, the deduced type is `T&&`, and `result_wrapper1` returns a reference to a temporary. With the types in another order it is `T`. Similarly, `D1&, D2&, B&` deduces `B&`, and `B&, D1&, D2&` does not compile.
* **F22** Visiting an rvalue variant passes what a reference content refers to as an rvalue (`invoke_visitor::internal_visit` unwraps `reference_content` and then moves), so the visitor may move from an object that the variant does not own. The result type, however, is deduced from the overload for an lvalue, because `copy_cv_ref_t` leaves reference types alone.
* **F23** The destructor, copy construction, comparison, hashing and streaming of recursive variants recurse once per level of the tree, without a bound. For every stack there is a program of supported statements that builds a variant on that stack and overflows it in the (non-throwing) destructor: construction of a node needs less stack than its destruction. (`C58_no_stack_is_deep_enough`.)
* **F24** In the n-ary `apply_visitor` for visitors without `result_type` (multivisitors_cpp14_based.hpp 106-147) the parameter pack `TN&&... vn` is followed by another parameter. Such a pack is never deduced, so it is empty, and generic lambdas cannot visit four or more variants (`C61_four_variants`). If the fourth argument converts to `bool` the call compiles and ignores it (`C61_fourth_ignored`). For the same reason, a call with a temporary lambda and two arguments, of which the second is of a class that converts to `bool`, is ambiguous (`C61_any_arguments`, which is exact for arguments of any type).
* **F25** A temporary visitor is called as a const object, except in unary visitation without `result_type`; so a temporary `mutable` lambda can visit one variant but not two. The delayed form accepts temporaries of const type and keeps a reference to them, although its comment (apply_visitor_delayed.hpp 37-39) says that temporaries are rejected (`C61_delayed`).
* **F26** The member templates that reject comparisons with foreign types (variant.hpp 2083-2117) also reject a class derived from a variant type as right operand, and in C++20 as published (before P2468R2) even as left operand of `==` and `!=`: the reversed template, `v.operator==(d)` with `U = D`, is a better match for `d == v` than the member for variants (`C65_compiles_iff`).
* **F27** Assignment to a recursive variant without a fallback type copies the tree that it is about to destroy (`new LhsT(lhs_content)`, variant.hpp 800, with `LhsT` a `recursive_wrapper`), unless the new content has a nothrow copy or move constructor. To replace a tree by a plain value then takes time, memory and possible failures in proportion to the old tree (`C66_no_bound`).
* **F28** A class `D` derived from a variant type: if some bounded type can be constructed from `D`, the converting constructor is a better function than the copy constructor, and the call `convert_construct(operand, 1L)` in it is ambiguous: `T&` is better for the operand, but `long` of the functions for `variant<U...>` is better for `1L`. So a `D` cannot be copied into a variant of its base type, nor stored in a `variant<D, ...>` if the content of its base converts to the bounded types. Since C++20 a `D` without constructors of its own can be constructed from what its base can be constructed from, in parentheses, so that code such as test/overload_selection.cpp 110 no longer compiles; test/Jamfile.v2 switches that test off for C++20 (`C69_counterexample_aggregate`, `C69_derived_construct`).
* **F29** For Clang and a language after C++20 the operator `operator=(T&&)` is not declared (variant.hpp 2001). Assigning an rvalue of a copyable type then selects `operator=(const T&)` and copies, although the reference (doc/reference/variant.xml 427-470) promises a move; only types that cannot be copied are still moved (`C69_no_rvalue_operator`).
* **F30** With three or more variants, `unwrap` (multivisitors_cpp11_based.hpp 58-63) returns what is passed as an rvalue by value. A visitor that returns a reference to such an argument (for instance `const T& operator()(const T&, ...)`) returns a reference to a temporary, which is destroyed before `apply_visitor` returns (`C78_rvalue_dangles`). With one or two variants the same visitor returns a good reference.
* **F31** For a class with the implicitly defined `operator=` and two or more variant members, `x = get<T>(x).first` is undefined behaviour if the first member of that first member has another type (`C79_first_member_faults`): the assignment of the first member destroys the object that is being assigned, and the second member is then read from it. The library leaves assignment within a type to `T::operator=` (as F5), but for wrapped types the right operand is a part of the left one through the library's own pointer.
* **F32** A bounded type derived from `recursive_wrapper<T>` cannot be visited: `internal_visit(T&&, int)` is better in the first argument and `internal_visit(recursive_wrapper<T>&, long)` in the second, so the call is ambiguous. A `recursive_wrapper<recursive_wrapper<T>>` (as in F14) is visited as `T` while `types` lists `recursive_wrapper<T>`, so `strict_get` accepts the type that is never found and rejects the one that would be (`C84_nested_wrappers`).

Where a finding makes a property false, the model keeps the code's behaviour, the negation is proved with a concrete witness, and the strongest true version is proved as `..._partial`.

## 4. Plan per property

| Id | Model | How proved |
|----|-------|-----------|
| C01 | `Core`, programs | invariant over histories; negations for F1, F2; `_partial` for histories that avoid F1 and traits that avoid F2; full for configurations where the backup state cannot arise; with assertions on, every program ends well or stops at the assertion of an F1 statement (`Props/Asserted.lean`) |
| C02, C03 | discriminator over `Int` and over 8-bit signed integers | arithmetic, for all indices |
| C04 | unrolled `visitation_impl` over lists | induction on the number of chunks, any limit |
| C05 | `find_fallback_type` over trait lists, both readings of MPL | induction on the list; negation for the blank preference under the iterator reading |
| C06 | `make_storage` | induction on the list, lcm |
| C07-C10, C22-C24, C42, C45, C53 | `Core` operations | Hoare-style theorem per operation from any well-formed world |
| C11, C12 | `Core` assignment | case analysis over all throw points |
| C13 | object identities in `Core` | ownership invariant over histories |
| C14, C15 | exception provenance in `Core` | per operation; negation for C15 (F6) and partial |
| C16, C17 | `noexcept` as `terminate` fault | per operation |
| C18, C19 | storage state in `Core` | invariant over histories; negation for parts (F2, F7) |
| C20, C21 | `Core` swap | composition of the assignment theorems |
| C25-C27 | comparison and hash through visitation | algebraic laws lifted from elements |
| C28-C30 | cv-qualified types, visitors' overload sets | case analysis, plus `Core` for object identity |
| C52 | frame lemmas (`Lemmas/Frame`): the same run in a world with more objects and variables | one lemma per function of the model |
| C31-C34, C41, C47 | visitor wrappers on `Core` visitation | equational, induction on the number of variants |
| C35, C36 | heap model of `recursive_wrapper` | invariant over histories, refinement to a plain store |
| C37, C50 | trees in a heap with an exception oracle | induction on the tree; simulation of a store of plain trees |
| C38 | type expressions | structural induction |
| C39 | overload sets as ranked lists | induction on the list |
| C40 | `Core/Convert`: two configurations and worlds, the content of the source is lent to the destination | equality of executions with the statements for elements; `C39` for the choice; in `Core/MixedConvert` in one world with all other variables |
| C43 | `Core` observers | equality of observations under the abstraction map |
| C44 | `Core` programs against a plain store | forward simulation |
| C46, C51 | the trees of C37 | negations (F5, F20) and `_partial` for the safe strategies |
| C48 | `Core` fallback construction | negation (F4) and `_partial` |
| C54 | return types and value categories (`Meta/ResultType`, `Meta/Arithmetic`, `Meta/Pointers`, `Meta/ClassValues`) | induction on the type list and on the number of variants; least upper bounds of the arithmetic types and of the pointer types; exact conditions and negations (F21, F22) |
| C61 | overload resolution of `apply_visitor` (`Meta/ApplyOverload`) | case analysis for up to three variants, the viable overloads for any larger number; negation (F24) and `_partial` |
| C62 | counters of operations, objects and allocations (`Spec/Cost`, `Lemmas/Cost`) | a bound for every function by its structure, for all prices of the three counters; sums over programs and machine steps; each bound attained in an example |
| C63 | `Spec/Broken`; `Core/Structured` and below, any configuration | whatever is executed, a broken record is kept, visited with undefined behaviour, and never left by a statement that returns (`KeepsBroken`, `StuckBroken`, `DiesBroken`, by the structure of every function); each statement leaves the invariant or a broken variant; so by induction over the steps a program that leaves the scope of every variable kept the invariant |
| C64 | `Spec/Plain` (a program over plain values, big steps and small steps); `Core/Structured` and below, any configuration | every statement does what the plain statement does, fails as documented by an exception of the elements, or leaves a broken variable; simulation by induction over the steps and, for the big steps, over the number of steps left; uniqueness of the plain outcome without failures and moves |
| C65 | overload resolution of comparisons (`Meta/CompareOverload`) | case analysis over all operators, operand types and language versions (a finite domain, all of it) |
| C69 | overload resolution of constructors, `convert_construct` and `operator=` (`Meta/MemberOverload`), on top of `Meta/Initializer` and `Core/Convert` | case analysis over operands, with what the bounded types accept left open; negations (F28, F29) |
| C70 | `swap` (`Core/Variant`) over reached states of any variant type | from C20/C21's analysis of each stage, and programs that reach a state in which the second stage throws or the left variant is backed up |
| C71 | programs over `Core/Program` and, with control flow, `Core/Structured`, with the kind of fault at which a run stops | C60's programs, continued by the destruction of the variant they break (C63); C13, C14 and C44 for the other direction |
| C72 | all of `Core` against `Spec/Exact`, a deterministic interpreter over triples (type, value, backup mark) with counters of operations and allocations | forward simulation function by function (`Conforms`, `Lemmas/Exact`, `ExactOps`, `ExactValue`) over the invariant of C01; induction over programs; independence of the build because the interpreter does not look at it |
| C73 | all of `Core/Tree` against `Spec/ExactTree`, a deterministic interpreter over finite trees with backup marks and counters; no heap, no pointers | forward simulation function by function over the memory invariant of C37 (`Mem`, `ShowsS`, `Agree`; `Lemmas/ExactTree…`), structural induction over trees and paths, induction over programs with the bound on the depth; the traversal order, the partial moves and the blocks are all part of the simulation |
| C74 | programs with control flow (`Core/Control`: an abstract machine with a stack of frames, over any set of statements) against a big-step relation (`Spec/Control`), for the statements of `Core/Program` and of `Core/Tree` | the machine and the relation agree for any statements (`eval_iff`: induction over derivations, and over the number of steps); a lock-step simulation between two sets of statements (`Simulates`) is put together from C72, C73 and the comparisons of C08/C37; what a scope ends is dead and what a statement does not name stays dead (`ControlKeeps`), by induction over derivations |
| C75 | `Core/Variant` against `Core/Tree`, two models of the same code | by C72 and C73 both do what their interpreters say; the interpreters agree on trees without nodes (`Lemmas/Ordinary`: `Same`, statement by statement, with the local variable of `swap` renamed); induction over programs. It also is a check of the two models against each other |
| C76 | `Core/MixedConvert` and, with control flow, `Core/ControlMixed` against `Spec/ExactMixed` | a statement on one variant type runs as if the variables of the others did not exist (C58), and so does its interpreter (`XLocal`: what it does is the same beside other variables), which gives C72 for it; in a conversion the lent content is made a variable of the target's type (`World.lone`, `World.joined`) and given back; the control flow is C74's simulation again |
| C66 | assignments of recursive variants (`Core/Tree`) | the lemmas on assignment (C37) count the allocations of each strategy; a family of programs shows that there is no bound |
| C67 | all of `Core`, `FailedAssignments`, `DocumentedThrows`, `InPlaceAfterSuccess`, `ValueAfterSuccess` over `ReachedBy` | one direction from the lemmas on assignment (C09 to C19, C48), the other by programs of three or four statements for every list of types outside the condition, as for C60 |
| C68 | all of `Core`, `CanThrow` and `NeverThrows` over `ReachedBy`, the tables `CopyThrows`, `MoveThrows`, `SwapThrows`, `CopySameThrows`, `MoveSameThrows`, `ValueThrows` | upper bounds from the lemmas on assignment and swap and from C14 (only operations not declared nothrow throw); lower bounds by one program with one throwing operation for each entry of the tables (`Lemmas/CanThrow`) |
| C55 | trees in a heap (`Core/TreeObserve`) | mutual induction on trees and forests; the order as a fold of three-way comparisons, whose laws are lifted from the elements |
| C56 | trees in a heap, `tSwap` | composition of the move theorems of C50 with a local variant; algebra of `put` at places that are apart |
| C57 | programs that keep references (`Core/Reference`) | per statement: what becomes of the content object of every variant; induction over programs; objects are never reused, so an object made anew at the same address counts as another one |
| C58 | stack depth of operations on trees (`Core/Tree`, `Core/TreeObserve`) | monotonicity of all operations in the depth, by structure of the code; success implies enough depth, by induction on trees; a family of programs, one for each depth (F23) |
| C59 | `Core/Structured`: a machine with a stack of what is to be done, over `Core/MixedConvert` | invariant of all variables along the steps; the live variables are among the open scopes; a step is control or one statement; with assertions on, a step of finding F1 throws or stops, which carries over from the world of one type (`Framed`); the machine ends exactly as the rules of `Spec/StructuredRuns` (`Runs`) say, by induction on the derivation one way and on the number of steps the other |
| C60 | the same programs as C01, with the exception oracle quantified inside the statement | sufficiency from C01; necessity by symbolic execution of three or four statements in an arbitrary configuration that violates a condition |
| C49 | `holds_element_polymorphic` | case analysis; negations (F13) and `_partial` |
| C77 | `Core/Get` against lists of types (`Spec/GetExact`) | both sides of each check are reduced to what is listed; then case analysis over the qualifiers, with the lists left open |
| C78 | `Core/Multi` | from C31 and C33 |
| C79 | `Core/TreeMembers`: assignment of the trees of C37, with `T::operator=` member by member | induction on the depth, with an inner induction on the members; both over the memory invariant of C37; negation (F31); programs by induction on their length, with the numbers of members as a further invariant |
| C80 | the same types, as C37; which operations fail is quantified over | on the trees of C73 (no mark of a backup is an invariant of programs; `C73_statement` takes it to the model); the other direction by a program and a failure for each choice of types; own parts by C46, C51 and C37 |
| C81 | the visitor is the user's: any strategy of reads, writes, throws and visits of members with handlers (`VAct`); it does not assign to variants | `tVisitAt_run`: induction on the depth with an inner one on what the visitor does, over the annotated trees of C37; plain trees by the relation `VTree.Acts` |
| C82 | as C81, with any number of arguments, reads at any time, and visits of any known variants (`VActN`, `VSel`); the contents are found in order before the call; lvalue arguments (see C31 and C33 for rvalues) | `ActsN.run`: induction on what the visitor does on stores of plain trees; the objects that the visitor refers to stay where they are (`ObjsStay`), so arguments may overlap; ends by a measure that the shapes alone determine |
| C83 | as C46; a pointer is the location a place evaluates to (`TPlace.loc`) or the block of its node (`TPlace.node`), `TCmd.writes` lists what a statement touches | the lemmas on statements (`DoesAt`) now also say what stays: `TFrame` (every place not below a written one keeps location and head) and `TAfter` (what becomes of the nodes of the operands); the blocks of an annotated tree are counted at most once, which gives single ownership |
| C84 | `Meta/InternalVisit`: the overload sets of all internal visitors, and overload resolution between them for `internal_visit(lvalue, 1L)` | which templates a visitor sees through is said by a relation (`SeesThrough`); induction on the nesting of the operand's type; the overload found is computed for each shape of a type |
| C85 | `Core/Direct`: `direct_assigner`, `direct_mover`, `known_get` and what uses them, with types that have qualifiers, references and base classes instead of positions | overload resolution is computed and shown to pick the function for `T` exactly for a `T`; the operations are then shown equal, as programs on states, to those of `Core/Variant` and `Core/Observe` |
| C86 | `Core/Threads`: the statements of several threads in some order | a statement is one step (no interleaving inside a statement); exceptions and counters belong to a thread. Object identities differ between the interleaved and the single execution, so states are compared by type, value and backup; each step is shown to depend only on the variants that it names. For recursive variants (`Core/ThreadsTree`) the same on the trees of C73: addresses differ with the order, the trees do not |
| C87 | `Meta/Params`: the macros of variant_fwd.hpp 41-79, on lists of tokens | each macro is the function from its argument to what is left after rescanning; the user's identifiers are not macros; `BOOST_PP_SEQ_SIZE` counts parenthesised groups (trusted). What parameter lists and argument lists mean is in `Spec/Params` |
