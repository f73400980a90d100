{"id": "C01", "title": "Never-empty guarantee", "statement": "After any sequence of constructions, assignments, swaps and destructions, including ones that fail with an exception, every live variant holds exactly one live object, that object's type is the bounded type numbered which(), 0 <= which() < number of types, and visiting the variant calls the visitor on that object.", "quantifier": "every list of bounded types (any length, any nothrow traits), every finite sequence of API calls on any number of variant objects, and every choice of which copy/move/assignment/allocation throws along the way", "why_tests_cant": "The failing call, the point where it fails and the history before it range over an unbounded set; tests try a handful of throw points on two or three types.", "anchors": ["include/boost/variant/variant.hpp: variant::variant_assign, variant::assigner, variant::move_assigner, backup_assigner", "include/boost/variant/detail/visitation_impl.hpp: visitation_impl_invoke_impl", "include/boost/variant/detail/backup_holder.hpp: backup_holder"]}
{"id": "C02", "title": "which() survives the backup marker", "statement": "For every type index w, recording that w's content is in place and recording that w's content is held in a heap backup both make which() return w; the two records are distinguishable, and neither collides with a record for any other index.", "quantifier": "all type indices of a variant with any number of bounded types", "why_tests_cant": "A test samples a few indices; a wrong negation or off-by-one would only show in the rarely reached backup state.", "anchors": ["include/boost/variant/variant.hpp: variant::indicate_which, variant::indicate_backup_which, variant::using_backup, variant::which"]}
{"id": "C03", "title": "Small discriminator never overflows", "statement": "With BOOST_VARIANT_MINIMIZE_SIZE the discriminator is a signed char whenever the number of types is below SCHAR_MAX; every index and every backup record of such a variant is stored and read back unchanged, so which() agrees with the int discriminator.", "quantifier": "all numbers of bounded types below SCHAR_MAX and all indices into them", "why_tests_cant": "It needs all list lengths up to the boundary and both signs; each length is a separate template instantiation.", "anchors": ["include/boost/variant/variant.hpp: variant::which_t, variant::indicate_which, variant::indicate_backup_which"]}
{"id": "C04", "title": "Visitation reaches exactly the contained type", "statement": "Dispatch on a variant with n types and current index w < n runs the visitor exactly once, on the w-th type, for every unrolling limit L >= 1 and every n, including n not a multiple of L; it never falls through to the unreachable branch.", "quantifier": "all type-list lengths n, all indices w < n, all unrolling limits L >= 1", "why_tests_cant": "Each (n, L) pair is a different instantiation of the unrolled switch, so tests can cover only a few of infinitely many.", "anchors": ["include/boost/variant/detail/visitation_impl.hpp: visitation_impl, visitation_impl_step, visitation_impl_invoke", "include/boost/variant/variant.hpp: variant::internal_apply_visitor"]}
{"id": "C05", "title": "Fallback type choice", "statement": "The fallback type used after a failed assignment is nothrow default constructible; one is chosen exactly when some bounded type is nothrow default constructible; boost::blank is chosen when it is bounded; otherwise the first nothrow default constructible type is chosen; the recorded index is the index of the chosen type.", "quantifier": "all type lists, any length and any combination of traits", "why_tests_cant": "Compile-time computation over arbitrary lists; each list is a separate compilation.", "anchors": ["include/boost/variant/variant.hpp: find_fallback_type, find_fallback_type_pred, variant::fallback_type_result_"]}
{"id": "C06", "title": "Storage is large enough and aligned enough", "statement": "The storage of a variant is at least as large as, and its alignment is a multiple of the alignment of, every object ever placed into it: each bounded type and, whenever a heap backup can occur, the backup pointer holder. The size is attained by one of them (no needless slack before padding).", "quantifier": "all type lists with arbitrary sizes and alignments", "why_tests_cant": "Sizes and alignments range over all naturals; a test checks the types it happens to list.", "anchors": ["include/boost/variant/variant.hpp: make_storage, add_alignment"]}
{"id": "C07", "title": "Copy construction", "statement": "variant(const variant&) of a live variant either yields a variant with the same which() whose content is the copy of the source's content, in place, leaving the source and every other variant untouched, or throws the content's copy exception, leaving no new variant, no new object and everything else untouched. It also holds when the source is in the heap-backup state.", "quantifier": "every list of bounded types (any length, any nothrow traits), every finite sequence of API calls on any number of variant objects, and every choice of which copy/move/assignment/allocation throws along the way", "why_tests_cant": "Source states include backup states only reachable through earlier failures; all throw points must be considered.", "anchors": ["include/boost/variant/variant.hpp: variant(const variant&), copy_into"]}
{"id": "C08", "title": "Move construction", "statement": "variant(variant&&) either yields a variant with the same which(), whose content is move-constructed from the source's content, the source keeping its type with a moved-from value, or throws the content's move exception with no new variant and no leaked object.", "quantifier": "every list of bounded types (any length, any nothrow traits), every finite sequence of API calls on any number of variant objects, and every choice of which copy/move/assignment/allocation throws along the way", "why_tests_cant": "As for copying: states reachable only after failures, all throw points.", "anchors": ["include/boost/variant/variant.hpp: variant(variant&&), move_into"]}
{"id": "C09", "title": "Copy assignment: success", "statement": "When x = y returns normally, which() of x equals which() of y, x's content is a copy of (or was assigned from) y's content, and y and every other variant are unchanged.", "quantifier": "every list of bounded types (any length, any nothrow traits), every finite sequence of API calls on any number of variant objects, and every choice of which copy/move/assignment/allocation throws along the way", "why_tests_cant": "There are four assignment strategies chosen by type traits and two storage states for each side; tests cover a few combinations.", "anchors": ["include/boost/variant/variant.hpp: variant::variant_assign, variant::assigner, assign_storage"]}
{"id": "C10", "title": "Move assignment: success", "statement": "When x = std::move(y) returns normally, which() of x equals which() of y as before the call, x's content has the value y's content had, y still holds a live object of its type, and every other variant is unchanged.", "quantifier": "every list of bounded types (any length, any nothrow traits), every finite sequence of API calls on any number of variant objects, and every choice of which copy/move/assignment/allocation throws along the way", "why_tests_cant": "As C09 with the move strategies.", "anchors": ["include/boost/variant/variant.hpp: variant::variant_assign(variant&&), variant::move_assigner, move_storage"]}
{"id": "C11", "title": "Failed assignment without a fallback type is rolled back", "statement": "If no bounded type is nothrow default constructible, a copy or move assignment that would change the contained type and throws leaves the target with the same which() and the same value as before.", "quantifier": "every list of bounded types (any length, any nothrow traits), every finite sequence of API calls on any number of variant objects, and every choice of which copy/move/assignment/allocation throws along the way", "why_tests_cant": "Every throw point, including failures while making the backup and failures of an assignment onto a variant that is already in the backup state.", "anchors": ["include/boost/variant/variant.hpp: backup_assigner::backup_assign_impl, variant::assigner::assign_impl"]}
{"id": "C12", "title": "Failed assignment with a fallback type", "statement": "If a fallback type exists, a type-changing assignment that throws leaves the target either exactly as before or holding a default-initialised object of the fallback type, and no heap backup is made.", "quantifier": "every list of bounded types (any length, any nothrow traits), every finite sequence of API calls on any number of variant objects, and every choice of which copy/move/assignment/allocation throws along the way", "why_tests_cant": "Every throw point and every trait combination.", "anchors": ["include/boost/variant/variant.hpp: variant::assigner::construct_fallback, variant::assigner::assign_impl, variant::move_assigner::assign_impl"]}
{"id": "C13", "title": "No leak, no double destruction, no dangling content", "statement": "At every point between API calls, the set of live content objects is exactly the set of contents of the live variants, each owned by one variant; no object is destroyed twice or used after destruction; when all variants are destroyed no object remains.", "quantifier": "every list of bounded types (any length, any nothrow traits), every finite sequence of API calls on any number of variant objects, and every choice of which copy/move/assignment/allocation throws along the way", "why_tests_cant": "It is an invariant of all histories; leak checkers see single executions.", "anchors": ["include/boost/variant/variant.hpp: destroyer, backup_assigner, variant::assigner, variant::move_assigner, variant::swap", "include/boost/variant/detail/backup_holder.hpp: ~backup_holder"]}
{"id": "C14", "title": "Failures come only from the element types", "statement": "An operation throws only if some element-type operation or allocation performed during that very operation threw, and it rethrows that exception; if none of them throws the operation returns normally.", "quantifier": "every list of bounded types (any length, any nothrow traits), every finite sequence of API calls on any number of variant objects, and every choice of which copy/move/assignment/allocation throws along the way", "why_tests_cant": "Absence of spurious failures over all histories.", "anchors": ["include/boost/variant/variant.hpp: all assigners, all constructors, variant::swap"]}
{"id": "C15", "title": "Documented throws clause of assignment", "statement": "A copy assignment that changes the contained type throws only std::bad_alloc or an exception of the copy constructor of the right-hand content's type; a move assignment only std::bad_alloc or an exception of that type's move constructor (doc/reference/variant.xml, throws clauses).", "quantifier": "every list of bounded types (any length, any nothrow traits), every finite sequence of API calls on any number of variant objects, and every choice of which copy/move/assignment/allocation throws along the way", "why_tests_cant": "It concerns which of many internal operations may leak exceptions in every configuration.", "anchors": ["include/boost/variant/variant.hpp: backup_assigner::backup_assign_impl, variant::move_assigner::assign_impl", "doc/reference/variant.xml"]}
{"id": "C16", "title": "noexcept move construction is honest", "statement": "When every bounded type is nothrow move constructible (the condition of the noexcept specification), move construction never throws, so std::terminate is never reached.", "quantifier": "every list of bounded types (any length, any nothrow traits), every finite sequence of API calls on any number of variant objects, and every choice of which copy/move/assignment/allocation throws along the way", "why_tests_cant": "noexcept violations appear only for throw points that tests do not inject.", "anchors": ["include/boost/variant/variant.hpp: variant(variant&&), is_variant_move_noexcept_constructible, variant_move_noexcept_constructible"]}
{"id": "C17", "title": "noexcept move assignment is honest", "statement": "When every bounded type is nothrow move constructible and nothrow move assignable (the condition of the noexcept specification), move assignment never throws.", "quantifier": "every list of bounded types (any length, any nothrow traits), every finite sequence of API calls on any number of variant objects, and every choice of which copy/move/assignment/allocation throws along the way", "why_tests_cant": "As C16.", "anchors": ["include/boost/variant/variant.hpp: variant::operator=(variant&&), is_variant_move_noexcept_assignable, variant::move_assigner"]}
{"id": "C18", "title": "Single-storage guarantee", "statement": "If a fallback type exists, or if every bounded type is nothrow copy constructible (doc/design.xml, enabling optimizations), or if at most one bounded type lacks a nothrow move constructor, no operation of the variant allocates backup memory that outlives it and no variant is ever in the heap-backup state.", "quantifier": "every list of bounded types (any length, any nothrow traits), every finite sequence of API calls on any number of variant objects, and every choice of which copy/move/assignment/allocation throws along the way", "why_tests_cant": "A universal claim on all histories of all such variants.", "anchors": ["include/boost/variant/variant.hpp: backup_assigner, variant::assigner", "include/boost/variant/detail/visitation_impl.hpp: visitation_impl_invoke", "doc/design.xml"]}
{"id": "C19", "title": "Successful assignment returns to in-place storage", "statement": "After any successful assignment the content is stored within the variant, not in a heap backup (doc/design.xml).", "quantifier": "every list of bounded types (any length, any nothrow traits), every finite sequence of API calls on any number of variant objects, and every choice of which copy/move/assignment/allocation throws along the way", "why_tests_cant": "The backup state must first be produced by a failure and then followed by every kind of assignment.", "anchors": ["include/boost/variant/variant.hpp: variant::variant_assign, assign_storage, direct_assigner", "doc/design.xml"]}
{"id": "C20", "title": "Swap exchanges contents", "statement": "When x.swap(y) returns normally, x holds the type and value y held and conversely, and all other variants are unchanged; swapping a variant with itself changes nothing.", "quantifier": "every list of bounded types (any length, any nothrow traits), every finite sequence of API calls on any number of variant objects, and every choice of which copy/move/assignment/allocation throws along the way", "why_tests_cant": "Combinations of storage states and strategies of three nested moves.", "anchors": ["include/boost/variant/variant.hpp: variant::swap, swap_with", "include/boost/variant/detail/move.hpp: move_swap"]}
{"id": "C21", "title": "Swap failure keeps both variants usable", "statement": "When x.swap(y) throws, both variants still hold live objects of bounded types, nothing is leaked and other variants are unchanged.", "quantifier": "every list of bounded types (any length, any nothrow traits), every finite sequence of API calls on any number of variant objects, and every choice of which copy/move/assignment/allocation throws along the way", "why_tests_cant": "Failure of each of the three nested moves in each configuration.", "anchors": ["include/boost/variant/variant.hpp: variant::swap"]}
{"id": "C22", "title": "Value assignment", "statement": "x = t with t of bounded type T: if x holds a T the held object is assigned in place (same object identity); otherwise x ends up holding the bounded type chosen by overload resolution, constructed from t.", "quantifier": "every list of bounded types (any length, any nothrow traits), every finite sequence of API calls on any number of variant objects, and every choice of which copy/move/assignment/allocation throws along the way", "why_tests_cant": "All states and throw points.", "anchors": ["include/boost/variant/variant.hpp: variant::assign, variant::move_assign, direct_assigner, direct_mover, variant::operator=(const T&)"]}
{"id": "C23", "title": "Failed conversion leaves the variant untouched", "statement": "If constructing the new content from t throws in x = t, x keeps its type, value and object identity.", "quantifier": "every list of bounded types (any length, any nothrow traits), every finite sequence of API calls on any number of variant objects, and every choice of which copy/move/assignment/allocation throws along the way", "why_tests_cant": "As C22.", "anchors": ["include/boost/variant/variant.hpp: variant::assign, variant::move_assign, variant::convert_construct"]}
{"id": "C24", "title": "Self-assignment and self-swap are safe", "statement": "x = x, x = std::move(x) and x.swap(x) keep the type of x and its object identity, construct and destroy nothing, and just run the element's own self-assignment or self-swap, also in the backup state.", "quantifier": "every list of bounded types (any length, any nothrow traits), every finite sequence of API calls on any number of variant objects, and every choice of which copy/move/assignment/allocation throws along the way", "why_tests_cant": "States reached only after failures.", "anchors": ["include/boost/variant/variant.hpp: variant::variant_assign, variant::swap"]}
{"id": "C25", "title": "operator== is an equivalence", "statement": "If each bounded type's == is reflexive/symmetric/transitive then so is the variant's; variants with different contained types are unequal; != is the negation; the result does not depend on whether contents are in place or in a backup.", "quantifier": "all type lists, all variants in any reachable state", "why_tests_cant": "Laws quantify over all pairs and triples of values and storage states.", "anchors": ["include/boost/variant/variant.hpp: variant::operator==, comparer, equal_comp, known_get"]}
{"id": "C26", "title": "operator< is a strict weak order, and the derived operators agree", "statement": "If each bounded type's < is a strict weak (total) order, so is the variant's: ordered by which() first, then by content; >, <=, >= are the usual derived operators; < and == are consistent if they are for the elements.", "quantifier": "all type lists, all variants in any reachable state", "why_tests_cant": "Laws quantify over all pairs and triples.", "anchors": ["include/boost/variant/variant.hpp: variant::operator<, variant::operator>, variant::operator<=, variant::operator>=, comparer, less_comp"]}
{"id": "C27", "title": "Equal variants have equal hashes", "statement": "If element hashing respects element equality then equal variants hash equal, for boost::hash and std::hash; the hash depends only on which() and content, not on storage state; variants with the same content hash but different which() are fed different data to hash_combine.", "quantifier": "all type lists, all variants in any reachable state, any combine function", "why_tests_cant": "All pairs of equal variants, including those in different storage states.", "anchors": ["include/boost/variant/detail/hash_variant.hpp: hash_value, variant_hasher", "include/boost/variant/detail/std_hash.hpp"]}
{"id": "C28", "title": "get finds exactly the contained type", "statement": "get<U>(&v) returns a pointer to the content exactly when the content's type is U up to the allowed added const, and null otherwise (also for a null operand); never a base-class subobject; get<U>(v) throws bad_get exactly when the pointer form returns null and otherwise refers to the same object.", "quantifier": "all type lists, all contents, all cv combinations of U and the variant", "why_tests_cant": "Depends on overload resolution for every pair of types and qualifiers.", "anchors": ["include/boost/variant/get.hpp: get_visitor, relaxed_get, strict_get, get"]}
{"id": "C29", "title": "strict_get's static check is exact", "statement": "strict_get<U> is rejected at compile time exactly for those U for which relaxed_get<U> would fail in every state of the variant.", "quantifier": "all type lists including reference types, all U with any cv qualification", "why_tests_cant": "Quantifies over all programs that compile or do not compile.", "anchors": ["include/boost/variant/detail/element_index.hpp: holds_element, variant_element_functor", "include/boost/variant/get.hpp: strict_get"]}
{"id": "C30", "title": "polymorphic_get finds base classes and respects const", "statement": "polymorphic_get<Base>(&v) is non-null exactly when the content's type is Base or derives from it and no const would be dropped; whenever get<U> succeeds polymorphic_get<U> succeeds on the same object; the reference form throws bad_polymorphic_get exactly when the pointer form is null.", "quantifier": "all class hierarchies, all type lists, all qualifiers", "why_tests_cant": "All hierarchies and qualifier combinations.", "anchors": ["include/boost/variant/polymorphic_get.hpp: get_polymorphic_visitor, polymorphic_relaxed_get, polymorphic_strict_get"]}
{"id": "C31", "title": "Binary visitation", "statement": "apply_visitor(f, v1, v2) calls f exactly once with the content of v1 first and of v2 second, each passed as an rvalue exactly when the corresponding variant argument was an rvalue, and as const exactly when it was const, and returns f's result.", "quantifier": "all pairs of variants in any reachable state, all visitors, all combinations of lvalues and rvalues, const or not", "why_tests_cant": "All n1*n2 type pairs, storage states and categories.", "anchors": ["include/boost/variant/detail/apply_visitor_binary.hpp: apply_visitor, apply_visitor_binary_unwrap, apply_visitor_binary_invoke"]}
{"id": "C32", "title": "N-ary visitation", "statement": "apply_visitor(f, v1, ..., vn) with n >= 3 calls f exactly once, with contents in argument order; lvalue arguments, const or not, are passed by reference to the contents themselves; the delayed form apply_visitor(f)(v1, ..., vn) behaves identically.", "quantifier": "every n, all variants in any reachable state, all visitors", "why_tests_cant": "n is unbounded and each n is a separate recursive instantiation.", "anchors": ["include/boost/variant/detail/multivisitors_cpp11_based.hpp: one_by_one_visitor_and_value_referer, apply_visitor", "include/boost/variant/detail/apply_visitor_delayed.hpp"]}
{"id": "C33", "title": "N-ary visitation of rvalues", "statement": "For n >= 3 every argument passed as a non-const rvalue has its content moved into a temporary that is handed to f as an rvalue, whether or not f consumes it; a const rvalue is copied into one and keeps its value; all temporaries are destroyed by the end of the call, also when something throws.", "quantifier": "every n, every choice of rvalue arguments, const or not, every throw point", "why_tests_cant": "Unbounded n and 2^n category choices.", "anchors": ["include/boost/variant/detail/multivisitors_cpp11_based.hpp: MoveableWrapper, wrap, unwrap"]}
{"id": "C34", "title": "visitor_ptr", "statement": "A visitor made from a function on T calls it with the content exactly when the content's type is T, and throws bad_visit exactly otherwise.", "quantifier": "all type lists, states and function types", "why_tests_cant": "All states and types.", "anchors": ["include/boost/variant/visitor_ptr.hpp: visitor_ptr_t, visitor_ptr", "include/boost/variant/bad_visit.hpp"]}
{"id": "C35", "title": "recursive_wrapper always owns a live object", "statement": "After any history of constructions, copies, moves, assignments, swaps and destructions with failures anywhere, every live recursive_wrapper (also a moved-from one) owns exactly one live heap object, not shared with another wrapper; nothing leaks.", "quantifier": "every history on any number of wrappers, every throw point", "why_tests_cant": "Invariant over unbounded histories.", "anchors": ["include/boost/variant/recursive_wrapper.hpp: recursive_wrapper"]}
{"id": "C36", "title": "recursive_wrapper has value semantics", "statement": "Copying a wrapper copies the content, so later changes to either are invisible in the other; move construction leaves the source with a moved-from T; move assignment and swap exchange contents without throwing or allocating.", "quantifier": "all contents, all histories", "why_tests_cant": "Independence must hold under all later operations.", "anchors": ["include/boost/variant/recursive_wrapper.hpp: recursive_wrapper(const recursive_wrapper&), recursive_wrapper(recursive_wrapper&&), operator=, swap"]}
{"id": "C37", "title": "Recursive variants deep-copy without leaks", "statement": "Copying a recursive variant tree of any shape and depth yields an equal tree sharing no node with the original; if any allocation or element copy throws, all nodes created so far are freed and the original is intact; destroying a tree frees exactly its nodes.", "quantifier": "all finite trees, all throw points", "why_tests_cant": "Unbounded depth and branching, every throw point.", "anchors": ["include/boost/variant/recursive_wrapper.hpp: recursive_wrapper", "include/boost/variant/recursive_variant.hpp: make_recursive_variant", "include/boost/variant/variant.hpp: copy_into, destroyer"]}
{"id": "C38", "title": "Recursive type substitution", "statement": "make_recursive_variant replaces recursive_variant_ by the variant type in every position reached by substitute (bare cv-qualified tag, pointers, references, template arguments, function pointer signatures), leaves types without the tag unchanged, leaves nested recursive variants alone, and wraps an alternative in recursive_wrapper exactly when substitution changed it and the result is neither a pointer nor a reference. make_variant_over<Types> has the elements of Types, in their order and unchanged, as its bounded types; inside a recursive variant it becomes make_variant_over of the sequence with the tag replaced in each element.", "quantifier": "all type expressions of any size", "why_tests_cant": "Type expressions are unbounded; each is a compilation.", "anchors": ["include/boost/variant/detail/substitute.hpp: substitute", "include/boost/variant/detail/enable_recursive.hpp: enable_recursive, quoted_enable_recursive", "include/boost/variant/recursive_variant.hpp", "include/boost/variant/variant.hpp: make_variant_over"]}
{"id": "C39", "title": "Converting construction picks the overload-resolution winner", "statement": "Constructing a variant from t makes the content the bounded type that overload resolution over the bounded types selects for t, which() is its index, and construction is ill-formed exactly when there is no unique best; a t whose type is itself a bounded type selects that type.", "quantifier": "all type lists, all source types with any conversion ranking", "why_tests_cant": "All lists and conversion graphs.", "anchors": ["include/boost/variant/detail/initializer.hpp: initializer_node, make_initializer_node", "include/boost/variant/variant.hpp: variant::convert_construct"]}
{"id": "C40", "title": "Conversion between variants", "statement": "Constructing or assigning from a variant over other types converts its content (through any backup) as if the content itself had been given; but if that variant type is itself a bounded type, it is stored whole.", "quantifier": "all pairs of type lists, all states of the source", "why_tests_cant": "All pairs of lists and states.", "anchors": ["include/boost/variant/variant.hpp: variant::convert_construct_variant, variant::convert_copy_into, variant::convert_move_into, is_variant_constructible_from"]}
{"id": "C41", "title": "Streaming", "statement": "out << v writes exactly what out << content writes, for any nesting of variants.", "quantifier": "all variants in any reachable state, any nesting depth", "why_tests_cant": "Unbounded nesting and states.", "anchors": ["include/boost/variant/detail/variant_io.hpp: operator<<, printer"]}
{"id": "C42", "title": "Object identity under assignment", "statement": "Assignment between variants that hold the same type in the same storage state, and value assignment of the held type, keep the identity of the content object (pointers obtained by get stay valid); a successful type-changing assignment destroys the old object; construction never aliases.", "quantifier": "every list of bounded types (any length, any nothrow traits), every finite sequence of API calls on any number of variant objects, and every choice of which copy/move/assignment/allocation throws along the way", "why_tests_cant": "All states and histories.", "anchors": ["include/boost/variant/variant.hpp: assign_storage, move_storage, direct_assigner"]}
{"id": "C43", "title": "The backup state is unobservable", "statement": "which(), type(), visitation, get, comparison, hashing, streaming, copy and move construction, converting construction and same-index swap give the same results on a variant whose content is in a heap backup as on one with the same content in place.", "quantifier": "all contents and all observers", "why_tests_cant": "The backup state is reached only through failures and must be compared under every observer.", "anchors": ["include/boost/variant/detail/visitation_impl.hpp: visitation_impl_invoke_impl", "include/boost/variant/variant.hpp: invoke_visitor::internal_visit(backup_holder), copy_into, move_into, convert_copy_into", "include/boost/variant/detail/backup_holder.hpp: backup_holder::get"]}
{"id": "C44", "title": "Refinement to a tagged value", "statement": "Any program over variants behaves like the same program over a plain store mapping each variable to a pair (index, value), with failed assignments leaving the target in one of the documented states.", "quantifier": "every list of bounded types (any length, any nothrow traits), every finite sequence of API calls on any number of variant objects, and every choice of which copy/move/assignment/allocation throws along the way", "why_tests_cant": "Whole-history refinement.", "anchors": ["include/boost/variant/variant.hpp: class variant"]}
{"id": "C45", "title": "Default construction", "statement": "variant() holds a value-initialised object of the first bounded type and which() is 0; if that type's default constructor throws, no variant and no object exist.", "quantifier": "all type lists, all states of other variants, all throw choices", "why_tests_cant": "All lists.", "anchors": ["include/boost/variant/variant.hpp: variant()"]}
{"id": "C46", "title": "Assignment from a part of one's own content", "statement": "Assigning to a recursive variant x from a variant stored inside x's own content gives x the value that part had.", "quantifier": "all type lists, all nesting positions, all strategies", "why_tests_cant": "Use-after-free depends on the strategy chosen by traits; tests may pass by luck.", "anchors": ["include/boost/variant/variant.hpp: variant::assigner::assign_impl, variant::move_assigner::assign_impl, backup_assigner"]}
{"id": "C47", "title": "type() and empty()", "statement": "type() always identifies the type of the content that visitation would deliver and empty() is always false.", "quantifier": "all variants in any reachable state", "why_tests_cant": "All reachable states.", "anchors": ["include/boost/variant/variant.hpp: variant::type, reflect, variant::empty"]}
{"id": "C48", "title": "Default-initialised fallback", "statement": "After a failed assignment that falls back to a type F, the content of the variant is a usable (determinate) F value, as after variant() with F first.", "quantifier": "all fallback types, including scalars", "why_tests_cant": "Indeterminate values are not reliably visible in tests.", "anchors": ["include/boost/variant/variant.hpp: variant::assigner::construct_fallback"]}
{"id": "C49", "title": "polymorphic_strict_get's static check is exact", "statement": "polymorphic_strict_get<U> is rejected at compile time exactly for those U for which polymorphic_relaxed_get<U> would fail in every state of the variant.", "quantifier": "all class hierarchies, all type lists including reference types, all U with any cv qualification", "why_tests_cant": "Tests instantiate a handful of U; a wrong static check shows only for particular qualifier and base-class combinations.", "anchors": ["include/boost/variant/polymorphic_get.hpp: polymorphic_strict_get", "include/boost/variant/detail/element_index.hpp: holds_element_polymorphic"]}
{"id": "C50", "title": "Moving recursive variants", "statement": "Move-constructing a recursive variant from a variant anywhere in a tree gives the new variant the value the source had and leaves the source a proper (moved-from) value; if an operation throws, no variant is made and the source is still a proper value. Move-assigning between variants that hold wrapped objects of the same type exchanges the objects: it allocates nothing and cannot fail. Nothing is shared and nothing leaks in any case.", "quantifier": "all finite trees, all positions of the source in a tree, classes that move their members one by one or take over the whole list, all throw points", "why_tests_cant": "Unbounded depth, every throw point in the middle of a move, every position.", "anchors": ["include/boost/variant/recursive_wrapper.hpp: recursive_wrapper(recursive_wrapper&&), operator=(recursive_wrapper&&), swap", "include/boost/variant/variant.hpp: move_into, move_storage, variant(variant&&)"]}
{"id": "C51", "title": "Move assignment from a part of one's own content", "statement": "Move-assigning to a recursive variant x from a variant stored inside x's own content gives x the value that part had, and releases the rest of x's old content.", "quantifier": "all type lists, all nesting positions, all strategies, content in place and in heap backups", "why_tests_cant": "The leak or use-after-free depends on the strategy chosen by traits and on the types being equal; a test sees the right value in x and no failure.", "anchors": ["include/boost/variant/variant.hpp: variant::move_assigner::assign_impl, variant_assign(variant&&)", "include/boost/variant/recursive_wrapper.hpp: operator=(recursive_wrapper&&), swap"]}
{"id": "C52", "title": "Variants of other types do not matter", "statement": "In a program with variants of several types, every statement on variants of one type does exactly what it would do if no variant of another type existed: it returns or throws likewise and leaves the variants of its type likewise; the variants of other types keep storage state, content and value.", "quantifier": "all tables of variant types, all assignments of types to variables, all statements, all states between statements, all throw points", "why_tests_cant": "Locality of every operation in every state is a statement about all pairs of runs, with and without the other variables.", "anchors": ["include/boost/variant/variant.hpp: class variant", "include/boost/variant/detail/backup_holder.hpp: backup_holder"]}
{"id": "C53", "title": "Construction and assignment from a reference into a variant's content", "statement": "variant x(get<T>(y)) and x = get<T>(y), copying or with std::move, use the content of y wherever y stores it: x gets the type and value y's content had, y keeps storage state, object and type (and value, unless moved from), and nothing else changes; x = get<T>(x) is the element's assignment to itself. Neither ever ends in a fault, also when y is in the heap-backup state.", "quantifier": "all configurations, all states between statements, all pairs of types, in place and in heap backups, x and y equal or different, all throw points", "why_tests_cant": "The operand of the assignment is an object that another variant (or the target itself) owns; whether it survives the replacement of the target's content depends on the strategy chosen by traits and on both storage states.", "anchors": ["include/boost/variant/variant.hpp: variant::operator=(const T&), operator=(T&&), assign, move_assign, direct_assigner, direct_mover", "include/boost/variant/get.hpp: get, relaxed_get"]}
{"id": "C54", "title": "Deduced result type of generic visitors", "statement": "For a visitor without a result_type, apply_visitor deduces a return type from the overloads for the bounded types. If all overloads have the same return type that is the deduced one, for any number of variants. The deduced type does not depend on the order of the bounded types, the overloads it is deduced from are the ones called, and what an overload returns reaches the caller without dangling.", "quantifier": "all visitors (arbitrary functions from argument category and type to return type), all lists of bounded types with wrappers, references and qualifiers, const and non-const variants passed as lvalues and rvalues, any number of variants", "why_tests_cant": "The type is computed by a fold of the conditional operator over the type list; tests instantiate it for a few visitors with equal return types.", "anchors": ["include/boost/variant/detail/apply_visitor_unary.hpp: result_multideduce1, result_wrapper1", "include/boost/variant/detail/apply_visitor_binary.hpp: apply_visitor_binary_unwrap_cpp14, apply_visitor_binary_invoke_cpp14", "include/boost/variant/detail/multivisitors_cpp14_based.hpp: one_by_one_visitor_and_value_referer_cpp14", "include/boost/variant/variant.hpp: invoke_visitor"]}
{"id": "C55", "title": "Comparing, hashing and streaming recursive variants", "statement": "For recursive variants (trees of any shape, parts of trees included) operator== is true iff the trees are equal, operator< orders them lexicographically, equal ones have equal hashes, and streaming prints each element once in order; whatever contents are in heap backups, and also between a variant and a part of itself. If the element types' operators are equivalences or strict weak orders, so are those of the variants. Nothing is modified.", "quantifier": "all trees of any height and width, all memory layouts (in place or heap backup at any depth), all places in them, all element comparisons, hashes and printers, all states reached by programs with arbitrary failures", "why_tests_cant": "Recursion over unboundedly deep data, with backups left by failed assignments at any depth; the order laws quantify over all triples of trees.", "anchors": ["include/boost/variant/variant.hpp: comparer, operator==, operator<", "include/boost/variant/detail/hash_variant.hpp: hash_value", "include/boost/variant/detail/variant_io.hpp: operator<<", "include/boost/variant/recursive_wrapper.hpp: get"]}
{"id": "C56", "title": "Swapping recursive variants", "statement": "x.swap(t), for two recursive variants anywhere in the program's trees, neither a part of the other (they may be the same), exchanges their values and changes nothing else; swapping twice restores all values. If it throws, every variant still has a proper value, those other than x and t the one they had; within a type no member has moved. Nothing is shared or leaked and the local variant is gone. Between variants of the same type it allocates nothing and no object in dynamic memory begins or ends its life. The left variant may be in a heap backup only if the types are equal (F1).", "quantifier": "all type lists and traits, all trees and places in them, contents in place or in a heap backup, every throw point, with and without a fallback type", "why_tests_cant": "Which values a failed swap leaves depends on the traits, on the step that throws and on contents being in heap backups; trees have unbounded depth.", "anchors": ["include/boost/variant/variant.hpp: variant::swap, swap_with, variant_assign(variant&&), move_assigner", "include/boost/variant/detail/move.hpp: move_swap", "include/boost/variant/recursive_wrapper.hpp"]}
{"id": "C57", "title": "Validity of references into variants", "statement": "A reference obtained from get<T>(x), or received by a visitor of x, stays good (same object, same type, still the content of x) across any statement, returning or throwing, that does not touch x, assigns to x from a variant of the same type in the same storage state, assigns a value of the held type, or swaps x with a variant of the held type; across any other statement that returns, the object is destroyed, and if the statement throws the object is destroyed or still the content of x. In no case does it become the content of another variant. A program goes wrong exactly if it comes to use a reference to a destroyed object, and such a reference never becomes good again. A program that uses references only while they are good behaves as if each use were a new get. All this includes visitors that change the variant they visit. (Outside the statements and traits of F1, F2 and F10.)", "quantifier": "all type lists and traits, all programs of statements, bindings and uses of any number of references, every throw point, all storage states", "why_tests_cant": "Whether a reference survives depends on the traits, on the storage state of both variants and on the step that throws; use of a destroyed object in the variant's own storage usually seems to work.", "anchors": ["include/boost/variant/get.hpp: get_visitor, relaxed_get, strict_get", "include/boost/variant/variant.hpp: invoke_visitor, apply_visitor, assigner, move_assigner, direct_assigner, backup_assigner, swap_with, variant_assign"]}
{"id": "C58", "title": "Stack depth of operations on recursive variants", "statement": "Let a recursive variant hold a tree of height h (a plain value has height 1). Its destructor needs a stack of depth exactly h: it succeeds on every such stack and overflows every other. Copy construction never succeeds on a stack of depth less than h, and if nothing throws it succeeds exactly from depth h on; so do hashing, streaming and the comparison of equal trees. Move construction (if nothing throws) needs exactly the depth to which nodes move their members one by one: depth 1, if all nodes take over the list of their members. swap within a type, and move assignment between two nodes of the same type in place, need no stack for the trees. On a deeper stack no statement, comparison, hash, stream or program does anything else than on a stack on which it ends. Hence no stack is deep enough for all programs: for each depth there is a program without unsupported statements and without exceptions that builds a variant on that stack and overflows it in the variant's destructor.", "quantifier": "all trees of any height, all type lists and traits, all stack depths, all states represented by trees (more stack: all states and all programs), every throw point", "why_tests_cant": "Overflow depends on the height of the tree and the size of the stack; a test can try a few heights on one platform, and cannot show that success does not depend on more stack.", "anchors": ["include/boost/variant/recursive_wrapper.hpp: ~recursive_wrapper, recursive_wrapper(const recursive_wrapper&), recursive_wrapper(recursive_wrapper&&), swap", "include/boost/variant/variant.hpp: destroyer, copy_into, move_into, swap_with, variant_assign, comparer", "include/boost/variant/detail/hash_variant.hpp: hash_value", "include/boost/variant/detail/variant_io.hpp: printer"]}
{"id": "C59", "title": "Programs with branches, loops, exceptions and scopes", "statement": "Take any program built from statements on variants of any number of variant types (constructions, assignments, swaps, stores, conversions between the types) by sequencing, branches and loops whose conditions depend on anything and may throw, throw, try with a handler, and scopes of local variants. After any number of its steps, whether or not it ever ends, it has not failed and std::terminate was not called, every live variant is non-empty, and the live objects are exactly the contents of the live variants. An exception reaches the nearest handler; on the way exactly the variants of the scopes it leaves are destroyed, and every other variant is exactly as it was. If the program uses each variant only in the scope that declares it and ends, normally or by an exception that nothing catches, then no variant and no object is alive. Every state it reaches is one that a plain sequence of statements reaches. The program ends, normally or by an exception, in a given state exactly when the usual meaning of the constructs (sequence, branch, loop, throw, try, scope), stated on its own by rules, says that it does.", "quantifier": "all programs of any size and nesting, all executions of any length (also infinite ones), all type lists and traits, every throw point", "why_tests_cant": "Programs, loops and the points at which exceptions come are unbounded; a test suite runs a few straight-line programs.", "anchors": ["include/boost/variant/variant.hpp: ~variant, destroy_content, variant_assign, convert_construct, assign, swap"]}
{"id": "C60", "title": "Exactly which variant types keep the never-empty guarantee", "statement": "For a list of bounded types and a build, the never-empty guarantee holds for every program and whatever operations throw if and only if two conditions on the types hold: (1) there is a fallback type, or no bounded type whose copy and move constructors may both throw occurs together with another bounded type whose move constructor may throw; (2) the library's fallback object is an object of the fallback type, or that type is trivially default constructible, or no content that changes a variant's type can fail to be copied or moved. The library allocates backup memory or leaves a variant in the heap-backup state in some program if and only if (1) fails. The conditions under which C01 is proved for all programs that execute no statement of finding F1 are necessary, too: outside them three statements suffice to empty a variant.", "quantifier": "all lists of bounded types of any length with any traits, all builds, all programs of any length, all exception patterns", "why_tests_cant": "The sufficient direction ranges over all programs and failures; the necessary direction over all type lists that violate a condition. Tests see a few type lists.", "anchors": ["include/boost/variant/variant.hpp: assigner, move_assigner, backup_assigner, construct_fallback, never_uses_backup_flag", "include/boost/variant/detail/visitation_impl.hpp: never_uses_backup", "doc/design.xml: never-empty guarantee"]}
{"id": "C61", "title": "Which apply_visitor a call selects", "statement": "For every visitor, however it is passed (const or not, lvalue or temporary), and every positive number of variants, a call of apply_visitor selects exactly one overload, which visits all the variants. It returns Visitor::result_type if the visitor has that member and a deduced type otherwise, and the calls that the library makes inside, with its own helper visitors, select overloads of the same family. The visitor is called as a const object only if it is const or a temporary. The delayed form accepts the same calls, for visitors that are not temporaries.", "quantifier": "visitors with and without result_type, const or not, lvalues or rvalues; any number of variants", "why_tests_cant": "Overload resolution among thirteen templates with SFINAE conditions and a parameter pack; tests instantiate it for a few numbers of variants.", "anchors": ["include/boost/variant/detail/apply_visitor_unary.hpp: apply_visitor", "include/boost/variant/detail/apply_visitor_binary.hpp: apply_visitor", "include/boost/variant/detail/apply_visitor_delayed.hpp: apply_visitor", "include/boost/variant/detail/multivisitors_cpp11_based.hpp: apply_visitor", "include/boost/variant/detail/multivisitors_cpp14_based.hpp: apply_visitor", "include/boost/variant/detail/has_result_type.hpp: has_result_type"]}
{"id": "C62", "title": "What an operation costs does not depend on the number of types", "statement": "A construction of a variant performs at most two element operations that may throw, destruction and lvalue visitation none; an assignment between variants at most three, constructing two objects and allocating once; an assignment of a value at most five, with four objects and one allocation; a swap at most seven, with five objects and two allocations. This holds whether it ends normally or throws, and each number is attained. An n-ary visitation adds at most two moves (of a const one: copies) per rvalue. So a program costs a constant per statement, whatever the number of bounded types, variables and variant types.", "quantifier": "all configurations (any number of bounded types), all statements, all states, all throw points; programs with any control flow; any number of visited variants", "why_tests_cant": "Tests measure a few type lists in a few states; the bound is over all of them, including runs cut short by exceptions.", "anchors": ["include/boost/variant/variant.hpp: backup_assigner", "include/boost/variant/variant.hpp: assigner", "include/boost/variant/variant.hpp: swap", "include/boost/variant/detail/visitation_impl.hpp: visitation_impl", "include/boost/variant/detail/multivisitors_cpp11_based.hpp: apply_visitor"]}
{"id": "C63", "title": "A breach of the never-empty guarantee is fatal", "statement": "The only ways in which a variant can lose its content are those of findings F1, F2 and F10, and each of them leaves it broken: there is no object where the library looks for one. A broken variant is never repaired: every visit of it, its destruction included, has undefined behaviour, no operation that names it returns, and everything that returns or throws leaves it as it is. So in any configuration, with assertions on or off, a program that has no undefined behaviour and destroys all its variables (as every program with scoped variables does that comes to its end) was never empty in any state between two of its steps, and leaves no object.", "quantifier": "all configurations (findings F1, F2 and F10 included), all programs with variables of any number of variant types, conversions, any control flow, all throw points", "why_tests_cant": "Tests cannot show that no later operation repairs a lost content, and that every program without undefined behaviour was never empty is a statement about all of them.", "anchors": ["include/boost/variant/variant.hpp: backup_assigner", "include/boost/variant/variant.hpp: assigner", "include/boost/variant/variant.hpp: destroy_content", "include/boost/variant/variant.hpp: swap", "include/boost/variant/detail/backup_holder.hpp: backup_holder", "include/boost/variant/detail/visitation_impl.hpp: visitation_impl_invoke"]}
{"id": "C64", "title": "Without undefined behaviour, variants are plain values", "statement": "In any configuration, with assertions on or off and whatever throws, a program over variants behaves like the same program over plain values, pairs of an index and a value in one variable each: every state that it reaches is one that the plain program can reach by as many steps, with the same contents of all variables, or a variable is broken, after which the program cannot come to the end of the scope of that variable without undefined behaviour. So every program with scoped variables that comes to its end comes to an end of the plain program. A statement of the plain program fails only if an operation of the elements throws, and then leaves one of the documented states. If no operation of the elements throws, no program has undefined behaviour, and the outcome does not depend on the traits of the elements, on fallback types, on assertions or on the unrolling of the dispatch.", "quantifier": "all configurations (findings F1, F2 and F10 included), all programs with variables of any number of variant types, conversions, branches, loops, handlers and scopes, all throw points, any number of steps", "why_tests_cant": "The claim compares all executions of all programs in all configurations with their executions over plain values; tests compare single executions.", "anchors": ["include/boost/variant/variant.hpp: variant_assign", "include/boost/variant/variant.hpp: backup_assigner", "include/boost/variant/variant.hpp: convert_construct_variant", "include/boost/variant/variant.hpp: swap_with", "include/boost/variant/variant.hpp: destroy_content"]}
{"id": "C65", "title": "Comparisons with foreign types are rejected", "statement": "Comparing two variants of one type calls the member for variants of that operator. No comparison converts its right operand: if that is of any other type, one that converts to the variant, one derived from it or a volatile one included, the expression does not compile. The left operand may also be of a class derived from the variant type; but in C++20 as published, not for == and != (finding F26). Whatever compiles calls the member of that very operator with the operands in their order.", "quantifier": "all six operators, all pairs of operand types, three versions of the language", "why_tests_cant": "Code that must not compile is not in a test suite, and the claim is about all types of operands.", "anchors": ["include/boost/variant/variant.hpp: operator==(const U&)", "include/boost/variant/variant.hpp: operator==(const variant&)"]}
{"id": "C66", "title": "What assignments between recursive variants cost", "statement": "A copy assignment between recursive variants of different types that succeeds makes one allocation for each node of the right side. It makes more iff the content of the left side has to be kept in a heap backup: the right type has neither a nothrow copy nor a nothrow move constructor, there is no fallback type, and the left content is in place and cannot be moved without exceptions. Then there is also one allocation for each node of the left side and one for the backup. A move assignment that moves makes one allocation for each node that moving constructs; one that does not move costs what the copy assignment costs. So, without a fallback type, assigning a plain value can take any number of allocations (finding F27).", "quantifier": "all configurations, all program states, all trees in them, all pairs of places neither of which is a part of the other", "why_tests_cant": "The claim counts the allocations for trees of any size; tests check values only.", "anchors": ["include/boost/variant/variant.hpp: assigner::assign_impl", "include/boost/variant/variant.hpp: move_assigner::assign_impl", "include/boost/variant/variant.hpp: backup_assigner::backup_assign_impl", "include/boost/variant/recursive_wrapper.hpp: recursive_wrapper(const recursive_wrapper&)"]}
{"id": "C67", "title": "Exactly which variant types keep each guarantee of assignment", "statement": "For a list of bounded types and a build, each of these holds for every program and whatever operations throw if and only if a condition on the types holds. (1) A failed assignment that would change the type of its target leaves the target with its type and value: wherever a bounded type whose copy and move constructors may both throw occurs with another one, there is no fallback type and the other one is not nothrow copy but not nothrow move constructible. (2) With a fallback type, such an assignment leaves the target as it was or holding a default-initialised fallback object: outside finding F10. (3) The same with the value that variant() would give: also outside finding F4. (4) Only the documented exceptions are thrown: a fallback type, one bounded type only, or every bounded type nothrow copy or nothrow move constructible. (5) After a successful assignment the content is in the variant's own storage: no assignment can make a heap backup. (6) A successful assignment between variants gives the target the value of the source: the same, or assertions are on. (4) to (6) are for types outside findings F2 and F10; without assertions, the programs execute no statement of finding F1 before the assignment.", "quantifier": "all lists of bounded types of any length and all traits, with assertions on and off, all programs, all choices of the operations that throw, all statements that assign", "why_tests_cant": "The conditions are exact: one direction quantifies over all programs and all throwing operations, the other constructs a program for every list of types outside the condition.", "anchors": ["include/boost/variant/variant.hpp: assigner::assign_impl, move_assigner::assign_impl, backup_assigner, construct_fallback", "doc/reference/variant.xml"]}
{"id": "C68", "title": "Exactly what each operation of each variant type can throw", "statement": "For two different bounded types and an operation on a variant that holds the first and one that holds the second, the kinds of exceptions that some program and some choice of throwing operations let out of the operation are exactly these. Copy assignment: the copy constructor of the new content, unless it is nothrow; and, if the new content is neither nothrow copy nor nothrow move constructible, there is no fallback type and the old content is not nothrow move constructible, the copy constructor of the old content and bad_alloc. Move assignment: with a fallback type, the move constructor of the new content if both its copy and move constructors may throw; without, its copy constructor under the same condition, and then what copy assignment adds. swap: the move constructor of what the argument holds, unless nothrow; with a fallback type, the move constructor of what the object holds if that may fail to be copied and to be moved; without, the copy constructor of each content that may fail to be copied and to be moved, and bad_alloc if both may. Between variants that hold the same type: copy assignment, that type's copy assignment; move assignment, its move assignment unless nothrow; and, for both, its copy constructor if it is neither nothrow copy nor nothrow move constructible, there is no fallback type and another bounded type is like it; swap, that type's swap. Assignment of a value: an lvalue of the held type, that type's copy assignment; an rvalue, its move assignment unless nothrow; any other operand, what constructing a temporary from it throws and what move assignment from the temporary throws. The exception specifications of the default and the move constructor are exact. Move assignment never throws iff every bounded type is nothrow move assignable and, unless there is only one, nothrow move or nothrow copy constructible; its declared exception specification is narrower.", "quantifier": "all lists of bounded types outside findings F2 and F10 and all traits, with assertions on and off, all pairs of types, all forms of the assigned value, all programs, all choices of the operations that throw, all kinds of exceptions", "why_tests_cant": "One direction excludes an exception for all programs and all throwing operations; the other constructs a program and a throwing operation for every list of types and every kind in the table.", "anchors": ["include/boost/variant/variant.hpp: assigner::assign_impl, move_assigner::assign_impl, backup_assigner::backup_assign_impl, variant::swap, move constructor and move assignment"]}
{"id": "C69", "title": "Which constructor and which assignment operator a call selects", "statement": "For variant x(operand) and x = operand: (1) an operand of the variant type is copied, or moved if it is an rvalue and not const, whatever the bounded types can be constructed from. (2) So is an operand of a class derived from the variant type, unless some bounded type can be constructed from it; then the statement does not compile (finding F28). (3) An operand that has nothing to do with variants goes to initialize as it is if some bounded type can be constructed from it so (in assignment only rvalues), else as a const lvalue if some bounded type can be constructed from that, else through its conversion function; the result is exactly what C39 is about. (4) A variant of another type is converted exactly if each of its bounded types can be made into a bounded type of the target, and moved from exactly if it is a non-const rvalue. (5) An operand of a class derived from another variant type is never converted as a variant, and does not compile if both a bounded type can be constructed from it and its base class converts. (6) No lvalue and no const object is ever moved from; every non-const rvalue that the constructors take is. With Clang after C++20, where one operator is missing, assignment copies rvalues (finding F29).", "quantifier": "all bounded types and all traits, all operand types, const or volatile or not, lvalues and rvalues, with and without the assignment operator for rvalues", "why_tests_cant": "The test for these cases (overload_selection.cpp) tries a few classes and is switched off for C++20; the theorems give the result for every combination of what the bounded types accept.", "anchors": ["include/boost/variant/variant.hpp: constructors 1589-1654, convert_construct 1431-1585, operator= 2001-2044", "test/overload_selection.cpp", "test/Jamfile.v2"]}
{"id": "C70", "title": "Exactly which variant types keep each guarantee of swap", "statement": "For a variant type outside findings F2 and F10: (1) whatever throws, in every state that a program reaches, a swap of two variants that returns has exchanged their types and values, if and only if assertions are on or no assignment of the type can make a heap backup. (2) Whatever throws, in every state that a program reaches, a swap of two variants with different types that throws leaves both their type and value, if and only if every bounded type (of at least two) can be copied or moved without throwing.", "quantifier": "all variant types, all programs and reached states, all pairs of variants, all ways in which operations throw; for (2) all element operations for which a failed move leaves its source and some value is changed by a move", "why_tests_cant": "The equivalences speak of all variant types, all throw points and all reached states; a test can show that one type keeps or breaks a guarantee for one throw point.", "anchors": ["include/boost/variant/variant.hpp: swap 2046-2061, operator= 2037-2044", "doc/reference/variant.xml 281-306"]}
{"id": "C71", "title": "Exactly which variant types are memory-safe, free of leaks and behave as tagged values", "statement": "For a list of bounded types and a build the following are equivalent to conditions (1) and (2) of C60: whatever operations throw, no program has undefined behaviour, fails an assertion of the library or ends in std::terminate; whatever throws, every program runs to its end and then the live objects are exactly the contents of the live variants, none shared; whatever throws, the variables of every program evolve as a plain store of pairs (type, value) in which the same statements fail. With assertions on, no program has undefined behaviour or terminates (it may stop at a failed assertion) if and only if the types are outside findings F2 and F10. The same holds of programs with branches, loops, exceptions, scopes and conversions between variables of several variant types, with the conditions required of each of the types.", "quantifier": "all lists of bounded types of any length with any traits, all builds, all programs of any length, with and without control flow, all exception patterns", "why_tests_cant": "One direction ranges over all programs and failures, the other over all type lists that violate a condition, of which tests see a few.", "anchors": ["include/boost/variant/variant.hpp: assigner, move_assigner, backup_assigner, construct_fallback, destroy_content", "include/boost/variant/detail/visitation_impl.hpp: never_uses_backup", "doc/design.xml: never-empty guarantee"]}
{"id": "C72", "title": "Exactly what each statement does, throws and costs", "statement": "Let the variant type be outside findings F2, F3 and F10 (conditions of C60). Every valid statement that is not one of finding F1 does exactly what a reference interpreter over triples (type, value, in a heap backup or not) does: it ends in the same way, throws the same exception at the same operation of the elements, leaves the same type, value and backup mark in every variable, and makes the same number of operations of the elements and of allocations. The interpreter knows no objects, addresses, storage, discriminators or visitors, and assumes nothing of what copies, moves and failed operations do to values. Hence every program does statement by statement what the interpreter says, or meets finding F1 exactly where the interpreter predicts it; and it behaves in the same way whatever BOOST_VARIANT_VISITATION_UNROLLING_LIMIT is, with or without NDEBUG, and however the fallback object is initialised.", "quantifier": "all lists of bounded types of any length with any traits outside the findings, all operations of the elements, all exception patterns, all reached states, all statements, all programs of any length", "why_tests_cant": "The outcome depends on traits of both types, on which operation throws and on the history (backup or not); equality of all outcomes with an independent description needs a proof over all of them.", "anchors": ["include/boost/variant/variant.hpp: variant constructors, assign, move_assign, assigner, move_assigner, backup_assigner, swap, direct_assigner, direct_mover", "include/boost/variant/detail/visitation_impl.hpp", "include/boost/variant/detail/forced_return.hpp"]}
{"id": "C73", "title": "Exactly what each statement on recursive variants does, throws and costs", "statement": "Every valid statement on recursive variants (construction of leaves and nodes, copies, moves, assignments, move assignments and swaps between any places, at any depth, also of parts of one tree; stores; destruction), unless it is one of findings F1, F5 and F20 or a swap of a variant with a part of it, does exactly what a reference interpreter over finite trees with backup marks does: it ends in the same way, throws the same exception at the same operation of the elements, leaves every variable as the same tree with the same marks, in blocks of its own and with no other memory allocated, and makes the same number of operations of the elements and of allocations. This includes what is left after a failure half way: which members of a node are moved from, which content is in a new backup. The interpreter knows no heap and no pointers and assumes nothing of what copies, moves and failed operations do to values. Hence every program does statement by statement what the interpreter says, or meets one of those findings exactly where the interpreter predicts it; and it does not depend on the depth of the stack, given enough of it.", "quantifier": "all recursive variant types (any types at nodes and leaves, any traits, with or without a fallback type that is not recursive), all operations of the elements, all exception and allocation-failure patterns, all reached heaps and trees of any depth and width, all statements and programs of any length", "why_tests_cant": "The outcome depends on the shapes of the trees, on the paths of both places, on which of unboundedly many operations throws and on the marks left by earlier failures; and that no block is shared or lost is a statement about the whole heap.", "anchors": ["include/boost/variant/recursive_wrapper.hpp: recursive_wrapper", "include/boost/variant/detail/move.hpp", "include/boost/variant/variant.hpp: assigner, move_assigner, backup_assigner, assign_storage, move_storage, swap_with, variant_swap, direct_mover"]}
{"id": "C74", "title": "Programs with branches, loops, handlers and local variants do exactly what they mean", "statement": "Take any program built from statements on variants, sequences, branches, loops, throws, handlers (try/catch) and scopes with local variants, where conditions compare variants, look at their types, or are decided (or thrown from) by the rest of the user's program. Its meaning is defined without a machine: a relation that says in what state and with what exception a program ends, over the contents (type, value, backup mark) of C72, or over the trees of C73. For variants and for recursive variants: after any number of steps the program is in a good state or has ended as its meaning says, unless it has come to a statement of the findings that C72 and C73 except; if it has a meaning then it ends, with that exception, those contents, that many operations and allocations; meanings are unique; and if every variable is declared in a scope around the statements that begin it, no variable, no element object and no block of the heap is left after it, however it ended. Where no heap backup can be made there is no condition on the program.", "quantifier": "all programs of any size and nesting, finite or endless runs of any length, all decisions of the user's program, all exception patterns, all element operations, comparisons and orders, all lists of bounded types outside the findings F2, F3, F10, all recursive variant types whose fallback type is not recursive", "why_tests_cant": "Programs, their inputs, the exceptions and the number of rounds of their loops are unbounded; a leak on one path of unwinding is not seen by tests that do not take it.", "anchors": ["include/boost/variant/variant.hpp: variant constructors, ~variant, assign, move_assign, swap, which, operator==, operator<", "include/boost/variant/recursive_wrapper.hpp: recursive_wrapper"]}
{"id": "C75", "title": "Recursive types that are not used make no difference", "statement": "Take a variant type with recursive types (recursive_wrapper) among its bounded types, and a program of constructions, copies, moves, assignments, move assignments, swaps, stores and destructions that makes no content of a recursive type. It does exactly what it does on a variant type with the same list of traits in which no type is known to be recursive: it comes to a statement of finding F1 in both or in neither; otherwise each statement throws the same exception at the same operation of the elements or none, every variable has the same type and value and is in a heap backup or not alike, and there are as many operations of the elements and as many allocations. (The two sides are two separate models of the library: storage with discriminators, element objects and visitation; and trees in a heap.)", "quantifier": "all lists of bounded types with any set of recursive types among them, outside findings F2, F3 and F10; all element operations; all exception and allocation-failure patterns; all programs of any length on any number of variables", "why_tests_cant": "Equality of all outcomes for all failure patterns and programs; the paths through backup_holder with and without recursive types are chosen by traits at compile time.", "anchors": ["include/boost/variant/variant.hpp: assigner, move_assigner, backup_assigner, swap_with, direct_assigner, direct_mover", "include/boost/variant/recursive_wrapper_fwd.hpp: is_nothrow_move_constructible<recursive_wrapper<T>>"]}
{"id": "C76", "title": "Exactly what programs with several variant types and conversions between them do", "statement": "Take variables of any number of variant types, and statements on them: all those of C72, and constructions and assignments of a variant from a variant of another type (as an lvalue, a const lvalue or an rvalue), which take the content as it is where a bounded type of the target has that type and convert it otherwise. Every valid statement, unless finding F1 concerns it, does exactly what an interpreter over (type, value, backup mark) does: the same end, the same exception at the same operation of the elements, the same contents, the same numbers of operations and of allocations. This includes what is left in the source after a conversion from an rvalue, also of a source in a heap backup, and after one that failed. Hence every program does so statement by statement, or meets F1 exactly where the interpreter predicts it. The same holds with branches, loops, throws, handlers and local variables around the statements, where conditions compare variants of the same type: after any number of steps the program is in a good state or has ended exactly as its meaning says; what it means it does; and if all variables are declared in scopes, no variable and no element object is left however it ended.", "quantifier": "all tables of variant types (any number, any lists of bounded types outside F2, F3, F10) and all declarations of variables; all value conversions and what they leave behind; all exception and allocation-failure patterns; all programs of any length and nesting, all inputs", "why_tests_cant": "Pairs of variant types, overload choices per held type, failure patterns and programs are unbounded; what is left in a half moved source is not looked at by tests.", "anchors": ["include/boost/variant/variant.hpp: convert_copy_into, convert_move_into, convert_construct_variant, variant(const variant<U...>&), operator=(const T&), operator=(T&&)", "include/boost/variant/variant.hpp: assigner, move_assigner, backup_assigner, operator==, operator<"]}
{"id": "C77", "title": "Exactly for which requests the static checks of get are right", "statement": "Which requests get<U> can ever satisfy is decided by the bounded types as listed, for all qualifiers of U and of the bounded types, references and operands. strict_get<U> compiles exactly if it can succeed in some state (a reference requested from an rvalue is rejected on purpose), except for two kinds of requests that compile in vain (const volatile T where only T is listed; T& from a const variant that lists no reference to T) and one kind that is rejected although it could succeed (const volatile T where only volatile T is listed). Without volatile types, polymorphic_strict_get<U> compiles exactly if it can succeed, except for one kind that compiles in vain (all candidates are seen as const, U is not) and one that is rejected although it could succeed (all candidates are references to derived classes, or differ from U by a const that the variant would allow). With volatile types, polymorphic_get<U> fails to compile exactly if it would bind a volatile object of class U or a class derived from it to a non-volatile reference; otherwise it finds the content exactly if the type is derived and no const is dropped, or (not a class) is the type asked for or the type without qualifiers; and get<U> finds what polymorphic_get<U> does not exactly for volatile T asked for as const volatile T, T not a class.", "quantifier": "all lists of bounded types (values, recursive_wrapper, references; any const and volatile), all class hierarchies, all U, const and non-const lvalue and rvalue variants, all states", "why_tests_cant": "Static checks reject code, so tests of rejected code do not compile; the combinations of qualifiers, references, hierarchies and lists are unbounded.", "anchors": ["include/boost/variant/get.hpp: get_visitor, relaxed_get, strict_get", "include/boost/variant/polymorphic_get.hpp: get_polymorphic_visitor, polymorphic_strict_get, holds_element_polymorphic", "include/boost/variant/detail/element_index.hpp: holds_element"]}
{"id": "C78", "title": "References returned by visitors", "statement": "A visitor that returns a reference to one of its arguments gives the caller of apply_visitor a reference to the content of the corresponding variant itself, if there are one or two variants (lvalues or rvalues, const or not), or if there are more and that variant is passed as an lvalue, whatever the categories of the others. If there are three or more variants and that variant is passed as an rvalue, the reference always refers to an object that no longer exists when apply_visitor returns.", "quantifier": "all numbers of variants of any types and states, all categories, all orders of evaluation of the arguments, all visitor code that returns the argument when it returns", "why_tests_cant": "A dangling reference to a destroyed temporary usually still reads the old value, so a test passes.", "anchors": ["include/boost/variant/detail/multivisitors_cpp11_based.hpp: unwrap, one_by_one_visitor_and_value_referer, do_call", "include/boost/variant/detail/multivisitors_cpp14_based.hpp: do_call", "include/boost/variant/detail/apply_visitor_binary.hpp"]}
{"id": "C79", "title": "Assignment of recursive variants whose classes assign member by member", "statement": "Let the wrapped classes of a recursive variant have the implicitly defined operator=, which assigns a value and then each variant member with the variant's own operator=. Assigning one variant to another, where neither is a part of the other or both are the same, has no undefined behaviour; if it succeeds the left side has the value of the right side and nothing else has changed. If it throws, the exception comes from an operation of the user's types and the left side is assigned up to some member, at which the assignment has failed, and is as before from there on; it is still a value, and nothing leaks. If both sides have the same types everywhere and no backup is involved, nothing is allocated or freed. Self-assignment changes no value. Assigning to a variant its own first member is in general undefined behaviour. The same holds along whole programs that mix such assignments with construction, copies, moves, swaps, changes and destruction, with any of them failing: as long as each assignment is of this kind the program has no undefined behaviour, the variants have the values of plain trees, and once all are destroyed all memory is freed.", "quantifier": "all trees of any depth and number of members, all positions of the two sides, any mix of classes that assign by members and classes that copy first, all strategies, all points of failure; all programs, of any length", "why_tests_cant": "The assignment recurses through the library for each member; the states after a failure at each possible member of each possible tree are unboundedly many.", "anchors": ["include/boost/variant/variant.hpp: variant::variant_assign, variant::operator=, assign_storage, variant::assigner", "include/boost/variant/recursive_wrapper.hpp: recursive_wrapper::operator=, assign", "doc/tutorial/advanced.xml: recursive types"]}
{"id": "C80", "title": "For exactly which types programs on recursive variants are safe", "statement": "Consider programs on recursive variants, with any of their operations failing, in which neither side of an assignment, move assignment or swap is a part of the other. No such program has undefined behaviour or fails an assertion if and only if the variant has a fallback type, or of any two of its types the one on the left can be moved, or the one on the right copied or moved, without failing. As for the other statements: a variant with content of type T may be assigned a part of its own content of type U in every state that a program can come to if and only if T and U are the same, or U has a nothrow move constructor and no nothrow copy constructor; it may be move-assigned one without undefined behaviour if and only if T and U are the same. Assigning a variant to a part of its own content of another type never returns.", "quantifier": "all types and their nothrow properties, all programs of any length, all trees and places, all sets of failing operations", "why_tests_cant": "The conditions are exact: one direction is about all programs and all failures, the other needs a program and a failure for each choice of types that does not meet them.", "anchors": ["include/boost/variant/variant.hpp: variant::assigner, variant::move_assigner, backup_assigner, variant::variant_assign", "include/boost/variant/recursive_wrapper.hpp: recursive_wrapper"]}
{"id": "C81", "title": "Recursive visitors on recursive variants", "statement": "A visitor that calls apply_visitor for members of the nodes it is called with, in any order and any number of times, with or without handlers, and that may overwrite values and throw, can be applied to any recursive variant or part of one, with any parts in heap backups. It does not fault. It returns what it returns on the plain tree that the variant stands for, or throws if it does so there; the variant then stands for what the visitor has made of that tree, everything else keeps its value, and nothing is allocated or freed. What it makes of the tree is determined and has the same types and members. A visitor that only reads leaves the memory as it is; one that computes a value from the results for the members (such as the calculator of the documentation) computes the value of the tree; one that changes each value changes every value once.", "quantifier": "all visitors that visit only members that exist, all trees of any depth, all places, all states that stand for trees (so after any program, with any failures)", "why_tests_cant": "Any visitor, any depth, any place of backups and any exceptions; that no other variant changes and nothing is allocated is a statement about the whole memory.", "anchors": ["include/boost/variant/detail/apply_visitor_unary.hpp: apply_visitor", "include/boost/variant/variant.hpp: invoke_visitor, variant::apply_visitor", "include/boost/variant/recursive_wrapper.hpp: recursive_wrapper::get", "doc/tutorial/advanced.xml: calculator"]}
{"id": "C82", "title": "Visitors of several recursive variants at once", "statement": "A visitor of two or more recursive variants, or parts of such variants, which may contain each other or be the same object, with any parts in heap backups: it may read and overwrite the values it is given references to at any time, throw, and call apply_visitor for members of its arguments and for other variants it knows, with or without handlers. If it comes to an end on the plain trees that the variants stand for then the program does so without fault, returns or throws as the visitor does there, and the variants then stand for what it has made of those trees (so a value written through one argument is the one read through another argument that is the same object). Nothing is allocated or freed, and types and members stay. It comes to an end whenever some measure of what it visits decreases; visitors that visit only members of their arguments always do. A visitor that only reads leaves the memory as it is. The comparison by a binary visitor of the documentation (are_strict_equals) returns true if and only if the trees are equal, exactly as operator== does.", "quantifier": "all visitors, any number of arguments, all trees of any depth, all places with any overlap, all states that stand for trees (so after any program, with any failures)", "why_tests_cant": "Any visitor, any number of arguments with any overlap, any depth and place of backups; the equivalence of the visitor with operator== is over all pairs of trees.", "anchors": ["include/boost/variant/detail/apply_visitor_binary.hpp: apply_visitor_binary_invoke, apply_visitor_binary_unwrap, apply_visitor", "include/boost/variant/detail/multivisitors_cpp11_based.hpp: one_by_one_visitor_and_value_referer, apply_visitor", "include/boost/variant/detail/multivisitors_cpp14_based.hpp: one_by_one_visitor_and_value_referer_cpp14, apply_visitor", "doc/tutorial/advanced.xml: are_strict_equals"]}
{"id": "C83", "title": "References to the variants and nodes of recursive variants", "statement": "A pointer to a variant inside a recursive variant, or to the object in a recursive_wrapper (a node), stays good through every statement, successful or not, that does not assign to, move from, change or destroy that variant or one that it is a part of; what it has is then also unchanged. Assignment from a node of the same type keeps the left node; move assignment from a node of the same type never throws and exchanges the two nodes, with all that is below them, so that pointers follow; swap of nodes of the same type keeps both nodes and exchanges what is in them, so that pointers to the nodes do not follow but pointers to what is below their members do; move construction makes a new node and leaves the old one, moved from, in its place. No two variants share a node, a block of memory is alive exactly as long as a variant has it as its node or backup, and with a variable all nodes below it are destroyed.", "quantifier": "all trees of any depth, all places with any overlap, all value types, all failures, all programs of any length, with parts in heap backups", "why_tests_cant": "Any tree, any place of the pointer and of the operands relative to it, any failing operation, any history.", "anchors": ["include/boost/variant/recursive_wrapper.hpp: lines 37-144, swap, assign, move assignment, get", "include/boost/variant/variant.hpp: assign_storage, move_storage, swap_with", "include/boost/variant/variant.hpp: variant::assigner, variant::move_assigner, variant::swap, destroy_content"]}
{"id": "C84", "title": "What internal visitors work on", "statement": "Whatever is in the storage of a variant (the content, or a heap backup of it; with recursive wrappers and reference contents nested to any depth; with any const and volatile), overload resolution between the internal_visit functions of each internal visitor has this outcome. A user's visitor is called with the object that one comes to by going into heap backups, recursive wrappers and reference contents as long as they are not volatile, with the qualifiers that are right for it (const inside a const variant, except behind a reference); the call fails to compile exactly if one comes to a class that the user derived from one of these three templates. Converting construction works on the same object. The operand has the same type whether the content is in a heap backup or not. For bounded types T, recursive_wrapper<T> and T& it is T. Copying, moving and assignment of the same type go into a heap backup and into nothing else; the destructor, assigner and move_assigner go into nothing, so that the latter two take the holder of a backup for content (finding F1). A recursive wrapper in a recursive wrapper is seen through twice, although types lists the inner one.", "quantifier": "all operand types of any nesting, all qualifiers, const and non-const variants, in a backup or not; all internal visitors of the library", "why_tests_cant": "The types that users instantiate are unbounded, and overload resolution differs with each nesting and qualifier; a test instantiates a few.", "anchors": ["include/boost/variant/variant.hpp: destroyer, copy_into, move_into, assign_storage, move_storage, backup_assigner, invoke_visitor, convert_copy_into, convert_move_into, assigner, move_assigner", "include/boost/variant/detail/visitation_impl.hpp: visitation_impl_invoke_impl", "include/boost/variant/detail/backup_holder.hpp: get", "include/boost/variant/recursive_wrapper.hpp: get"]}
{"id": "C85", "title": "Which content value assignment, swap, comparison and type() act on", "statement": "For bounded types with any const and volatile qualifiers, as T, recursive_wrapper<T> or T&, with any base classes among them, possibly several times the same: v = t assigns directly to the content exactly if the content's type is the operand's type with its volatile but without its const (never if the content is const, never to or from a base class, so nothing is sliced), and then does nothing but the assignment of that type on the content as it is, even if the same type occurs again among the bounded types and the operand would be converted to that one; otherwise a temporary variant is made and move-assigned, whatever the relation between the types. If no type occurs twice, this is value assignment as modelled for the other claims, where types are positions. swap, == and < of variants with equal which() always find the other variant's content (known_get never reaches forced_return), whatever the bounded types are. type() is the content's type without qualifiers and references, so that it does not tell apart bounded types that differ in these only.", "quantifier": "all lists of bounded types with qualifiers, wrappers and references, all class hierarchies, all operand types, all reachable states, all element operations", "why_tests_cant": "There are infinitely many lists of bounded types and operand types; the tests have a few where the types are all different.", "anchors": ["include/boost/variant/variant.hpp: direct_assigner, direct_mover, known_get, swap_with, comparer, reflect, assign, move_assign, swap, operator==, operator<, type"]}
{"id": "C86", "title": "Variants have the usual thread safety of values", "statement": "Several threads use variants of one type; each variant belongs to one thread or is shared by all. If each thread changes only variants of its own and otherwise only reads shared ones, which no thread changes, then each thread does exactly what it does when it is alone, however the statements of the threads are interleaved: its statements throw the same exceptions at the same operations of the elements, its variants have the same types and values and are in a heap backup or not alike, and it makes as many operations and allocations; the shared variants keep type, value and backup. Copying from a variant, by copy construction, copy assignment or get of a const reference, is reading. At any time, visiting, comparing, hashing and streaming its own and the shared variants gives a thread the same results as when it is alone. So any two interleavings end alike. A copy thus shares nothing with what it is copied from, and no operation keeps state outside of the variants that it names. All this holds for recursive variants too, of which a thread may share whole trees: copying a part of a shared tree, or making a node of parts of it, is reading. While the other threads execute statements, the contents of a thread's own and of the shared variants stay the same objects, so that references and pointers into them stay good.", "quantifier": "all lists of bounded types and traits outside the findings F2, F3 and F10, all starting states that are reachable, all numbers of threads, all programs, all interleavings of their statements and all exceptions, as long as each thread alone avoids F1; for recursive variants all trees of any height, all paths into them, and all failures, as long as each thread alone avoids the statements that the library does not support", "why_tests_cant": "The tests have one thread; and the interleavings of any two programs are too many to try.", "anchors": ["include/boost/variant/variant.hpp: variant(const variant&), assign_storage, assigner, backup_assigner, backup_holder, variant_assign, swap, destroy_content, which, internal_apply_visitor", "include/boost/variant/recursive_wrapper.hpp: recursive_wrapper"]}
{"id": "C87", "title": "The macros for the template parameters of variants write lists of any length", "statement": "With a name, BOOST_VARIANT_ENUM_PARAMS(T) writes T0, TN... and BOOST_VARIANT_ENUM_SHIFTED_PARAMS(T) writes TN...; with class or typename before the name they write typename T0, typename... TN and typename... TN. So a template declared with the first macro takes any template arguments but none at all; inside it the macro for the names gives all these arguments, in order, and the shifted macro all but the first. With a first parameter of its own and the shifted macro, as the variant template is defined, the same holds. Lists for two different names can be used in one template: all parameters then have different names.", "quantifier": "all names that are not themselves macros, class and typename as words before them, and all lists of template arguments", "why_tests_cant": "The tests use the macros with the names T and U and with a few lists of types.", "anchors": ["include/boost/variant/variant_fwd.hpp: BOOST_VARIANT_ENUM_PARAMS, BOOST_VARIANT_ENUM_SHIFTED_PARAMS, BOOST_VARIANT_MAKE_VARIADIC, ARGS_VARIADER_1, ARGS_VARIADER_2", "doc/reference/variant_fwd.xml: BOOST_VARIANT_ENUM_PARAMS"]}
