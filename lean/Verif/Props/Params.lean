import Verif.Spec.Params

/-
C87: the macros for the template parameters of variants.
-/

namespace BVariant

section
variable {A : Type} {t k : String}

/-- A word that starts a declaration of a type parameter. -/
def IsTypeWord (k : String) : Prop := k = "class" ∨ k = "typename"

/-- **C87.** With a name, the macros write `T0, TN...` and `TN...`, as the reference says. -/
theorem C87_arguments (h : ¬ IsTypeWord t) :
    enumParams [.id t] = some [.id (t ++ "0"), .comma, .id (t ++ "N"), .dots] ∧ enumShiftedParams [.id t] = some [.id (t ++ "N"), .dots] := by
  have h1 : t ≠ "class" := fun e => h (.inl e)
  have h2 : t ≠ "typename" := fun e => h (.inr e)
  simp [enumParams, enumShiftedParams, wordSeq, pasteFront, toSeqMacro, h1, h2, makeVariadic, seqSize, argsVariader1, pasteBack]

/-- **C87.** With `class` or `typename` and a name, they write `class T0, class... TN` and `class... TN`. -/
theorem C87_parameters (h : IsTypeWord k) :
    enumParams [.id k, .id t] = some [.id k, .id (t ++ "0"), .comma, .id k, .dots, .id (t ++ "N")] ∧
    enumShiftedParams [.id k, .id t] = some [.id k, .dots, .id (t ++ "N")] := by
  rcases h with rfl | rfl <;>
    simp [enumParams, enumShiftedParams, wordSeq, pasteFront, toSeqMacro, makeVariadic, seqSize, argsVariader2, toVariadicMacro, pasteBack]

theorem names_differ : t ++ "0" ≠ t ++ "N" := fun h => by
  have := String.append_right_inj t |>.mp h
  exact absurd this (by decide)

/-- **C87.** A template declared with `BOOST_VARIANT_ENUM_PARAMS(typename T)` takes any arguments but none at all; in it,
`BOOST_VARIANT_ENUM_PARAMS(T)` are all these arguments, in order, and `T0, BOOST_VARIANT_ENUM_SHIFTED_PARAMS(T)` as well, the macro giving all but
the first. -/
theorem C87_round_trip (hk : IsTypeWord k) (ht : ¬ IsTypeWord t) :
    ∃ ds ps all rest, enumParams [.id k, .id t] = some ds ∧ DeclaresParams ds ps ∧ (ps.map (·.1)).Nodup ∧ enumParams [.id t] = some all ∧
      enumShiftedParams [.id t] = some rest ∧
      (∀ as : List A, (∃ e, BindsArgs ps as e) ↔ as ≠ []) ∧
      ∀ (as : List A) (e : String → List A), BindsArgs ps as e → DenotesArgs e all as ∧ DenotesArgs e rest as.tail := by
  refine ⟨_, [(t ++ "0", false), (t ++ "N", true)], _, _, (C87_parameters hk).1, .more (.one hk) (.pack hk), ?_, (C87_arguments ht).1,
    (C87_arguments ht).2, fun as => ⟨?_, fun h => ?_⟩, fun as e h => ?_⟩
  · simp
  · rintro ⟨e, h⟩
    cases h
    nofun
  · cases as with
    | nil => exact absurd rfl h
    | cons a as =>
      refine ⟨fun x => if x = t ++ "0" then [a] else as, .one (if_pos rfl) (.pack (if_neg ?_))⟩
      exact fun h => names_differ h.symm
  · cases h with
    | @one _ _ a as' _ h1 h2 =>
      cases h2 with
      | pack h3 =>
        subst h3
        exact ⟨.more (ts := [.id (t ++ "0")]) (as := [a]) (.one h1) .pack, .pack⟩

/-- **C87.** A template declared with a parameter of its own, `typename U`, and `BOOST_VARIANT_ENUM_SHIFTED_PARAMS(typename T)`, as `variant` itself is defined:
it takes any arguments but none at all, the macro for the arguments gives all but the first. -/
theorem C87_shifted (hk : IsTypeWord k) (ht : ¬ IsTypeWord t) {u : String} (hu : u ≠ t ++ "N") :
    ∃ ds ps rest, enumShiftedParams [.id k, .id t] = some ds ∧ DeclaresParams ([.id k, .id u] ++ .comma :: ds) ps ∧ (ps.map (·.1)).Nodup ∧
      enumShiftedParams [.id t] = some rest ∧
      (∀ as : List A, (∃ e, BindsArgs ps as e) ↔ as ≠ []) ∧
      ∀ (as : List A) (e : String → List A), BindsArgs ps as e → e u = as.take 1 ∧ DenotesArgs e rest as.tail := by
  refine ⟨_, [(u, false), (t ++ "N", true)], _, (C87_parameters hk).2, .more (.one hk) (.pack hk), ?_, (C87_arguments ht).2,
    fun as => ⟨?_, fun h => ?_⟩, fun as e h => ?_⟩
  · simp [hu]
  · rintro ⟨e, h⟩
    cases h
    nofun
  · cases as with
    | nil => exact absurd rfl h
    | cons a as => exact ⟨fun x => if x = u then [a] else as, .one (if_pos rfl) (.pack (if_neg (Ne.symm hu)))⟩
  · cases h with
    | @one _ _ a as' _ h1 h2 =>
      cases h2 with
      | pack h3 =>
        subst h3
        exact ⟨h1, .pack⟩

theorem ends_differ {u : String} : t ++ "0" ≠ u ++ "N" := fun h => by
  have := congrArg (fun s => s.toList.getLast?) h
  simp at this

/-- **C87.** Lists for two names can be used together, as in the constructors of `variant` from other variants: all parameters have different names. -/
theorem C87_two_lists (hk : IsTypeWord k) {u : String} (hu : t ≠ u) :
    ∃ ds es ps, enumParams [.id k, .id t] = some ds ∧ enumParams [.id k, .id u] = some es ∧ DeclaresParams (ds ++ .comma :: es) ps ∧ (ps.map (·.1)).Nodup ∧
      ps.length = 4 := by
  refine ⟨_, _, _, (C87_parameters hk).1, (C87_parameters hk).1,
    .more (.more (ts := [.id k, .id (t ++ "0")]) (.one hk) (.pack hk)) (.more (ts := [.id k, .id (u ++ "0")]) (.one hk) (.pack hk)), ?_, rfl⟩
  have h1 : t ++ "0" ≠ u ++ "0" := fun h => hu (String.append_left_inj "0" |>.mp h)
  have h2 : t ++ "N" ≠ u ++ "N" := fun h => hu (String.append_left_inj "N" |>.mp h)
  simp [h1, h2, ends_differ, ends_differ.symm]

end

/-! ### Concrete cases -/

/-- C87: the lines of the reference (doc/reference/variant_fwd.xml 33-38), the names being `Something`. -/
example : enumParams [.id "typename", .id "Something"] =
      some [.id "typename", .id "Something0", .comma, .id "typename", .dots, .id "SomethingN"] ∧
    enumParams [.id "Something"] = some [.id "Something0", .comma, .id "SomethingN", .dots] :=
  ⟨(C87_parameters (.inr rfl)).1, (C87_arguments (by simp [IsTypeWord])).1⟩

/-- C87: the parameters `T0`, `TN`, `U0` and `UN`. -/
example : ∃ ds es ps, enumParams [.id "typename", .id "T"] = some ds ∧ enumParams [.id "typename", .id "U"] = some es ∧
    DeclaresParams (ds ++ .comma :: es) ps ∧ (ps.map (·.1)).Nodup ∧ ps.length = 4 :=
  C87_two_lists (.inr rfl) (by decide)

/-- C87: `template <BOOST_VARIANT_ENUM_PARAMS(class T)>` for the arguments 3, 5, 7, and `variant<T0, TN...>` with its own first parameter. -/
example : (∃ ps all rest, DeclaresParams [.id "class", .id "T0", .comma, .id "class", .dots, .id "TN"] ps ∧ enumParams [.id "T"] = some all ∧
      enumShiftedParams [.id "T"] = some rest ∧ ∃ e : String → List Nat, BindsArgs ps [3, 5, 7] e ∧ DenotesArgs e all [3, 5, 7] ∧ DenotesArgs e rest [5, 7]) ∧
    ∃ ds ps, enumShiftedParams [.id "typename", .id "T"] = some ds ∧ DeclaresParams ([.id "typename", .id "T0_"] ++ .comma :: ds) ps ∧
      ∃ e : String → List Nat, BindsArgs ps [3, 5, 7] e ∧ e "T0_" = [3] := by
  constructor
  · obtain ⟨ds, ps, all, rest, h1, h2, -, h3, h4, h5, h6⟩ := C87_round_trip (A := Nat) (k := "class") (t := "T") (.inl rfl) (by simp [IsTypeWord])
    rw [(C87_parameters (.inl rfl)).1] at h1
    cases h1
    obtain ⟨e, he⟩ := (h5 [3, 5, 7]).mpr nofun
    exact ⟨ps, all, rest, h2, h3, h4, e, he, (h6 _ e he).1, (h6 _ e he).2⟩
  · obtain ⟨ds, ps, rest, h1, h2, -, -, h5, h6⟩ := C87_shifted (A := Nat) (k := "typename") (t := "T") (u := "T0_") (.inr rfl) (by simp [IsTypeWord])
      (by decide)
    obtain ⟨e, he⟩ := (h5 [3, 5, 7]).mpr nofun
    exact ⟨ds, ps, h1, h2, e, he, (h6 _ e he).1⟩

end BVariant
