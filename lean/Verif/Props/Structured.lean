/-
C59: programs with control flow, exceptions and scopes.
-/
import Verif.Lemmas.Structured

namespace BVariant

section
variable {V : Type} {D : Decls V} {ρ : Nat → Nat}

/-- C59 never empty (scope: no statement concerned by finding F1 is reached, and the conditions `Sane` of findings F2 and F10):
take any program with branches, loops, exceptions, handlers and scopes, whose conditions depend on anything and may throw. After any
number of steps it has not failed; in particular `std::terminate` was not called. Every live variable is non-empty for its type;
and the live objects are exactly the contents of the variables, none shared. -/
theorem C59_never_empty_partial (hs : ∀ vt, Sane (D.K vt)) (hD : D.Fits) (s : Stm V)
    (hz : NeverReadsBackup D ρ (s.start (World.init V))) (n : Nat) :
    ∃ w, (steps D ρ n (s.start (World.init V))).world = some w ∧ Owned w ∧
      ∀ x, w.vars (.user x) ≠ none → NonEmpty (D.K (ρ x)) w (.user x) := by
  obtain ⟨w, cs, h1, h2, -⟩ := steps_spec hs hD n (s.start (World.init V)) goodMix_init hz
  exact ⟨w, h1, h2.owned, fun x hx => h2.nonEmpty hx⟩

/-- C59 (scope: `Sane`): where no variant type makes heap backups (in particular where the single-storage conditions hold), no statement concerned by finding F1 is reached by any
program; so the same holds of all programs. -/
theorem C59_never_empty_single_storage_partial (hs : ∀ vt, Sane (D.K vt)) (hss : D.BackupFree) (hD : D.Fits) (s : Stm V) (n : Nat) :
    ∃ w, (steps D ρ n (s.start (World.init V))).world = some w ∧ Owned w ∧
      ∀ x, w.vars (.user x) ≠ none → NonEmpty (D.K (ρ x)) w (.user x) :=
  C59_never_empty_partial hs hD s (backupFree_never hs hss hD goodMix_init allInPlace_init) n

/-- C59 scopes (scope as above): if a program, each of whose variables is used only in the scope that declares it, ends, normally or by an
exception that nothing catches, then no variable is alive and no object is: every variable was destroyed with its content, on
every path, and nothing was leaked. -/
theorem C59_nothing_left_partial (hs : ∀ vt, Sane (D.K vt)) (hD : D.Fits) (s : Stm V) (hsc : s.scoped [])
    (hz : NeverReadsBackup D ρ (s.start (World.init V))) {n : Nat} {u : Bool} {w : World V}
    (he : steps D ρ n (s.start (World.init V)) = .done u w) : (∀ x, w.vars x = none) ∧ ∀ id, w.objs id = none := by
  obtain ⟨w2, cs, h1, h2, -⟩ := steps_spec hs hD n (s.start (World.init V)) goodMix_init hz
  rw [he] at h1
  obtain rfl : w = w2 := by simpa [Next.world] using h1
  have hv := steps_scoped hs hD n (s.start (World.init V)) goodMix_init hz
    ⟨fun t ht => by cases ht; exact hsc, trivial, fun x hx => absurd rfl hx⟩ he
  refine ⟨fun x => ?_, fun id => ?_⟩
  · cases x with
    | user n => exact hv n
    | tmp n => exact h2.noTmp n
  · cases ho : w.objs id with
    | none => rfl
    | some p =>
      obtain ⟨x, t, hx, -⟩ := h2.noLeak id (by rw [ho]; simp)
      rw [hv x] at hx; cases hx

/-- C59 unwinding: when an exception is on its way in any state between statements, it reaches the nearest handler: the variables
of the scopes it leaves are destroyed, and every other variable is exactly as it was. No destructor throws on the way. -/
theorem C59_unwinding (hs : ∀ vt, Sane (D.K vt)) (hD : D.Fits) {w : World V} (hg : GoodMix D.K ρ w) (pre : List (Frame V))
    (hpre : ∀ f ∈ pre, f.isHandler = false) (h : Stm V) (k : List (Frame V)) :
    ∃ n w', steps D ρ n ⟨.unwind, pre ++ .handler h :: k, w⟩ = .conf ⟨.run h, k, w'⟩ ∧ GoodMix D.K ρ w' ∧
      (∀ x ∈ scopes pre, w'.vars (.user x) = none) ∧ Rest w w' (scopes pre) := by
  obtain ⟨w', h1, h2, h3, -, h4⟩ := steps_unwind hs hD pre hpre (.handler h :: k) w hg
  exact ⟨pre.length + 1, w', by rw [steps_add _ _ _ _ h1]; rfl, h2, h4, h3⟩

/-- C59 and statement sequences (scope as above): every state that a program with control flow reaches is reached by a plain sequence of
statements, so that whatever holds after all of these (C01, C13 and others) holds in it. -/
theorem C59_is_a_sequence_partial (hs : ∀ vt, Sane (D.K vt)) (hD : D.Fits) (s : Stm V)
    (hz : NeverReadsBackup D ρ (s.start (World.init V))) (n : Nat) :
    ∃ w cs, (steps D ρ n (s.start (World.init V))).world = some w ∧ runConv D ρ cs (World.init V) = some w := by
  obtain ⟨w, cs, h1, -, h3⟩ := steps_spec hs hD n (s.start (World.init V)) goodMix_init hz
  exact ⟨w, cs, h1, h3⟩

theorem steps_ofList (cs : List (MixCmd V)) (k : List (Frame V)) (w : World V) :
    (∀ w', runConv D ρ cs w = some w' → ∃ n, steps D ρ n ⟨.run (Stm.ofList cs), k, w⟩ = .conf ⟨.ret, k, w'⟩) ∧
    (runConv D ρ cs w = none → ∃ n f, steps D ρ n ⟨.run (Stm.ofList cs), k, w⟩ = .fault f) := by
  induction cs generalizing w with
  | nil =>
    refine ⟨fun w' h => ⟨1, ?_⟩, fun h => by cases h⟩
    cases h; rfl
  | cons c cs ih =>
    have start : steps D ρ 2 ⟨.run (Stm.ofList (c :: cs)), k, w⟩ =
      .conf ⟨.run (.cmd c), .handler .skip :: .next (Stm.ofList cs) :: k, w⟩ := rfl
    simp only [runConv]
    have fin : ∀ (m : Nat) (w1 : World V), steps D ρ m ⟨.run (Stm.ofList (c :: cs)), k, w⟩ = .conf ⟨.run (Stm.ofList cs), k, w1⟩ →
        (∀ w', runConv D ρ cs w1 = some w' → ∃ n, steps D ρ n ⟨.run (Stm.ofList (c :: cs)), k, w⟩ = .conf ⟨.ret, k, w'⟩) ∧
        (runConv D ρ cs w1 = none → ∃ n f, steps D ρ n ⟨.run (Stm.ofList (c :: cs)), k, w⟩ = .fault f) := by
      intro m w1 hm
      refine ⟨fun w' h => ?_, fun h => ?_⟩
      · obtain ⟨n, hn⟩ := (ih w1).1 w' h
        exact ⟨m + n, by rw [steps_add _ _ _ _ hm]; exact hn⟩
      · obtain ⟨n, f, hn⟩ := (ih w1).2 h
        exact ⟨m + n, f, by rw [steps_add _ _ _ _ hm]; exact hn⟩
    by_cases hv : c.valid D ρ w = true
    · rw [if_pos hv]
      cases hc : c.code D ρ w with
      | ok a w1 =>
        refine fin (2 + 3) w1 ?_
        rw [steps_add _ _ _ _ start]
        simp only [steps, step]; rw [if_pos hv, hc]
      | exc e w1 =>
        refine fin (2 + 4) w1 ?_
        rw [steps_add _ _ _ _ start]
        simp only [steps, step]; rw [if_pos hv, hc]
      | fault f =>
        refine ⟨fun w' h => (by cases h), fun _ => ⟨2 + 1, f, ?_⟩⟩
        rw [steps_add _ _ _ _ start]
        simp only [steps, step]; rw [if_pos hv, hc]
    · rw [if_neg hv]
      refine fin (2 + 3) w ?_
      rw [steps_add _ _ _ _ start]
      simp only [steps, step]; rw [if_neg hv]

/-- The converse: a plain sequence of statements, where an exception is caught after each, is the program that has a `try` block with an
empty handler around each: the one comes to its end in the same state as the other, and fails if the other does. -/
theorem C59_sequences (cs : List (MixCmd V)) (w : World V) :
    (∀ w', runConv D ρ cs w = some w' → ∃ n, steps D ρ n ((Stm.ofList cs).start w) = .done false w') ∧
    (runConv D ρ cs w = none → ∃ n f, steps D ρ n ((Stm.ofList cs).start w) = .fault f) := by
  obtain ⟨h1, h2⟩ := steps_ofList cs [] w
  refine ⟨fun w' h => ?_, h2⟩
  obtain ⟨n, hn⟩ := h1 w' h
  exact ⟨n + 1, by rw [Stm.start, steps_add _ _ _ _ hn]; rfl⟩

end

/-! ### Examples -/

/-- For a program that ends, it is enough to look at the steps up to the end. -/
theorem NeverReadsBackup.of_done {V : Type} {D : Decls V} {ρ : Nat → Nat} {c : Conf V} (n : Nat)
    (h : (match steps D ρ n c with | .conf _ => false | _ => true) = true)
    (hz : (List.range n).all (fun m => match steps D ρ m c with | .conf c' => !c'.readsBackup D ρ | _ => true) = true) :
    NeverReadsBackup D ρ c := by
  intro m c' hm
  rcases Nat.lt_or_ge m n with hlt | hge
  · have := List.all_eq_true.mp hz m (List.mem_range.mpr hlt)
    rw [hm] at this
    simpa using this
  · have stop : ∀ (n k : Nat) (c : Conf V), (match steps D ρ n c with | .conf _ => false | _ => true) = true →
        steps D ρ (n + k) c = steps D ρ n c := by
      intro n
      induction n with
      | zero => intro k c h; cases h
      | succ n ih =>
        intro k c h
        rw [Nat.add_right_comm]
        simp only [steps] at h ⊢
        cases hst : BVariant.step D ρ c with
        | conf c2 => rw [hst] at h; exact ih k c2 h
        | done u w => rfl
        | fault f => rfl
    obtain ⟨k, rfl⟩ := Nat.exists_eq_add_of_le hge
    rw [stop n k c h] at hm
    rw [hm] at h
    cases h

/-- Two variants of the first type, and a loop: a variant of the second type is declared and constructed from one of them; the other is assigned
to it, which throws the first time, and leaves it in a heap backup; the body ends with `throw`. The handler stores a value. The condition of the loop
throws in the end. -/
def exStm : Stm Nat :=
  .scope 0 (.scope 1 (.seq (.cmd (.on 0 (.defaultConstruct 0))) (.seq (.cmd (.on 0 (.constructC 1 1 7)))
    (.loop (fun w => if w.tick < 9 then some true else none)
      (.guarded (.scope 2 (.seq (.cmd (.constructFrom false false 2 1)) (.seq (.cmd (.on 0 (.copyAssign 0 1))) .raise)))
        (.cmd (.on 0 (.mutate 1 8))))))))

/-- The state after `n` steps. -/
def exStmAfter (n : Nat) : World Nat := (steps exDecls exMixR n (exStm.start (World.init Nat))).world.getD (World.init Nat)

theorem exStm_never : NeverReadsBackup exDecls exMixR (exStm.start (World.init Nat)) :=
  .of_done 60 (by decide +kernel) (by decide +kernel)

/-- The inner variant is alive in the loop and destroyed by the exceptions; the heap backup is left behind, and given up by the second
assignment; at the end the exception of the condition leaves the program. -/
example : (exStmAfter 16).content (.user 2) = some (2, 7) ∧ (exStmAfter 16).backedUp 0 = true ∧
    (exStmAfter 18).content (.user 2) = none ∧ (exStmAfter 20).content (.user 1) = some (1, 8) ∧
    (exStmAfter 26).content (.user 2) = some (2, 8) ∧ (exStmAfter 29).content (.user 0) = some (1, 8) ∧
    (exStmAfter 29).backedUp 0 = false ∧
    (match steps exDecls exMixR 60 (exStm.start (World.init Nat)) with | .done u _ => u | _ => false) = true := by decide +kernel

theorem exStm_scoped : exStm.scoped [] := by
  simp [exStm, Stm.scoped, MixCmd.names, Cmd.names]

example := C59_never_empty_partial exConvK_sane exDecls_fits exStm exStm_never 29
example := C59_is_a_sequence_partial exConvK_sane exDecls_fits exStm exStm_never 29

/-- It ends, and nothing is left. -/
example : ∃ u w, steps exDecls exMixR 60 (exStm.start (World.init Nat)) = .done u w ∧ (∀ x, w.vars x = none) ∧ ∀ id, w.objs id = none := by
  have h : (match steps exDecls exMixR 60 (exStm.start (World.init Nat)) with | .done u _ => u | _ => false) = true := by decide +kernel
  cases hst : steps exDecls exMixR 60 (exStm.start (World.init Nat)) with
  | conf c => rw [hst] at h; cases h
  | fault f => rw [hst] at h; cases h
  | done u w => exact ⟨u, w, rfl, C59_nothing_left_partial exConvK_sane exDecls_fits exStm exStm_scoped exStm_never hst⟩

/-- An exception in a state with a heap backup leaves the scopes of variables 4 and 0, with a statement between them that is skipped. -/
example := C59_unwinding exConvK_sane exDecls_fits (exConv_good 8 (by decide +kernel)) [.ends 4, .next .raise, .ends 0]
  (by intro f hf; simp at hf; rcases hf with rfl | rfl | rfl <;> rfl) .skip [.ends 1]

/-- The program of plain statements comes to its end. -/
example : ∃ n w, steps exDecls exMixR n ((Stm.ofList exConvProg).start (World.init Nat)) = .done false w := by
  obtain ⟨w, hw, -⟩ := C01_with_conversions_partial (D := exDecls) (ρ := exMixR) exConvK_sane exDecls_fits exConvProg (by decide +kernel)
  obtain ⟨n, hn⟩ := (C59_sequences exConvProg (World.init Nat)).1 w hw
  exact ⟨n, w, hn⟩

/-- The second variant type alone, for all variables: it has a fallback, so no program needs a condition. Here a loop that does not end, in
which assignments fail now and then. -/
def exSingle : Decls Nat := { exDecls with K := fun _ => exConvK 1, cls := fun _ => exDecls.cls 1 }

example := C59_never_empty_single_storage_partial (D := exSingle) (ρ := fun _ => 0) (fun _ => exConvK_sane 1)
  (fun _ => SingleStorage.backupFree (.inl (show (exConvK 1).hasFallback = true by decide))) (fun _ => exDecls_fits 1)
  (.seq (.cmd (.on 0 (.constructC 0 1 5))) (.seq (.cmd (.on 0 (.constructC 1 2 7)))
    (.loop (fun _ => some true) (.guarded (.seq (.cmd (.on 0 (.swap 0 1))) (.cmd (.on 0 (.assignL 0 1 4)))) .skip))))

end BVariant
