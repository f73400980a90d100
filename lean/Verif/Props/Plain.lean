/-
C64: what has no undefined behaviour behaves like a program over plain values, in any configuration.
-/
import Verif.Lemmas.Plain

namespace BVariant

section
variable {V : Type} {D : Decls V} {ρ : Nat → Nat} {w w' : World V}

/-- The same program over variants. -/
def Plain.onVariants : Plain V → Stm V
  | .cmd c => .cmd c
  | .skip => .skip
  | .raise => .raise
  | .seq s t => .seq s.onVariants t.onVariants
  | .cond b s t => .cond (fun w => b w.store) s.onVariants t.onVariants
  | .loop b s => .loop (fun w => b w.store) s.onVariants
  | .guarded s h => .guarded s.onVariants h.onVariants
  | .scope x s => .scope x s.onVariants

/-- Some operation of the elements of the variant type throws. -/
def Decls.throwing (D : Decls V) (vt : Nat) : Prop := ∃ t, (D.K vt).throws t = true

/-- C64, statements: in any configuration, from any state between statements, a statement that returns does what it does to a plain
store, and one that throws leaves one of the documented stores, by an exception of an operation of the elements; or one of the
variables that it names is broken. -/
theorem C64_statement (hl : ∀ vt, (D.K vt).ops.Lawful) (hb : ∀ vt, BlankOk (D.K vt)) (hD : D.Fits) (hL : D.L.Lawful)
    (hg : GoodMix D.K ρ w) (m : MixCmd V) (hv : m.validIn D ρ w.store) :
    (∀ a, m.code D ρ w = .ok a w' → (GoodMix D.K ρ w' ∧ m.doneBy D ρ w.store w'.store) ∨
      ∃ x ∈ m.names, w'.broken (D.K (ρ x)) (.user x)) ∧
    (∀ e, m.code D ρ w = .exc e w' → (GoodMix D.K ρ w' ∧ m.failedBy D ρ w.store w'.store ∧ (D.K (m.target ρ)).throws e.tick = true) ∨
      ∃ x ∈ m.names, w'.broken (D.K (ρ x)) (.user x)) :=
  ⟨fun _ h => mix_done_refines hl hb hD hL hg m ((mix_valid_iff hg m).mpr hv) h,
    fun _ h => mix_failed_refines hl hb hD hL hg m ((mix_valid_iff hg m).mpr hv) h⟩

/-- What the machine does after a statement that has returned, or thrown. -/
def after (u : Bool) : Ctl V := if u then .unwind else .ret

theorem steps_conf {n : Nat} {c c' : Conf V} {u : Bool} (h : steps D ρ n c = .done u w') (hc : step D ρ c = .conf c') :
    ∃ m, n = m + 1 ∧ steps D ρ m c' = .done u w' := by
  cases n with
  | zero => cases h
  | succ m => simp only [steps, hc] at h; exact ⟨m, rfl, h⟩

theorem endScope_store (hs : ∀ vt, BlankOk (D.K vt)) (hD : D.Fits) (hg : GoodMix D.K ρ w) (x : Nat) (t : Ctl V) (k : List (Frame V)) :
    ∃ w', endScope D ρ x t k w = .conf ⟨t, k, w'⟩ ∧ GoodMix D.K ρ w' ∧ w'.store = upd w.store x none := by
  obtain ⟨w', h1, h2, h3, h4⟩ := endScope_gen (x := x) hs hD hg t k
  exact ⟨w', h1, h2, store_upd h4 ((store_none_mix h2 x).mpr h3)⟩

/-- A statement of a program that comes to its end without a broken variable has come to its own end. -/
theorem plain_runs (hl : ∀ vt, (D.K vt).ops.Lawful) (hb : ∀ vt, BlankOk (D.K vt)) (hD : D.Fits) (hL : D.L.Lawful) {u : Bool}
    (hnb : ∀ x, ¬ w'.broken (D.K (ρ x)) (.user x)) (n : Nat) : ∀ (s : Plain V) (k : List (Frame V)) (w : World V), GoodMix D.K ρ w →
      steps D ρ n ⟨.run s.onVariants, k, w⟩ = .done u w' →
      ∃ v w1 m, m < n ∧ GoodMix D.K ρ w1 ∧ s.Runs D ρ D.throwing w.store v w1.store ∧ steps D ρ m ⟨after v, k, w1⟩ = .done u w' := by
  have fine : ∀ {m : Nat} {c : Conf V} {xs : List Nat} {P : Prop}, steps D ρ m c = .done u w' →
      (P ∨ ∃ x ∈ xs, c.w.broken (D.K (ρ x)) (.user x)) → P := by
    rintro m c xs P h (hp | ⟨x, -, hx⟩)
    · exact hp
    · exact absurd ((C63_no_way_out m c hx).1 w' (by rw [h]; rfl)) (hnb x)
  induction n using Nat.strongRecOn with
  | _ n ih =>
    intro s k w hg h
    cases s with
    | cmd c =>
      by_cases hv : c.valid D ρ w = true
      · cases hc : c.code D ρ w with
        | ok a w1 =>
          obtain ⟨m, rfl, h1⟩ := steps_conf h (c' := ⟨.ret, k, w1⟩) (by simp only [Plain.onVariants, step]; rw [if_pos hv, hc])
          obtain ⟨hg1, hd⟩ := fine h1 (mix_done_refines hl hb hD hL hg c hv hc)
          exact ⟨false, w1, m, by omega, hg1, .done ((mix_valid_iff hg c).mp hv) hd, h1⟩
        | exc e w1 =>
          obtain ⟨m, rfl, h1⟩ := steps_conf h (c' := ⟨.unwind, k, w1⟩) (by simp only [Plain.onVariants, step]; rw [if_pos hv, hc])
          obtain ⟨hg1, hd, ht⟩ := fine h1 (mix_failed_refines hl hb hD hL hg c hv hc)
          exact ⟨true, w1, m, by omega, hg1, .failed ⟨_, ht⟩ ((mix_valid_iff hg c).mp hv) hd, h1⟩
        | fault f =>
          cases n with
          | zero => cases h
          | succ m => simp only [Plain.onVariants, steps, step] at h; rw [if_pos hv, hc] at h; cases h
      · obtain ⟨m, rfl, h1⟩ := steps_conf h (c' := ⟨.ret, k, w⟩) (by simp only [Plain.onVariants, step]; rw [if_neg hv])
        exact ⟨false, w, m, by omega, hg, .skipped (fun hi => hv ((mix_valid_iff hg c).mpr hi)), h1⟩
    | skip =>
      obtain ⟨m, rfl, h1⟩ := steps_conf h (c' := ⟨.ret, k, w⟩) rfl
      exact ⟨false, w, m, by omega, hg, .skip, h1⟩
    | raise =>
      obtain ⟨m, rfl, h1⟩ := steps_conf h (c' := ⟨.unwind, k, w⟩) rfl
      exact ⟨true, w, m, by omega, hg, .raise, h1⟩
    | seq s t =>
      obtain ⟨m, rfl, h1⟩ := steps_conf h (c' := ⟨.run s.onVariants, .next t.onVariants :: k, w⟩) rfl
      obtain ⟨v, w1, m1, hm1, hg1, hr1, h2⟩ := ih m (by omega) s _ w hg h1
      cases v with
      | true =>
        obtain ⟨m2, rfl, h3⟩ := steps_conf h2 (c' := ⟨.unwind, k, w1⟩) rfl
        exact ⟨true, w1, m2, by omega, hg1, .seqThrows hr1, h3⟩
      | false =>
        obtain ⟨m2, rfl, h3⟩ := steps_conf h2 (c' := ⟨.run t.onVariants, k, w1⟩) rfl
        obtain ⟨v, w2, m3, hm3, hg2, hr2, h4⟩ := ih m2 (by omega) t k w1 hg1 h3
        exact ⟨v, w2, m3, by omega, hg2, .seq hr1 hr2, h4⟩
    | cond b s t =>
      cases hbw : b w.store with
      | none =>
        obtain ⟨m, rfl, h1⟩ := steps_conf h (c' := ⟨.unwind, k, w⟩) (by simp only [Plain.onVariants, step, hbw])
        exact ⟨true, w, m, by omega, hg, .condThrows hbw, h1⟩
      | some r =>
        cases r with
        | true =>
          obtain ⟨m, rfl, h1⟩ := steps_conf h (c' := ⟨.run s.onVariants, k, w⟩) (by simp only [Plain.onVariants, step, hbw])
          obtain ⟨v, w1, m1, hm1, hg1, hr1, h2⟩ := ih m (by omega) s _ w hg h1
          exact ⟨v, w1, m1, by omega, hg1, .condTrue hbw hr1, h2⟩
        | false =>
          obtain ⟨m, rfl, h1⟩ := steps_conf h (c' := ⟨.run t.onVariants, k, w⟩) (by simp only [Plain.onVariants, step, hbw])
          obtain ⟨v, w1, m1, hm1, hg1, hr1, h2⟩ := ih m (by omega) t _ w hg h1
          exact ⟨v, w1, m1, by omega, hg1, .condFalse hbw hr1, h2⟩
    | loop b s =>
      cases hbw : b w.store with
      | none =>
        obtain ⟨m, rfl, h1⟩ := steps_conf h (c' := ⟨.unwind, k, w⟩) (by simp only [Plain.onVariants, step, hbw])
        exact ⟨true, w, m, by omega, hg, .loopThrows hbw, h1⟩
      | some r =>
        cases r with
        | true =>
          obtain ⟨m, rfl, h1⟩ := steps_conf h (c' := ⟨.run s.onVariants, .next (Plain.loop b s).onVariants :: k, w⟩)
            (by simp only [Plain.onVariants, step, hbw])
          obtain ⟨v, w1, m1, hm1, hg1, hr1, h2⟩ := ih m (by omega) s _ w hg h1
          cases v with
          | true =>
            obtain ⟨m2, rfl, h3⟩ := steps_conf h2 (c' := ⟨.unwind, k, w1⟩) rfl
            exact ⟨true, w1, m2, by omega, hg1, .loopLeft hbw hr1, h3⟩
          | false =>
            obtain ⟨m2, rfl, h3⟩ := steps_conf h2 (c' := ⟨.run (Plain.loop b s).onVariants, k, w1⟩) rfl
            obtain ⟨v, w2, m3, hm3, hg2, hr2, h4⟩ := ih m2 (by omega) (.loop b s) k w1 hg1 h3
            exact ⟨v, w2, m3, by omega, hg2, .loopGoesOn hbw hr1 hr2, h4⟩
        | false =>
          obtain ⟨m, rfl, h1⟩ := steps_conf h (c' := ⟨.ret, k, w⟩) (by simp only [Plain.onVariants, step, hbw])
          exact ⟨false, w, m, by omega, hg, .loopEnds hbw, h1⟩
    | guarded s t =>
      obtain ⟨m, rfl, h1⟩ := steps_conf h (c' := ⟨.run s.onVariants, .handler t.onVariants :: k, w⟩) rfl
      obtain ⟨v, w1, m1, hm1, hg1, hr1, h2⟩ := ih m (by omega) s _ w hg h1
      cases v with
      | false =>
        obtain ⟨m2, rfl, h3⟩ := steps_conf h2 (c' := ⟨.ret, k, w1⟩) rfl
        exact ⟨false, w1, m2, by omega, hg1, .guarded hr1, h3⟩
      | true =>
        obtain ⟨m2, rfl, h3⟩ := steps_conf h2 (c' := ⟨.run t.onVariants, k, w1⟩) rfl
        obtain ⟨v, w2, m3, hm3, hg2, hr2, h4⟩ := ih m2 (by omega) t k w1 hg1 h3
        exact ⟨v, w2, m3, by omega, hg2, .handled hr1 hr2, h4⟩
    | scope x s =>
      obtain ⟨m, rfl, h1⟩ := steps_conf h (c' := ⟨.run s.onVariants, .ends x :: k, w⟩) rfl
      obtain ⟨v, w1, m1, hm1, hg1, hr1, h2⟩ := ih m (by omega) s _ w hg h1
      obtain ⟨w2, e1, e2, e3⟩ := endScope_store hb hD hg1 x (after v) k
      obtain ⟨m2, rfl, h3⟩ := steps_conf h2 (c' := ⟨after v, k, w2⟩) (by cases v <;> exact e1)
      exact ⟨v, w2, m2, by omega, e2, e3 ▸ .scope hr1, h3⟩

/-- C64, programs: in any configuration, whatever throws, if a program with branches, loops, handlers and scopes over variables of any number
of variant types comes to its end, in any number of steps, then the same program over plain values can come to the same
end, with the same contents of all variables, where nothing throws but statements on the variant types with operations that do; or a variable is
broken at the end. -/
theorem C64_program (hl : ∀ vt, (D.K vt).ops.Lawful) (hb : ∀ vt, BlankOk (D.K vt)) (hD : D.Fits) (hL : D.L.Lawful)
    (P : Plain V) (n : Nat) {u : Bool} (h : steps D ρ n (P.onVariants.start (World.init V)) = .done u w') :
    (P.Runs D ρ D.throwing (fun _ => none) u w'.store ∧ Owned w' ∧ ∀ x, w'.vars (.user x) ≠ none → NonEmpty (D.K (ρ x)) w' (.user x)) ∨
      ∃ x, w'.broken (D.K (ρ x)) (.user x) := by
  by_cases hnb : ∃ x, w'.broken (D.K (ρ x)) (.user x)
  · exact .inr hnb
  · obtain ⟨v, w1, m, -, hg1, hr, h1⟩ := plain_runs hl hb hD hL (fun x hx => hnb ⟨x, hx⟩) n P [] (World.init V) goodMix_init h
    cases m with
    | zero => cases h1
    | succ m =>
      have : steps D ρ (m + 1) ⟨after v, [], w1⟩ = .done v w1 := by cases v <;> rfl
      rw [this] at h1
      cases h1
      exact .inl ⟨hr, hg1.owned, fun x hx => hg1.nonEmpty hx⟩

/-- C64, scopes: so if all variables are declared in scopes, every execution without undefined behaviour that ends is one of the program over
plain values. -/
theorem C64_scoped_program (hl : ∀ vt, (D.K vt).ops.Lawful) (hb : ∀ vt, BlankOk (D.K vt)) (hD : D.Fits) (hL : D.L.Lawful)
    (P : Plain V) (hsc : P.onVariants.scoped []) (n : Nat) {u : Bool} (h : steps D ρ n (P.onVariants.start (World.init V)) = .done u w') :
    P.Runs D ρ D.throwing (fun _ => none) u fun _ => none := by
  have hd := C63_scoped_program hb hD P.onVariants hsc h
  rcases C64_program hl hb hD hL P n h with ⟨h1, -⟩ | ⟨x, s, hs, -⟩
  · have : w'.store = fun _ => none := by
      funext x
      have := hd.2.1 (.user x)
      simp [World.store, World.content, this]
    exact this ▸ h1
  · rw [hd.2.1 (.user x)] at hs; cases hs

/-! ### Programs on their way -/

@[inherit_doc Plain.onVariants]
def PFrame.onVariants : PFrame V → Frame V
  | .next s => .next s.onVariants
  | .handler h => .handler h.onVariants
  | .ends x => .ends x

@[inherit_doc Plain.onVariants]
def PCtl.onVariants : PCtl V → Ctl V
  | .run s => .run s.onVariants
  | .ret => .ret
  | .unwind => .unwind

/-- The plain program is where the program over variants is, with the same contents of all variables. -/
structure PConf.At (p : PConf V) (c : Conf V) : Prop where
  ctl : c.ctl = p.ctl.onVariants
  stack : c.stack = p.stack.map PFrame.onVariants
  store : c.w.store = p.store

theorem plain_step (hl : ∀ vt, (D.K vt).ops.Lawful) (hb : ∀ vt, BlankOk (D.K vt)) (hD : D.Fits) (hL : D.L.Lawful)
    {c c' : Conf V} {p : PConf V} (hg : GoodMix D.K ρ c.w) (hp : p.At c) (h : step D ρ c = .conf c') :
    (GoodMix D.K ρ c'.w ∧ ∃ q : PConf V, PConf.Step D ρ D.throwing p q ∧ q.At c') ∨ ∃ x, c'.w.broken (D.K (ρ x)) (.user x) := by
  obtain ⟨pt, pk, σ⟩ := p
  obtain ⟨t, k, w⟩ := c
  obtain ⟨h1, h2, h3⟩ := hp
  simp only at h1 h2 h3
  subst h1 h2 h3
  have go : ∀ {q : PConf V} {c1 : Conf V}, step D ρ ⟨pt.onVariants, pk.map PFrame.onVariants, w⟩ = .conf c1 → c1.w = w →
      PConf.Step D ρ D.throwing ⟨pt, pk, w.store⟩ q → q.At c1 →
      (GoodMix D.K ρ c'.w ∧ ∃ q : PConf V, PConf.Step D ρ D.throwing ⟨pt, pk, w.store⟩ q ∧ q.At c') ∨
        ∃ x, c'.w.broken (D.K (ρ x)) (.user x) := by
    intro q c1 h1 hw h2 h3
    have := h.symm.trans h1
    cases this
    exact .inl ⟨hw ▸ hg, q, h2, h3⟩
  have ends : ∀ {x : Nat} {k : List (PFrame V)} (t : PCtl V), step D ρ ⟨pt.onVariants, pk.map PFrame.onVariants, w⟩ =
        endScope D ρ x t.onVariants (k.map PFrame.onVariants) w →
      PConf.Step D ρ D.throwing ⟨pt, pk, w.store⟩ ⟨t, k, upd w.store x none⟩ →
      (GoodMix D.K ρ c'.w ∧ ∃ q : PConf V, PConf.Step D ρ D.throwing ⟨pt, pk, w.store⟩ q ∧ q.At c') ∨
        ∃ x, c'.w.broken (D.K (ρ x)) (.user x) := by
    intro x k t h1 h2
    obtain ⟨w2, e1, e2, e3⟩ := endScope_store hb hD hg x t.onVariants (k.map PFrame.onVariants)
    have := h.symm.trans (h1.trans e1)
    cases this
    exact .inl ⟨e2, _, h2, rfl, rfl, e3⟩
  cases pt with
  | run s =>
    cases s with
    | cmd m =>
      by_cases hv : m.valid D ρ w = true
      · have hv' := (mix_valid_iff hg m).mp hv
        simp only [PCtl.onVariants, Plain.onVariants, step] at h
        rw [if_pos hv] at h
        cases hc : m.code D ρ w with
        | ok a w1 =>
          rw [hc] at h; cases h
          rcases mix_done_refines hl hb hD hL hg m hv hc with ⟨h1, h2⟩ | ⟨x, -, hx⟩
          · exact .inl ⟨h1, _, .done hv' h2, rfl, rfl, rfl⟩
          · exact .inr ⟨x, hx⟩
        | exc e w1 =>
          rw [hc] at h; cases h
          rcases mix_failed_refines hl hb hD hL hg m hv hc with ⟨h1, h2, h3⟩ | ⟨x, -, hx⟩
          · exact .inl ⟨h1, _, .failed ⟨_, h3⟩ hv' h2, rfl, rfl, rfl⟩
          · exact .inr ⟨x, hx⟩
        | fault f => rw [hc] at h; cases h
      · refine go (c1 := ⟨.ret, pk.map PFrame.onVariants, w⟩) ?_ rfl (.skipped fun hi => hv ((mix_valid_iff hg m).mpr hi)) ⟨rfl, rfl, rfl⟩
        simp only [PCtl.onVariants, Plain.onVariants, step]; rw [if_neg hv]
    | skip => exact go (c1 := ⟨.ret, _, _⟩) rfl rfl .skip ⟨rfl, rfl, rfl⟩
    | raise => exact go (c1 := ⟨.unwind, _, _⟩) rfl rfl .raise ⟨rfl, rfl, rfl⟩
    | seq s t => exact go (c1 := ⟨.run s.onVariants, .next t.onVariants :: _, _⟩) rfl rfl .seq ⟨rfl, rfl, rfl⟩
    | cond b s t =>
      cases hbw : b w.store with
      | none =>
        exact go (c1 := ⟨.unwind, _, _⟩) (by simp only [PCtl.onVariants, Plain.onVariants, step, hbw]) rfl (.condThrows hbw) ⟨rfl, rfl, rfl⟩
      | some r =>
        cases r with
        | true =>
          exact go (c1 := ⟨.run s.onVariants, _, _⟩) (by simp only [PCtl.onVariants, Plain.onVariants, step, hbw]) rfl (.condTrue hbw) ⟨rfl, rfl, rfl⟩
        | false =>
          exact go (c1 := ⟨.run t.onVariants, _, _⟩) (by simp only [PCtl.onVariants, Plain.onVariants, step, hbw]) rfl (.condFalse hbw) ⟨rfl, rfl, rfl⟩
    | loop b s =>
      cases hbw : b w.store with
      | none =>
        exact go (c1 := ⟨.unwind, _, _⟩) (by simp only [PCtl.onVariants, Plain.onVariants, step, hbw]) rfl (.loopThrows hbw) ⟨rfl, rfl, rfl⟩
      | some r =>
        cases r with
        | true =>
          exact go (c1 := ⟨.run s.onVariants, .next (Plain.loop b s).onVariants :: _, _⟩)
            (by simp only [PCtl.onVariants, Plain.onVariants, step, hbw]) rfl (.loopTrue hbw) ⟨rfl, rfl, rfl⟩
        | false =>
          exact go (c1 := ⟨.ret, _, _⟩) (by simp only [PCtl.onVariants, Plain.onVariants, step, hbw]) rfl (.loopFalse hbw) ⟨rfl, rfl, rfl⟩
    | guarded s t => exact go (c1 := ⟨.run s.onVariants, .handler t.onVariants :: _, _⟩) rfl rfl .guarded ⟨rfl, rfl, rfl⟩
    | scope x s => exact go (c1 := ⟨.run s.onVariants, .ends x :: _, _⟩) rfl rfl .scope ⟨rfl, rfl, rfl⟩
  | ret =>
    cases pk with
    | nil => cases h
    | cons f pk =>
      cases f with
      | next s => exact go (c1 := ⟨.run s.onVariants, _, _⟩) rfl rfl .next ⟨rfl, rfl, rfl⟩
      | handler s => exact go (c1 := ⟨.ret, _, _⟩) rfl rfl .notHandled ⟨rfl, rfl, rfl⟩
      | ends x => exact ends .ret rfl .ends
  | unwind =>
    cases pk with
    | nil => cases h
    | cons f pk =>
      cases f with
      | next s => exact go (c1 := ⟨.unwind, _, _⟩) rfl rfl .skipNext ⟨rfl, rfl, rfl⟩
      | handler s => exact go (c1 := ⟨.run s.onVariants, _, _⟩) rfl rfl .handled ⟨rfl, rfl, rfl⟩
      | ends x => exact ends .unwind rfl .endsUnwind

theorem steps_succ (D : Decls V) (ρ : Nat → Nat) (n : Nat) (c : Conf V) : steps D ρ (n + 1) c =
    match steps D ρ n c with
    | .conf c' => step D ρ c'
    | r => r := by
  induction n generalizing c with
  | zero => simp only [steps]; cases step D ρ c <;> rfl
  | succ n ih =>
    rw [steps]
    cases h : step D ρ c with
    | conf c' => simp only [steps, h]; rw [← ih c', steps]
    | done u w => simp only [steps, h]
    | fault f => simp only [steps, h]

/-- C64, on the way: in any configuration, after any number of steps of any program, ending or not, in whatever it is about to do, the plain
program can be at the same place, after as many steps, with the same contents of all variables; or a variable is broken. -/
theorem C64_every_state (hl : ∀ vt, (D.K vt).ops.Lawful) (hb : ∀ vt, BlankOk (D.K vt)) (hD : D.Fits) (hL : D.L.Lawful)
    (P : Plain V) (n : Nat) {c : Conf V} (h : steps D ρ n (P.onVariants.start (World.init V)) = .conf c) :
    (∃ p : PConf V, PConf.Steps D ρ D.throwing n ⟨.run P, [], fun _ => none⟩ p ∧ p.At c) ∨ ∃ x, c.w.broken (D.K (ρ x)) (.user x) := by
  have key : (GoodMix D.K ρ c.w ∧ ∃ p : PConf V, PConf.Steps D ρ D.throwing n ⟨.run P, [], fun _ => none⟩ p ∧ p.At c) ∨
      ∃ x, c.w.broken (D.K (ρ x)) (.user x) := by
    induction n generalizing c with
    | zero => cases h; exact .inl ⟨goodMix_init, _, .none, rfl, rfl, rfl⟩
    | succ n ih =>
      rw [steps_succ] at h
      cases h1 : steps D ρ n (P.onVariants.start (World.init V)) with
      | conf c1 =>
        rw [h1] at h
        rcases ih h1 with ⟨hg, p, hp, hat⟩ | ⟨x, hx⟩
        · rcases plain_step hl hb hD hL hg hat h with ⟨h2, q, h3, h4⟩ | h2
          · exact .inl ⟨h2, q, .more hp h3, h4⟩
          · exact .inr h2
        · exact .inr ⟨x, ((step_broken hx).1 c h).1⟩
      | done u w => rw [h1] at h; cases h
      | fault f => rw [h1] at h; cases h
  rcases key with ⟨-, h⟩ | h
  · exact .inl h
  · exact .inr h

/-! ### Configurations -/

/-- The plain program without exceptions and moves has one outcome. -/
theorem MixCmd.doneBy_unique {σ σ₁ σ₂ : Store V} (m : MixCmd V) (hm : m.movesNothing) (h1 : m.doneBy D ρ σ σ₁) (h2 : m.doneBy D ρ σ σ₂) :
    σ₁ = σ₂ := by
  cases m with
  | on vt c =>
    cases c with
    | constructGet rv x y | assignGet rv x y =>
      cases rv with
      | true => exact hm.elim
      | false => exact (show σ₁ = _ from h1).trans (show σ₂ = _ from h2).symm
    | moveConstruct x y | moveAssign x y => exact hm.elim
    | mutate x v =>
      obtain ⟨k, v0, e1, rfl⟩ := h1
      obtain ⟨k', v0', e2, rfl⟩ := h2
      rw [e1] at e2; cases e2; rfl
    | _ => exact (show σ₁ = _ from h1).trans (show σ₂ = _ from h2).symm
  | constructFrom rv const x y | assignFrom rv const x y =>
    obtain rfl : rv = false := hm
    obtain ⟨j, v, o, q, e1, e2, e3, rfl⟩ := h1
    obtain ⟨j', v', o', q', f1, f2, f3, rfl⟩ := h2
    rw [e1] at f1; cases f1
    rw [e2] at f2; cases f2
    rw [e3 rfl, f3 rfl]

theorem Plain.runs_unique {s : Plain V} {σ σ₁ σ₂ : Store V} {u₁ u₂ : Bool} (hm : s.movesNothing) (h1 : s.Runs D ρ (fun _ => False) σ u₁ σ₁)
    (h2 : s.Runs D ρ (fun _ => False) σ u₂ σ₂) : u₁ = u₂ ∧ σ₁ = σ₂ := by
  induction h1 generalizing u₂ σ₂ with
  | skipped hv => cases h2 with
    | skipped => exact ⟨rfl, rfl⟩
    | done hv' => exact absurd hv' hv
    | failed hf => exact hf.elim
  | done hv hd => cases h2 with
    | skipped hv' => exact absurd hv hv'
    | done _ hd' => exact ⟨rfl, MixCmd.doneBy_unique _ hm hd hd'⟩
    | failed hf => exact hf.elim
  | failed hf => exact hf.elim
  | skip => cases h2; exact ⟨rfl, rfl⟩
  | raise => cases h2; exact ⟨rfl, rfl⟩
  | seq _ _ ih1 ih2 => cases h2 with
    | seq a b => obtain ⟨-, rfl⟩ := ih1 hm.1 a; exact ih2 hm.2 b
    | seqThrows a => exact absurd (ih1 hm.1 a).1 (by simp)
  | seqThrows _ ih => cases h2 with
    | seq a b => exact absurd (ih hm.1 a).1 (by simp)
    | seqThrows a => exact ih hm.1 a
  | condTrue hb _ ih => cases h2 with
    | condTrue _ a => exact ih hm.1 a
    | condFalse hb' => rw [hb] at hb'; cases hb'
    | condThrows hb' => rw [hb] at hb'; cases hb'
  | condFalse hb _ ih => cases h2 with
    | condTrue hb' => rw [hb] at hb'; cases hb'
    | condFalse _ a => exact ih hm.2 a
    | condThrows hb' => rw [hb] at hb'; cases hb'
  | condThrows hb => cases h2 with
    | condTrue hb' => rw [hb] at hb'; cases hb'
    | condFalse hb' => rw [hb] at hb'; cases hb'
    | condThrows => exact ⟨rfl, rfl⟩
  | loopEnds hb => cases h2 with
    | loopEnds => exact ⟨rfl, rfl⟩
    | loopThrows hb' => rw [hb] at hb'; cases hb'
    | loopGoesOn hb' => rw [hb] at hb'; cases hb'
    | loopLeft hb' => rw [hb] at hb'; cases hb'
  | loopThrows hb => cases h2 with
    | loopEnds hb' => rw [hb] at hb'; cases hb'
    | loopThrows => exact ⟨rfl, rfl⟩
    | loopGoesOn hb' => rw [hb] at hb'; cases hb'
    | loopLeft hb' => rw [hb] at hb'; cases hb'
  | loopGoesOn hb _ _ ih1 ih2 => cases h2 with
    | loopEnds hb' => rw [hb] at hb'; cases hb'
    | loopThrows hb' => rw [hb] at hb'; cases hb'
    | loopGoesOn _ a b => obtain ⟨-, rfl⟩ := ih1 hm a; exact ih2 hm b
    | loopLeft _ a => exact absurd (ih1 hm a).1 (by simp)
  | loopLeft hb _ ih => cases h2 with
    | loopEnds hb' => rw [hb] at hb'; cases hb'
    | loopThrows hb' => rw [hb] at hb'; cases hb'
    | loopGoesOn _ a b => exact absurd (ih hm a).1 (by simp)
    | loopLeft _ a => exact ih hm a
  | guarded _ ih => cases h2 with
    | guarded a => exact ih hm.1 a
    | handled a => exact absurd (ih hm.1 a).1 (by simp)
  | handled _ _ ih1 ih2 => cases h2 with
    | guarded a => exact absurd (ih1 hm.1 a).1 (by simp)
    | handled a b => obtain ⟨-, rfl⟩ := ih1 hm.1 a; exact ih2 hm.2 b
  | scope _ ih => cases h2 with
    | scope a => obtain ⟨rfl, rfl⟩ := ih hm a; exact ⟨rfl, rfl⟩

theorem Plain.Runs.transfer {D' : Decls V} (hDD : D.SameTypes D') (hD : D.Fits) (hD' : D'.Fits) {s : Plain V} {σ σ' : Store V} {u : Bool}
    (h : s.Runs D ρ (fun _ => False) σ u σ') : s.Runs D' ρ (fun _ => False) σ u σ' := by
  have hn : ∀ vt, (D.K vt).n = (D'.K vt).n := fun vt => by rw [hD vt, hD' vt, hDD.cls]
  have hf : ∀ rv const x y, D.between ρ rv const x y = D'.between ρ rv const x y := fun rv const x y => by
    simp only [Decls.between, Decls.foreign, hDD.L, hDD.cls]
  have hv : ∀ (c : MixCmd V) (σ : Store V), c.validIn D ρ σ ↔ c.validIn D' ρ σ := by
    intro c σ
    cases c with
    | on vt c => cases c <;> simp only [MixCmd.validIn, Cmd.validIn, hn]
    | constructFrom rv const x y | assignFrom rv const x y => simp only [MixCmd.validIn, hf]
  have hd : ∀ (c : MixCmd V) (σ σ' : Store V), c.doneBy D ρ σ σ' → c.doneBy D' ρ σ σ' := by
    intro c σ σ' h
    cases c with
    | on vt c =>
      cases c with
      | defaultConstruct x => exact (show σ' = _ from h).trans (by rw [hDD.init vt])
      | constructGet rv x y | assignGet rv x y => cases rv <;> exact h
      | _ => exact h
    | constructFrom rv const x y | assignFrom rv const x y => simpa only [MixCmd.doneBy, hf, hDD.cv] using h
  induction h with
  | skipped h => exact .skipped (fun h' => h ((hv _ _).mpr h'))
  | done h1 h2 => exact .done ((hv _ _).mp h1) (hd _ _ _ h2)
  | failed h => exact h.elim
  | skip => exact .skip
  | raise => exact .raise
  | seq _ _ a b => exact .seq a b
  | seqThrows _ a => exact .seqThrows a
  | condTrue h _ a => exact .condTrue h a
  | condFalse h _ a => exact .condFalse h a
  | condThrows h => exact .condThrows h
  | loopEnds h => exact .loopEnds h
  | loopThrows h => exact .loopThrows h
  | loopGoesOn h _ _ a b => exact .loopGoesOn h a b
  | loopLeft h _ a => exact .loopLeft h a
  | guarded _ a => exact .guarded a
  | handled _ _ a b => exact .handled a b
  | scope _ a => exact .scope a

theorem Plain.Runs.weaken {P Q : Nat → Prop} (hPQ : ∀ vt, P vt → Q vt) {s : Plain V} {σ σ' : Store V} {u : Bool} (h : s.Runs D ρ P σ u σ') :
    s.Runs D ρ Q σ u σ' := by
  induction h with
  | skipped h => exact .skipped h
  | done h1 h2 => exact .done h1 h2
  | failed h a b => exact .failed (hPQ _ h) a b
  | skip => exact .skip
  | raise => exact .raise
  | seq _ _ a b => exact .seq a b
  | seqThrows _ a => exact .seqThrows a
  | condTrue h _ a => exact .condTrue h a
  | condFalse h _ a => exact .condFalse h a
  | condThrows h => exact .condThrows h
  | loopEnds h => exact .loopEnds h
  | loopThrows h => exact .loopThrows h
  | loopGoesOn h _ _ a b => exact .loopGoesOn h a b
  | loopLeft h _ a => exact .loopLeft h a
  | guarded _ a => exact .guarded a
  | handled _ _ a b => exact .handled a b
  | scope _ a => exact .scope a

theorem PConf.Steps.weaken {P Q : Nat → Prop} (hPQ : ∀ vt, P vt → Q vt) {n : Nat} {p q : PConf V} (h : PConf.Steps D ρ P n p q) :
    PConf.Steps D ρ Q n p q := by
  induction h with
  | none => exact .none
  | more _ h ih =>
    refine .more ih ?_
    cases h with
    | failed h a b => exact .failed (hPQ _ h) a b
    | skipped h => exact .skipped h
    | done h1 h2 => exact .done h1 h2
    | condTrue h => exact .condTrue h
    | condFalse h => exact .condFalse h
    | condThrows h => exact .condThrows h
    | loopTrue h => exact .loopTrue h
    | loopFalse h => exact .loopFalse h
    | loopThrows h => exact .loopThrows h
    | _ => constructor

/-- A step, if nothing throws. -/
theorem step_quiet (hb : ∀ vt, BlankOk (D.K vt)) (hD : D.Fits) (ht : ∀ vt t, (D.K vt).throws t = false) {c : Conf V} (hg : GoodMix D.K ρ c.w)
    (ha : AllInPlace c.w) : (∃ c', step D ρ c = .conf c' ∧ GoodMix D.K ρ c'.w ∧ AllInPlace c'.w) ∨ ∃ u, step D ρ c = .done u c.w := by
  rcases step_cases D ρ c with ⟨t, k, h, -⟩ | ⟨-, u, h⟩ | ⟨y, t, k, -, -, h⟩ | ⟨m, -, hv, h⟩ <;> rw [h]
  · exact .inl ⟨_, rfl, hg, ha⟩
  · exact .inr ⟨u, rfl⟩
  · obtain ⟨w', e1, e2, e3, e4⟩ := endScope_gen (x := y) hb hD hg t k
    refine .inl ⟨_, e1, e2, fun z s hs => ?_⟩
    cases z with
    | tmp n => rw [show w'.vars (.tmp n) = none from e2.noTmp n] at hs; cases hs
    | user z =>
      by_cases hz : z = y
      · subst hz; rw [show w'.vars (.user z) = none from e3] at hs; cases hs
      · exact ha _ _ ((e4 z (by simpa using hz)).1 ▸ hs)
  · obtain ⟨a, w', e1, e2, e3⟩ := mix_quiet hb hD ht hg ha m hv
    rw [e1]
    exact .inl ⟨_, rfl, e2, e3⟩

theorem steps_quiet (hb : ∀ vt, BlankOk (D.K vt)) (hD : D.Fits) (ht : ∀ vt t, (D.K vt).throws t = false) (n : Nat) (c : Conf V)
    (hg : GoodMix D.K ρ c.w) (ha : AllInPlace c.w) :
    ∃ w', (steps D ρ n c).world = some w' ∧ GoodMix D.K ρ w' ∧ AllInPlace w' := by
  induction n generalizing c with
  | zero => exact ⟨c.w, rfl, hg, ha⟩
  | succ n ih =>
    rcases step_quiet hb hD ht hg ha with ⟨c', h, h1, h2⟩ | ⟨u, h⟩
    · simp only [steps, h]; exact ih c' h1 h2
    · simp only [steps, h]; exact ⟨_, rfl, hg, ha⟩

theorem init_inPlace : AllInPlace (World.init V) := fun _ _ h => by cases h

/-- C64, no exceptions: if no operation of the elements throws, then no program has undefined behaviour, in any configuration, assertions on
or off: after any number of steps it is where the plain program can be after as many, or has come to the end that the plain program comes to, with the same
contents of all variables, which are all held in the storage of their variants. -/
theorem C64_no_exceptions (hl : ∀ vt, (D.K vt).ops.Lawful) (hb : ∀ vt, BlankOk (D.K vt)) (hD : D.Fits) (hL : D.L.Lawful)
    (ht : ∀ vt t, (D.K vt).throws t = false) (P : Plain V) (n : Nat) :
    (∃ c, steps D ρ n (P.onVariants.start (World.init V)) = .conf c ∧ AllInPlace c.w ∧
      ∃ p : PConf V, PConf.Steps D ρ (fun _ => False) n ⟨.run P, [], fun _ => none⟩ p ∧ p.At c) ∨
    (∃ u w', steps D ρ n (P.onVariants.start (World.init V)) = .done u w' ∧ AllInPlace w' ∧
      P.Runs D ρ (fun _ => False) (fun _ => none) u w'.store) := by
  have no : ∀ vt, D.throwing vt → False := fun vt ⟨t, h⟩ => by rw [ht vt t] at h; cases h
  obtain ⟨w', h1, h2, h3⟩ := steps_quiet hb hD ht n (P.onVariants.start (World.init V)) goodMix_init init_inPlace
  cases h : steps D ρ n (P.onVariants.start (World.init V)) with
  | conf c =>
    rw [h] at h1; cases h1
    rcases C64_every_state hl hb hD hL P n h with ⟨p, h4, h5⟩ | ⟨x, hx⟩
    · exact .inl ⟨c, rfl, h3, p, h4.weaken no, h5⟩
    · exact absurd hx (h2.not_broken x)
  | done u w1 =>
    rw [h] at h1; cases h1
    rcases C64_program hl hb hD hL P n h with ⟨h4, -⟩ | ⟨x, hx⟩
    · exact .inr ⟨u, w', rfl, h3, h4.weaken no⟩
    · exact absurd hx (h2.not_broken x)
  | fault f => rw [h] at h1; cases h1

/-- C64, configurations: what a program that moves nothing does, if no operation of the elements throws, does not depend on what these
operations promise, on fallback types, on assertions or on the unrolling of the dispatch: two configurations in which it ends lead to the same end and the
same contents of all variables. -/
theorem C64_configurations {D' : Decls V} {w₁ w₂ : World V} {u₁ u₂ : Bool} (hl : ∀ vt, (D.K vt).ops.Lawful) (hl' : ∀ vt, (D'.K vt).ops.Lawful)
    (hb : ∀ vt, BlankOk (D.K vt)) (hb' : ∀ vt, BlankOk (D'.K vt)) (hD : D.Fits) (hD' : D'.Fits) (hL : D.L.Lawful) (hDD : D.SameTypes D')
    (ht : ∀ vt t, (D.K vt).throws t = false) (ht' : ∀ vt t, (D'.K vt).throws t = false) (P : Plain V) (hm : P.movesNothing) (n₁ n₂ : Nat)
    (h₁ : steps D ρ n₁ (P.onVariants.start (World.init V)) = .done u₁ w₁)
    (h₂ : steps D' ρ n₂ (P.onVariants.start (World.init V)) = .done u₂ w₂) : u₁ = u₂ ∧ w₁.store = w₂.store := by
  rcases C64_no_exceptions hl hb hD hL ht P n₁ with ⟨c, h, -⟩ | ⟨u, w, h, -, a⟩ <;> rw [h₁] at h <;> cases h
  rcases C64_no_exceptions hl' hb' hD' (hDD.L ▸ hL) ht' P n₂ with ⟨c, h, -⟩ | ⟨u, w, h, -, b⟩ <;> rw [h₂] at h <;> cases h
  exact Plain.runs_unique (D := D') hm (a.transfer hDD hD hD') b

end

/-! ### Examples -/

/-- With the variant types of Props/Broken.lean, findings F2 and F10 included: a loop and handlers. The operations number 6 and 18
throw. -/
def exPlainP : Plain Nat :=
  .scope 0 (.scope 1 (.scope 2 (.seq (.cmd (.on 0 (.constructC 0 0 5))) (.seq (.cmd (.on 0 (.copyConstruct 1 0)))
    (.seq (.loop (fun σ => some (decide (σ 0 ≠ some (0, 8)))) (.cmd (.on 0 (.mutate 0 8))))
      (.seq (.guarded (.cmd (.on 0 (.copyAssign 1 0))) (.cmd (.on 1 (.constructC 2 0 3))))
        (.seq (.guarded (.cmd (.on 1 (.constructL 2 1 4))) .skip) (.seq (.cmd (.on 0 (.copyAssign 0 1)))
          (.seq (.guarded (.cmd (.on 1 (.assignC 2 1 3))) (.cmd (.on 0 (.mutate 1 6))))
            (.cond (fun σ => (σ 2).map fun p => decide (p.2 = 4)) .raise .skip))))))))))

theorem exPlainP_scoped : exPlainP.onVariants.scoped [] := by
  simp [exPlainP, Plain.onVariants, Stm.scoped, MixCmd.names, Cmd.names]

theorem exBadDecls_lawful (vt : Nat) : (exBadDecls.K vt).ops.Lawful := natOps_lawful

/-- It comes to its end, by the exception at its end. -/
example : (match steps exBadDecls exBadR 60 (exPlainP.onVariants.start (World.init Nat)) with | .done u _ => u | _ => false) = true := by
  decide +kernel

example {u : Bool} {w : World Nat} (h : steps exBadDecls exBadR 60 (exPlainP.onVariants.start (World.init Nat)) = .done u w) :=
  C64_scoped_program exBadDecls_lawful exBadK_blank exBadDecls_fits exLang_lawful exPlainP exPlainP_scoped 60 h
example {u : Bool} {w : World Nat} (h : steps exBadDecls exBadR 60 (exPlainP.onVariants.start (World.init Nat)) = .done u w) :=
  C64_program exBadDecls_lawful exBadK_blank exBadDecls_fits exLang_lawful exPlainP 60 h
example {c : Conf Nat} (h : steps exBadDecls exBadR 20 (exPlainP.onVariants.start (World.init Nat)) = .conf c) :=
  C64_every_state exBadDecls_lawful exBadK_blank exBadDecls_fits exLang_lawful exPlainP 20 h
example := C64_statement (w' := World.init Nat) (ρ := exBadR) exBadDecls_lawful exBadK_blank exBadDecls_fits exLang_lawful goodMix_init
  (.on 0 (.constructC 0 0 5)) ((mix_valid_iff goodMix_init _).mp (by decide +kernel))

/-- A converting assignment, from a state with five variables of two variant types. -/
example (w' : World Nat) := C64_statement (w' := w') (ρ := exMixR) (D := exDecls) (fun _ => natOps_lawful) (fun vt => (exConvK_sane vt).blank)
  exDecls_fits exLang_lawful (exConv_good 8 (by decide +kernel)) (.assignFrom false true 3 1)
  ((mix_valid_iff (exConv_good 8 (by decide +kernel)) _).mp (by decide +kernel))

/-- On the way the second assignment throws, and the handler is executed. -/
example : (match steps exBadDecls exBadR 33 (exPlainP.onVariants.start (World.init Nat)) with
    | .conf c => decide (c.w.store 0 = some (0, 8) ∧ c.w.store 1 = some (0, 6) ∧ c.w.store 2 = some (1, 4)) | _ => false) = true := by
  decide +kernel

/-- Two configurations of `variant<class 3, class 4>` in which nothing throws: assertions off, findings F2 and F10 included; and assertions on, with
types that promise not to throw. -/
def exQuiet (b : Bool) : Decls Nat :=
  { exBadDecls with K := fun vt => if b then { exBadK vt with throws := fun _ => false } else
      { exCfg [tInt, tInt] [] with unroll := 2 } }

/-- A program without scopes. -/
def exQuietP : Plain Nat :=
  .seq (.cmd (.on 0 (.constructC 0 0 5))) (.seq (.cmd (.on 0 (.constructL 1 1 7)))
    (.seq (.loop (fun σ => some (decide (σ 0 ≠ σ 1))) (.cmd (.on 0 (.copyAssign 0 1)))) (.seq (.cmd (.on 0 (.assignC 1 0 9))) (.cmd (.on 0 (.swap 0 1))))))

theorem exQuiet_ends (b : Bool) : (match steps (exQuiet b) exBadR 60 (exQuietP.onVariants.start (World.init Nat)) with
    | .done _ w => decide (w.store 0 = some (0, 9) ∧ w.store 1 = some (1, 7)) | _ => false) = true := by
  cases b <;> decide +kernel

theorem exQuiet_lawful (b : Bool) (vt : Nat) : ((exQuiet b).K vt).ops.Lawful := by cases b <;> exact natOps_lawful

theorem exQuiet_blank (b : Bool) (vt : Nat) : BlankOk ((exQuiet b).K vt) := by
  cases b with
  | true => exact exBadK_blank vt
  | false =>
    intro t ht hb
    have ht : t ∈ [tInt, tInt] := ht
    simp only [List.mem_cons, List.not_mem_nil, or_false, or_self] at ht
    subst ht; cases hb

theorem exQuiet_fits (b : Bool) : (exQuiet b).Fits := by
  cases b with
  | true => exact exBadDecls_fits
  | false =>
    intro vt
    by_cases h : vt = 0 <;> simp only [exQuiet, exBadDecls, h, if_true, if_false] <;> rfl

theorem exQuiet_throws (b : Bool) (vt t : Nat) : ((exQuiet b).K vt).throws t = false := by cases b <;> rfl

example (n : Nat) := C64_no_exceptions (ρ := exBadR) (exQuiet_lawful true) (exQuiet_blank true) (exQuiet_fits true) exLang_lawful
  (exQuiet_throws true) exQuietP n
example {u₁ u₂ : Bool} {w₁ w₂ : World Nat} (h₁ : steps (exQuiet true) exBadR 60 (exQuietP.onVariants.start (World.init Nat)) = .done u₁ w₁)
    (h₂ : steps (exQuiet false) exBadR 60 (exQuietP.onVariants.start (World.init Nat)) = .done u₂ w₂) : u₁ = u₂ ∧ w₁.store = w₂.store :=
  C64_configurations (exQuiet_lawful true) (exQuiet_lawful false) (exQuiet_blank true) (exQuiet_blank false) (exQuiet_fits true) (exQuiet_fits false)
    exLang_lawful ⟨rfl, rfl, rfl, fun _ => rfl⟩ (exQuiet_throws true) (exQuiet_throws false) exQuietP (by simp [exQuietP, Plain.movesNothing, MixCmd.movesNothing])
    60 60 h₁ h₂

end BVariant
