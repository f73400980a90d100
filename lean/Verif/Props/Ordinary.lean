/-
C75: a program that does not use the recursive types of a variant type behaves as on ordinary variants. The two models (storage,
discriminators and visitation of Core/Variant.lean; trees in a heap of Core/Tree.lean) agree.
-/
import Verif.Lemmas.Ordinary
import Verif.Props.Exact
import Verif.Props.ExactTree
import Verif.Props.SafetyScope

namespace BVariant

section
variable {V : Type} {C : Cfg V} {T : TreeCfg V} {σ : XTSt V} {z : Nat}

theorem Both.okay (hz : σ.vars z = none) {c : Both V} (hp : c.Plain C T) :
    (c.tree z).okay T σ = c.flat.exactValid C (σ.flat userNames) := by
  have hat : ∀ y, σ.at ⟨y, []⟩ = σ.vars y := by
    intro y
    simp only [XTSt.at]
    cases h : σ.vars y with
    | none => rfl
    | some u => cases u <;> rfl
  cases c <;>
    simp only [Both.tree, Both.flat, TCmd.okay, Cmd.exactValid, XTSt.flat, userNames, Option.bind_some, Option.isSome_map, Option.isNone_map, hat, hz,
      Option.isNone_none, Bool.and_true]
  case make x k v => simp only [Both.Plain] at hp; simp only [hp.1, hp.2, decide_true, Bool.not_false]

theorem Both.risky (hX : Leafy C T σ) {c : Both V} : (c.tree z).risky T σ = c.flat.exactHazard (σ.flat userNames) := by
  have hat : ∀ y, σ.at ⟨y, []⟩ = σ.vars y := by
    intro y
    simp only [XTSt.at]
    cases h : σ.vars y with
    | none => rfl
    | some u => cases u <;> rfl
  have hin : ∀ x y : Nat, TPlace.inside ⟨x, []⟩ ⟨y, []⟩ = false := by intro x y; simp [TPlace.inside]
  have hget : ∀ y, (σ.flat userNames).vars (.user y) = (σ.vars y).map XTree.tag := fun y => rfl
  cases c with
  | assign x y | moveAssign x y =>
    simp only [Both.tree, Both.flat, TCmd.risky, Cmd.exactHazard, hat, hin, hget]
    cases hx : σ.vars x with
    | none => rfl
    | some u =>
      cases hy : σ.vars y with
      | none => rfl
      | some u' =>
        obtain ⟨b, k, a, rfl, -⟩ := hX x u hx
        obtain ⟨b', k', a', rfl, -⟩ := hX y u' hy
        simp only [XTree.backed, XTree.which, XTree.tag, Option.map_some, Bool.false_and, Bool.or_false]
        by_cases h : k = k' <;> cases b <;> cases b' <;> simp [h]
  | swap x y =>
    simp only [Both.tree, Both.flat, TCmd.risky, Cmd.exactHazard, hat, hin, hget]
    cases hx : σ.vars x with
    | none => rfl
    | some u =>
      cases hy : σ.vars y with
      | none => rfl
      | some u' =>
        obtain ⟨b, k, a, rfl, -⟩ := hX x u hx
        obtain ⟨b', k', a', rfl, -⟩ := hX y u' hy
        simp only [XTree.backed, XTree.which, XTree.tag, Option.map_some, Bool.false_or]
        by_cases h : k = k' <;> simp [h]
  | make | copy | move | store | destroy => rfl

/-- One statement does the same in both interpreters. -/
theorem Both.exact (hT : OneType C T) (hl : Leafy C T σ) (hz : σ.vars z = none) {c : Both V} (hp : c.Plain C T) (hb : c.begins ≠ some z)
    (hv : (c.tree z).okay T σ = true) : SameAt C T (names z) [] [] σ ((c.tree z).exact T) (c.flat.exact C) := by
  have hF : ∀ fb, C.fallback = some fb → fb < C.n := fun fb h => fallback_lt h
  have hat : ∀ y, σ.at ⟨y, []⟩ = σ.vars y := by
    intro y
    simp only [XTSt.at]
    cases h : σ.vars y with
    | none => rfl
    | some u => cases u <;> rfl
  have hforget : ∀ {X : List Nat} {m m'}, SameAt C T (names z) X X σ m m' → SameAt C T (names z) [] [] σ m m' := by
    intro X m m' h
    unfold SameAt at h ⊢
    revert h
    cases m σ with
    | ok a s => exact fun h => ⟨h.1, h.2.1, nofun⟩
    | exc e s => exact fun h => ⟨h.1, h.2.1, nofun⟩
    | fault f => exact fun h => h
  have hlive : ∀ {y}, (σ.vars y).isSome = true → ∃ b k a, σ.vars y = some (.leaf b k a) ∧ k < C.n ∧ T.wrapped k = false ∧ y ≠ z := by
    intro y h
    cases hy : σ.vars y with
    | none => rw [hy] at h; cases h
    | some u =>
      obtain ⟨b, k, a, rfl, h1, h2⟩ := hl y u hy
      exact ⟨b, k, a, rfl, h1, h2, fun e => by rw [e, hz] at hy; cases hy⟩
  cases c with
  | make x k v =>
    have hx : x ≠ z := fun h => hb (by rw [h]; rfl)
    simp only [Both.tree, Both.flat, TCmd.exact, Cmd.exact, xConvert, xCopy, hT.ops, hT.tr k hp.1 hp.2]
    exact (Same.bind (X := []) (.may hT _ _) (.set (names_user hx) (u := some (.leaf false k (C.ops.copy k v)))
      (fun t ht => by cases ht; exact ⟨_, _, _, rfl, hp⟩) (fun _ h => absurd h List.not_mem_nil))).at hl (fun _ h => absurd h List.not_mem_nil)
  | copy x y =>
    have hx : x ≠ z := fun h => hb (by rw [h]; rfl)
    simp only [Both.tree, TCmd.okay, Bool.and_eq_true, hat] at hv
    obtain ⟨b, k, a, hy, hk, hw, hyz⟩ := hlive hv.2
    simp only [Both.tree, Both.flat, TCmd.exact, Cmd.exact, xCopyConstruct]
    refine SameAt.congr ?_ (get_run hy)
    refine SameAt.congr' ?_ (get_run' (names_user hyz) hy)
    simp only [copyLeaf, xCopy, hT.ops, hT.tr k hk hw, XTree.tag]
    exact (Same.bind (X := []) (.may hT _ _) (.set (names_user hx) (u := some (.leaf false k (C.ops.copy k a)))
      (fun t ht => by cases ht; exact ⟨_, _, _, rfl, hk, hw⟩) (fun _ h => absurd h List.not_mem_nil))).at hl (fun _ h => absurd h List.not_mem_nil)
  | move x y =>
    have hx : x ≠ z := fun h => hb (by rw [h]; rfl)
    simp only [Both.tree, TCmd.okay, Bool.and_eq_true, hat] at hv
    obtain ⟨b, k, a, hy, hk, hw, hyz⟩ := hlive hv.2
    simp only [Both.tree, Both.flat, TCmd.exact, Cmd.exact, xMoveConstruct]
    refine SameAt.congr ?_ (takeLeaf hy)
    refine SameAt.congr' ?_ (get_run' (names_user hyz) hy)
    rw [bind_unit_assoc]
    have h := Same.bind (Same.take (X := [y]) (b := b) (a := a) hT (names_user hyz) (List.mem_cons_self ..) hk hw)
      (Same.set (C := C) (T := T) (X := [y]) (Y := [y]) (E := [y]) (names_user hx) (u := some (.leaf false k (C.ops.move k a)))
        (fun t ht => by cases ht; exact ⟨_, _, _, rfl, hk, hw⟩)
        (fun w hw => (Decidable.em (w = x)).elim (fun h => .inl ⟨h, nofun⟩) fun h => .inr ⟨h, hw⟩))
    have h' := hforget (h.at hl (fun w hw => by rw [List.mem_singleton.mp hw, hy]; nofun))
    rw [hT.ops] at h' ⊢
    exact h'
  | assign x y =>
    simp only [Both.tree, TCmd.okay, Bool.and_eq_true, hat] at hv
    obtain ⟨_, _, _, hsx, -, -, hx⟩ := hlive hv.1
    obtain ⟨_, _, _, hsy, -, -, hy⟩ := hlive hv.2
    exact hforget ((Same.assign hT hF (names_user hx) (names_user hy) (X := [x, y]) (by simp) (by simp)).at hl (fun w hw => by
      simp only [List.mem_cons, List.not_mem_nil, or_false] at hw
      rcases hw with rfl | rfl <;> simp [hsx, hsy]))
  | moveAssign x y =>
    simp only [Both.tree, TCmd.okay, Bool.and_eq_true, hat] at hv
    obtain ⟨_, _, _, hsx, -, -, hx⟩ := hlive hv.1
    obtain ⟨_, _, _, hsy, -, -, hy⟩ := hlive hv.2
    exact hforget ((Same.moveAssign hT hF (names_user hx) (names_user hy) (X := [x, y]) (by simp) (by simp)).at hl (fun w hw => by
      simp only [List.mem_cons, List.not_mem_nil, or_false] at hw
      rcases hw with rfl | rfl <;> simp [hsx, hsy]))
  | swap x y =>
    simp only [Both.tree, TCmd.okay, Bool.and_eq_true, hat] at hv
    obtain ⟨_, _, _, hsx, -, -, hx⟩ := hlive hv.1.1
    obtain ⟨_, _, _, hsy, -, -, hy⟩ := hlive hv.1.2
    exact hforget (SameAt.swap hT hF hl (fun w hw => by
      simp only [List.mem_cons, List.not_mem_nil, or_false] at hw
      rcases hw with rfl | rfl <;> simp [hsx, hsy]) hz)
  | store x v =>
    simp only [Both.tree, TCmd.okay, hat] at hv
    obtain ⟨b, k, a, hsx, hk, hw, hx⟩ := hlive hv
    simp only [Both.tree, Both.flat, TCmd.exact, Cmd.exact, xStore]
    refine SameAt.congr ?_ (get_run hsx)
    refine SameAt.congr' ?_ (get_run' (names_user hx) hsx)
    simp only [XTree.fill, XTree.tag]
    exact hforget ((Same.put (X := [x]) (names_user hx) (List.mem_cons_self ..) hk hw).at hl (fun w hw => by rw [List.mem_singleton.mp hw, hsx]; nofun))
  | destroy x =>
    simp only [Both.tree, TCmd.okay] at hv
    obtain ⟨_, _, _, hsx, -, -, hx⟩ := hlive hv
    exact (Same.set (X := []) (names_user hx) (u := none) nofun (fun _ h => absurd h List.not_mem_nil)).at hl (fun _ h => absurd h List.not_mem_nil)

/-- Programs do the same in both interpreters. -/
theorem ordinary_run (hT : OneType C T) : ∀ (p : List (Both V)) (σ : XTSt V), Leafy C T σ → σ.vars z = none → (∀ c ∈ p, c.Plain C T ∧ c.begins ≠ some z) →
    exactRun C (p.map Both.flat) (σ.flat userNames) = (xtRunAll T (p.map (Both.tree z)) σ).map (fun q => (q.1.flat userNames, q.2)) ∧
    ∀ q, xtRunAll T (p.map (Both.tree z)) σ = some q → Leafy C T q.1
  | [], σ, hl, hz, hp => ⟨rfl, fun q h => by cases h; exact hl⟩
  | c :: cs, σ, hl, hz, hp => by
    obtain ⟨hc, hb⟩ := hp c (List.mem_cons_self ..)
    have hcs : ∀ c ∈ cs, c.Plain C T ∧ c.begins ≠ some z := fun c h => hp c (List.mem_cons_of_mem _ h)
    simp only [List.map_cons, exactRun, xtRunAll, ← Both.okay hz hc, ← Both.risky hl (z := z)]
    cases hv : (c.tree z).okay T σ with
    | false =>
      obtain ⟨h1, h2⟩ := ordinary_run hT cs σ hl hz hcs
      simp only [Bool.false_eq_true, if_false, h1]
      constructor
      · cases xtRunAll T (cs.map (Both.tree z)) σ <;> rfl
      · intro q hq
        cases h3 : xtRunAll T (cs.map (Both.tree z)) σ with
        | none => rw [h3] at hq; cases hq
        | some r => rw [h3] at hq; cases hq; exact h2 r h3
    | true =>
      cases hr : (c.tree z).risky T σ with
      | true => simp
      | false =>
        have h := Both.exact hT hl hz hc hb hv
        have hd := keeps_texact (C := T) (c := c.tree z) (y := z) (by
          cases c <;> simp [Both.tree, TCmd.begins, Both.begins] at hb ⊢ <;> exact fun e => hb e.symm) σ hz
        unfold SameAt at h
        rw [flat_names hz] at h
        simp only [if_true, Bool.false_eq_true, if_false]
        cases he : (c.tree z).exact T σ with
        | ok a σ' =>
          rw [he] at h hd
          simp only [flat_names (show σ'.vars z = none from hd)] at h
          obtain ⟨h1, h2⟩ := ordinary_run hT cs σ' h.2.1 hd hcs
          simp only [h.1, h1]
          constructor
          · cases xtRunAll T (cs.map (Both.tree z)) σ' <;> rfl
          · intro q hq
            cases h3 : xtRunAll T (cs.map (Both.tree z)) σ' with
            | none => rw [h3] at hq; cases hq
            | some r => rw [h3] at hq; cases hq; exact h2 r h3
        | exc e σ' =>
          rw [he] at h hd
          simp only [flat_names (show σ'.vars z = none from hd)] at h
          obtain ⟨h1, h2⟩ := ordinary_run hT cs σ' h.2.1 hd hcs
          simp only [h.1, h1]
          constructor
          · cases xtRunAll T (cs.map (Both.tree z)) σ' <;> rfl
          · intro q hq
            cases h3 : xtRunAll T (cs.map (Both.tree z)) σ' with
            | none => rw [h3] at hq; cases hq
            | some r => rw [h3] at hq; cases hq; exact h2 r h3
        | fault f => rw [he] at h; exact h.elim

/-- A program that makes no content of a recursive type: on recursive variants it comes to an unsupported statement exactly if it does on
ordinary variants; otherwise each statement throws the same exception or none, and all variables have the same contents, after as many
operations and allocations. -/
theorem C75_agree (hs : Sane C) (hT : OneType C T) (p : List (Both V)) (hp : ∀ c ∈ p, c.Plain C T ∧ c.begins ≠ some z) {n : Nat}
    (hn : 2 ^ p.length ≤ n) :
    tClean T n (p.map (Both.tree z)) (TreeSt.init V) = avoidsBackupReads C (p.map Both.flat) (World.init V) ∧
    (avoidsBackupReads C (p.map Both.flat) (World.init V) = true →
      tThrown T n (p.map (Both.tree z)) (TreeSt.init V) = thrown C (p.map Both.flat) (World.init V) ∧
      ∃ s w, tRun T n (p.map (Both.tree z)) (TreeSt.init V) = some s ∧ run C (p.map Both.flat) (World.init V) = some w ∧ SameContents s w) := by
  have h1 := C72_program hs (p.map Both.flat)
  have h2 := C73_program (n := n) hT.fallbackPlain (p.map (Both.tree z)) (by rwa [List.length_map])
  obtain ⟨h3, h4⟩ := ordinary_run (z := z) hT p (XTSt.init V) nofun rfl hp
  have e : XTSt.flat userNames (XTSt.init V) = XSt.init V := by
    simp only [XTSt.flat, XTSt.init, XSt.init, XSt.mk.injEq, and_true]
    funext v
    cases v <;> rfl
  rw [e] at h3
  rw [h3] at h1
  revert h1 h2 h4
  cases xtRunAll T (p.map (Both.tree z)) (XTSt.init V) with
  | none => exact fun h1 h2 _ => ⟨by rw [h1, h2], fun h => by rw [h1] at h; cases h⟩
  | some q =>
    rintro ⟨a1, b1, w, c1, d1⟩ ⟨a2, b2, s, own, c2, d2⟩ hl
    have hl := hl q rfl
    refine ⟨by rw [a1, a2], fun _ => ⟨by rw [b1, b2], s, w, c2, c1, ?_, ?_, ?_⟩⟩
    · intro x
      have hw : w.tagged (.user x) = (q.1.vars x).map XTree.tag := by
        rw [← flat_at (inv := userNames) (v := .user x) (fun v => by cases v <;> simp [userNames])]
        exact congrArg (fun t => t.vars (.user x)) d1
      cases hx : q.1.vars x with
      | none =>
        rw [(d2.dead x hx).1]
        rw [hx] at hw
        obtain ⟨w', hw', hg⟩ := run_good hs _ _ good_init a1
        rw [c1] at hw'
        cases hw'
        exact hg.wf.inv.vars_none hw
      | some u =>
        obtain ⟨v, hv, hr⟩ := d2.val x u hx
        obtain ⟨b, k, a, rfl, -⟩ := hl x u hx
        rw [hx] at hw
        rw [hv]
        cases b with
        | false => obtain ⟨rfl, -⟩ := hr; exact hw
        | true => obtain ⟨q', rfl, h5, -⟩ := hr; exact ⟨a, h5, hw⟩
    · rw [d2.tick]
      exact (congrArg XSt.tick d1).symm
    · rw [d2.allocs]
      exact (congrArg XSt.allocs d1).symm

end

/-- Two types with throwing copies and moves and a recursive one, without a fallback type; operation 4 fails. -/
def exOrd : Cfg Nat := exCfg [tThrowing, tThrowing, tThrowing] [4]

/-- The same type, where it is known that the third type is recursive. -/
def exOrdTree : TreeCfg Nat :=
  { ops := exOrd.ops, tr := exOrd.tr, throws := exOrd.throws, wrapped := fun k => k == 2, steals := fun _ => true, fallback := none }

theorem exOrd_sane : Sane exOrd where
  blank := by unfold BlankOk; decide
  copyMove := by
    intro k kr hk hkr hm hc
    have : k = 0 ∨ k = 1 ∨ k = 2 := by simp only [exOrd, exCfg, Cfg.n, List.length] at hk; omega
    rcases this with rfl | rfl | rfl <;> simp [exOrd, exCfg, Cfg.tr, tThrowing] at hc
  fallback := by
    intro k h
    have : exOrd.fallback = none := by decide
    rw [this] at h; cases h

theorem exOrd_oneType : OneType exOrd exOrdTree where
  ops := rfl
  throws := rfl
  fallback := by decide
  tr _ _ _ := rfl
  wrapped k hk hw := by
    have : k = 2 := by simpa [exOrdTree] using hw
    subst this
    decide
  fallbackPlain := nofun

/-- `V x0 = A(5); V x1 = B(7); x0 = x1;` (fails: `x0` goes to a backup) `V x2 = x0; swap(x1, x2); x0 = std::move(x2); x1 = x1;` -/
def exOrdProg : List (Both Nat) :=
  [.make 0 0 5, .make 1 1 7, .assign 0 1, .copy 2 0, .swap 1 2, .moveAssign 0 2, .assign 1 1, .destroy 2]

/-- C75: the program goes through a backup, no statement is one of F1, and its third statement throws. -/
example : avoidsBackupReads exOrd (exOrdProg.map Both.flat) (World.init Nat) = true ∧
    thrown exOrd (exOrdProg.map Both.flat) (World.init Nat) = [none, none, some ⟨.copyCtor 1, 4⟩, none, none, none, none, none] ∧
    backedUpAfter exOrd ((exOrdProg.take 3).map Both.flat) 0 = true := by decide +kernel

example {n : Nat} (hn : 2 ^ 8 ≤ n) : ∃ s w, tRun exOrdTree n (exOrdProg.map (Both.tree 9)) (TreeSt.init Nat) = some s ∧
    run exOrd (exOrdProg.map Both.flat) (World.init Nat) = some w ∧ SameContents s w :=
  ((C75_agree (z := 9) exOrd_sane exOrd_oneType exOrdProg (by
    intro c hc
    simp only [exOrdProg, List.mem_cons, List.not_mem_nil, or_false] at hc
    rcases hc with rfl | rfl | rfl | rfl | rfl | rfl | rfl | rfl <;> simp [Both.Plain, Both.begins, exOrd, exCfg, Cfg.n, exOrdTree]) hn).2 (by decide +kernel)).2

end BVariant
