/-
What a statement on variables of one variant type does to the store of all variables, in any configuration.
-/
import Verif.Spec.Plain
import Verif.Props.Broken

namespace BVariant

section
variable {V : Type} {C : Cfg V} {w w' : World V}

/-! ### Statements of finding F1 -/

/-- A statement of finding F1 that throws leaves one of the documented states, or a variant that is broken. -/
theorem failed_refines_hazard (hg : Good C w) (c : Cmd V) (hz : c.readsBackup w = true) {e : Exc} (h : c.code C w = .exc e w') :
    c.failedBy C w.store w'.store ∨ ∃ x ∈ c.names, w'.broken C (.user x) := by
  have hrest := (step_hazard_leaves hg c hz).2 e w' h
  rcases hrest with ⟨-, hrest⟩ | hbr
  rotate_left
  · exact .inr hbr
  have hrest : Rest w w' c.names := hrest
  have self : ∀ {σ : Store V} {x : Nat} {p : TyIx × V}, σ x = some p → upd σ x (some p) = σ := by
    intro σ x p hp
    funext z; simp only [upd]; split
    · rename_i he; rw [he]; exact hp.symm
    · rfl
  cases c with
  | copyAssign x y =>
    obtain ⟨sx, ix, kx, vx, sy, iy, ky, vy, hx, hy, hne, hb⟩ := hazard_operands hg hz
    have hh := copyAssign_hazard_exc hx hy hne hb h
    refine .inl ⟨_, _, _, _, hx.content, hy.content, Or.inl rfl, ?_⟩
    rw [self hx.content]
    exact store_same hh.vars hh.objs
  | moveAssign x y =>
    obtain ⟨sx, ix, kx, vx, sy, iy, ky, vy, hx, hy, hne, hb⟩ := hazard_operands hg hz
    have hh := moveAssign_hazard_exc hx hy hne hb h
    refine .inl ⟨_, _, _, _, vy, hx.content, hy.content, Or.inl rfl, ?_⟩
    rw [self (σ := w.store) hy.content, self (σ := w.store) hx.content]
    exact store_same hh.vars hh.objs
  | swap x y =>
    simp only [Cmd.readsBackup, World.backedUp, World.typesDiffer, Bool.and_eq_true] at hz
    cases hx : w.vars (.user x) with
    | none => simp [hx] at hz
    | some sx =>
      cases hy : w.vars (.user y) with
      | none => simp [World.content, hy] at hz
      | some sy =>
        obtain ⟨ix, kx, vx, hrx, hox⟩ := hg.wf.rep _ _ hx
        obtain ⟨iy, ky, vy, hry, hoy⟩ := hg.wf.rep _ _ hy
        have hxo : Owns C w (.user x) sx ix kx vx := ⟨hx, hrx, hox⟩
        have hyo : Owns C w (.user y) sy iy ky vy := ⟨hy, hry, hoy⟩
        simp only [hx, hxo.content, hyo.content, decide_eq_true_eq] at hz
        rcases (swap_hazard_leaves hg.wf hxo hyo (by simp) (by simp) (hg.noTmp 0) hz.2 hz.1).2 e w' h with
          hbr | ⟨-, -, h1, q, h2⟩
        · exact .inr ⟨y, by simp [Cmd.names], hbr⟩
        · refine .inl ⟨(kx, vx), (ky, vy), (kx, vx), (ky, q), hxo.content, hyo.content, .inl rfl, .inl rfl,
            store_upd2 (fun z hz => hrest z (by simp [Cmd.names] at hz ⊢; exact ⟨hz.2, hz.1⟩)) ?_ h2.content h1.content⟩
          rintro rfl
          exact h2.content.symm.trans h1.content
  | _ => cases hz

/-- A statement that returns has the effect of the store, or leaves a variant that is broken. -/
theorem done_refines_gen (hl : C.ops.Lawful) (hb : BlankOk C) (hg : Good C w) (c : Cmd V) (hv : c.valid C w = true)
    (h : c.code C w = .ok () w') : c.doneBy C w.store w'.store ∨ ∃ x ∈ c.names, w'.broken C (.user x) := by
  cases hz : c.readsBackup w with
  | false => exact .inl (done_refines hl hb hg c hv hz h)
  | true => exact .inr ((step_hazard_leaves hg c hz).1 _ _ h)

/-- A statement that throws leaves one of the documented states, or a variant that is broken. -/
theorem failed_refines_any (hl : C.ops.Lawful) (hb : BlankOk C) (hg : Good C w) (c : Cmd V) (hv : c.valid C w = true) {e : Exc}
    (h : c.code C w = .exc e w') : c.failedBy C w.store w'.store ∨ ∃ x ∈ c.names, w'.broken C (.user x) := by
  cases hz : c.readsBackup w with
  | false => exact failed_refines_gen hl hb hg c hv hz h
  | true => exact failed_refines_hazard hg c hz h

/-! ### Stores with more variables -/

/-- `τ` is the part of `σ` with the variables in `P`. -/
structure PartOf (P : Nat → Prop) (τ σ : Store V) : Prop where
  inside : ∀ z, P z → τ z = σ z
  outside : ∀ z, ¬ P z → τ z = none

variable {P : Nat → Prop} {σ σ' τ τ' : Store V}

theorem PartOf.upd1 (h : PartOf P τ σ) (h' : PartOf P τ' σ') (ho : ∀ z, ¬ P z → σ' z = σ z) {x : Nat} {r : Option (TyIx × V)} (hx : P x)
    (he : τ' = upd τ x r) : σ' = upd σ x r := by
  funext z
  by_cases hz : P z
  · rw [← h'.inside z hz, he]
    simp only [upd]; split
    · rfl
    · exact h.inside z hz
  · rw [ho z hz, upd_ne _ _ (fun e : z = x => hz (e ▸ hx))]

theorem PartOf.same (h : PartOf P τ σ) (h' : PartOf P τ' σ') (ho : ∀ z, ¬ P z → σ' z = σ z) (he : τ' = τ) : σ' = σ := by
  funext z
  by_cases hz : P z
  · rw [← h'.inside z hz, he, h.inside z hz]
  · exact ho z hz

theorem PartOf.upd2 (h : PartOf P τ σ) (h' : PartOf P τ' σ') (ho : ∀ z, ¬ P z → σ' z = σ z) {x y : Nat} {r q : Option (TyIx × V)} (hx : P x)
    (hy : P y) (he : τ' = upd (upd τ y q) x r) : σ' = upd (upd σ y q) x r := by
  funext z
  by_cases hz : P z
  · rw [← h'.inside z hz, he]
    simp only [upd]; split
    · rfl
    · split
      · rfl
      · exact h.inside z hz
  · rw [ho z hz, upd_ne _ _ (fun e : z = x => hz (e ▸ hx)), upd_ne _ _ (fun e : z = y => hz (e ▸ hy))]

theorem PartOf.doneBy (h : PartOf P τ σ) (h' : PartOf P τ' σ') (ho : ∀ z, ¬ P z → σ' z = σ z) (c : Cmd V) (hn : ∀ x ∈ c.names, P x)
    (hd : c.doneBy C τ τ') : c.doneBy C σ σ' := by
  cases c with
  | copyConstruct x y | copyAssign x y =>
    simp only [Cmd.names, List.mem_cons, List.not_mem_nil, or_false, forall_eq_or_imp, forall_eq] at hn
    simp only [Cmd.doneBy, h.inside y hn.2] at hd ⊢
    exact h.upd1 h' ho hn.1 hd
  | constructGet rv x y =>
    simp only [Cmd.names, List.mem_cons, List.not_mem_nil, or_false, forall_eq_or_imp, forall_eq] at hn
    cases rv with
    | false =>
      simp only [Cmd.doneBy, h.inside y hn.2] at hd ⊢
      exact h.upd1 h' ho hn.1 hd
    | true =>
      obtain ⟨k, v, m, h1, h2⟩ := hd
      exact ⟨k, v, m, (h.inside y hn.2).symm.trans h1, h.upd2 h' ho hn.1 hn.2 h2⟩
  | moveConstruct x y =>
    simp only [Cmd.names, List.mem_cons, List.not_mem_nil, or_false, forall_eq_or_imp, forall_eq] at hn
    obtain ⟨k, v, m, h1, h2⟩ := hd
    exact ⟨k, v, m, (h.inside y hn.2).symm.trans h1, h.upd2 h' ho hn.1 hn.2 h2⟩
  | moveAssign x y =>
    simp only [Cmd.names, List.mem_cons, List.not_mem_nil, or_false, forall_eq_or_imp, forall_eq] at hn
    simp only [Cmd.doneBy] at hd ⊢
    split at hd
    · rename_i e
      rw [if_pos e]
      obtain ⟨k, v, m, h1, h2⟩ := hd
      exact ⟨k, v, m, (h.inside x hn.1).symm.trans h1, h.upd1 h' ho hn.1 h2⟩
    · rename_i e
      rw [if_neg e]
      obtain ⟨k, v, m, h1, h2⟩ := hd
      exact ⟨k, v, m, (h.inside y hn.2).symm.trans h1, h.upd2 h' ho hn.1 hn.2 h2⟩
  | assignGet rv x y =>
    simp only [Cmd.names, List.mem_cons, List.not_mem_nil, or_false, forall_eq_or_imp, forall_eq] at hn
    cases rv with
    | false =>
      simp only [Cmd.doneBy, h.inside y hn.2] at hd ⊢
      exact h.upd1 h' ho hn.1 hd
    | true =>
      simp only [Cmd.doneBy] at hd ⊢
      split at hd
      · rename_i e
        rw [if_pos e]
        obtain ⟨k, v, m, h1, h2⟩ := hd
        exact ⟨k, v, m, (h.inside x hn.1).symm.trans h1, h.upd1 h' ho hn.1 h2⟩
      · rename_i e
        rw [if_neg e]
        obtain ⟨k, v, m, h1, h2⟩ := hd
        exact ⟨k, v, m, (h.inside y hn.2).symm.trans h1, h.upd2 h' ho hn.1 hn.2 h2⟩
  | swap x y =>
    simp only [Cmd.names, List.mem_cons, List.not_mem_nil, or_false, forall_eq_or_imp, forall_eq] at hn
    simp only [Cmd.doneBy, h.inside x hn.1, h.inside y hn.2] at hd ⊢
    exact h.upd2 h' ho hn.2 hn.1 hd
  | mutate x v =>
    simp only [Cmd.names, List.mem_cons, List.not_mem_nil, or_false, forall_eq] at hn
    obtain ⟨k, v0, h1, h2⟩ := hd
    exact ⟨k, v0, (h.inside x hn).symm.trans h1, h.upd1 h' ho hn h2⟩
  | defaultConstruct x | constructL x k v | constructR x k v | constructC x k v | destroy x | assignL x k v | assignR x k v
  | assignC x k v | assignVL x k v | assignVR x k v =>
    simp only [Cmd.names, List.mem_cons, List.not_mem_nil, or_false, forall_eq] at hn
    exact h.upd1 h' ho hn hd

theorem PartOf.failedBy (h : PartOf P τ σ) (h' : PartOf P τ' σ') (ho : ∀ z, ¬ P z → σ' z = σ z) (c : Cmd V) (hn : ∀ x ∈ c.names, P x)
    (hd : c.failedBy C τ τ') : c.failedBy C σ σ' := by
  cases c with
  | destroy x | mutate x v => exact hd
  | defaultConstruct x | copyConstruct x y | constructL x k v | constructR x k v | constructC x k v => exact h.same h' ho hd
  | constructGet rv x y =>
    simp only [Cmd.names, List.mem_cons, List.not_mem_nil, or_false, forall_eq_or_imp, forall_eq] at hn
    cases rv with
    | false => exact h.same h' ho hd
    | true =>
      obtain ⟨k, v, m, h1, h2⟩ := hd
      exact ⟨k, v, m, (h.inside y hn.2).symm.trans h1, h.upd1 h' ho hn.2 h2⟩
  | moveConstruct x y =>
    simp only [Cmd.names, List.mem_cons, List.not_mem_nil, or_false, forall_eq_or_imp, forall_eq] at hn
    obtain ⟨k, v, m, h1, h2⟩ := hd
    exact ⟨k, v, m, (h.inside y hn.2).symm.trans h1, h.upd1 h' ho hn.2 h2⟩
  | copyAssign x y =>
    simp only [Cmd.names, List.mem_cons, List.not_mem_nil, or_false, forall_eq_or_imp, forall_eq] at hn
    obtain ⟨old, k, v, r, h1, h2, h3, h4⟩ := hd
    exact ⟨old, k, v, r, (h.inside x hn.1).symm.trans h1, (h.inside y hn.2).symm.trans h2, h3, h.upd1 h' ho hn.1 h4⟩
  | moveAssign x y =>
    simp only [Cmd.names, List.mem_cons, List.not_mem_nil, or_false, forall_eq_or_imp, forall_eq] at hn
    obtain ⟨old, k, v, r, m, h1, h2, h3, h4⟩ := hd
    exact ⟨old, k, v, r, m, (h.inside x hn.1).symm.trans h1, (h.inside y hn.2).symm.trans h2, h3, h.upd2 h' ho hn.1 hn.2 h4⟩
  | assignGet rv x y =>
    simp only [Cmd.names, List.mem_cons, List.not_mem_nil, or_false, forall_eq_or_imp, forall_eq] at hn
    cases rv with
    | false =>
      obtain ⟨old, k, v, r, h1, h2, h3, h4⟩ := hd
      exact ⟨old, k, v, r, (h.inside x hn.1).symm.trans h1, (h.inside y hn.2).symm.trans h2, h3, h.upd1 h' ho hn.1 h4⟩
    | true =>
      obtain ⟨old, k, v, r, m, h1, h2, h3, h4⟩ := hd
      exact ⟨old, k, v, r, m, (h.inside x hn.1).symm.trans h1, (h.inside y hn.2).symm.trans h2, h3, h.upd2 h' ho hn.1 hn.2 h4⟩
  | assignL x k v | assignR x k v | assignC x k v | assignVL x k v | assignVR x k v =>
    simp only [Cmd.names, List.mem_cons, List.not_mem_nil, or_false, forall_eq] at hn
    obtain ⟨old, r, h1, h2, h3⟩ := hd
    exact ⟨old, r, (h.inside x hn).symm.trans h1, h2, h.upd1 h' ho hn h3⟩
  | swap x y =>
    simp only [Cmd.names, List.mem_cons, List.not_mem_nil, or_false, forall_eq_or_imp, forall_eq] at hn
    obtain ⟨a, b, a', b', h1, h2, h3, h4, h5⟩ := hd
    exact ⟨a, b, a', b', (h.inside x hn.1).symm.trans h1, (h.inside y hn.2).symm.trans h2, h3, h4, h.upd2 h' ho hn.2 hn.1 h5⟩

end

section
variable {V : Type} {D : Decls V} {ρ : Nat → Nat} {w w' : World V}

theorem store_none_mix (hg : GoodMix D.K ρ w) (x : Nat) : w.store x = none ↔ w.vars (.user x) = none := by
  constructor
  · intro h
    cases hs : w.vars (.user x) with
    | none => rfl
    | some s =>
      obtain ⟨id, k, v, ho⟩ := hg.owns hs
      rw [World.store, ho.content] at h; cases h
  · intro h; simp [World.store, World.content, h]

/-- The store of the variables of one type. -/
theorem GoodMix.part (hg : GoodMix D.K ρ w) (vt : Nat) : PartOf (fun z => ρ z = vt) (w.only ρ vt).store w.store :=
  ⟨fun _ hz => hg.only_content hz, fun z hz => by
    have : (w.only ρ vt).vars (.user z) = none := if_neg hz
    simp [World.store, World.content, this]⟩

/-- A statement is valid in a state if and only if it is valid in its store. -/
theorem mix_valid_iff (hg : GoodMix D.K ρ w) (m : MixCmd V) : m.valid D ρ w = true ↔ m.validIn D ρ w.store := by
  have h1 : ∀ x, (w.vars (.user x)).isNone = true ↔ w.store x = none := by
    intro x; rw [store_none_mix hg]; simp
  have h2 : ∀ x, (w.vars (.user x)).isSome = true ↔ w.store x ≠ none := by
    intro x; rw [Ne, store_none_mix hg]; simp [Option.isSome_iff_ne_none]
  cases m with
  | on vt c =>
    simp only [MixCmd.valid, MixCmd.validIn, Bool.and_eq_true, List.all_eq_true, beq_iff_eq]
    refine and_congr_right fun _ => ?_
    cases c <;> simp only [Cmd.valid, Cmd.validIn, Bool.and_eq_true, decide_eq_true_eq, h1, h2]
  | constructFrom rv const x y | assignFrom rv const x y =>
    simp only [MixCmd.valid, MixCmd.validIn, Bool.and_eq_true, decide_eq_true_eq, Bool.not_eq_true', h1, h2, and_assoc]

/-- A statement from a good state ends, or stops at the failed assertion of finding F1. -/
theorem code_ends {C : Cfg V} (hb : BlankOk C) (hg : Good C w) (c : Cmd V) (hv : c.valid C w = true) :
    (∃ a w', c.code C w = .ok a w') ∨ (∃ e w', c.code C w = .exc e w') ∨ c.code C w = .fault .assertFailed := by
  cases hz : c.readsBackup w with
  | false =>
    rcases wp_elim (wp_step_gen hb hg c hv hz) with ⟨a, w', h, -⟩ | ⟨e, w', h, -⟩
    · exact .inl ⟨a, w', h⟩
    · exact .inr (.inl ⟨e, w', h⟩)
  | true =>
    rcases step_hazard_ends hb hg c hv hz with h | ⟨a, w', h, -⟩ | ⟨e, w', h, -⟩
    · exact .inr (.inr h)
    · exact .inl ⟨a, w', h⟩
    · exact .inr (.inl ⟨e, w', h⟩)

theorem left_kept (hL : D.L.Lawful) {rv const : Bool} {x y : Nat} {C : Cfg V} {cv : ConvVal V} {j : TyIx} {o : Overload} {v q : V}
    {e : Option Exc} (ho : (D.between ρ rv const x y).overload j = some o) (h : (D.between ρ rv const x y).Left C cv j o v e q) :
    LeftOf (D.between ρ rv const x y) v q := fun hrv =>
  (C40_source_kept (F := D.between ρ rv const x y) (ws := setVal j 0 v (World.init V)) (id := 0) hL hrv ho (by simp [setVal]) h).1

theorem built_value {C : Cfg V} (hl : C.ops.Lawful) (F : Foreign) (cv : ConvVal V) (j : TyIx) (v : V) (o : Overload) :
    (F.asElement j o).built C o.index (F.asValue cv j o v) = ValueAs F cv j v o := by
  unfold Foreign.asElement Foreign.asValue ValueAs
  repeat' split
  all_goals simp [Mode.built, hl.copy_eq, hl.move_eq]

theorem mix_done_refines (hl : ∀ vt, (D.K vt).ops.Lawful) (hb : ∀ vt, BlankOk (D.K vt)) (hD : D.Fits) (hL : D.L.Lawful)
    (hg : GoodMix D.K ρ w) (m : MixCmd V) (hv : m.valid D ρ w = true) (h : m.code D ρ w = .ok () w') :
    (GoodMix D.K ρ w' ∧ m.doneBy D ρ w.store w'.store) ∨ ∃ x ∈ m.names, w'.broken (D.K (ρ x)) (.user x) := by
  have hst : GoodOrBroken D ρ m.names w w' := by
    rcases C63_statement hb hD hg m hv with (⟨a, w1, e1, e2⟩ | ⟨e, w1, e1, -⟩) | ⟨-, e1⟩ <;> rw [h] at e1 <;> cases e1
    exact e2
  rcases hst with ⟨hg', hrest⟩ | hbr
  rotate_left
  · exact .inr hbr
  cases m with
  | on vt c =>
    simp only [MixCmd.valid, Bool.and_eq_true, List.all_eq_true, beq_iff_eq] at hv
    have hf := framed_code (C := D.K vt) c (Q := fun x => ∃ n, x = .user n ∧ ρ n ≠ vt)
      (by rintro x hx ⟨n, hn', hne⟩; cases hn'; exact hne (hv.1 x hx)) (by rintro n ⟨m, hm, _⟩; cases hm) (hg.only vt) (hg.fr vt)
    have hvo := (GoodMix.valid_only w _ c hv.1).trans hv.2
    have h : c.code (D.K vt) w = .ok () w' := h
    rcases code_ends (hb vt) (hg.only vt) c hvo with ⟨a, wh', e⟩ | ⟨e, wh', e'⟩ | e
    · rw [e] at hf
      obtain ⟨w1, e1, e2⟩ := hf
      rw [h] at e1; cases e1
      rcases done_refines_gen (hl vt) (hb vt) (hg.only vt) c hvo e with h1 | ⟨x, hx, s, hs, hbx⟩
      · have hla := e2.step
        rw [← hla.only] at h1
        exact .inl ⟨hg', (hg.part vt).doneBy (hg'.part vt) (fun z hz => (hla.others z hz).content) c hv.1 h1⟩
      · exact .inr ⟨x, hx, s, (e2.aliveVar hs).2, by rw [hv.1 x hx]; exact hbx⟩
    · rw [e'] at hf
      obtain ⟨w1, e1, -⟩ := hf
      rw [h] at e1; cases e1
    · rw [e] at hf
      have := hf rfl
      rw [h] at this; cases this
  | constructFrom rv const x y =>
    simp only [MixCmd.valid, Bool.and_eq_true, Option.isNone_iff_eq_none] at hv
    obtain ⟨⟨⟨⟨⟨h1, h2⟩, -⟩, -⟩, h3⟩, h4⟩ := hv
    obtain ⟨s, id, j, v, hyo⟩ := hg.alive_owns h2
    obtain ⟨o, ho⟩ := hg.overload_of_valid hD hyo.holds' h3 h4
    have hxy : x ≠ y := by rintro rfl; rw [h1] at h2; cases h2
    rcases C40_in_programs_construction hD hg hyo.holds' ho h1 with ⟨a, w1, e1, -, -, -, ⟨i, -, e2, e3⟩, -, q, e4, e5⟩ | ⟨e, w1, e1, -⟩ <;>
      rw [h] at e1 <;> cases e1
    refine .inl ⟨hg', j, v, o, q, hyo.content, ho, left_kept hL ho e5, ?_⟩
    rw [built_value (hl _)] at e3
    exact store_upd2 hrest (fun he => absurd he hxy) (by rw [World.content, e2]; simp [VarSt.contentId, e3]) e4
  | assignFrom rv const x y =>
    simp only [MixCmd.valid, Bool.and_eq_true, decide_eq_true_eq] at hv
    obtain ⟨⟨⟨⟨⟨h1, h2⟩, hne⟩, -⟩, h3⟩, h4⟩ := hv
    obtain ⟨s, id, j, v, hyo⟩ := hg.alive_owns h2
    obtain ⟨sx, ix, kx, vx, hxo⟩ := hg.alive_owns h1
    obtain ⟨o, ho⟩ := hg.overload_of_valid hD hyo.holds' h3 h4
    have hxy : y ≠ x := fun e => hne (by rw [e])
    have hn := hg.apart hxo hyo hxy
    obtain ⟨q, s', id', v', hq, hr, hc⟩ :=
      wp_ok (wp_assignFrom_gen (hb _) hg.toFresh hyo hxo hn ho (hD.index_lt ho) (by simp) (hg.noTmp 0)) h
    refine .inl ⟨hg', j, v, o, q, hyo.content, ho, left_kept hL ho hq, ?_⟩
    have hv' : v' = ValueAs (D.between ρ rv const x y) (D.cv (ρ y) (ρ x)) j v o := by
      rw [built_value (hl _)] at hc
      rcases hc with ⟨-, -, -, -, rfl⟩ | ⟨-, -, -, rfl⟩
      · rw [(hl _).moveAssign_eq]
      · rcases moveAssignVal_cases (D.K (ρ x)) o.index (ValueAs (D.between ρ rv const x y) (D.cv (ρ y) (ρ x)) j v o) with h | h <;>
          rw [h]
        · exact (hl _).move_eq _ _
        · exact (hl _).copy_eq _ _
    subst hv'
    refine store_upd2 hrest (fun he => absurd he.symm hxy) hr.owns.content ?_
    rw [content_of ((hr.vars _).trans (if_neg (by simpa using hxy)) |>.trans hyo.var) hyo.rep.contentId,
      hr.keep id (hg.toFresh.lt hyo.obj) hn, upd_same]

theorem mix_failed_refines (hl : ∀ vt, (D.K vt).ops.Lawful) (hb : ∀ vt, BlankOk (D.K vt)) (hD : D.Fits) (hL : D.L.Lawful)
    (hg : GoodMix D.K ρ w) (m : MixCmd V) (hv : m.valid D ρ w = true) {e : Exc} (h : m.code D ρ w = .exc e w') :
    (GoodMix D.K ρ w' ∧ m.failedBy D ρ w.store w'.store ∧ (D.K (m.target ρ)).throws e.tick = true) ∨
      ∃ x ∈ m.names, w'.broken (D.K (ρ x)) (.user x) := by
  have hst : GoodOrBroken D ρ m.names w w' := by
    rcases C63_statement hb hD hg m hv with (⟨a, w1, e1, -⟩ | ⟨e, w1, e1, e2⟩) | ⟨-, e1⟩ <;> rw [h] at e1 <;> cases e1
    exact e2
  rcases hst with ⟨hg', hrest⟩ | hbr
  rotate_left
  · exact .inr hbr
  cases m with
  | on vt c =>
    simp only [MixCmd.valid, Bool.and_eq_true, List.all_eq_true, beq_iff_eq] at hv
    have hf := framed_code (C := D.K vt) c (Q := fun x => ∃ n, x = .user n ∧ ρ n ≠ vt)
      (by rintro x hx ⟨n, hn', hne⟩; cases hn'; exact hne (hv.1 x hx)) (by rintro n ⟨m, hm, _⟩; cases hm) (hg.only vt) (hg.fr vt)
    have hvo := (GoodMix.valid_only w _ c hv.1).trans hv.2
    have h : c.code (D.K vt) w = .exc e w' := h
    have hth := Honest.code (C := D.K vt) c w
    rw [h] at hth
    rcases code_ends (hb vt) (hg.only vt) c hvo with ⟨a, wh', e'⟩ | ⟨e0, wh', e'⟩ | e'
    · rw [e'] at hf
      obtain ⟨w1, e1, -⟩ := hf
      rw [h] at e1; cases e1
    · rw [e'] at hf
      obtain ⟨w1, e1, e2⟩ := hf
      rw [h] at e1; cases e1
      rcases failed_refines_any (hl vt) (hb vt) (hg.only vt) c hvo e' with h1 | ⟨x, hx, s, hs, hbx⟩
      · have hla := e2.step
        rw [← hla.only] at h1
        exact .inl ⟨hg', (hg.part vt).failedBy (hg'.part vt) (fun z hz => (hla.others z hz).content) c hv.1 h1, hth.1.2.2⟩
      · exact .inr ⟨x, hx, s, (e2.aliveVar hs).2, by rw [hv.1 x hx]; exact hbx⟩
    · rw [e'] at hf
      have := hf rfl
      rw [h] at this; cases this
  | constructFrom rv const x y =>
    simp only [MixCmd.valid, Bool.and_eq_true, Option.isNone_iff_eq_none] at hv
    obtain ⟨⟨⟨⟨⟨h1, h2⟩, -⟩, -⟩, h3⟩, h4⟩ := hv
    obtain ⟨s, id, j, v, hyo⟩ := hg.alive_owns h2
    obtain ⟨o, ho⟩ := hg.overload_of_valid hD hyo.holds' h3 h4
    have hxy : x ≠ y := by rintro rfl; rw [h1] at h2; cases h2
    rcases C40_in_programs_construction hD hg hyo.holds' ho h1 with ⟨a, w1, e1, -⟩ | ⟨e, w1, e1, -, -, -, e2, e3, -, q, e4, e5⟩ <;>
      rw [h] at e1 <;> cases e1
    refine .inl ⟨hg', ⟨j, v, o, q, hyo.content, ho, left_kept hL ho e5, ?_⟩, e3.2.2⟩
    refine store_upd (fun z hz => ?_) e4
    by_cases hzx : z = x
    · subst hzx
      exact ⟨e2.trans h1.symm, fun s _ hs _ => by rw [h1] at hs; cases hs⟩
    · exact hrest z (by simp only [MixCmd.names, List.mem_cons, List.not_mem_nil, or_false, not_or] at hz ⊢; exact ⟨hzx, hz⟩)
  | assignFrom rv const x y =>
    simp only [MixCmd.valid, Bool.and_eq_true, decide_eq_true_eq] at hv
    obtain ⟨⟨⟨⟨⟨h1, h2⟩, hne⟩, -⟩, h3⟩, h4⟩ := hv
    obtain ⟨s, id, j, v, hyo⟩ := hg.alive_owns h2
    obtain ⟨sx, ix, kx, vx, hxo⟩ := hg.alive_owns h1
    obtain ⟨o, ho⟩ := hg.overload_of_valid hD hyo.holds' h3 h4
    have hxy : y ≠ x := fun e => hne (by rw [e])
    have hn := hg.apart hxo hyo hxy
    rcases (wp_exc (wp_assignFrom_gen (hb _) hg.toFresh hyo hxo hn ho (hD.index_lt ho) (by simp) (hg.noTmp 0)) h).2 with
      hbr | ⟨q, s', id', k', v', hq, hth, hr, hc⟩
    · exact .inr ⟨x, by simp [MixCmd.names], hbr⟩
    refine .inl ⟨hg', ⟨(kx, vx), j, v, o, q, (k', v'), hxo.content, hyo.content, ho, left_kept hL ho hq, ?_, ?_⟩, hth.2.2⟩
    · have hrep := hxo.rep
      rcases hc with ⟨hk, -, -, rfl, -⟩ | ⟨hlo, hk⟩
      · refine documented_same ?_
        cases hrep with
        | inPlace => exact (Int.ofNat.inj hk).symm
        | inBackup => simp only at hk; omega
      · by_cases hkk : o.index = kx
        · cases hrep with
          | inPlace =>
            have hs' := hk (by rw [hkk])
            have := hr.rep
            rw [hs'] at this
            refine .inr (.inl ⟨hkk, ?_⟩)
            cases this
            rfl
          | inBackup _ _ _ hm => exact hlo.documented (hl _) fun _ => hm.1
        · exact hlo.documented (hl _) fun e => absurd e hkk
    · refine store_upd2 hrest (fun he => absurd he.symm hxy) hr.owns.content ?_
      rw [content_of ((hr.vars _).trans (if_neg (by simpa using hxy)) |>.trans hyo.var) hyo.rep.contentId,
        hr.keep id (hg.toFresh.lt hyo.obj) hn, upd_same]

/-! ### No exceptions -/

theorem Honest.asBounded {C : Cfg V} {j k : TyIx} {id : ObjId} {use : M V Unit} (h : Honest C use) : Honest C (asBounded j k id use) := by
  intro w
  have := h (w.seenAs k id)
  simp only [BVariant.asBounded]
  cases hu : use (w.seenAs k id) with
  | ok a w' => rw [hu] at this; exact this
  | exc e w' => rw [hu] at this; exact this
  | fault f => trivial

theorem Honest.convertingFrom {C : Cfg V} {cv : ConvVal V} {rv : Bool} {j k : TyIx} {id : ObjId} {v : V} {use : M V Unit} (h : Honest C use) :
    Honest C (convertingFrom cv rv j k id v use) := by
  intro w
  have := h w
  simp only [BVariant.convertingFrom]
  cases hu : use w with
  | ok a w' => rw [hu] at this; cases rv <;> exact this
  | exc e w' => rw [hu] at this; cases rv <;> exact this
  | fault f => trivial

theorem Honest.fromVariable {C C' : Cfg V} {F : Foreign} {cv : ConvVal V} {y : VarId} {use : Src V → M V Unit} (h : ∀ s, Honest C (use s)) :
    Honest C (fromVariable C' F cv y use) := by
  refine Honest.bind (Honest.internalApplyVisitor _ _ (fun _ _ => Honest.pure _) fun _ p => ?_) fun ji => ?_
  · exact (Honest.holderGet p).bind fun _ => Honest.pure _
  · obtain ⟨j, id⟩ := ji
    refine (Honest.readAs _ _).bind fun v => ?_
    cases F.overload j with
    | none => exact Honest.fail _
    | some o => exact Honest.ite (Honest.asBounded (h _)) (Honest.convertingFrom (h _))

/-- An exception of a statement is one of an operation of the elements of the variant type. -/
theorem Honest.mix (m : MixCmd V) : Honest (D.K (m.target ρ)) (m.code D ρ) := by
  cases m with
  | on vt c => exact Honest.code c
  | constructFrom rv const x y => exact Honest.fromVariable fun _ => Honest.convertConstruct _ _
  | assignFrom rv const x y => exact Honest.fromVariable fun _ => Honest.assignValue _ _

theorem GoodMix.not_broken (hg : GoodMix D.K ρ w) (x : Nat) : ¬ w.broken (D.K (ρ x)) (.user x) := by
  rintro ⟨s, hs, hb⟩
  obtain ⟨id, k, v, hr, -⟩ := hg.rep x s hs
  exact hr.not_broken hb

/-- If nothing throws, a statement returns, and all variables are good and hold their content in their own storage. -/
theorem mix_quiet (hb : ∀ vt, BlankOk (D.K vt)) (hD : D.Fits) (ht : ∀ vt t, (D.K vt).throws t = false) (hg : GoodMix D.K ρ w)
    (ha : AllInPlace w) (m : MixCmd V) (hv : m.valid D ρ w = true) : ∃ a w', m.code D ρ w = .ok a w' ∧ GoodMix D.K ρ w' ∧ AllInPlace w' := by
  have noexc : ∀ {e : Exc} {w1 : World V}, m.code D ρ w ≠ .exc e w1 := by
    intro e w1 h
    have := Honest.mix (D := D) (ρ := ρ) m w
    rw [h] at this
    have := this.1.2.2
    rw [ht] at this; cases this
  have tmps : ∀ {w1 : World V} {n : Nat} {s : VarSt}, GoodMix D.K ρ w1 → w1.vars (.tmp n) = some s → 0 ≤ s.which_ := by
    intro w1 n s hg1 hs
    rw [hg1.noTmp n] at hs; cases hs
  cases m with
  | on vt c =>
    simp only [MixCmd.valid, Bool.and_eq_true, List.all_eq_true, beq_iff_eq] at hv
    have hf := framed_code (C := D.K vt) c (Q := fun x => ∃ n, x = .user n ∧ ρ n ≠ vt)
      (by rintro x hx ⟨n, hn', hne⟩; cases hn'; exact hne (hv.1 x hx)) (by rintro n ⟨m, hm, _⟩; cases hm) (hg.only vt) (hg.fr vt)
    have hvo := (GoodMix.valid_only w _ c hv.1).trans hv.2
    have hao : AllInPlace (w.only ρ vt) := by
      intro x s hs
      cases x with
      | tmp n => exact ha _ _ (show w.vars (.tmp n) = some s from hs)
      | user n =>
        by_cases hn : ρ n = vt
        · exact ha _ _ ((GoodMix.only_var w hn).symm.trans hs)
        · rw [show (w.only ρ vt).vars (.user n) = none from if_neg hn] at hs; cases hs
    rcases wp_elim (wp_step_gen (hb vt) (hg.only vt) c hvo (hao.readsBackup c)) with ⟨a, wh', h, h1, h2⟩ | ⟨e, wh', h, -⟩
    · rw [h] at hf
      obtain ⟨w', e1, e2⟩ := hf
      have hg' := e2.goodMix hg h1
      have ha' := done_inPlace (hb vt) (hg.only vt) hao c hvo h
      have hla := e2.step
      refine ⟨a, w', e1, hg', fun x s hs => ?_⟩
      cases x with
      | tmp n => exact tmps hg' hs
      | user n =>
        by_cases hn : ρ n = vt
        · exact ha' (.user n) s (by rw [← hla.only, GoodMix.only_var w' hn]; exact hs)
        · exact ha _ _ ((hla.others n hn).1.symm.trans hs)
    · rw [h] at hf
      obtain ⟨w', e1, -⟩ := hf
      exact absurd e1 noexc
  | constructFrom rv const x y =>
    simp only [MixCmd.valid, Bool.and_eq_true, Option.isNone_iff_eq_none] at hv
    obtain ⟨⟨⟨⟨⟨h1, h2⟩, -⟩, -⟩, h3⟩, h4⟩ := hv
    obtain ⟨s, id, j, v, hyo⟩ := hg.alive_owns h2
    obtain ⟨o, ho⟩ := hg.overload_of_valid hD hyo.holds' h3 h4
    rcases C40_in_programs_construction hD hg hyo.holds' ho h1 with ⟨a, w1, e1, hg', hr, -, ⟨i, -, e2, e3⟩, hvy, -⟩ | ⟨e, w1, e1, -⟩
    · refine ⟨a, w1, e1, hg', fun z s hs => ?_⟩
      cases z with
      | tmp n => exact tmps hg' hs
      | user z =>
        by_cases hzx : z = x
        · subst hzx
          rw [show w1.vars (.user z) = _ from e2] at hs; cases hs; simp
        · by_cases hzy : z = y
          · subst hzy; exact ha _ _ (hvy ▸ hs)
          · exact ha _ _ ((hr z (by simp [hzx, hzy])).1 ▸ hs)
    · exact absurd e1 noexc
  | assignFrom rv const x y =>
    simp only [MixCmd.valid, Bool.and_eq_true, decide_eq_true_eq] at hv
    obtain ⟨⟨⟨⟨⟨h1, h2⟩, hne⟩, -⟩, h3⟩, h4⟩ := hv
    obtain ⟨s, id, j, v, hyo⟩ := hg.alive_owns h2
    obtain ⟨sx, ix, kx, vx, hxo⟩ := hg.alive_owns h1
    obtain ⟨o, ho⟩ := hg.overload_of_valid hD hyo.holds' h3 h4
    have hxy : y ≠ x := fun e => hne (by rw [e])
    have hn := hg.apart hxo hyo hxy
    rcases wp_elim (wp_assignFrom_gen (hb _) hg.toFresh hyo hxo hn ho (hD.index_lt ho) (by simp) (hg.noTmp 0)) with
      ⟨a, w1, e1, q, s', id', v', hq, hr, hc⟩ | ⟨e, w1, e1, -⟩
    · have hg' := hr.goodMix hg hxo (SameTypes.setAt hyo.obj q)
      refine ⟨a, w1, e1, hg', fun z t hs => ?_⟩
      rw [hr.vars] at hs
      split at hs
      · cases hs
        rcases hc with ⟨-, -, rfl, -, -⟩ | ⟨-, rfl, -, -⟩
        · exact ha _ _ hxo.var
        · simp
      · exact ha _ _ hs
    · exact absurd e1 noexc

end

end BVariant
