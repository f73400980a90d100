/-
C80: for exactly which types programs on recursive variants are safe.
-/
import Verif.Lemmas.TreeScope
import Verif.Props.ExactTree
import Verif.Props.TreeParts
import Verif.Props.TreeDepth
import Verif.Props.Control

namespace BVariant

section
variable {V : Type} {C : TreeCfg V} {s : TreeSt V} {σ : XTSt V} {own : Nat → List ObjId} {n m : Nat}

theorem run_clear (hfb : ∀ fb, C.fallback = some fb → C.wrapped fb = false) (hC : C.NeverBacksUp) (cs : List (TCmd V))
    (hd : ∀ c ∈ cs, c.Disjoint) (hr : s.Shows σ own) (hf : s.Fresh) (hB : σ.values.Bound C.wrapped m) (hm : 1 ≤ m) (hn : m * 2 ^ cs.length ≤ n)
    (hc : σ.Clear) : ∃ s' σ' own', tRun C n cs s = some s' ∧ s'.Shows σ' own' ∧ σ'.Clear := by
  induction cs generalizing s σ own m with
  | nil => exact ⟨s, σ, own, rfl, hr, hc⟩
  | cons c cs ih =>
    have hpow : m * 2 ^ (c :: cs).length = 2 * m * 2 ^ cs.length := by
      rw [List.length_cons, Nat.pow_succ, Nat.mul_comm 2 m, Nat.mul_assoc, Nat.mul_comm (2 ^ cs.length)]
    have h2 : 2 * m ≤ 2 * m * 2 ^ cs.length := Nat.le_mul_of_pos_right _ (two_pow_pos _)
    have hds : ∀ c ∈ cs, c.Disjoint := fun c hc => hd c (List.mem_cons_of_mem _ hc)
    rw [hpow] at hn
    obtain ⟨hv1, hv2⟩ := C73_valid (C := C) hr hf c
    rw [tRun]
    by_cases hv : c.valid C s = true
    · rw [if_pos hv]
      have hrk : c.risky C σ = false := risky_clear (hd c List.mem_cons_self) hc
      have hz : c.hazard C s = false := (hv2 hv).trans hrk
      have hok : σ.values.Valid C c := okay_iff.mp (hv1 ▸ hv)
      have hb := exact_bound hfb hm hB hok hrk
      have hcl := clear_exact hC c hc
      rcases C73_statement (n := n) hr hf (hB.mono (by omega)) hv hz with ⟨s', σ', own', e1, e2, e3, e4⟩ | ⟨e, s', σ', own', e1, e2, e3, e4⟩
      · rw [e2] at hb hcl
        rw [e1]
        exact ih hds e3 e4 hb (by omega) hn hcl.1
      · rw [e2] at hb hcl
        rw [e1]
        exact ih hds e3 e4 hb (by omega) hn hcl
    · rw [if_neg hv]
      exact ih hds hr hf (hB.mono (by omega : m ≤ 2 * m)) (by omega) hn hc

theorem TreeSt.Shows.init : (TreeSt.init V).Shows (XTSt.init V) (fun _ => []) :=
  ⟨nofun, fun _ _ => ⟨rfl, rfl⟩, fun _ => .nil, nofun, fun _ h => absurd rfl h, rfl, rfl⟩

/-- **C80**: the types allow it. -/
theorem C80_safe (hfb : ∀ fb, C.fallback = some fb → C.wrapped fb = false) (hC : C.NeverBacksUp) : TreesSafe C := by
  intro throws cs n hd hn h
  obtain ⟨s', σ', own', h1, -⟩ := run_clear (C := C.failing throws) (m := 1) (n := n) hfb hC cs hd TreeSt.Shows.init TreeSt.Fresh.init
    (nofun : (XTSt.init V).values.Bound C.wrapped 1) (Nat.le_refl _) (by omega) nofun
  rw [h1] at h; cases h

/-- The statement that makes a variable with content of type `k`, and how many operations it takes. -/
def TreeCfg.make (C : TreeCfg V) (x : Nat) (k : TyIx) (v : V) : TCmd V := if C.wrapped k then .node x k v [] else .leaf x k v
def TreeCfg.steps (C : TreeCfg V) (k : TyIx) : Nat := if C.wrapped k then 2 else 1

/-- The three statements after which variable 0 is in a backup. -/
theorem backed_up (v : V) {k0 k1 : TyIx} (hne : k0 ≠ k1) (h0 : C.nothrowMove k0 = false) (h1 : C.nothrowCopy k1 = false)
    (h2 : C.nothrowMove k1 = false) (hfb : C.fallback = none) :
    ∃ σ es, xtRunAll (C.failing fun t => t == 2 * C.steps k0 + C.steps k1 + 1)
        [C.make 0 k0 v, C.make 1 k1 v, .assign ⟨0, []⟩ ⟨1, []⟩] (XTSt.init V) = some (σ, es) ∧
      (∃ u, σ.vars 0 = some u ∧ u.backed = true) ∧ (∃ u, σ.vars 1 = some u ∧ u.backed = false) := by
  unfold TreeCfg.make TreeCfg.steps
  unfold TreeCfg.nothrowMove TreeCfg.nothrowCopy at *
  cases hw0 : C.wrapped k0 <;> cases hw1 : C.wrapped k1 <;> simp [hw0, hw1] at h0 h1 h2 <;>
  simp [TreeCfg.failing, xtRunAll, TCmd.okay, TCmd.risky, TCmd.exact, XTSt.init, hw0, hw1, xtRun, xtMay, xtNew, xtSet, Bind.bind, Eff.bind, Pure.pure, Eff.pure, Eff.modify,
    Eff.onExc, upd, xtGetAll, xtCopyAll, xtCopy, XTSt.at, XTree.sub, XTree.backed, XTree.which, hne, TPlace.inside, xtAssign, xtGet, xtReplace,
    xtGuarded, TreeCfg.nothrowMove, TreeCfg.nothrowCopy, h0, h1, h2, hfb, xtPut, XTree.put, XTree.mark]

/-- What the tree of a variable says about the variant it is. -/
theorem shows_variant (hr : s.Shows σ own) {x : Nat} {u : XTree V} (hu : σ.vars x = some u) :
    ∃ w, s.vars x = some w ∧ w.which = u.which ∧ (u.backed = true → ∃ k q, w = .backup k q) ∧ (u.backed = false → ∃ k c, w = .plain k c) := by
  obtain ⟨w, h1, h2⟩ := hr.val x u hu
  refine ⟨w, h1, ?_⟩
  cases u with
  | leaf b k v =>
    cases b with
    | false => rw [XTree.Rep] at h2; obtain ⟨rfl, -⟩ := h2; exact ⟨rfl, nofun, fun _ => ⟨_, _, rfl⟩⟩
    | true => rw [XTree.Rep] at h2; obtain ⟨q, rfl, -⟩ := h2; exact ⟨rfl, fun _ => ⟨_, _, rfl⟩, nofun⟩
  | node b k a f =>
    cases b with
    | false => rw [XTree.Rep] at h2; obtain ⟨p, cs, ms, rfl, -⟩ := h2; exact ⟨rfl, nofun, fun _ => ⟨_, _, rfl⟩⟩
    | true => rw [XTree.Rep] at h2; obtain ⟨q, p, cs, ms, rfl, -⟩ := h2; exact ⟨rfl, fun _ => ⟨_, _, rfl⟩, nofun⟩

/-- **C80**: exactly when programs on recursive variants are safe. The programs are those in which neither side of an assignment, move
assignment or swap is a part of the other. If no assignment can leave a content in a backup no such program has undefined
behaviour or fails an assertion, whichever operations fail; otherwise one of four statements does, if one operation fails. -/
theorem C80_disjoint_programs_safe_iff (hfb : ∀ fb, C.fallback = some fb → C.wrapped fb = false) (v : V) :
    TreesSafe C ↔ C.NeverBacksUp := by
  refine ⟨fun hs => Classical.byContradiction fun hC => ?_, C80_safe hfb⟩
  simp only [TreeCfg.NeverBacksUp, not_or, Classical.not_not, Classical.not_forall, Bool.not_eq_true] at hC
  obtain ⟨hf, k0, k1, hne, h0, h1, h2⟩ := hC
  obtain ⟨σ, es, h3, ⟨u0, h4, h5⟩, ⟨u1, h6, h7⟩⟩ := backed_up v hne h0 h1 h2 hf
  have h := C73_program (C := C.failing fun t => t == 2 * C.steps k0 + C.steps k1 + 1) (n := 16) hfb
    [C.make 0 k0 v, C.make 1 k1 v, .assign ⟨0, []⟩ ⟨1, []⟩] (by simp only [List.length_cons, List.length_nil]; decide)
  rw [h3] at h
  obtain ⟨-, -, s, own, h8, h9⟩ := h
  obtain ⟨w0, g0, -, g1, -⟩ := shows_variant h9 h4
  obtain ⟨w1, g2, -, -, g3⟩ := shows_variant h9 h6
  obtain ⟨k, q, rfl⟩ := g1 h5
  obtain ⟨k', c, rfl⟩ := g3 h7
  refine hs (fun t => t == 2 * C.steps k0 + C.steps k1 + 1)
    ([C.make 0 k0 v, C.make 1 k1 v, .assign ⟨0, []⟩ ⟨1, []⟩] ++ [.assign ⟨1, []⟩ ⟨0, []⟩]) 16 ?_
    (by simp only [List.length_append, List.length_cons, List.length_nil]; decide) ?_
  · intro d hd
    simp only [List.mem_append, List.mem_cons, List.not_mem_nil, or_false] at hd
    rcases hd with (rfl | rfl | rfl) | rfl
    · unfold TreeCfg.make; split <;> exact trivial
    · unfold TreeCfg.make; split <;> exact trivial
    · exact ⟨rfl, rfl⟩
    · exact ⟨rfl, rfl⟩
  · rw [tRun_append, h8]
    simp [tRun, TCmd.valid, TPlace.valid, TPlace.eval, tWalk, TLoc.read, tVar, g0, g2, TCmd.code, tVariantAssign, bind, Eff.bind, pure, Eff.pure, Eff.fail]

/-- A part of a variant's content is there only if the type of the content is wrapped. -/
theorem part_wrapped {τ : TStore V} (hr : s.Represents τ own) (hf : s.Fresh) (hB : τ.Bound C.wrapped n) {x t : TPlace}
    (hi : t.inside x = true) {k k' : TyIx} {c c' : TContent V} (hx : x.variant s = some (.plain k c)) (ht : t.variant s = some (.plain k' c')) :
    C.wrapped k = true := by
  obtain ⟨α, hM, hS, _⟩ := hr.mem hf
  obtain ⟨l, L, u0, h1, h2, _, h0t⟩ := hM.side hS hB hx
  obtain ⟨r, R, u, h3, _, _, _⟩ := hM.side hS hB ht
  obtain ⟨is, hne', _, _, hw⟩ := walk_of_inside h1 h3 hi
  obtain ⟨-, rfl⟩ := var_plain h2
  exact node_of_walk hne' hw h1.is h0t

/-- A node of type `k` with a member of type `k'`, made by two statements of which none fails. -/
theorem made_part (v : V) {k k' : TyIx} (hw : C.wrapped k = true) :
    ∃ σ es, xtRunAll (C.failing fun _ => false) [C.make 0 k' v, .node 1 k v [⟨0, []⟩]] (XTSt.init V) = some (σ, es) ∧
      ∃ a u, σ.vars 1 = some (.node false k a [u]) ∧ u.backed = false ∧ u.which = k' := by
  unfold TreeCfg.make
  cases hw1 : C.wrapped k' <;>
  simp [TreeCfg.failing, xtRunAll, TCmd.okay, TCmd.risky, TCmd.exact, XTSt.init, hw, hw1, xtRun, xtMay, xtNew, xtSet, Bind.bind, Eff.bind,
    Pure.pure, Eff.pure, Eff.modify, upd, xtGetAll, xtCopyAll, xtCopy, XTSt.at, XTree.sub, XTree.backed, XTree.which, xtGet] <;> exact ⟨_, _, ⟨rfl, rfl⟩, rfl, rfl⟩

/-- The same in the model: the variants at the node and at its member. -/
theorem made_part_state (v : V) {k k' : TyIx} (hfb : ∀ fb, C.fallback = some fb → C.wrapped fb = false) (hw : C.wrapped k = true) :
    tClean (C.failing fun _ => false) 4 [C.make 0 k' v, .node 1 k v [⟨0, []⟩]] (TreeSt.init V) = true ∧
    ∃ s c c', tRun (C.failing fun _ => false) 4 [C.make 0 k' v, .node 1 k v [⟨0, []⟩]] (TreeSt.init V) = some s ∧
      TPlace.variant s ⟨1, []⟩ = some (.plain k c) ∧ TPlace.variant s ⟨1, [0]⟩ = some (.plain k' c') := by
  obtain ⟨σ, es, h1, a, u, h2, h3, h4⟩ := made_part (k' := k') v hw
  have h := C73_program (C := C.failing fun _ => false) (n := 4) hfb [C.make 0 k' v, .node 1 k v [⟨0, []⟩]]
    (by simp only [List.length_cons, List.length_nil]; decide)
  rw [h1] at h
  obtain ⟨hc, -, s, own, h5, h6⟩ := h
  obtain ⟨w, h7, h8⟩ := h6.val 1 _ h2
  rw [XTree.Rep] at h8
  obtain ⟨p, cs, ms, rfl, h9, h10, -⟩ := h8
  rw [XTree.RepL] at h10
  obtain ⟨y, ys, ms, ms', rfl, h11, h12, -⟩ := h10
  have hy : ∃ c', y = .plain k' c' := by
    cases u with
    | leaf b j z => cases h3; cases h4; rw [XTree.Rep] at h11; exact ⟨_, h11.1⟩
    | node b j z f => cases h3; cases h4; rw [XTree.Rep] at h11; obtain ⟨p, _, _, h, _⟩ := h11; exact ⟨_, h⟩
  obtain ⟨c', rfl⟩ := hy
  refine ⟨hc, s, .wrap p, c', h5, ?_, ?_⟩
  · simp [TPlace.variant, TPlace.eval, tWalk, TLoc.read, tVar, h7, Pure.pure, Eff.pure]
  · simp [TPlace.variant, TPlace.eval, tWalk, TLoc.read, tVar, h7, tContent, tReadNode, h9, Bind.bind, Eff.bind, Pure.pure, Eff.pure]

/-- **C80**: exactly when a variant may be assigned a part of its own content, both in place: with content of type `k` and a part of type
`k'`, there is undefined behaviour in no state a program can come to if and only if the types are the same or the part is copied
to a local object first (`nothrowMove` without `nothrowCopy`). (A type that is not wrapped has no parts.) -/
theorem C80_own_part_iff (hl : C.ops.Lawful) (hfb : ∀ fb, C.fallback = some fb → C.wrapped fb = false) (v : V) (k k' : TyIx) :
    OwnPartSafe C .assign k k' ↔ C.wrapped k = false ∨ k = k' ∨ (C.nothrowMove k' = true ∧ C.nothrowCopy k' = false) := by
  constructor
  · intro h
    cases hw : C.wrapped k with
    | false => exact .inl rfl
    | true =>
      refine .inr (Classical.byContradiction fun hn => ?_)
      rw [not_or] at hn
      obtain ⟨hne, hs⟩ := hn
      obtain ⟨hc, s, c, c', h1, h2, h3⟩ := made_part_state (k' := k') v hfb hw
      obtain ⟨s', τ, own, g1, -, g2, g3, g4⟩ := C37_programs_on_trees (C := C.failing fun _ => false) hl hfb
        [C.make 0 k' v, .node 1 k v [⟨0, []⟩]] (n := 4) (by simp only [List.length_cons, List.length_nil]; decide) hc
      rw [h1] at g1; cases g1
      rcases C46_destroyed_before_read (n := 4) (C := C.failing fun _ => false) hl g2 g3 g4 (x := ⟨1, []⟩) (t := ⟨1, [0]⟩) rfl h2 h3
        (by rintro c ⟨⟩; exact hne rfl)
        (by rintro ⟨h4, h5 | ⟨_, _, _, h6⟩⟩
            · exact hs ⟨h5, h4⟩
            · cases h6) with h4 | ⟨e, s', _, h5, _⟩
      · exact h (fun _ => false) _ 4 s ⟨1, []⟩ ⟨1, [0]⟩ c c' .ub (by simp only [List.length_cons, List.length_nil]; decide) hc h1 rfl h2 h3 h4
      · cases h5
  · intro h throws cs n s x t c c' e hn hc h1 hi hx ht he
    obtain ⟨s', τ, own, g1, -, g2, g3, g4⟩ := C37_programs_on_trees (C := C.failing throws) hl hfb cs hn hc
    rw [h1] at g1; cases g1
    have hB : τ.Bound C.wrapped n := g4.mono hn
    rcases h with h | h
    · have := part_wrapped g2 g3 hB hi hx ht
      rw [h] at this; cases this
    · obtain ⟨u, -, ⟨s', own', h2, -⟩ | ⟨e', s', τ', own', h2, -⟩⟩ :=
        C46_assign_from_own_part_partial (C := C.failing throws) hl g2 g3 hB hi hx ht
          (h.imp (fun h => ⟨c, by rw [h]⟩) fun h => ⟨h.2, .inl h.1⟩)
      · rw [h2] at he; cases he
      · rw [h2] at he; cases he

/-- **C80**: move assignment from a part of one's own content, both in place, is never safe unless the types are the same (or the type has
no parts). If they are there is no undefined behaviour, but the memory of the old content leaks (`C51_swap_leaks`). -/
theorem C80_own_part_move_iff (hl : C.ops.Lawful) (hfb : ∀ fb, C.fallback = some fb → C.wrapped fb = false) (v : V) (k k' : TyIx) :
    OwnPartSafe C .moveAssign k k' ↔ C.wrapped k = false ∨ k = k' := by
  constructor
  · intro h
    cases hw : C.wrapped k with
    | false => exact .inl rfl
    | true =>
      refine .inr (Classical.byContradiction fun hne => ?_)
      obtain ⟨hc, s, c, c', h1, h2, h3⟩ := made_part_state (k' := k') v hfb hw
      obtain ⟨s', τ, own, g1, -, g2, g3, g4⟩ := C37_programs_on_trees (C := C.failing fun _ => false) hl hfb
        [C.make 0 k' v, .node 1 k v [⟨0, []⟩]] (n := 4) (by simp only [List.length_cons, List.length_nil]; decide) hc
      rw [h1] at g1; cases g1
      rcases C51_destroyed_before_read (n := 4) (C := C.failing fun _ => false) hl g2 g3 g4 (x := ⟨1, []⟩) (t := ⟨1, [0]⟩) rfl h2 h3
        (by rintro c ⟨⟩; exact hne rfl) (by rintro ⟨_, _, _, _, _, h6⟩; cases h6) with h4 | ⟨e, s', _, h5, _⟩
      · exact h (fun _ => false) _ 4 s ⟨1, []⟩ ⟨1, [0]⟩ c c' .ub (by simp only [List.length_cons, List.length_nil]; decide) hc h1 rfl h2 h3 h4
      · cases h5
  · intro h throws cs n s x t c c' e hn hc h1 hi hx ht he
    obtain ⟨s', τ, own, g1, -, g2, g3, g4⟩ := C37_programs_on_trees (C := C.failing throws) hl hfb cs hn hc
    rw [h1] at g1; cases g1
    have hB : τ.Bound C.wrapped n := g4.mono hn
    rcases h with h | rfl
    · have := part_wrapped g2 g3 hB hi hx ht
      rw [h] at this; cases this
    · obtain ⟨_, _, s', _, -, -, h2, -⟩ := C51_swap_leaks (C := C.failing throws) g2 g3 hB (.inl hi) hx ht rfl
        ⟨fun _ => ⟨_, _, rfl⟩, fun _ => ⟨_, _, rfl⟩⟩
      rw [h2] at he; cases he

/-- **C80**: the assignment of a variant to a part of its own content, of another type and both in place, returns in no state a program can
come to, whatever the types and whichever operations fail. -/
theorem C80_outer_never (hl : C.ops.Lawful) (hfb : ∀ fb, C.fallback = some fb → C.wrapped fb = false) {cs : List (TCmd V)} (hn : 2 ^ cs.length ≤ n)
    (hc : tClean C n cs (TreeSt.init V) = true) (h : tRun C n cs (TreeSt.init V) = some s) {x t : TPlace} (hi : x.inside t = true)
    {k k' : TyIx} {c c' : TContent V} (hx : x.variant s = some (.plain k c)) (ht : t.variant s = some (.plain k' c')) (hne : k ≠ k')
    (s' : TreeSt V) : TCmd.code C n (.assign x t) s ≠ .ok () s' := by
  obtain ⟨s1, τ, own, g1, -, g2, g3, g4⟩ := C37_programs_on_trees hl hfb cs hn hc
  rw [h] at g1; cases g1
  exact C46_part_of_right_side hl g2 g3 (g4.mono hn) hi hx ht (by rintro c ⟨⟩; exact hne rfl)

end

/-! ### Concrete cases -/

/-- C80: with the types of the examples (type 0 may throw, 1 is wrapped) programs are safe if and only if there is a fallback type; a node
may be assigned a member of type 2 (nothrow move) and of type 1, but not of type 0 (may throw) or 3 (nothrow copy), and nothing
but a member of type 1 may be moved to it. -/
example : TreesSafe (exTree (some 2) []) ∧ ¬ TreesSafe (exTree none []) ∧
    OwnPartSafe (exTree none []) .assign 1 2 ∧ OwnPartSafe (exTree none []) .assign 1 1 ∧ ¬ OwnPartSafe (exTree none []) .assign 1 0 ∧
    ¬ OwnPartSafe (exTree none []) .assign 1 3 ∧ ¬ OwnPartSafe (exTree none []) .moveAssign 1 2 ∧ OwnPartSafe (exTree none []) .moveAssign 1 1 := by
  have hf : ∀ fb, (exTree none []).fallback = some fb → (exTree none []).wrapped fb = false := nofun
  refine ⟨(C80_disjoint_programs_safe_iff (by rintro _ ⟨⟩; rfl) 0).mpr (.inl (by simp [exTree])), fun h => ?_,
    (C80_own_part_iff natOps_lawful hf 0 1 2).mpr (by decide), (C80_own_part_iff natOps_lawful hf 0 1 1).mpr (by decide),
    fun h => absurd ((C80_own_part_iff natOps_lawful hf 0 1 0).mp h) (by decide),
    fun h => absurd ((C80_own_part_iff natOps_lawful hf 0 1 3).mp h) (by decide),
    fun h => absurd ((C80_own_part_move_iff natOps_lawful hf 0 1 2).mp h) (by decide),
    (C80_own_part_move_iff natOps_lawful hf 0 1 1).mpr (by decide)⟩
  rcases (C80_disjoint_programs_safe_iff hf 0).mp h with h | h
  · exact h rfl
  · exact absurd (h 0 1 (by decide)) (by decide)

/-- C80: types that never back up although there is no fallback type: all have nothrow moves, and none is wrapped. -/
example : TreesSafe { exTree none [] with tr := fun _ => tMovable, wrapped := fun _ => false } :=
  C80_safe (by nofun) (.inr fun _ _ _ => .inl rfl)

/-- C80: the hypotheses of `C80_outer_never`: the node `2` is assigned to its first member. -/
example : TCmd.code (exTree none []) 4096 (.assign ⟨2, [0]⟩ ⟨2, []⟩) (tAfter none [] (exTreeProg.take 5)) ≠
    .ok () (tAfter none [] (exTreeProg.take 5)) :=
  C80_outer_never (k := 0) (k' := 1) (c := .leaf 5) (c' := .wrap 0) (cs := exTreeProg.take 5) natOps_lawful (fun _ h => by cases h) (by decide) (by decide +kernel)
    (tAfter_run (by decide +kernel)) rfl (by decide +kernel) (by decide +kernel) (by decide) _

end BVariant
