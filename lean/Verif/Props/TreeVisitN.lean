/-
C82: visitors of several recursive variants at once, which visit members in turn.
-/
import Verif.Lemmas.TreeVisitNSpec
import Verif.Props.TreeVisit

namespace BVariant

section
variable {V A R : Type} {C : TreeCfg V} {vis : NVisitor V A R} {s s' : TreeSt V} {σ σ' : TStore V} {own : Nat → List ObjId} {n d : Nat}
  {x y : TPlace} {ys : List TPlace} {wrapped : TyIx → Bool}

open ATree AStore

theorem selPlaces_at (zs : List TPlace) : ∀ ys : List TPlace, selPlaces zs (ys.map .at) = some ys
  | [] => rfl
  | y :: ys => by simp only [List.map_cons, selPlaces, VSel.place, selPlaces_at zs ys]

/-- **C82.** A visitor applied to any number of variants or parts of variants, of any depth, which may be in heap backups, contain each other, or be the
same: if on the plain trees that the variants stand for it comes to an end, with `d` nested calls at most, then the program does so,
does not fault, and returns, or throws, as the visitor does there. The variants then stand for what the visitor has made of those trees, where a value
that it has written through one argument is the one that it reads through another. Nothing is allocated or freed. -/
theorem C82_visit (hr : s.Represents σ own) (hf : s.Fresh) {a : A} {o : Option R} (hv : VisitedN vis d ys a σ σ' o) (hd : d < n) :
    ∃ s', tVisitN vis n [] (ys.map .at) a s = o.elim (.exc ⟨.visitor, s.tick⟩ s') (fun r => .ok r s') ∧
      s'.Represents σ' own ∧ s'.Fresh ∧ s'.allocs = s.allocs ∧ s'.tick = s.tick := by
  obtain ⟨α, hM, hS, hown⟩ := hr.mem hf
  obtain ⟨os, h1, h2⟩ := hv
  cases n with
  | zero => omega
  | succ n =>
    obtain ⟨ls, cs, k1, k2, k3, k4⟩ := operands_run (ys := []) (os := []) hM hS trivial (selPlaces_at [] ys) h1
    obtain ⟨s', β, g1, g2, g3, g4, g5, g6⟩ := (h2.mono (by omega : d ≤ n)).run hM hS k3
    refine ⟨s', ?_, ?_, g2.fresh, g6, g5⟩
    · simp only [tVisitN, bind, Eff.bind, k1, k2, k4]
      rw [g1]
      cases o <;> rfl
    · have h := g2.represents g3
      rwa [show (fun z => blocksO (β z)) = own from funext fun z => by rw [g4.2, hown]] at h

/-- **C82.** What a visitor makes of the trees, and what it returns, is determined by them. -/
theorem C82_deterministic {d' : Nat} {a : A} {τ : TStore V} {o o' : Option R} (h : VisitedN vis d ys a σ σ' o) (h' : VisitedN vis d' ys a σ τ o') :
    τ = σ' ∧ o' = o := by
  obtain ⟨os, h1, h2⟩ := h
  obtain ⟨os', h3, h4⟩ := h'
  rw [h1] at h3; cases h3
  exact h2.unique h4

/-- **C82.** A visitor changes values only: the same places are there, with the same types and as many members as before. -/
theorem C82_same_types {a : A} {o : Option R} (h : VisitedN vis d ys a σ σ' o) : σ.Alike σ' := h.elim fun _ h => h.2.alike

/-- **C82.** If whatever the visitor visits is there, and some measure of it is less than that of what it was called for, then it comes to an end; the measure
bounds the number of nested calls. -/
theorem C82_ends {μ : A → List TPlace → Nat} (hv : vis.Ends σ μ) (hy : ∀ y ∈ ys, σ.at y ≠ none) (a : A) :
    ∃ σ' o, VisitedN vis (μ a ys) ys a σ σ' o := by
  obtain ⟨os, os', h1, h2, h3⟩ := operands_alike (σ := σ) .rfl' hy
  obtain ⟨σ', o, h4⟩ := hv.acts _ (vis a os') ys σ .rfl' hy (hv a ys os os' h1 h3)
  exact ⟨σ', o, os', h2, h4⟩

/-- **C82.** A visitor that visits members of its arguments only, and those that are there, comes to an end on all variants, after at most as many nested
calls as the variants are high. -/
theorem C82_members (hv : vis.Within) (hr : s.Represents σ own) (hf : s.Fresh) (hB : σ.Bound wrapped n) (hy : ∀ y ∈ ys, σ.at y ≠ none) (a : A) :
    ∃ σ' o s', VisitedN vis n ys a σ σ' o ∧
      tVisitN vis (n + 1) [] (ys.map .at) a s = o.elim (.exc ⟨.visitor, s.tick⟩ s') (fun r => .ok r s') ∧
      s'.Represents σ' own ∧ s'.Fresh ∧ s'.allocs = s.allocs := by
  obtain ⟨σ', o, os, h1, h2⟩ := C82_ends (hv.ends σ) hy a
  have hn : σ.heights ys ≤ n := heights_le fun y _ t ht => by have := (hB.at ht).1; omega
  have h3 : VisitedN vis n ys a σ σ' o := ⟨os, h1, h2.mono hn⟩
  obtain ⟨s', g1, g2, g3, g4, -⟩ := C82_visit hr hf h3 (Nat.lt_succ_self n)
  exact ⟨σ', o, s', h3, g1, g2, g3, g4⟩

/-- **C82.** A visitor that only reads leaves the whole memory as it is, whatever the memory is and whether it returns or throws. -/
theorem C82_reading (hv : vis.Reads) (a : A) (sel : List VSel) :
    (∀ r, tVisitN vis n [] sel a s = .ok r s' → s' = s) ∧ (∀ e, tVisitN vis n [] sel a s = .exc e s' → s' = s) := by
  have h := tVisitN_same hv n [] sel a s
  exact ⟨fun r e => by rw [e] at h; exact h, fun _ e => by rw [e] at h; exact h⟩

/-- **C82.** The comparison by a binary visitor of the documentation: it returns true if and only if the trees have the same types and members throughout, and
equal values, and leaves the memory as it is; so it does just what `operator==` does. The variants compared may be parts of one another, or the
same. -/
theorem C82_strict_equals (eq : TyIx → V → V → Bool) (hr : s.Represents σ own) (hf : s.Fresh) (hB : σ.Bound wrapped n) {t u : VTree V}
    (hx : σ.at x = some t) (hy : σ.at y = some u) :
    (∃ b, tVisitN (eqVisitor eq) (n + 1) [] [.at x, .at y] () s = .ok b s ∧ (b = true ↔ t.Same eq u)) ∧
      tVisitN (eqVisitor eq) (n + 1) [] [.at x, .at y] () s = tEq eq n x y s := by
  obtain ⟨b, h1, h2⟩ := eq_visited eq t u (d := n) hx hy (hB.at hx).2 (hB.at hy).2 (by have := (hB.at hx).1; omega)
  have h3 : VisitedN (eqVisitor eq) n [x, y] () σ σ (some b) := ⟨_, by simp only [TStore.operands, hx, hy], h1⟩
  obtain ⟨s', g1, -⟩ := C82_visit hr hf h3 (Nat.lt_succ_self n)
  have g2 : tVisitN (eqVisitor eq) (n + 1) [] [.at x, .at y] () s = .ok b s' := g1
  rw [(C82_reading (eqVisitor_reads eq) () _).1 _ g2] at g2
  obtain ⟨b', k1, k2⟩ := C55_equality_result (eq := eq) hr hf hB hx hy
  refine ⟨⟨b, g2, h2⟩, ?_⟩
  rw [g2, k1]
  have : b = b' := by
    cases b <;> cases b' <;> simp_all
  rw [this]

/-- **C82.** After any program on recursive variants in which no unsupported assignment occurs (see C37), with any operation having failed, any
visitor that visits members can be applied to any variants and any parts of variants. -/
theorem C82_after_any_program (hv : vis.Within) (hl : C.ops.Lawful) (hfb : ∀ fb, C.fallback = some fb → C.wrapped fb = false)
    (cs : List (TCmd V)) (hn : 2 ^ cs.length ≤ n) (hc : tClean C n cs (TreeSt.init V) = true) :
    ∃ (s : TreeSt V) (σ : TStore V) (own : Nat → List ObjId), tRun C n cs (TreeSt.init V) = some s ∧ TSteps C cs (fun _ => none) σ ∧
      (∀ x, x.Alive s ↔ σ.at x ≠ none) ∧
      ∀ ys a, (∀ y ∈ ys, y.Alive s) → ∃ σ' o s', VisitedN vis n ys a σ σ' o ∧
        tVisitN vis (n + 1) [] (ys.map .at) a s = o.elim (.exc ⟨.visitor, s.tick⟩ s') (fun r => .ok r s') ∧
        s'.Represents σ' own := by
  obtain ⟨s, σ, own, h1, h2, h3, h4, h5⟩ := C37_programs_on_trees hl hfb cs hn hc
  obtain ⟨α, hM, hS, _⟩ := h3.mem h4
  have ha : ∀ x : TPlace, x.Alive s ↔ σ.at x ≠ none := fun x => hM.valid_iff.trans hS.at_iff.symm
  refine ⟨s, σ, own, h1, h2, ha, fun ys a hy => ?_⟩
  obtain ⟨σ', o, s', g1, g2, g3, -⟩ := C82_members hv h3 h4 (h5.mono hn) (fun y h => (ha y).mp (hy y h)) a
  exact ⟨σ', o, s', g1, g2, g3⟩

end

/-! ### Concrete cases -/

/-- C82: in `exTreeCmp`, where variable 2 is in a heap backup, it is compared with itself, with a part of variable 3, and with all of variable 3. -/
example : resVal (tVisitN (eqVisitor fun _ a b => a == b) 16 [] [.at ⟨2, []⟩, .at ⟨2, []⟩] () exTreeCmp) = some true ∧
    resVal (tVisitN (eqVisitor fun _ a b => a == b) 16 [] [.at ⟨2, []⟩, .at ⟨3, []⟩] () exTreeCmp) = some false ∧
    resVal (tVisitN (eqVisitor fun _ a b => a == b) 16 [] [.at ⟨3, [0, 0]⟩, .at ⟨3, [1]⟩] () exTreeCmp) = some true := by decide +kernel

/-- C82: the hypotheses of `C82_strict_equals` hold for variable 3 of the program above and a part of it. -/
example : ∃ b, tVisitN (eqVisitor fun _ a b => a == b) 17 [] [.at ⟨3, []⟩, .at ⟨3, [0]⟩] () (tAfter none [] (exTreeProg.take 4)) =
    .ok b (tAfter none [] (exTreeProg.take 4)) := by
  obtain ⟨σ, own, h1, h2, h3, h4⟩ := exTree_bound (st := false)
  have hx : σ.at ⟨3, []⟩ = some exTree3 := by simp only [TStore.at, h4]; rfl
  obtain ⟨t, ht⟩ : ∃ t, σ.at ⟨3, [0]⟩ = some t := by simp only [TStore.at, h4]; exact ⟨_, rfl⟩
  obtain ⟨b, g, -⟩ := (C82_strict_equals (fun _ a b => a == b) h1 h2 h3 hx ht).1
  exact ⟨b, g⟩

/-- Adds the values of the second variant to those of the first, member by member as long as both have members, and returns the last value read through the
second argument. -/
def exAdd : NVisitor Nat Unit Nat := fun _ os =>
  match os with
  | [(_, _, m), (_, w, m')] =>
    .read 0 fun v => .write 0 (v + w) (if 0 < m ∧ 0 < m' then .tryVisit [.member 0 0, .member 1 0] () (fun _ => .read 1 .ret) .throw else .read 1 .ret)
  | _ => .throw

theorem exAdd_within : exAdd.Within := by
  intro a os
  unfold exAdd
  split
  · rename_i m k w m'
    refine ⟨by simp, fun v => ⟨by simp, ?_⟩⟩
    split
    · rename_i h
      refine ⟨⟨by simp, ?_⟩, fun r => ⟨by simp, fun v => by simp only [VActN.Within]⟩, by simp only [VActN.Within]⟩
      intro z hz
      simp only [List.mem_cons, List.not_mem_nil, or_false] at hz
      rcases hz with rfl | rfl
      · exact ⟨0, 0, m, rfl, rfl, h.1⟩
      · exact ⟨1, 0, m', rfl, rfl, h.2⟩
    · exact ⟨by simp, fun v => by simp only [VActN.Within]⟩
  · simp only [VActN.Within]

/-- C82: applied twice to the same variant, the visitor doubles the values that it comes to, and reads through its second argument what it has written through
the first. -/
example : VisitedN exAdd 2 [⟨0, []⟩, ⟨0, []⟩] () (upd (fun _ => none) 0 (some (.node 1 7 (.cons (.leaf 0 5) (.cons (.leaf 0 9) .nil)))))
    (upd (fun _ => none) 0 (some (.node 1 14 (.cons (.leaf 0 10) (.cons (.leaf 0 9) .nil))))) (some 14) := by
  refine ⟨[(1, 7, 2), (1, 7, 2)], rfl, .read rfl rfl (.write rfl rfl ?_)⟩
  refine .tryVisit (os := [(0, 5, 0), (0, 5, 0)]) (σ1 := upd (fun _ => none) 0 (some (.node 1 14 (.cons (.leaf 0 10) (.cons (.leaf 0 9) .nil))))) (r := 10) rfl rfl ?_ (.read rfl rfl .ret)
  refine .read rfl rfl (.write rfl rfl ?_)
  refine .read (y := ⟨0, [0]⟩) (t := .leaf 0 10) rfl rfl ?_
  have : TStore.put (TStore.put (upd (fun _ => none) 0 (some (VTree.node 1 7 (.cons (.leaf 0 5) (.cons (.leaf 0 9) .nil))))) ⟨0, []⟩ (.node 1 14 (.cons (.leaf 0 5) (.cons (.leaf 0 9) .nil))))
      ⟨0, [0]⟩ (.leaf 0 10) = upd (fun _ => none) 0 (some (.node 1 14 (.cons (.leaf 0 10) (.cons (.leaf 0 9) .nil)))) := by
    funext z
    by_cases hz : z = 0
    · subst hz; rfl
    · simp only [TStore.put, upd, hz, if_false]
  rw [← this]
  exact .ret

/-- C82: that visitor on variable 3 and a part of it. -/
example : ∃ (σ : TStore Nat) (own : Nat → List ObjId) (σ' : TStore Nat) (o : Option Nat) (s' : TreeSt Nat),
    (tAfter none [] (exTreeProg.take 4)).Represents σ own ∧ VisitedN exAdd 16 [⟨3, []⟩, ⟨3, [0]⟩] () σ σ' o ∧ s'.Represents σ' own ∧
    s'.allocs = (tAfter none [] (exTreeProg.take 4)).allocs := by
  obtain ⟨σ, own, h1, h2, h3, h4⟩ := exTree_bound (st := false)
  have hy : ∀ y ∈ [(⟨3, []⟩ : TPlace), ⟨3, [0]⟩], σ.at y ≠ none := by
    intro y hy
    simp only [List.mem_cons, List.not_mem_nil, or_false] at hy
    rcases hy with rfl | rfl
    · simp only [TStore.at, h4]; nofun
    · simp only [TStore.at, h4]; nofun
  obtain ⟨σ', o, s', g1, -, g3, -, g5⟩ := C82_members exAdd_within h1 h2 h3 hy ()
  exact ⟨σ, own, σ', o, s', h1, g1, g3, g5⟩

example := C82_after_any_program (C := exCalcTypes) (vis := exAdd) (n := 4096) exAdd_within natOps_lawful nofun exCalcProg (by decide) (by decide +kernel)

/-- Members are looked at, from the one with index `i` on. -/
def exAnyOf (nx : TPlace) (r i : Nat) : VActN Nat Unit Bool :=
  match r with
  | 0 => .ret false
  | r + 1 => .visit [.at nx, .member 1 i] () fun b => if b then .ret true else exAnyOf nx r (i + 1)

/-- Whether the value of the variant at the place `nx` occurs in the second argument. -/
def exContains (nx : TPlace) : NVisitor Nat Unit Bool := fun _ os =>
  match os with
  | [(_, v, _), (_, w, m)] => if v = w then .ret true else exAnyOf nx m 0
  | _ => .ret false

theorem exAnyOf_ends {σ : TStore Nat} {nx y0 y1 : TPlace} {t : VTree Nat} (hn : σ.at nx ≠ none) (ht : σ.at y1 = some t) : ∀ {r i : Nat}, i + r = t.arity →
    (exAnyOf nx r i).Ends σ (fun _ ys => σ.heights (ys.drop 1)) (σ.heights [y1]) [y0, y1]
  | 0, _, _ => by simp only [exAnyOf, VActN.Ends]
  | r + 1, i, h => by
    obtain ⟨u, h1, h2⟩ := member_of_lt (i := i) ht (by omega)
    refine ⟨⟨[nx, y1.member i], rfl, ?_, ?_⟩, fun b => ?_⟩
    · intro y hy
      simp only [List.mem_cons, List.not_mem_nil, or_false] at hy
      rcases hy with rfl | rfl
      · exact hn
      · rw [h1]; nofun
    · simp only [List.drop_succ_cons, List.drop_zero, TStore.heights, h1, ht, Option.elim_some]
      omega
    · cases b with
      | true => simp [VActN.Ends]
      | false => exact exAnyOf_ends hn ht (by omega)

/-- C82: the hypothesis of `C82_ends` holds for a visitor that goes on with one of its arguments as it is. -/
theorem exContains_ends {σ : TStore Nat} {nx : TPlace} (hn : σ.at nx ≠ none) : (exContains nx).Ends σ fun _ ys => σ.heights (ys.drop 1) := by
  intro a ys os os' h1 h2
  obtain ⟨g1, g2⟩ := operands_get h1
  unfold exContains
  split
  · rename_i k v m0 k' w m
    split
    · simp only [VActN.Ends]
    · match os, h2 with
      | [z0, z1], h2 =>
        simp only [List.map_cons, List.map_nil, List.cons.injEq, Prod.mk.injEq, and_true] at h2
        match ys, g1 with
        | [y0, y1], _ =>
          obtain ⟨y, t, h3, h4, h5⟩ := g2 (o := 1) (z := z1) rfl
          cases h3
          exact exAnyOf_ends hn h4 (by rw [h2.2.2, h5]; exact Nat.zero_add _)
  · simp only [VActN.Ends]

/-- C82: whether the value of a part of variable 3 occurs in variable 3. -/
example : ∃ (σ : TStore Nat) (own : Nat → List ObjId) (o : Option Bool), (tAfter none [] (exTreeProg.take 4)).Represents σ own ∧
    tVisitN (exContains ⟨3, [1]⟩) (σ.heights [⟨3, []⟩] + 1) [] [.at ⟨3, [1]⟩, .at ⟨3, []⟩] () (tAfter none [] (exTreeProg.take 4)) =
      o.elim (.exc ⟨.visitor, (tAfter none [] (exTreeProg.take 4)).tick⟩ (tAfter none [] (exTreeProg.take 4))) (fun r => .ok r (tAfter none [] (exTreeProg.take 4))) := by
  obtain ⟨σ, own, h1, h2, h3, h4⟩ := exTree_bound (st := false)
  have hy : ∀ y ∈ [(⟨3, [1]⟩ : TPlace), ⟨3, []⟩], σ.at y ≠ none := by
    intro y hy
    simp only [List.mem_cons, List.not_mem_nil, or_false] at hy
    rcases hy with rfl | rfl
    · simp only [TStore.at, h4]; nofun
    · simp only [TStore.at, h4]; nofun
  obtain ⟨σ', o, g1⟩ := C82_ends (exContains_ends (nx := ⟨3, [1]⟩) (hy _ List.mem_cons_self)) hy ()
  obtain ⟨s', g2, -⟩ := C82_visit h1 h2 g1 (Nat.lt_succ_self _)
  have hreads : (exContains ⟨3, [1]⟩).Reads := by
    intro a os
    have hany : ∀ r i, (exAnyOf ⟨3, [1]⟩ r i).Reads := by
      intro r
      induction r with
      | zero => intro i; simp only [exAnyOf, VActN.Reads]
      | succ r ih =>
        intro i b
        cases b
        · exact ih _
        · simp [VActN.Reads]
    unfold exContains
    split
    · split
      · simp only [VActN.Reads]
      · exact hany _ _
    · simp only [VActN.Reads]
  refine ⟨σ, own, o, h1, ?_⟩
  have g3 := g2
  cases o with
  | none => rw [(C82_reading hreads () _).2 _ g3] at g2; exact g2
  | some r => rw [(C82_reading hreads () _).1 _ g3] at g2; exact g2

/-! ### Instances -/

/-- C82: what `exAdd` does, and returns, for variable 3 and a part of it does not depend on the depth of the stack; and values only are changed. -/
example {σ σ' τ : TStore Nat} {o o' : Option Nat} (h : VisitedN exAdd 16 [⟨3, []⟩, ⟨3, [0]⟩] () σ σ' o)
    (h' : VisitedN exAdd 40 [⟨3, []⟩, ⟨3, [0]⟩] () σ τ o') : (τ = σ' ∧ o' = o) ∧ σ.Alike σ' :=
  ⟨C82_deterministic h h', C82_same_types h⟩

end BVariant
