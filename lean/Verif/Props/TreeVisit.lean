/-
C81: visitors that visit the members of recursive variants in turn.
-/
import Verif.Lemmas.TreeVisit
import Verif.Props.TreeObserve

namespace BVariant

section
variable {V A R : Type} {C : TreeCfg V} {vis : TVisitor V A R} {s s' : TreeSt V} {σ : TStore V} {own : Nat → List ObjId} {n : Nat} {x : TPlace}
  {wrapped : TyIx → Bool}

open ATree AStore

/-- **C81.** A recursive visitor applied to a variant, or a part of one, of any depth and with any of its parts in a heap backup: it does
not fault. It returns what it returns on the plain tree that the variant stands for, and throws if and only if it does so there; in
both cases the variant then stands for what the visitor has made of that tree. All other variants, and the rest of the one that the
part belongs to, keep their values. Nothing is allocated or freed: each variant has the blocks that it had. -/
theorem C81_visit (hvis : vis.Within) (hr : s.Represents σ own) (hf : s.Fresh) (hB : σ.Bound wrapped n) {t : VTree V} (hx : σ.at x = some t)
    (a : A) :
    ∃ u o s', t.Visited vis a u o ∧
      tVisit vis n x a s = o.elim (.exc ⟨.visitor, s.tick⟩ s') (fun r => .ok r s') ∧
      s'.Represents (σ.put x u) own ∧ s'.Fresh ∧ s'.allocs = s.allocs ∧ s'.tick = s.tick := by
  obtain ⟨α, hM, hS, hown⟩ := hr.mem hf
  obtain ⟨l, T, hat⟩ := (hS.at_iff (t := x)).mp (by rw [hx]; nofun)
  obtain ⟨_, h1, hT⟩ := hS.at hat
  rw [hx] at h1; cases h1
  obtain ⟨T', u, o, s', g1, g2, g3, g4, _, g5, g6, g7⟩ := tVisitAt_run hvis n s α x l T t a hM hat hT (by have := (hB.at hx).1; omega)
  refine ⟨u, o, s', g1, ?_, ?_, g3.fresh, g7, g6⟩
  · simp only [tVisit, bind, Eff.bind, (hM.at_run hat).1]
    rw [g2]
    cases o <;> rfl
  · have h := g3.represents (hS.put g4)
    rwa [show (fun z => blocksO ((α.put x T') z)) = own from funext fun z => by rw [hat.put_blocks g5, hown]] at h

/-- **C81.** What a visitor makes of a tree, and what it returns, is determined by the tree. -/
theorem C81_deterministic {a : A} {t u u' : VTree V} {o o' : Option R} (h : t.Visited vis a u o) (h' : t.Visited vis a u' o') : u' = u ∧ o' = o :=
  h.unique h'

/-- **C81.** A visitor changes values only: the tree has the same types and the same members as before. -/
theorem C81_same_shape {a : A} {t u : VTree V} {o : Option R} (h : t.Visited vis a u o) : t.SameShape u := h.sameShape

/-- **C81.** A visitor that only reads leaves the whole memory as it is, whatever the memory is and whether it returns or throws. -/
theorem C81_reading (hvis : vis.Reads) (a : A) :
    (∀ r, tVisit vis n x a s = .ok r s' → s' = s) ∧ (∀ e, tVisit vis n x a s = .exc e s' → s' = s) := by
  have h : (tVisit vis n x a s).SameState s := SameState.bind (tWalk_same x.path (.var x.var) s) fun l => tVisitAt_same hvis n l a s
  exact ⟨fun r e => by rw [e] at h; exact h, fun _ e => by rw [e] at h; exact h⟩

/-- **C81.** A visitor that computes a value from the value of an element or node and the results for its members, in order, such as
the calculator of the documentation, computes the value of the tree, and leaves the memory as it is. -/
theorem C81_compute (F : TyIx → V → List R → R) (hr : s.Represents σ own) (hf : s.Fresh) (hB : σ.Bound wrapped n) {t : VTree V}
    (hx : σ.at x = some t) : tVisit (foldVisitor F) n x () s = .ok (t.fold F) s := by
  obtain ⟨u, o, s', h1, h2, -⟩ := C81_visit (foldVisitor_within F) hr hf hB hx ()
  obtain ⟨-, rfl⟩ := C81_deterministic (t.fold_visited F) h1
  rw [(C81_reading (foldVisitor_reads F) ()).1 _ h2] at h2
  exact h2

/-- **C81.** A visitor that changes each value, and then visits the members, changes every value of the tree, once. -/
theorem C81_change_all (F : TyIx → V → V) (hr : s.Represents σ own) (hf : s.Fresh) (hB : σ.Bound wrapped n) {t : VTree V}
    (hx : σ.at x = some t) : ∃ s', tVisit (mapVisitor F) n x () s = .ok () s' ∧ s'.Represents (σ.put x (t.mapAll F)) own ∧ s'.Fresh ∧
      s'.allocs = s.allocs := by
  obtain ⟨u, o, s', h1, h2, h3, h4, h5, -⟩ := C81_visit (mapVisitor_within F) hr hf hB hx ()
  obtain ⟨rfl, rfl⟩ := C81_deterministic (t.map_visited F) h1
  exact ⟨s', h2, h3, h4, h5⟩

/-- **C81.** After any program on recursive variants in which no unsupported assignment occurs (see C37), with any operation having failed, any
recursive visitor can be applied to any variant and any part of one. -/
theorem C81_after_any_program (hvis : vis.Within) (hl : C.ops.Lawful) (hfb : ∀ fb, C.fallback = some fb → C.wrapped fb = false)
    (cs : List (TCmd V)) (hn : 2 ^ cs.length ≤ n) (hc : tClean C n cs (TreeSt.init V) = true) :
    ∃ (s : TreeSt V) (σ : TStore V) (own : Nat → List ObjId), tRun C n cs (TreeSt.init V) = some s ∧ TSteps C cs (fun _ => none) σ ∧
      (∀ x, x.Alive s ↔ σ.at x ≠ none) ∧
      ∀ x t a, σ.at x = some t → ∃ u o s', t.Visited vis a u o ∧
        tVisit vis n x a s = o.elim (.exc ⟨.visitor, s.tick⟩ s') (fun r => .ok r s') ∧
        s'.Represents (σ.put x u) own := by
  obtain ⟨s, σ, own, h1, h2, h3, h4, h5⟩ := C37_programs_on_trees hl hfb cs hn hc
  obtain ⟨α, hM, hS, _⟩ := h3.mem h4
  refine ⟨s, σ, own, h1, h2, fun x => hM.valid_iff.trans hS.at_iff.symm, fun x t a hx => ?_⟩
  obtain ⟨u, o, s', g1, g2, g3, -⟩ := C81_visit hvis h3 h4 (h5.mono hn) hx a
  exact ⟨u, o, s', g1, g2, g3⟩

end

/-! ### Concrete cases -/

/-- The types of the documentation's calculator (doc/tutorial/advanced.xml 170-175): a number, a sum and a difference. -/
def exCalcTypes : TreeCfg Nat := { exTree none [] with wrapped := fun k => k == 1 || k == 2 }

/-- The expression of the documentation, `(7 - 3) + 8` (doc/tutorial/advanced.xml 210-223), is variable 4. -/
def exCalcProg : List (TCmd Nat) :=
  [.leaf 0 0 7, .leaf 1 0 3, .node 2 2 0 [⟨0, []⟩, ⟨1, []⟩], .leaf 3 0 8, .node 4 1 0 [⟨2, []⟩, ⟨3, []⟩]]

/-- The calculator of the documentation. -/
def exCalc (k : TyIx) (v : Nat) (rs : List Int) : Int :=
  match k, rs with
  | 1, [a, b] => a + b
  | 2, [a, b] => a - b
  | _, _ => v

def resVal {S B : Type} : Res S B → Option B
  | .ok b _ => some b
  | _ => none

/-- C81: the calculator computes 12. -/
example : ∃ s, tRun exCalcTypes 4096 exCalcProg (TreeSt.init Nat) = some s ∧ resVal (tVisit (foldVisitor exCalc) 4096 ⟨4, []⟩ () s) = some 12 ∧
    resVal (tVisit (foldVisitor exCalc) 4096 ⟨4, [0]⟩ () s) = some 4 := by
  have h : (tRun exCalcTypes 4096 exCalcProg (TreeSt.init Nat)).map (fun s =>
      (resVal (tVisit (foldVisitor exCalc) 4096 ⟨4, []⟩ () s), resVal (tVisit (foldVisitor exCalc) 4096 ⟨4, [0]⟩ () s))) =
    some (some 12, some 4) := by decide +kernel
  obtain ⟨s, h1, h2⟩ := Option.map_eq_some_iff.mp h
  cases h2' : Prod.mk.inj h2 with
  | intro h3 h4 => exact ⟨s, h1, h3, h4⟩

example := C81_after_any_program (C := exCalcTypes) (vis := foldVisitor exCalc) (n := 4096) (foldVisitor_within _) natOps_lawful nofun exCalcProg
  (by decide) (by decide +kernel)

/-- A visitor that throws at the value 6 after it has overwritten it, adds one to other elements, and goes on with the second member of a node if the
first has thrown. -/
def exTreeVis : TVisitor Nat Unit Nat := fun _ _ v m =>
  match m with
  | 0 => if v = 6 then .write 0 .throw else .write (v + 1) (.ret v)
  | 1 => .visit 0 () fun r => .ret r
  | m + 2 => .tryVisit (m + 1) () (fun r => .write r (.ret r)) (.visit 0 () fun r => .write (r + 100) (.ret (r + v)))

theorem exTreeVis_within : exTreeVis.Within := by
  intro a k v m
  unfold exTreeVis
  split
  · split <;> simp [VAct.Within]
  · simp [VAct.Within]
  · simp [VAct.Within]

/-- C81: the visitor's overload for the last element, `6`, throws, is caught, and so on in the first member. The other elements are as before. -/
theorem exTree3_visited : exTree3.Visited exTreeVis () (.node 1 112 (.cons (.node 1 105 (.cons (.leaf 0 6) (.cons (.leaf 2 0) .nil))) (.cons (.leaf 0 5) (.cons (.leaf 2 0) .nil))))
    (some 20) := by
  refine .tryHandled rfl (.write .throw) (.visit rfl (.tryHandled rfl (.write .throw) (.visit rfl (.write .ret) (.write .ret))) (.write .ret))

/-- C81: that visitor on variable 3, whose value is `exTree3`. -/
example : ∃ (σ : TStore Nat) (own : Nat → List ObjId) (u : VTree Nat) (o : Option Nat) (s' : TreeSt Nat),
    (tAfter none [] (exTreeProg.take 4)).Represents σ own ∧ exTree3.Visited exTreeVis () u o ∧
    s'.Represents (σ.put ⟨3, []⟩ u) own ∧ s'.allocs = (tAfter none [] (exTreeProg.take 4)).allocs := by
  obtain ⟨σ, own, h1, h2, h3, h4⟩ := exTree_bound (st := false)
  have hat : σ.at ⟨3, []⟩ = some exTree3 := by simp only [TStore.at, h4]; rfl
  obtain ⟨u, o, s', g1, -, g3, -, g5, -⟩ := C81_visit exTreeVis_within h1 h2 h3 hat ()
  exact ⟨σ, own, u, o, s', h1, g1, g3, g5⟩

/-- C81: all values of variable 3 are doubled, and then their sum is computed. -/
example : ∃ (σ : TStore Nat) (own : Nat → List ObjId) (s' : TreeSt Nat), (tAfter none [] (exTreeProg.take 4)).Represents σ own ∧
    tVisit (mapVisitor fun _ v => 2 * v) 16 ⟨3, []⟩ () (tAfter none [] (exTreeProg.take 4)) = .ok () s' ∧
    s'.Represents (σ.put ⟨3, []⟩ (exTree3.mapAll fun _ v => 2 * v)) own ∧
    tVisit (foldVisitor fun _ v rs => v + rs.sum) 16 ⟨3, []⟩ () (tAfter none [] (exTreeProg.take 4)) =
      .ok 37 (tAfter none [] (exTreeProg.take 4)) := by
  obtain ⟨σ, own, h1, h2, h3, h4⟩ := exTree_bound (st := false)
  have hat : σ.at ⟨3, []⟩ = some exTree3 := by simp only [TStore.at, h4]; rfl
  obtain ⟨s', g1, g2, -⟩ := C81_change_all (fun _ v => 2 * v) h1 h2 h3 hat
  exact ⟨σ, own, s', h1, g1, g2, C81_compute _ h1 h2 h3 hat⟩

/-- C81: a variant in a heap backup (variable 2 of `exTreeCmp`) is visited like any other. -/
example : resVal (tVisit (foldVisitor fun _ v rs => v + rs.sum) 16 ⟨2, []⟩ () exTreeCmp) = some 18 := by decide +kernel

/-! ### Instances -/

/-- C81: so that visit has this result only, and changed values only. -/
example {u : VTree Nat} {o : Option Nat} (h : exTree3.Visited exTreeVis () u o) :
    (u = .node 1 112 (.cons (.node 1 105 (.cons (.leaf 0 6) (.cons (.leaf 2 0) .nil))) (.cons (.leaf 0 5) (.cons (.leaf 2 0) .nil))) ∧ o = some 20) ∧
      exTree3.SameShape u :=
  ⟨C81_deterministic exTree3_visited h, C81_same_shape h⟩

/-- C81: adding up all values of variable 3 leaves the memory as it is. -/
example := C81_reading (foldVisitor_reads (fun (_ : TyIx) (v : Nat) (l : List Nat) => v + l.sum)) (n := 17) (x := ⟨3, []⟩) (s := tAfter none [] (exTreeProg.take 4))
  (s' := tAfter none [] (exTreeProg.take 4)) ()

end BVariant
