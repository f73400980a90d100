/-
C48 the value of fallback content.
-/
import Verif.Props.ValueAssign

namespace BVariant

section
variable {V : Type} {C : Cfg V} {w w' : World V} {x y : Nat} {kx ky k : TyIx} {vx vy v : V} {fb : TyIx}

/-- The target is exactly as it was, or holds in its own storage a new object of the fallback type with the value of
`F()`, which is what `variant()` makes if `F` is the first bounded type (C45). -/
def AsBeforeOrValueInit (C : Cfg V) (w w' : World V) (x : Nat) (fb : TyIx) : Prop :=
  Unchanged w w' (.user x) ∨ (BuiltInPlace w w' x fb (C.ops.valueInit fb) ∧ WhichIs w' x fb)

theorem AsBeforeOrFallback.valueInit (h : AsBeforeOrFallback C w w' x fb)
    (hd : C.ops.defaultInit fb = C.ops.valueInit fb) : AsBeforeOrValueInit C w w' x fb := by
  rcases h with h | ⟨h1, h2⟩
  · exact Or.inl h
  · exact Or.inr ⟨hd ▸ h1, h2⟩

/-- C48, copy assignment: after a failed type-changing `x = y` with a fallback type `F`, the target is as it was or holds a
new `F` with the value of `F()`, if default-initialising an `F` gives that value (true of a class with a default
constructor of its own). Missing for the full claim: scalar fallback types (finding F4) and the configurations of
finding F10, for which it is false. -/
theorem C48_copy_assignment_partial (hb : BlankOk C) (hfc : FallbackBuilt C) (hfb : C.fallback = some fb)
    (hd : C.ops.defaultInit fb = C.ops.valueInit fb)
    (hg : Good C w) (hx : w.holds x kx vx) (hy : w.holds y ky vy) (hk : kx ≠ ky) {e : Exc}
    (h : copyAssign C (.user x) (.user y) w = .exc e w') : AsBeforeOrValueInit C w w' x fb :=
  (C12_copy_assignment_fallback_partial hb hfc hfb hg hx hy hk h).1.valueInit hd

/-- C48, move assignment. Missing as above. -/
theorem C48_move_assignment_partial (hb : BlankOk C) (hfc : FallbackBuilt C) (hfb : C.fallback = some fb)
    (hd : C.ops.defaultInit fb = C.ops.valueInit fb)
    (hg : Good C w) (hx : w.holds x kx vx) (hy : w.holds y ky vy) (hk : kx ≠ ky) {e : Exc}
    (h : moveAssign C (.user x) (.user y) w = .exc e w') : AsBeforeOrValueInit C w w' x fb :=
  (C12_move_assignment_fallback_partial hb hfc hfb hg hx hy hk h).1.valueInit hd

/-- C48, value assignment. Missing as above. -/
theorem C48_value_assignment_partial (hb : BlankOk C) (hfc : FallbackBuilt C) (hfb : C.fallback = some fb)
    (hd : C.ops.defaultInit fb = C.ops.valueInit fb)
    (hg : Good C w) (m : Mode) (hk : k < C.n) (hx : w.holds x kx vx) (hne : kx ≠ k) {e : Exc}
    (h : (valueAssign m x k v).code C w = .exc e w') : AsBeforeOrValueInit C w w' x fb :=
  (C12_value_assignment_fallback_partial hb hfc hfb hg m hk hx hne h).1.valueInit hd

end

/-- F4: with fallback type `int` (type 0) a failed assignment leaves the indeterminate value of `new int` (999 here), while
`variant()` has the value of `int()`. -/
theorem C48_counterexample_scalar :
    thrownBy exFall [.constructC 0 1 5, .constructC 1 2 7] (.copyAssign 0 1) = some (.copyCtor 2) ∧
    contentAfter exFall [.constructC 0 1 5, .constructC 1 2 7, .copyAssign 0 1] 0 = some (0, exFall.ops.defaultInit 0) ∧
    contentAfter exFall [.defaultConstruct 0] 0 = some (0, exFall.ops.valueInit 0) ∧
    exFall.ops.defaultInit 0 ≠ exFall.ops.valueInit 0 := by decide +kernel

/-- F10: with fallback type `std::string` there is no object at all, even if default-initialisation is well-behaved. -/
theorem C48_counterexample_fallback_ctor :
    let C := { exCfg [tString, tThrowing] [4] with ops := { natOps with defaultInit := fun _ => 0 } }
    C.fallback = some 0 ∧ C.ops.defaultInit 0 = C.ops.valueInit 0 ∧
    thrownBy C [.constructC 0 0 5, .constructC 1 1 7] (.copyAssign 0 1) = some (.copyCtor 1) ∧
    contentAfter C [.constructC 0 0 5, .constructC 1 1 7, .copyAssign 0 1] 0 = none := by decide +kernel

/-! ### Non-vacuity -/

/-- Fallback type `std::string`, and the library as intended (`FallbackCtor.element`). -/
def exFallString : Cfg Nat :=
  { exCfg [tString, tThrowing, tThrowing] [4] with
    ops := { natOps with defaultInit := fun _ => 0 }, fallbackCtor := .element }

theorem exFallString_sane : Sane exFallString :=
  { blank := by unfold BlankOk; decide +kernel
    copyMove := by
      intro k kr _ _ h
      exact absurd h.1 (by decide)
    fallback := fun _ _ => Or.inl rfl }

example : ∃ e w', copyAssign exFallString (.user 0) (.user 1)
      (stateAfter exFallString [.constructC 0 1 5, .constructC 1 2 7]) = .exc e w' ∧
    AsBeforeOrValueInit exFallString (stateAfter exFallString [.constructC 0 1 5, .constructC 1 2 7]) w' 0 0 := by
  obtain ⟨e, w', h⟩ := of_endsExc (m := copyAssign exFallString (.user 0) (.user 1))
    (w := stateAfter exFallString [.constructC 0 1 5, .constructC 1 2 7]) (by decide +kernel)
  exact ⟨e, w', h, C48_copy_assignment_partial exFallString_sane.1 exFallString_sane.3 (by decide) rfl
    (stateAfter_good exFallString_sane (by decide +kernel)) (kx := 1) (vx := 5) (ky := 2) (vy := 7)
    (by unfold World.holds; decide +kernel) (by unfold World.holds; decide +kernel) (by decide) h⟩

example : ∃ e w', moveAssign exFallString (.user 0) (.user 1)
      (stateAfter exFallString [.constructC 0 1 5, .constructC 1 2 7]) = .exc e w' ∧
    AsBeforeOrValueInit exFallString (stateAfter exFallString [.constructC 0 1 5, .constructC 1 2 7]) w' 0 0 := by
  obtain ⟨e, w', h⟩ := of_endsExc (m := moveAssign exFallString (.user 0) (.user 1))
    (w := stateAfter exFallString [.constructC 0 1 5, .constructC 1 2 7]) (by decide +kernel)
  exact ⟨e, w', h, C48_move_assignment_partial exFallString_sane.1 exFallString_sane.3 (by decide) rfl
    (stateAfter_good exFallString_sane (by decide +kernel)) (kx := 1) (vx := 5) (ky := 2) (vy := 7)
    (by unfold World.holds; decide +kernel) (by unfold World.holds; decide +kernel) (by decide) h⟩
example : ∃ e w', (valueAssign .L 0 2 7).code exFallString
      (stateAfter exFallString [.constructC 0 1 5, .constructC 1 2 7]) = .exc e w' ∧
    AsBeforeOrValueInit exFallString (stateAfter exFallString [.constructC 0 1 5, .constructC 1 2 7]) w' 0 0 := by
  obtain ⟨e, w', h⟩ := of_endsExc (m := (valueAssign .L 0 2 7).code exFallString)
    (w := stateAfter exFallString [.constructC 0 1 5, .constructC 1 2 7]) (by decide +kernel)
  exact ⟨e, w', h, C48_value_assignment_partial exFallString_sane.1 exFallString_sane.3 (by decide) rfl
    (stateAfter_good exFallString_sane (by decide +kernel)) .L (by decide) (kx := 1) (vx := 5)
    (by unfold World.holds; decide +kernel) (by decide) h⟩

end BVariant
