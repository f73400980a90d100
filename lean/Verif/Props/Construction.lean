/-
C07 copy construction, C08 move construction, C16 its noexcept specification, C45 default construction.
The theorems speak of any state between statements (`Good`) and any configuration.
-/
import Verif.Lemmas.Outcome
import Verif.Props.NeverEmpty

namespace BVariant

section
variable {V : Type} {C : Cfg V} {w : World V}

/-- C07: `variant x(y)` returns, and then `x` holds in its own storage a new object of `y`'s type that is the copy
of `y`'s content, and everything else (`y` included) is as it was; or it throws the exception of the copy
constructor of the type of `y`'s content, and nothing has changed. Whether `y` is in the heap-backup state
does not matter. -/
theorem C07_copy_construction (hg : Good C w) {x y : Nat} {k : TyIx} {v : V} (hx : w.vars (.user x) = none)
    (hy : w.holds y k v) :
    Ends (copyConstruct C (.user x) (.user y)) w
      (fun _ w' => BuiltInPlace w w' x k (C.ops.copy k v) ∧ WhichIs w' x k ∧ Rest w w' [x] ∧
        w'.holds y k v ∧ Good C w')
      (fun e w' => e.kind = .copyCtor k ∧ Thrown C w w' e ∧ w'.vars = w.vars ∧ w'.objs = w.objs ∧ Good C w') := by
  obtain ⟨s, id, ho⟩ := hg.holds hy
  have hne : VarId.user y ≠ VarId.user x := by
    intro he; rw [← he, ho.var] at hx; cases hx
  refine Ends.of_wp (wp_copyConstruct ho hg.wf.toFresh) ?_ ?_
  · rintro _ w' ⟨h, -⟩
    have hu := fun z (hz : z ≠ VarId.user x) => h.unchanged hg.wf hz (fun _ _ _ _ => rfl)
    exact ⟨⟨w.next, hg.wf.fresh _ (Nat.le_refl _), h.owns.var, h.owns.obj⟩, h.owns.whichIs,
      fun z hz => hu _ (user_ne hz), ((hu _ hne).owns ho).holds, h.good hg hx (SameTypes.refl _)⟩
  · rintro e w' ⟨hk, -, ht, rfl⟩
    exact ⟨hk, ht, rfl, rfl, (Revalue.good (base := w.objs) hg (SameTypes.refl _) ⟨rfl, rfl, rfl, rfl⟩)⟩

/-- C08: `variant x(std::move(y))` returns, and then `x` holds in its own storage a new object of `y`'s type
move-constructed from `y`'s content, `y` keeps its storage state, object and type and has a moved-from value,
and everything else is as it was; or it throws the exception of the move constructor of the type of `y`'s
content, no object or variant has been created or destroyed, and only the value of `y` may have changed. -/
theorem C08_move_construction (hg : Good C w) {x y : Nat} {k : TyIx} {v : V} (hx : w.vars (.user x) = none)
    (hy : w.holds y k v) :
    Ends (moveConstruct C (.user x) (.user y)) w
      (fun _ w' => BuiltInPlace w w' x k (C.ops.move k v) ∧ WhichIs w' x k ∧ Rest w w' [x, y] ∧
        w'.vars (.user y) = w.vars (.user y) ∧ w'.holds y k (C.ops.movedFrom k v) ∧ Good C w')
      (fun e w' => e.kind = .moveCtor k ∧ Thrown C w w' e ∧ NothingBuilt w w' ∧ Rest w w' [y] ∧
        w'.holds y k (C.ops.moveFailSrc k v) ∧ Good C w') := by
  obtain ⟨s, id, ho⟩ := hg.holds hy
  have hne : VarId.user y ≠ VarId.user x := by
    intro he; rw [← he, ho.var] at hx; cases hx
  refine Ends.of_wp (wp_moveConstruct ho hg.wf.toFresh) ?_ ?_
  · rintro _ w' ⟨h, -⟩
    have hy' := h.owns_other hg.wf ho hne (upd_same _ _ _)
    exact ⟨⟨w.next, hg.wf.fresh _ (Nat.le_refl _), h.owns.var, h.owns.obj⟩, h.owns.whichIs,
      fun z hz => h.unchanged hg.wf (user_ne hz) (hg.wf.upd_other ho (user_ne2 hz)),
      by rw [hy'.var, ho.var], hy'.holds, h.good hg hx (SameTypes.upd _ _ ho.obj)⟩
  · rintro e w' ⟨hk, -, ht, -, rfl⟩
    refine ⟨hk, ht, ⟨rfl, SameObjects.of_types (SameTypes.upd _ _ ho.obj) rfl, rfl, rfl⟩,
      fun z hz => ⟨rfl, hg.wf.upd_other ho (user_ne hz)⟩, ?_,
      Revalue.good hg (SameTypes.upd _ _ ho.obj) ⟨rfl, rfl, rfl, rfl⟩⟩
    exact Owns.holds ⟨ho.var, ho.rep, by simp⟩

/-- C45: `variant x;` returns, and then `x` holds in its own storage a new value-initialised object of the first
bounded type, and everything else is as it was; or it throws the exception of that type's default constructor,
and nothing has changed. -/
theorem C45_default_construction (hg : Good C w) (hn : 0 < C.n) {x : Nat} (hx : w.vars (.user x) = none) :
    Ends (defaultConstruct C (.user x)) w
      (fun _ w' => BuiltInPlace w w' x 0 (C.ops.valueInit 0) ∧ WhichIs w' x 0 ∧ Rest w w' [x] ∧ Good C w')
      (fun e w' => e.kind = .defaultCtor 0 ∧ (C.tr 0).nothrowDefault = false ∧ Thrown C w w' e ∧
        w'.vars = w.vars ∧ w'.objs = w.objs ∧ Good C w') := by
  refine Ends.of_wp (wp_defaultConstruct hg.wf.toFresh hn) ?_ ?_
  · rintro _ w' ⟨h, -⟩
    exact ⟨⟨w.next, hg.wf.fresh _ (Nat.le_refl _), h.owns.var, h.owns.obj⟩, h.owns.whichIs,
      fun z hz => h.unchanged hg.wf (user_ne hz) (fun _ _ _ _ => rfl), h.good hg hx (SameTypes.refl _)⟩
  · rintro e w' ⟨hk, hd, ht, rfl⟩
    exact ⟨hk, hd, ht, rfl, rfl, (Revalue.good (base := w.objs) hg (SameTypes.refl _) ⟨rfl, rfl, rfl, rfl⟩)⟩

/-- C16: if every bounded type is nothrow move constructible, `variant x(std::move(y))` returns, whatever the
oracle says. -/
theorem C16_move_construction_noexcept (hg : Good C w)
    (ht : ∀ t, t ∈ C.types → t.nothrowMove = true) {x y : Nat} (hy : w.alive y) :
    ∃ w', moveConstruct C (.user x) (.user y) w = .ok () w' := by
  obtain ⟨s, id, k, v, ho⟩ := hg.owns hy
  rcases wp_elim (wp_moveConstruct (x := .user x) ho hg.wf.toFresh) with ⟨u, w', h, -⟩ | ⟨e, w', -, -, h, -⟩
  · exact ⟨w', h⟩
  · have := tr_of_all (p := (·.nothrowMove)) (List.all_eq_true.mpr ht) (Rep.lt C ho.rep)
    simp [h] at this

end

/-! ### Non-vacuity -/

/-- After a failed assignment variable 0 is in the heap-backup state; variable 5 is not alive. -/
def exBackup : World Nat := stateAfter exTwo (exProg.take 3)

theorem exBackup_good : Good exTwo exBackup := stateAfter_good exTwo_sane (by decide +kernel)

theorem exBackup_facts : exBackup.vars (.user 5) = none ∧ exBackup.holds 0 0 5 ∧ exBackup.backedUp 0 = true := by
  unfold World.holds; decide +kernel

/-- C07 and C08 apply to a source in the heap-backup state. -/
example := C07_copy_construction exBackup_good exBackup_facts.1 exBackup_facts.2.1
example := C08_move_construction exBackup_good exBackup_facts.1 exBackup_facts.2.1
example := C45_default_construction exBackup_good (by decide) exBackup_facts.1

/-- C16 applies to a variant over two nothrow movable types, one of which throws when copied. -/
example : ∃ w', moveConstruct (exCfg [tMovable, tInt] [2, 3, 4]) (.user 1) (.user 0)
    (stateAfter (exCfg [tMovable, tInt] [2, 3, 4]) [.constructC 0 0 5]) = .ok () w' := by
  refine C16_move_construction_noexcept (stateAfter_good ?_ (by decide +kernel)) (by decide)
    (by unfold World.alive; decide +kernel)
  refine ⟨by unfold BlankOk; decide, ?_, ?_⟩
  · rintro k kr - - ⟨h, -⟩ -; exact absurd h (by decide)
  · intro k hk
    have : (exCfg [tMovable, tInt] [2, 3, 4]).fallback = some 1 := by decide
    rw [this] at hk; cases hk; exact .inr (.inl (by decide))

end BVariant
