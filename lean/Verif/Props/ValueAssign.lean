/-
C22 value assignment, C23 value assignment whose conversion fails; the parts of C11, C12, C15 and C19 that concern
value assignment.
-/
import Verif.Props.Swap

namespace BVariant

section
variable {V : Type} {C : Cfg V} {w w' : World V} {x : Nat} {kx k : TyIx} {vx v : V}

/-- The statement `x = t` for a `t` of bounded type `k` and value `v` given as an lvalue (`L`) or rvalue (`R`), or for a
`t` of another type for which overload resolution chooses the bounded type `k` and conversion gives `v` (`C`), or for a
`t` that is another variant type with content of type `k` and value `v`, given as an lvalue (`VL`) or rvalue (`VR`). -/
def valueAssign (m : Mode) (x : Nat) (k : TyIx) (v : V) : Cmd V :=
  match m with
  | .L => .assignL x k v
  | .R => .assignR x k v
  | .C => .assignC x k v
  | .VL => .assignVL x k v
  | .VR => .assignVR x k v

theorem wp_valueAssign (hb : BlankOk C) (hg : Good C w) (m : Mode) {sx : VarSt} {ix : ObjId}
    (hx : Owns C w (.user x) sx ix kx vx) (hk : k < C.n) :
    wp ((valueAssign m x k v).code C) (fun _ w' => ValOk C w w' (.user x) sx ix kx vx m k v)
      (fun e w' => Thrown C w w' e ∧ ValExc C w w' (.user x) sx ix kx vx m k v e) w := by
  cases m with
  | L => exact wp_assign_elem hb .L (by simp) k v hx hg.wf.toFresh hk (by simp) (hg.noTmp 0)
  | R => exact wp_assign_elem hb .R (by simp) k v hx hg.wf.toFresh hk (by simp) (hg.noTmp 0)
  | C => exact wp_assign_conv hb k v hx hg.wf.toFresh hk (by simp) (hg.noTmp 0)
  | VL => exact wp_assign_elem hb .VL (by simp) k v hx hg.wf.toFresh hk (by simp) (hg.noTmp 0)
  | VR => exact wp_assign_elem hb .VR (by simp) k v hx hg.wf.toFresh hk (by simp) (hg.noTmp 0)

/-! ### C22 -/

/-- C22, the held type: if `x` holds type `k` and `t` is of type `k`, `x = t` runs the element's own (copy or move)
assignment on the held object, wherever that is stored: storage state and object of `x` are the same afterwards,
and nothing else has changed. It throws only what that assignment throws. -/
theorem C22_value_assignment_held_type (hb : BlankOk C) (hg : Good C w) {m : Mode} (hm : m.direct = true) (hk : k < C.n)
    (hx : w.holds x k vx) :
    Ends ((valueAssign m x k v).code C) w
      (fun _ w' => w'.vars = w.vars ∧ w'.objOf x = w.objOf x ∧
        w'.holds x k (if m = .L then C.ops.assign k vx v else C.ops.moveAssign k vx v) ∧ Rest w w' [x] ∧ Good C w')
      (fun e w' => e.kind = (if m = .L then .copyAssign k else .moveAssign k) ∧ Thrown C w w' e ∧ w'.vars = w.vars ∧
        w'.objOf x = w.objOf x ∧
        w'.holds x k (if m = .L then C.ops.assignFail k vx v else C.ops.moveAssignFail k vx v) ∧
        Rest w w' [x] ∧ Good C w') := by
  obtain ⟨sx, ix, hxo⟩ := hg.holds hx
  have key : ∀ {w' : World V} {v'}, Replace C w w' w.objs (.user x) ix sx ix k v' →
      w'.vars = w.vars ∧ w'.objOf x = w.objOf x ∧ w'.holds x k v' ∧ Rest w w' [x] ∧ Good C w' := by
    intro w' v' hr
    refine ⟨?_, by rw [hr.owns.objOf, hxo.objOf], hr.owns.holds,
      fun z hz => hr.unchanged hg.wf hxo (user_ne hz) (fun _ _ _ _ => rfl), hr.good hg hxo (SameTypes.refl _)⟩
    funext z
    rw [hr.vars]
    split
    · rename_i he; rw [he, hxo.var]
    · rfl
  refine Ends.of_wp (wp_valueAssign hb hg m hxo hk) ?_ ?_
  · rintro _ w' (⟨_, _, hr, _⟩ | ⟨hm', _⟩ | ⟨hh, _⟩)
    · cases m with
      | L => exact key hr
      | R => exact key hr
      | _ => cases hm
    · rw [hm] at hm'; cases hm'
    · exact absurd rfl (hh.resolve_left (by simp [hm]))
  · rintro e w' ⟨hth, (⟨_, _, hek, hr, _⟩ | ⟨hh, _⟩ | ⟨hm', _⟩ | ⟨hh, _⟩)⟩
    · obtain ⟨h1, h2, h3, h4, h5⟩ := key hr
      cases m with
      | L => exact ⟨hek, hth, h1, h2, h3, h4, h5⟩
      | R => exact ⟨hek, hth, h1, h2, h3, h4, h5⟩
      | _ => cases hm
    · exact absurd rfl (hh.resolve_left (by simp [hm]))
    · rw [hm] at hm'; cases hm'
    · exact absurd rfl (hh.resolve_left (by simp [hm]))

/-- `b` is the value of an object constructed from `t`. -/
def BuiltFrom (C : Cfg V) (m : Mode) (k : TyIx) (v b : V) : Prop :=
  match m with
  | .L | .VL => b = C.ops.copy k v
  | .R | .VR => b = C.ops.move k v
  | .C => b = C.ops.move k v

/-- C22, another type: if `x` does not hold type `k` and `x = t` returns, `x` holds in its own storage a new object of
type `k`, moved or copied from an object constructed from `t`; the old object is destroyed; nothing else has
changed. -/
theorem C22_value_assignment_new_type (hb : BlankOk C) (hg : Good C w) (m : Mode) (hk : k < C.n)
    (hx : w.holds x kx vx) (hne : kx ≠ k) (h : (valueAssign m x k v).code C w = .ok () w') :
    (∃ b v', BuiltFrom C m k v b ∧ (v' = C.ops.move k b ∨ v' = C.ops.copy k b) ∧ BuiltInPlace w w' x k v') ∧
      WhichIs w' x k ∧ (∀ id, w.objOf x = some id → w'.objs id = none) ∧ Rest w w' [x] ∧ Good C w' := by
  obtain ⟨sx, ix, hxo⟩ := hg.holds hx
  rcases wp_ok (wp_valueAssign hb hg m hxo hk) h with ⟨_, he, _⟩ | ⟨_, hw, _⟩ | ⟨_, _, ⟨id', hid, hr⟩, _⟩
  · exact absurd he hne
  · exact absurd (hxo.rep.same_which (Rep.inPlace (C := C) 0 k hk) hw).1 hne
  · refine ⟨⟨m.built C k v, _, by cases m <;> rfl, moveAssignVal_cases _ _ _, id', hg.wf.fresh _ hid, hr.owns.var, hr.owns.obj⟩,
      hr.owns.whichIs, fun id hi => ?_, fun z hz => hr.unchanged hg.wf hxo (user_ne hz) (fun _ _ _ _ => rfl),
      hr.good hg hxo (SameTypes.refl _)⟩
    rw [hxo.objOf] at hi; cases hi
    have hlt := hg.wf.toFresh.lt hxo.obj
    exact hr.gone _ (Or.inl rfl) (by omega)

/-- C22 and C40, conversion to the held type, from an element or another variant: the held object, if it is in place, is
move-assigned the converted value `b` and keeps its identity; if it is in a heap backup, it is replaced by a new object in
place. -/
theorem C22_value_assignment_converted (hb : BlankOk C) (hg : Good C w) {m : Mode} (hm : m.direct = false) (hk : k < C.n)
    (hx : w.holds x k vx) (h : (valueAssign m x k v).code C w = .ok () w') :
    (∃ b, BuiltFrom C m k v b ∧
      ((w.backedUp x = false ∧ w'.vars = w.vars ∧ w'.holds x k (C.ops.moveAssign k vx b)) ∨
        (w.backedUp x = true ∧ BuiltInPlace w w' x k (C.ops.copy k b)))) ∧
      WhichIs w' x k ∧ Rest w w' [x] ∧ Good C w' := by
  obtain ⟨sx, ix, hxo⟩ := hg.holds hx
  have hbf : BuiltFrom C m k v (m.built C k v) := by cases m <;> rfl
  rcases wp_ok (wp_valueAssign hb hg m hxo hk) h with ⟨hm', _⟩ | ⟨_, hw, hr, _⟩ | ⟨_, hw, ⟨id', hid, hr⟩, _⟩
  · rw [hm] at hm'; cases hm'
  · refine ⟨⟨_, hbf, Or.inl ⟨by rw [hxo.backedUp, hw]; simp, ?_, hr.owns.holds⟩⟩, hr.owns.whichIs,
      fun z hz => hr.unchanged hg.wf hxo (user_ne hz) (fun _ _ _ _ => rfl), hr.good hg hxo (SameTypes.refl _)⟩
    funext z
    rw [hr.vars]
    split
    · rename_i he; rw [he, hxo.var]
    · rfl
  · have hbk : sx.which_ < 0 ∧ C.mayBackup k := by
      cases hxo.rep with
      | inPlace => exact absurd rfl hw
      | inBackup _ _ _ hm => exact ⟨by simp only; omega, hm⟩
    have hv : moveAssignVal C k (m.built C k v) = C.ops.copy k (m.built C k v) := by
      simp [moveAssignVal, hbk.2.1, hbk.2.2.1]
    rw [hv] at hr
    exact ⟨⟨_, hbf, Or.inr ⟨by rw [hxo.backedUp]; simp [hbk.1], id', hg.wf.fresh _ hid, hr.owns.var, hr.owns.obj⟩⟩,
      hr.owns.whichIs, fun z hz => hr.unchanged hg.wf hxo (user_ne hz) (fun _ _ _ _ => rfl),
      hr.good hg hxo (SameTypes.refl _)⟩

/-- C22 for element types whose operations preserve values: after `x = t`, `x` holds the value of `t`. -/
theorem C22_value_assignment_value (hl : C.ops.Lawful) (hb : BlankOk C) (hg : Good C w) (m : Mode) (hk : k < C.n)
    (hx : w.holds x kx vx) (h : (valueAssign m x k v).code C w = .ok () w') : w'.holds x k v := by
  have hin : ∀ {v'}, BuiltInPlace w w' x k v' → w'.holds x k v' := by
    rintro v' ⟨id, -, h1, h2⟩
    simp only [World.inPlace] at h1
    simp [World.holds, World.content, h1, VarSt.contentId, h2]
  by_cases hne : kx = k
  · subst hne
    cases hm : m.direct with
    | false =>
      obtain ⟨⟨b, hbf, h0⟩, -⟩ := C22_value_assignment_converted hb hg hm hk hx h
      have hb' : b = v := by cases m <;> simp only [BuiltFrom] at hbf <;> rw [hbf] <;> simp [hl.copy_eq, hl.move_eq]
      rcases h0 with ⟨-, -, h'⟩ | ⟨-, h'⟩
      · rw [hl.moveAssign_eq, hb'] at h'; exact h'
      · rw [hl.copy_eq, hb'] at h'; exact hin h'
    | true =>
      rcases C22_value_assignment_held_type hb hg hm hk hx (v := v) with ⟨a, w'', h', -, -, h3, -⟩ | ⟨e, w'', h', -⟩
      · rw [h] at h'; cases h'
        split at h3
        · rw [hl.assign_eq] at h3; exact h3
        · rw [hl.moveAssign_eq] at h3; exact h3
      · rw [h] at h'; cases h'
  · obtain ⟨⟨b, v', hbv, hv', h'⟩, -⟩ := C22_value_assignment_new_type hb hg m hk hx hne h
    have hb' : b = v := by cases m <;> simp only [BuiltFrom] at hbv <;> rw [hbv] <;> simp [hl.copy_eq, hl.move_eq]
    have : v' = v := by rcases hv' with rfl | rfl <;> simp [hl.copy_eq, hl.move_eq, hb']
    exact this ▸ hin h'

/-! ### C11, C12, C15, C19 for value assignment -/

/-- C11, value assignment: without a fallback type, an `x = t` that would change the type of `x` and throws leaves `x`
with its type and its value (possibly copied, or moved away and back), and everything else as it was.
Missing for the full claim: the configurations of finding F2, for which it is false. -/
theorem C11_value_assignment_rolled_back_partial (hb : BlankOk C) (hc : NoCopyOnly C) (hnf : C.hasFallback = false)
    (hg : Good C w) (m : Mode) (hk : k < C.n) (hx : w.holds x kx vx) (hne : kx ≠ k) {e : Exc}
    (h : (valueAssign m x k v).code C w = .exc e w') :
    WhichIs w' x kx ∧ (∃ v', w'.holds x kx v' ∧ Restored C kx vx v') ∧ (C.ops.Lawful → w'.holds x kx vx) ∧
      Rest w w' [x] ∧ Good C w' := by
  obtain ⟨sx, ix, hxo⟩ := hg.holds hx
  have key : ∀ {s' id' v'}, Replace C w w' w.objs (.user x) ix s' id' kx v' → Restored C kx vx v' →
      WhichIs w' x kx ∧ (∃ v', w'.holds x kx v' ∧ Restored C kx vx v') ∧ (C.ops.Lawful → w'.holds x kx vx) ∧
      Rest w w' [x] ∧ Good C w' := fun hr hv =>
    ⟨hr.owns.whichIs, ⟨_, hr.owns.holds, hv⟩, fun hl => hv.eq hl ▸ hr.owns.holds,
      fun z hz => hr.unchanged hg.wf hxo (user_ne hz) (fun _ _ _ _ => rfl), hr.good hg hxo (SameTypes.refl _)⟩
  rcases (wp_exc (wp_valueAssign hb hg m hxo hk) h).2 with
    ⟨_, he, _⟩ | ⟨_, _, hr, _⟩ | ⟨_, hw, _⟩ | ⟨_, _, _, _, hr, _⟩
  · exact absurd he hne
  · exact key hr (Or.inl rfl)
  · exact absurd (hxo.rep.same_which (Rep.inPlace (C := C) 0 k hk) hw).1 hne
  · obtain ⟨-, s', id', k', v', hr', hlo⟩ := hr ⟨hb, hc, FallbackBuilt.of_none hnf⟩
    obtain ⟨rfl, hv⟩ := hlo.restored_of hnf
    exact key hr' hv

/-- C12, value assignment. Missing for the full claim: the configurations of finding F10, for which it is false. -/
theorem C12_value_assignment_fallback_partial (hb : BlankOk C) (hfc : FallbackBuilt C) {fb : TyIx}
    (hfb : C.fallback = some fb) (hg : Good C w) (m : Mode) (hk : k < C.n) (hx : w.holds x kx vx) (hne : kx ≠ k) {e : Exc}
    (h : (valueAssign m x k v).code C w = .exc e w') :
    AsBeforeOrFallback C w w' x fb ∧ Rest w w' [x] ∧ w'.allocs = w.allocs ∧ AllInPlace w' ∧ Good C w' := by
  have ht : C.hasFallback = true := by simp [Cfg.hasFallback, hfb]
  obtain ⟨sx, ix, hxo⟩ := hg.holds hx
  have hq := Quiet.code ht (valueAssign m x k v) w (hg.allInPlace ht)
  rw [h] at hq
  have key : ∀ {s' id' k' v'}, Replace C w w' w.objs (.user x) ix s' id' k' v' →
      Leftover C sx ix kx vx k s' id' k' v' →
      AsBeforeOrFallback C w w' x fb ∧ Rest w w' [x] ∧ w'.allocs = w.allocs ∧ AllInPlace w' ∧ Good C w' := fun hr hlo =>
    ⟨hlo.fallback_of hg.wf hxo hfb hr, fun z hz => hr.unchanged hg.wf hxo (user_ne hz) (fun _ _ _ _ => rfl),
      hq.1, hq.2, hr.good hg hxo (SameTypes.refl _)⟩
  rcases (wp_exc (wp_valueAssign hb hg m hxo hk) h).2 with
    ⟨_, he, _⟩ | ⟨_, _, hr, _⟩ | ⟨_, hw, _⟩ | ⟨_, _, _, _, hr, _⟩
  · exact absurd he hne
  · exact key hr .same
  · exact absurd (hxo.rep.same_which (Rep.inPlace (C := C) 0 k hk) hw).1 hne
  · obtain ⟨-, s', id', k', v', hr, hlo⟩ := hr ⟨hb, NoCopyOnly.of_fallback ht, hfc⟩
    exact key hr hlo

/-- C15, value assignment: every exception a value assignment that changes the type can throw. -/
theorem C15_value_assignment_throws (hb : BlankOk C) (hg : Good C w) (m : Mode) (hk : k < C.n) (hx : w.holds x kx vx)
    (hne : kx ≠ k) {e : Exc} (h : (valueAssign m x k v).code C w = .exc e w') :
    (m = .C ∧ e.kind = .convert k) ∨ e.kind = .moveCtor k ∨ e.kind = .copyCtor k ∨
      ((e.kind = .copyCtor kx ∨ e.kind = .badAlloc) ∧ C.mayBackup k ∧ (C.tr kx).nothrowMove = false) := by
  obtain ⟨sx, ix, hxo⟩ := hg.holds hx
  rcases (wp_exc (wp_valueAssign hb hg m hxo hk) h).2 with
    ⟨_, he, _⟩ | ⟨_, hek, _⟩ | ⟨_, hw, _⟩ | ⟨_, _, hek, _⟩
  · exact absurd he hne
  · cases m with
    | L | VL => exact Or.inr (Or.inr (Or.inl hek))
    | R | VR => exact Or.inr (Or.inl hek)
    | C => rcases hek with hek | hek
           · exact Or.inl ⟨rfl, hek⟩
           · exact Or.inr (Or.inl hek)
  · exact absurd (hxo.rep.same_which (Rep.inPlace (C := C) 0 k hk) hw).1 hne
  · rcases hek.1 with ⟨h1, -⟩ | ⟨h3, h1 | ⟨h1, h2⟩⟩
    · exact Or.inr (Or.inl h1)
    · exact Or.inr (Or.inr (Or.inl h1))
    · exact Or.inr (Or.inr (Or.inr ⟨h1, h3, h2⟩))

/-- C19, value assignment: after `x = t` returns, `x` is in the heap-backup state only if it was before and `t` has the
held type. Missing for the full claim: it is false in that case (finding F7). -/
theorem C19_value_assignment_in_place_partial (hb : BlankOk C) (hg : Good C w) (m : Mode) (hk : k < C.n)
    (hx : w.holds x kx vx) (h : (valueAssign m x k v).code C w = .ok () w') (hbk : w'.backedUp x = true) :
    w.backedUp x = true ∧ kx = k ∧ m.direct = true := by
  obtain ⟨sx, ix, hxo⟩ := hg.holds hx
  rcases wp_ok (wp_valueAssign hb hg m hxo hk) h with ⟨hm, he, hr, _⟩ | ⟨hm, hw, hr, _⟩ | ⟨_, _, ⟨id', hid, hr⟩, _⟩
  · rw [hr.owns.backedUp] at hbk
    exact ⟨by rw [hxo.backedUp, hbk], he, hm⟩
  · rw [hr.owns.backedUp, hw] at hbk; simp at hbk; omega
  · rw [hr.owns.backedUp] at hbk; simp at hbk; omega

/-! ### C23 -/

/-- The statement that constructs a variant from `t`. -/
def valueConstruct (m : Mode) (x : VarId) (k : TyIx) (v : V) (C : Cfg V) : M V Unit :=
  match m with
  | .L => withElem k v fun t => convertConstruct C x (.lref k t false)
  | .R => withElem k v fun t => convertConstruct C x (.rref k t false)
  | .VL => withElem k v fun t => convertConstruct C x (.lref k t true)
  | .VR => withElem k v fun t => convertConstruct C x (.rref k t true)
  | .C => convertConstruct C x (.conv k v)

theorem assignValue_eq_of_ne {l : VarId} {s : VarSt} {id : ObjId} {kl : TyIx} {vl : V} (src : Src V)
    (hl : Owns C w l s id kl vl) (hh : ¬ src.holds kl) {e : Exc} (h : convertConstruct C (.tmp 0) src w = .exc e w') :
    assignValue C l src w = .exc e w' := by
  have hd : directAssign C l src w = .ok false w := by
    rw [directAssign, applyVisitor_eq C _ hl.var hl.rep hl.obj]
    cases src with
    | lref k r f => have : ¬ (f = false ∧ kl = k) := hh; simp only [this, if_false]; rfl
    | rref k r f => have : ¬ (f = false ∧ kl = k) := hh; simp only [this, if_false]; rfl
    | conv k v => rfl
  simp [assignValue, bind, M.bind, hd, h]

theorem withLocal_exc {α : Type} {m : M V α} {d : M V Unit} (hd : NoExc d) {e : Exc}
    (h : M.withLocal m d w = .exc e w') : ∃ w1, m w = .exc e w1 ∧ d w1 = .ok () w' := by
  simp only [M.withLocal] at h
  cases hm : m w with
  | ok a w1 =>
    simp only [hm] at h
    cases hd1 : d w1 with
    | ok u w2 => simp [hd1] at h
    | exc e' w2 => exact absurd hd1 (hd _ _ _)
    | fault f => simp [hd1] at h
  | exc e1 w1 =>
    simp only [hm] at h
    cases hd1 : d w1 with
    | ok u w2 => simp only [hd1, Out.exc.injEq] at h; obtain ⟨rfl, rfl⟩ := h; exact ⟨w1, rfl, hd1⟩
    | exc e' w2 => exact absurd hd1 (hd _ _ _)
    | fault f => simp [hd1] at h
  | fault f => simp [hm] at h

theorem destroyObj_ok {id : ObjId} (h : destroyObj k id w = .ok () w') :
    w' = { w with objs := fun i => if i = id ∨ i ∈ w.sub id then none else w.objs i } := by
  simp only [destroyObj, bind, M.bind, readAs] at h
  split at h
  · rename_i he
    split at he
    · split at he
      · cases he; simp only [M.modify] at h; cases h; rfl
      · cases he
    · cases he
  · cases h
  · cases h

/-- C23: if constructing a variant from `t` throws (in the present state) and `x` does not hold `t`'s type, or `t` is not
of a bounded type, then `x = t` throws the same exception, and every variant (`x` included) is exactly as it was. -/
theorem C23_failed_conversion (hg : Good C w) (m : Mode) (hk : k < C.n) (hx : w.holds x kx vx) (hne : kx ≠ k ∨ m.direct = false)
    {e : Exc} (h : valueConstruct m (.tmp 0) k v C w = .exc e w') :
    (valueAssign m x k v).code C w = .exc e w' ∧ w'.vars = w.vars ∧ w'.objs = w.objs ∧ Good C w' := by
  obtain ⟨sx, ix, hxo⟩ := hg.holds hx
  have hf := hg.wf.toFresh
  have hlt := hf.lt hxo.obj
  suffices hs : (valueAssign m x k v).code C w = .exc e w' ∧ w'.vars = w.vars ∧ w'.objs = w.objs ∧
      w.next ≤ w'.next ∧ w'.sub = w.sub by
    obtain ⟨h1, h2, h3, h4, h5⟩ := hs
    refine ⟨h1, h2, h3, ⟨⟨?_, ?_, ?_, ?_, ?_⟩, fun n => by rw [h2]; exact hg.noTmp n⟩⟩
    · rw [h2, h3]; exact hg.wf.rep
    · rw [h2]; exact hg.wf.inj
    · rw [h2, h3]; exact hg.wf.noLeak
    · rw [h3]; exact fun i hi => hg.wf.fresh i (Nat.le_trans h4 hi)
    · rw [h5]; exact hg.wf.flat
  have elem : ∀ (src : ObjId → Src V), (src w.next).live (addElem k v w) → (src w.next).ty = k →
      ¬ (src w.next).holds kx →
      (∀ i, i ≠ w.next → (src w.next).afterExc C (addElem k v w).objs i = (addElem k v w).objs i) →
      withElem k v (fun t => convertConstruct C (.tmp 0) (src t)) w = .exc e w' →
      withElem k v (fun t => assignValue C (.user x) (src t)) w = .exc e w' ∧ w'.vars = w.vars ∧ w'.objs = w.objs ∧
        w.next ≤ w'.next ∧ w'.sub = w.sub := by
    intro src hlive hty hh hother h
    have n1 : ix ≠ w.next := by omega
    have hx1 : Owns C (addElem k v w) (.user x) sx ix kx vx :=
      ⟨hxo.var, hxo.rep, by simp only [addElem, upd_ne _ _ n1]; exact hxo.obj⟩
    have hwp := wp_convertConstruct (C := C) (x := .tmp 0) (src w.next) hlive (by rw [hty]; exact hk) (hf.addElem k v)
    have hun : ∀ (f : ObjId → M V Unit), withElem k v f w =
        M.withLocal (f w.next) (destroyObj k w.next) (addElem k v w) := fun f => rfl
    rw [hun] at h ⊢
    obtain ⟨w1, h1, hd⟩ := withLocal_exc (NoExc.destroyObj _ _) h
    obtain ⟨-, -, hv, hsub, -, hnx, hob⟩ := wp_exc hwp h1
    have hw' := destroyObj_ok hd
    refine ⟨by simp only [M.withLocal, assignValue_eq_of_ne _ hx1 hh h1, hd], by rw [hw']; exact hv, ?_, ?_, ?_⟩
    · rw [hw', hsub]
      funext i
      simp only [addElem, hf.flat, List.not_mem_nil, or_false]
      split
      · rename_i hi; rw [hi]; exact (hf.fresh _ (Nat.le_refl _)).symm
      · rename_i hi; rw [hob, hother i hi]; simp only [addElem, upd_ne _ _ hi]
    · rw [hw']; simp only [addElem] at hnx; simp only; omega
    · rw [hw']; exact hsub
  cases m with
  | L =>
    refine elem (fun t => .lref k t false) ⟨v, by simp [addElem]⟩ rfl ?_ (fun _ _ => rfl) h
    exact fun he => (hne.resolve_right (by simp [Mode.direct])) he.2
  | R =>
    refine elem (fun t => .rref k t false) ⟨v, by simp [addElem]⟩ rfl ?_ (fun i hi => upd_ne _ _ hi) h
    exact fun he => (hne.resolve_right (by simp [Mode.direct])) he.2
  | VL => exact elem (fun t => .lref k t true) ⟨v, by simp [addElem]⟩ rfl (fun he => nomatch he.1) (fun _ _ => rfl) h
  | VR => exact elem (fun t => .rref k t true) ⟨v, by simp [addElem]⟩ rfl (fun he => nomatch he.1) (fun i hi => upd_ne _ _ hi) h
  | C =>
    have hwp := wp_convertConstruct (C := C) (x := .tmp 0) (.conv k v) trivial hk hf
    obtain ⟨-, -, h1, h2, -, h3, h4⟩ := wp_exc hwp h
    exact ⟨assignValue_eq_of_ne _ hxo id h, h1, funext h4, h3, h2⟩

end

/-! ### Non-vacuity -/

/-- C22, assignment of the held type to a variant in the heap-backup state. -/
example := C22_value_assignment_held_type (m := .L) (k := 0) (v := 9) exTwo_blankOk exBackup_good rfl (by decide)
  exBackup_facts.2.1

/-- C22, and C19: assignment of another type to a variant in the heap-backup state. -/
example : ∃ w', (valueAssign .R 0 1 9).code exTwo exBackup = .ok () w' ∧ w'.holds 0 1 9 ∧ w'.backedUp 0 = false := by
  obtain ⟨w', h⟩ := of_endsOk (m := (valueAssign .R 0 1 9).code exTwo) (w := exBackup) (by decide +kernel)
  refine ⟨w', h, C22_value_assignment_value natOps_lawful exTwo_blankOk exBackup_good .R (by decide) exBackup_facts.2.1 h, ?_⟩
  cases hbk : w'.backedUp 0 with
  | false => rfl
  | true => exact absurd (C19_value_assignment_in_place_partial exTwo_blankOk exBackup_good .R (by decide)
      exBackup_facts.2.1 h hbk).2.1 (by decide)

/-- C22, conversion to the held type in the heap-backup state. -/
example : ∃ w', (valueAssign .C 0 0 9).code exTwo exBackup = .ok () w' ∧
    BuiltInPlace exBackup w' 0 0 9 := by
  obtain ⟨w', h⟩ := of_endsOk (m := (valueAssign .C 0 0 9).code exTwo) (w := exBackup) (by decide +kernel)
  obtain ⟨b, hb, h0⟩ := (C22_value_assignment_converted exTwo_blankOk exBackup_good (m := .C) rfl (by decide)
    exBackup_facts.2.1 h).1
  rcases h0 with ⟨h1, -⟩ | ⟨-, h1⟩
  · rw [exBackup_facts.2.2] at h1; cases h1
  · exact ⟨w', h, by rw [hb] at h1; exact h1⟩

/-- C11 and C15: the assignment of an rvalue throws when its content is copied into place, and is rolled back. -/
example : ∃ e w', (valueAssign .L 0 1 9).code (exCfg [tThrowing, tThrowing] [5]) 
    (stateAfter (exCfg [tThrowing, tThrowing] [5]) [.constructC 0 0 5]) = .exc e w' ∧ w'.holds 0 0 5 := by
  have hs : Sane (exCfg [tThrowing, tThrowing] [5]) := ⟨exTwo_sane.1, exTwo_sane.2, exTwo_sane.3⟩
  obtain ⟨e, w', h⟩ := of_endsExc (m := (valueAssign .L 0 1 9).code (exCfg [tThrowing, tThrowing] [5]))
    (w := stateAfter (exCfg [tThrowing, tThrowing] [5]) [.constructC 0 0 5]) (by decide +kernel)
  exact ⟨e, w', h, (C11_value_assignment_rolled_back_partial hs.1 hs.2 (by decide) (stateAfter_good hs (by decide +kernel)) .L
    (by decide) (kx := 0) (vx := 5) (by unfold World.holds; decide +kernel) (by decide) h).2.2.1 natOps_lawful⟩

/-- C12: the assignment throws and leaves the fallback type. -/
example : ∃ e w', (valueAssign .C 0 2 9).code (exCfg [tInt, tThrowing, tThrowing] [4])
    (stateAfter (exCfg [tInt, tThrowing, tThrowing] [4]) [.constructC 0 1 5]) = .exc e w' ∧
    AsBeforeOrFallback (exCfg [tInt, tThrowing, tThrowing] [4])
      (stateAfter (exCfg [tInt, tThrowing, tThrowing] [4]) [.constructC 0 1 5]) w' 0 0 := by
  obtain ⟨e, w', h⟩ := of_endsExc (m := (valueAssign .C 0 2 9).code (exCfg [tInt, tThrowing, tThrowing] [4]))
    (w := stateAfter (exCfg [tInt, tThrowing, tThrowing] [4]) [.constructC 0 1 5]) (by decide +kernel)
  exact ⟨e, w', h, (C12_value_assignment_fallback_partial exFall_sane.1 exFall_built (by decide)
    (stateAfter_good exFall_sane (by decide +kernel)) .C (by decide) (kx := 1) (vx := 5)
    (by unfold World.holds; decide +kernel) (by decide) h).1⟩

/-- C23: the conversion throws. -/
example : ∃ e w', (valueAssign .C 0 1 9).code (exCfg [tThrowing, tThrowing] [2])
    (stateAfter (exCfg [tThrowing, tThrowing] [2]) [.constructC 0 0 5]) = .exc e w' ∧
    w'.vars = (stateAfter (exCfg [tThrowing, tThrowing] [2]) [.constructC 0 0 5]).vars := by
  have hs : Sane (exCfg [tThrowing, tThrowing] [2]) := ⟨exTwo_sane.1, exTwo_sane.2, exTwo_sane.3⟩
  obtain ⟨e, w', h⟩ := of_endsExc (m := valueConstruct .C (.tmp 0) 1 9 (exCfg [tThrowing, tThrowing] [2]))
    (w := stateAfter (exCfg [tThrowing, tThrowing] [2]) [.constructC 0 0 5]) (by decide +kernel)
  have := C23_failed_conversion (stateAfter_good hs (by decide +kernel)) .C (by decide) (x := 0) (kx := 0) (vx := 5)
    (by unfold World.holds; decide +kernel) (Or.inr rfl) h
  exact ⟨e, w', this.1, this.2.1⟩

/-- C22, a new type, in full: for a variant in the heap-backup state. -/
example : ∃ w', (valueAssign .R 0 1 9).code exTwo exBackup = .ok () w' ∧ WhichIs w' 0 1 ∧ Rest exBackup w' [0] ∧
    ∀ id, exBackup.objOf 0 = some id → w'.objs id = none := by
  obtain ⟨w', h⟩ := of_endsOk (m := (valueAssign .R 0 1 9).code exTwo) (w := exBackup) (by decide +kernel)
  have := C22_value_assignment_new_type exTwo_blankOk exBackup_good .R (by decide) exBackup_facts.2.1 (by decide) h
  exact ⟨w', h, this.2.1, this.2.2.2.1, this.2.2.1⟩

/-- C15: what an assignment of a converted value may throw, and what one does throw. -/
example : ∃ e w', (valueAssign .C 0 1 9).code (exCfg [tThrowing, tThrowing] [2])
    (stateAfter (exCfg [tThrowing, tThrowing] [2]) [.constructC 0 0 5]) = .exc e w' ∧
    ((Mode.C = .C ∧ e.kind = .convert 1) ∨ e.kind = .moveCtor 1 ∨ e.kind = .copyCtor 1 ∨
      ((e.kind = .copyCtor 0 ∨ e.kind = .badAlloc) ∧ (exCfg [tThrowing, tThrowing] [2]).mayBackup 1 ∧
        ((exCfg [tThrowing, tThrowing] [2]).tr 0).nothrowMove = false)) ∧
    thrownBy (exCfg [tThrowing, tThrowing] [2]) [.constructC 0 0 5] (.assignC 0 1 9) = some (.convert 1) := by
  have hs : Sane (exCfg [tThrowing, tThrowing] [2]) := ⟨exTwo_sane.1, exTwo_sane.2, exTwo_sane.3⟩
  obtain ⟨e, w', h⟩ := of_endsExc (m := (valueAssign .C 0 1 9).code (exCfg [tThrowing, tThrowing] [2]))
    (w := stateAfter (exCfg [tThrowing, tThrowing] [2]) [.constructC 0 0 5]) (by decide +kernel)
  exact ⟨e, w', h, C15_value_assignment_throws hs.1 (stateAfter_good hs (by decide +kernel)) .C (by decide) (kx := 0) (vx := 5)
    (by unfold World.holds; decide +kernel) (by decide) h, by decide +kernel⟩

/-! ### Counterexample -/

/-- F7: value assignment of the held type succeeds and leaves the heap-backup state (C19). -/
theorem C19_counterexample_value_assignment :
    faults exTwo (exProg.take 3 ++ [.assignL 0 0 9]) = false ∧
    thrownBy exTwo (exProg.take 3) (.assignL 0 0 9) = none ∧
    contentAfter exTwo (exProg.take 3 ++ [.assignL 0 0 9]) 0 = some (0, 9) ∧
    backedUpAfter exTwo (exProg.take 3 ++ [.assignL 0 0 9]) 0 = true := by decide +kernel

end BVariant
