/-
Effect of statements that construct a variant from, or assign to it, an element value of the program.
-/
import Verif.Core.Program
import Verif.Lemmas.Swap

set_option linter.unusedSimpArgs false

namespace BVariant

section
variable {V α : Type} {C : Cfg V} {w w2 : World V}

/-- How a program hands over an element value: as an lvalue (`L`) or rvalue (`R`) of a bounded type, as something
convertible (`C`), or as the content of an lvalue (`VL`) or rvalue (`VR`) of another variant type. -/
inductive Mode
  | L
  | R
  | C
  | VL
  | VR
  deriving DecidableEq

/-- The operand itself has the bounded type. -/
def Mode.direct : Mode → Bool
  | .L | .R => true
  | .C | .VL | .VR => false

/-- The value of the object constructed from the operand. -/
def Mode.built (C : Cfg V) (k : TyIx) (v : V) : Mode → V
  | .L | .VL => C.ops.copy k v
  | .R | .VR => C.ops.move k v
  | .C => C.ops.move k v

/-- The value of an object of the operand's own type after assignment from the operand. -/
def Mode.assigned (C : Cfg V) (k : TyIx) (v : V) (vl : V) : Mode → V
  | .L => C.ops.assign k vl v
  | .R => C.ops.moveAssign k vl v
  | .C | .VL | .VR => vl

@[inherit_doc Mode.assigned]
def Mode.assignedExc (C : Cfg V) (k : TyIx) (v : V) (vl : V) : Mode → V
  | .L => C.ops.assignFail k vl v
  | .R => C.ops.moveAssignFail k vl v
  | .C | .VL | .VR => vl

/-- What may be thrown when an object is constructed from the operand. -/
def Mode.excKind (k : TyIx) : Mode → ExcKind → Prop
  | .L, e | .VL, e => e = .copyCtor k
  | .R, e | .VR, e => e = .moveCtor k
  | .C, e => e = .convert k ∨ e = .moveCtor k

/-- What a failing direct assignment throws. -/
def Mode.assignKind (k : TyIx) : Mode → ExcKind → Prop
  | .L, e => e = .copyAssign k
  | .R, e => e = .moveAssign k
  | .C, _ | .VL, _ | .VR, _ => False

/-- Everything a value assignment statement that returns can do. -/
inductive ValOk (C : Cfg V) (w w' : World V) (l : VarId) (sl : VarSt) (idl : ObjId) (kl : TyIx) (vl : V)
    (m : Mode) (k : TyIx) (v : V) : Prop
  | direct (hm : m.direct = true) (hk : kl = k)
      (hr : Replace C w w' w.objs l idl sl idl kl (m.assigned C k v vl)) (ha : w'.allocs = w.allocs)
  | sameType (hm : m.direct = false) (hk : sl.which_ = (k : Int))
      (hr : Replace C w w' w.objs l idl sl idl kl (C.ops.moveAssign kl vl (m.built C k v)))
      (ha : w'.allocs = w.allocs)
  | newType (hh : m.direct = false ∨ kl ≠ k) (hk : sl.which_ ≠ (k : Int))
      (hr : AssignOk C w w' w.objs l idl k (moveAssignVal C k (m.built C k v)))
      (ha : Sane C → AllocBound C w w' kl k)

/-- Everything a value assignment statement that throws can do. -/
inductive ValExc (C : Cfg V) (w w' : World V) (l : VarId) (sl : VarSt) (idl : ObjId) (kl : TyIx) (vl : V)
    (m : Mode) (k : TyIx) (v : V) (e : Exc) : Prop
  | direct (hm : m.direct = true) (hk : kl = k) (hek : m.assignKind k e.kind)
      (hr : Replace C w w' w.objs l idl sl idl kl (m.assignedExc C k v vl)) (ha : w'.allocs = w.allocs)
  | convert (hh : m.direct = false ∨ kl ≠ k) (hek : m.excKind k e.kind)
      (hr : Replace C w w' w.objs l idl sl idl kl vl) (ha : w'.allocs = w.allocs)
  | sameType (hm : m.direct = false) (hk : sl.which_ = (k : Int)) (hek : e.kind = .moveAssign kl)
      (hr : Replace C w w' w.objs l idl sl idl kl (C.ops.moveAssignFail kl vl (m.built C k v)))
      (ha : w'.allocs = w.allocs)
  | newType (hh : m.direct = false ∨ kl ≠ k) (hk : sl.which_ ≠ (k : Int))
      (hek : MoveKind C kl k e.kind ∧ (kl = k → e.kind = .copyCtor kl))
      (h0 : AssignExc0 C w w' w.objs l sl idl kl vl k e)
      (hr : Sane C → AssignExc C w w' w.objs l sl idl kl vl k e)
      (ha : Sane C → AllocBound C w w' kl k)

/-- The world with a local element object of the program. -/
def addElem (k : TyIx) (v : V) (w : World V) : World V :=
  { w with objs := upd w.objs w.next (some (k, v)), next := w.next + 1 }

theorem wp_withElem {Q : α → World V → Prop} {E : Exc → World V → Prop} (k : TyIx) (v : V) (f : ObjId → M V α) :
    wp (withElem k v f) Q E w =
      wp (f w.next) (fun a w' => wp (destroyObj k w.next) (fun _ w'' => Q a w'') E w')
        (fun e w' => wp (destroyObj k w.next) (fun _ w'' => E e w'') (fun _ _ => False) w') (addElem k v w) := by
  simp only [withElem, wp_bind, wp_newObj, wp_withLocal, addElem]

theorem Fresh.addElem (hf : Fresh w) (k : TyIx) (v : V) : Fresh (addElem k v w) := by
  constructor
  · intro i hi
    simp only [BVariant.addElem] at hi ⊢
    have : i ≠ w.next := by omega
    rw [upd_ne _ _ this]; exact hf.fresh i (by omega)
  · exact hf.flat

/-- The changed world after the local element object is destroyed. -/
theorem Replace.drop_elem {base : ObjId → Option (TyIx × V)} {l : VarId} {idl : ObjId} {s' : VarSt} {id' : ObjId}
    {k k' : TyIx} {v v' : V} (h : Replace C (addElem k v w) w2 base l idl s' id' k' v') (hidl : idl < w.next)
    (hb : ∀ i, i < w.next → base i = w.objs i) :
    Replace C w { w2 with objs := upd w2.objs w.next none } w.objs l idl s' id' k' v' := by
  obtain ⟨r1, r2, r3, r4, r5, r6, r7, r8, r9, r10⟩ := h
  simp only [addElem] at *
  have hne : id' ≠ w.next := by omega
  constructor
  · exact r1
  · exact r2
  · simp only [upd_ne _ _ hne]; exact r3
  · omega
  · exact r5
  · intro i hi hni
    have : i ≠ w.next := by omega
    simp only [upd_ne _ _ this]
    rw [r6 i (by omega) hni, hb i hi]
  · intro i hi hni
    by_cases hin : i = w.next
    · simp only [hin, upd_same]
    · simp only [upd_ne _ _ hin]; exact r7 i (by omega) hni
  · simp only; omega
  · exact r9
  · exact r10

theorem Create.drop_elem {base : ObjId → Option (TyIx × V)} {l : VarId} {s' : VarSt} {id' : ObjId}
    {k k' : TyIx} {v v' : V} (h : Create C (addElem k v w) w2 base l s' id' k' v')
    (hb : ∀ i, i < w.next → base i = w.objs i) :
    Create C w { w2 with objs := upd w2.objs w.next none } w.objs l s' id' k' v' := by
  obtain ⟨r1, r2, r3, r4, r5, r6, r7, r8, r9, r10⟩ := h
  simp only [addElem] at *
  have hne : id' ≠ w.next := by omega
  constructor
  · exact r1
  · exact r2
  · simp only [upd_ne _ _ hne]; exact r3
  · omega
  · exact r5
  · intro i hi
    have : i ≠ w.next := by omega
    simp only [upd_ne _ _ this]
    rw [r6 i (by omega), hb i hi]
  · intro i hi hni
    by_cases hin : i = w.next
    · simp only [hin, upd_same]
    · simp only [upd_ne _ _ hin]; exact r7 i (by omega) hni
  · simp only; omega
  · exact r9
  · exact r10

theorem AssignOk.drop_elem {base : ObjId → Option (TyIx × V)} {l : VarId} {idl : ObjId} {k k' : TyIx} {v v' : V}
    (h : AssignOk C (addElem k v w) w2 base l idl k' v') (hidl : idl < w.next)
    (hb : ∀ i, i < w.next → base i = w.objs i) :
    AssignOk C w { w2 with objs := upd w2.objs w.next none } w.objs l idl k' v' := by
  obtain ⟨id', hid', hr⟩ := h
  refine ⟨id', ?_, hr.drop_elem hidl hb⟩
  simp only [addElem] at hid'; omega

theorem AssignExc0.drop_elem {base : ObjId → Option (TyIx × V)} {l : VarId} {s : VarSt} {idl : ObjId}
    {k k' kr : TyIx} {v v' : V} {e : Exc} (h : AssignExc0 C (addElem k v w) w2 base l s idl k' v' kr e) (hidl : idl < w.next)
    (hb : ∀ i, i < w.next → base i = w.objs i) :
    AssignExc0 C w { w2 with objs := upd w2.objs w.next none } w.objs l s idl k' v' kr e := by
  obtain ⟨h1, h2, h3, h4, h5, h6⟩ := h
  refine ⟨h1, h2, ?_, by simp only [addElem] at h4; simp only; omega, h5, ?_⟩
  · intro i hi hne
    have : i ≠ w.next := by omega
    simp only [upd_ne _ _ this]
    rw [h3 i (by simp only [addElem]; omega) hne, hb i hi]
  · rcases h6 with ⟨s, h1, h2⟩ | ⟨s', id', k', v', h, hlo⟩
    · exact .inl ⟨s, h1, h2⟩
    · exact .inr ⟨s', id', k', v', h.drop_elem hidl hb, hlo⟩

theorem AssignExc.drop_elem {base : ObjId → Option (TyIx × V)} {l : VarId} {s : VarSt} {idl : ObjId}
    {k k' kr : TyIx} {v v' : V} {e : Exc}
    (h : AssignExc C (addElem k v w) w2 base l s idl k' v' kr e) (hidl : idl < w.next)
    (hb : ∀ i, i < w.next → base i = w.objs i) :
    AssignExc C w { w2 with objs := upd w2.objs w.next none } w.objs l s idl k' v' kr e := by
  obtain ⟨hth, s', id', k'', v'', hr, hlo⟩ := h
  exact ⟨hth, s', id', k'', v'', hr.drop_elem hidl hb, hlo⟩

variable {l : VarId} {sl : VarSt} {idl : ObjId} {kl : TyIx} {vl : V}

/-- The operand of an lvalue or rvalue statement. -/
def Mode.src (m : Mode) (k : TyIx) (v : V) (t : ObjId) : Src V :=
  match m with
  | .L => .lref k t false
  | .R => .rref k t false
  | .VL => .lref k t true
  | .VR => .rref k t true
  | .C => .conv k v

theorem wp_assign_elem (hb : BlankOk C) (m : Mode) (hm : m ≠ .C) (k : TyIx) (v : V)
    (hl : Owns C w l sl idl kl vl) (hf : Fresh w) (hk : k < C.n) (hlt : l ≠ .tmp 0)
    (htn : w.vars (.tmp 0) = none) :
    wp (withElem k v fun t => assignValue C l (m.src k v t)) (fun _ w' => ValOk C w w' l sl idl kl vl m k v)
      (fun e w' => Thrown C w w' e ∧ ValExc C w w' l sl idl kl vl m k v e) w := by
  have hlt1 := hf.lt hl.obj
  have n1 : idl ≠ w.next := by omega
  rw [wp_withElem]
  have hl1 : Owns C (addElem k v w) l sl idl kl vl := ⟨hl.var, hl.rep, by simp only [addElem, upd_ne _ _ n1]; exact hl.obj⟩
  have hf1 := hf.addElem k v
  have hot : (addElem k v w).objs w.next = some (k, v) := by simp [addElem]
  -- destruction of the element object
  have fin : ∀ {w2 : World V} {base : ObjId → Option (TyIx × V)} {s' : VarSt} {id' : ObjId} {k' : TyIx} {v' q : V}
      {Q : Unit → World V → Prop} {E : Exc → World V → Prop},
      Replace C (addElem k v w) w2 base l idl s' id' k' v' → base w.next = some (k, q) →
      Q () { w2 with objs := upd w2.objs w.next none } → wp (destroyObj k w.next) Q E w2 := by
    intro w2 base s' id' k' v' q Q E hr hq h
    rw [wp_destroyObj (v := q)]
    · exact h
    · rw [hr.keep w.next (by simp [addElem]) n1.symm, hq]
    · rw [hr.sub]; exact hf.flat _
  have hlive : (m.src k v w.next).live (addElem k v w) := by
    cases m with
    | C => trivial
    | _ => exact ⟨v, hot⟩
  have hap : (m.src k v w.next).apart idl := by
    cases m with
    | R | VR => exact n1.symm
    | _ => trivial
  have hty : (m.src k v w.next).ty = k := by cases m <;> rfl
  have hres : (m.src k v w.next).result C (addElem k v w).objs = some (m.built C k v) := by
    cases m <;> simp [Mode.src, Src.result, Mode.built, hot]
  have hhold : (m.src k v w.next).holds kl ↔ (m.direct = true ∧ kl = k) := by
    cases m <;> simp [Mode.src, Src.holds, Mode.direct]
  have hnot : ¬ (m.src k v w.next).holds kl → m.direct = false ∨ kl ≠ k := by
    intro hh
    rw [hhold] at hh
    cases hd : m.direct with
    | false => exact Or.inl rfl
    | true => exact Or.inr fun h => hh ⟨hd, h⟩
  have hsame : ¬ (m.src k v w.next).holds kl → sl.which_ = (k : Int) → m.direct = false := by
    intro hh hw
    refine (hnot hh).resolve_right fun h => ?_
    have hc := hl.rep
    cases hc with
    | inPlace _ _ _ => simp only at hw; omega
    | inBackup _ _ _ _ => simp only at hw; omega
  have hlow : ∀ i, i < w.next → (addElem k v w).objs i = w.objs i := by
    intro i hi
    have : i ≠ w.next := by omega
    simp only [addElem, upd_ne _ _ this]
  have low : ∀ (p : Option (TyIx × V)) i, i < w.next → upd (addElem k v w).objs w.next p i = w.objs i := by
    intro p i hi
    have : i ≠ w.next := by omega
    rw [upd_ne _ _ this]; exact hlow i hi
  have b1 : (∀ i, i < w.next → (m.src k v w.next).after C (addElem k v w).objs i = w.objs i) ∧
      ∃ q, (m.src k v w.next).after C (addElem k v w).objs w.next = some (k, q) := by
    cases m with
    | L | VL => exact ⟨hlow, v, hot⟩
    | R | VR => exact ⟨low _, by simp [Mode.src, Src.after, hot]⟩
    | C => exact absurd rfl hm
  have b2 : (∀ i, i < w.next → (m.src k v w.next).afterExc C (addElem k v w).objs i = w.objs i) ∧
      ∃ q, (m.src k v w.next).afterExc C (addElem k v w).objs w.next = some (k, q) := by
    cases m with
    | L | VL => exact ⟨hlow, v, hot⟩
    | R | VR => exact ⟨low _, by simp [Mode.src, Src.afterExc, hot]⟩
    | C => exact absurd rfl hm
  have b3 : (∀ i, i < w.next → (m.src k v w.next).afterAssigned C vl (addElem k v w).objs i = w.objs i) ∧
      ∃ q, (m.src k v w.next).afterAssigned C vl (addElem k v w).objs w.next = some (k, q) := by
    cases m with
    | L | VL => exact ⟨hlow, v, hot⟩
    | R | VR => exact ⟨low _, by simp [Mode.src, Src.afterAssigned, hot]⟩
    | C => exact absurd rfl hm
  have b4 : (∀ i, i < w.next → (m.src k v w.next).afterAssignedExc C vl (addElem k v w).objs i = w.objs i) ∧
      ∃ q, (m.src k v w.next).afterAssignedExc C vl (addElem k v w).objs w.next = some (k, q) := by
    cases m with
    | L | VL => exact ⟨hlow, v, hot⟩
    | R | VR => exact ⟨low _, by simp [Mode.src, Src.afterAssignedExc, hot]⟩
    | C => exact absurd rfl hm
  refine wp_mono (wp_assignValue hb (m.src k v w.next) hl1 hf1 hlive hap (by rw [hty]; exact hk) hlt htn) ?_ ?_
  · rintro _ w2 (⟨v', hh, hv, hr, ha⟩ | ⟨v', hh, hw, hv, hr, ha⟩ | ⟨v', hh, hw, hv, hr, ha⟩)
    · obtain ⟨q, hq⟩ := b3.2
      obtain ⟨hd, hkk⟩ := hhold.mp hh
      refine fin hr hq (.direct hd hkk ?_ ha)
      have : v' = m.assigned C k v vl := by
        cases m <;> simp [Mode.src, Src.assigned, Mode.assigned, Mode.direct, hot] at hv hd ⊢ <;> exact hv.symm
      rw [← this]; exact hr.drop_elem hlt1 b3.1
    · rw [hres] at hv; cases hv
      rw [hty] at hw
      obtain ⟨q, hq⟩ := b1.2
      exact fin hr hq (.sameType (hsame hh hw) hw (hr.drop_elem hlt1 b1.1) ha)
    · obtain ⟨q, hq⟩ := b1.2
      rw [hres] at hv; cases hv
      rw [hty] at hw hr ha
      have hr' := hr
      obtain ⟨id', hid', hr0⟩ := hr
      exact fin hr0 hq (.newType (hnot hh) hw (hr'.drop_elem hlt1 b1.1) ha)
  · rintro e w2 ⟨hth, ⟨v', hh, hek, hv, hr, ha⟩ | ⟨hh, hek, hr, ha⟩ | ⟨v', hh, hw, hek, hv, hr, ha⟩ | ⟨hh, hw, hek, h0, hr, ha⟩⟩
    · obtain ⟨q, hq⟩ := b4.2
      obtain ⟨hd, hkk⟩ := hhold.mp hh
      refine fin hr hq ⟨hth, .direct hd hkk (by cases m <;> first | exact hek | cases hd) ?_ ha⟩
      have : v' = m.assignedExc C k v vl := by
        cases m <;> simp [Mode.src, Src.assignedExc, Mode.assignedExc, Mode.direct, hot] at hv hd ⊢ <;> exact hv.symm
      rw [← this]; exact hr.drop_elem hlt1 b4.1
    · obtain ⟨q, hq⟩ := b2.2
      refine fin hr hq ⟨hth, .convert (hnot hh) ?_ (hr.drop_elem hlt1 b2.1) ha⟩
      cases m <;> exact hek
    · rw [hres] at hv; cases hv
      rw [hty] at hw
      obtain ⟨q, hq⟩ := b1.2
      exact fin hr hq ⟨hth, .sameType (hsame hh hw) hw hek (hr.drop_elem hlt1 b1.1) ha⟩
    · obtain ⟨q, hq⟩ := b1.2
      rw [hty] at hw hek h0 hr ha
      rw [wp_destroyObj (v := q) (by rw [h0.keep w.next (by simp [addElem]) n1.symm, hq])
        (by rw [h0.sub]; exact hf.flat _)]
      exact ⟨hth, .newType (hnot hh) hw hek (h0.drop_elem hlt1 b1.1)
        (fun hs => (hr hs).drop_elem hlt1 b1.1) ha⟩

theorem wp_assign_conv (hb : BlankOk C) (k : TyIx) (v : V)
    (hl : Owns C w l sl idl kl vl) (hf : Fresh w) (hk : k < C.n) (hlt : l ≠ .tmp 0)
    (htn : w.vars (.tmp 0) = none) :
    wp (assignValue C l (.conv k v)) (fun _ w' => ValOk C w w' l sl idl kl vl .C k v)
      (fun e w' => Thrown C w w' e ∧ ValExc C w w' l sl idl kl vl .C k v e) w := by
  refine wp_mono (wp_assignValue hb (.conv k v) hl hf trivial trivial hk hlt htn) ?_ ?_
  · rintro _ w2 (⟨v', hh, hv, hr, ha⟩ | ⟨v', hh, hw, hv, hr, ha⟩ | ⟨v', hh, hw, hv, hr, ha⟩)
    · exact hh.elim
    · simp only [Src.result, Option.some.injEq] at hv; subst hv
      exact .sameType rfl hw hr ha
    · simp only [Src.result, Option.some.injEq] at hv; subst hv
      exact .newType (Or.inl rfl) hw hr ha
  · rintro e w2 ⟨hth, ⟨v', hh, hek, hv, hr, ha⟩ | ⟨hh, hek, hr, ha⟩ | ⟨v', hh, hw, hek, hv, hr, ha⟩ | ⟨hh, hw, hek, h0, hr, ha⟩⟩
    · exact hh.elim
    · exact ⟨hth, .convert (Or.inl rfl) hek hr ha⟩
    · simp only [Src.result, Option.some.injEq] at hv; subst hv
      exact ⟨hth, .sameType rfl hw hek hr ha⟩
    · exact ⟨hth, .newType (Or.inl rfl) hw hek h0 hr ha⟩

/-- Converting construction from a local element object of the program. -/
theorem wp_construct_elem (m : Mode) (hm : m ≠ .C) (x : VarId) (k : TyIx) (v : V) (hf : Fresh w) (hk : k < C.n) :
    wp (withElem k v fun t => convertConstruct C x (m.src k v t))
      (fun _ w' => ∃ id', Create C w w' w.objs x ⟨(k : Int), .obj id'⟩ id' k (m.built C k v) ∧ w'.allocs = w.allocs)
      (fun e w' => m.excKind k e.kind ∧ Thrown C w w' e ∧ w'.vars = w.vars ∧ w'.objs = w.objs ∧ w'.sub = w.sub ∧
        w'.allocs = w.allocs ∧ w.next ≤ w'.next) w := by
  rw [wp_withElem]
  have hf1 := hf.addElem k v
  have hot : (addElem k v w).objs w.next = some (k, v) := by simp [addElem]
  have hlive : (m.src k v w.next).live (addElem k v w) := by
    cases m with
    | C => trivial
    | _ => exact ⟨v, hot⟩
  have hty : (m.src k v w.next).ty = k := by cases m <;> rfl
  have hres : (m.src k v w.next).result C (addElem k v w).objs = some (m.built C k v) := by
    cases m <;> simp [Mode.src, Src.result, Mode.built, hot]
  have hlow : ∀ i, i < w.next → (addElem k v w).objs i = w.objs i := by
    intro i hi
    have : i ≠ w.next := by omega
    simp only [addElem, upd_ne _ _ this]
  have low : ∀ (p : Option (TyIx × V)) i, i < w.next → upd (addElem k v w).objs w.next p i = w.objs i := by
    intro p i hi
    have : i ≠ w.next := by omega
    rw [upd_ne _ _ this]; exact hlow i hi
  have b1 : (∀ i, i < w.next → (m.src k v w.next).after C (addElem k v w).objs i = w.objs i) ∧
      ∃ q, (m.src k v w.next).after C (addElem k v w).objs w.next = some (k, q) := by
    cases m with
    | L | VL => exact ⟨hlow, v, hot⟩
    | R | VR => exact ⟨low _, by simp [Mode.src, Src.after, hot]⟩
    | C => exact absurd rfl hm
  refine wp_mono (wp_convertConstruct (m.src k v w.next) hlive (by rw [hty]; exact hk) hf1) ?_ ?_
  · rintro _ w2 ⟨id', v', hid', hv', hc, ha, _⟩
    rw [hres] at hv'; cases hv'
    rw [hty] at hc
    obtain ⟨q, hq⟩ := b1.2
    rw [wp_destroyObj (v := q)]
    · exact ⟨id', hc.drop_elem b1.1, ha⟩
    · rw [hc.keep w.next (by simp [addElem]), hq]
    · rw [hc.sub]; exact hf.flat _
  · rintro e w2 ⟨hek, hth, hv, hsub, ha, hnx, hob⟩
    have hq : ∃ q, w2.objs w.next = some (k, q) := by
      rw [hob]
      cases m with
      | L | VL => exact ⟨v, hot⟩
      | R | VR => simp [Mode.src, Src.afterExc, hot]
      | C => exact absurd rfl hm
    obtain ⟨q, hq⟩ := hq
    rw [wp_destroyObj (v := q) hq (by rw [hsub]; exact hf.flat _)]
    refine ⟨by cases m <;> exact hek, hth, hv, ?_, hsub, ha, ?_⟩
    · funext i
      simp only [upd]
      split
      · rename_i hi; rw [hi, hf.fresh _ (Nat.le_refl _)]
      · rename_i hi
        rw [hob]
        cases m with
        | L | VL => simp [Mode.src, Src.afterExc, addElem, upd, hi]
        | R | VR => simp [Mode.src, Src.afterExc, addElem, upd, hi]
        | C => exact absurd rfl hm
    · simp only [addElem] at hnx; simp only; omega

end

end BVariant
