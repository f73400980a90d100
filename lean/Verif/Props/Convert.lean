/-
C40: conversion between variants. C43: it does not depend on the storage state of the source.
-/
import Verif.Spec.Convert
import Verif.Props.Initializer
import Verif.Props.Backup

namespace BVariant

section
variable {V : Type} {C' C : Cfg V} {F : Foreign} {cv : ConvVal V} {ws w : World V} {x y : Nat} {j k : TyIx} {v : V} {id : ObjId}
  {o : Overload}

/-! ### The source -/

/-- C40: whatever the storage state of the source, what is handed over is its content, and the source is not changed by that. -/
theorem C40_content_found (hg : Good C' ws) (hy : ws.holds y j v) (hi : ws.objOf y = some id) :
    internalApplyVisitor C' (.user y) convertInto ws = .ok (j, id) ws ∧ ws.objs id = some (j, v) := by
  obtain ⟨s, p, ho⟩ := hg.holds hy
  obtain rfl : p = id := by rw [ho.objOf] at hi; exact Option.some.inj hi
  refine ⟨?_, ho.obj⟩
  obtain ⟨h1, h2, h3⟩ := ho
  cases h2 with
  | inPlace _ _ hk => rw [iav_inPlace C' _ h1 hk h3]; rfl
  | inBackup _ _ hk hb => rw [iav_backup C' _ h1 hk hb]; rfl

theorem fromForeign_eq (hg : Good C' ws) (hy : ws.holds y j v) (hi : ws.objOf y = some id) (ho : F.overload j = some o)
    (use : Src V → M V Unit) :
    fromForeign C' F cv (.user y) use (ws, w) =
      if F.bound j o = true then
        lendContent j id o.index v
          (fun t => use (if o.param.rv then .rref o.index t true else .lref o.index t true)) (ws, w)
      else convertContent cv F.rv j id o.index v use (ws, w) := by
  obtain ⟨h1, h2⟩ := C40_content_found hg hy hi
  simp only [fromForeign, h1, readAs, h2, if_true, ho]

/-- The relation between an element object of the program, and the content of another variant, being handed over. -/
theorem lend_follows {f : ObjId → M V Unit} {P : Option Exc → V → Prop} (hflat : ∀ i, w.sub i = [])
    (h : wp (f w.next) (fun _ w2 => ∃ q, w2.objs w.next = some (k, q) ∧ w2.sub = w.sub ∧ P none q)
      (fun e w2 => ∃ q, w2.objs w.next = some (k, q) ∧ w2.sub = w.sub ∧ P (some e) q) (addElem k v w)) :
    Follows (withElem k v f w) (lendContent j id k v f (ws, w)) (fun e ws' => ∃ q, P e q ∧ ws' = setVal j id q ws) := by
  have hd : ∀ w2 : World V, (∃ q, w2.objs w.next = some (k, q)) → w2.sub = w.sub →
      destroyObj k w.next w2 = .ok () { w2 with objs := upd w2.objs w.next none } := by
    rintro w2 ⟨q, hq⟩ hs
    simp only [destroyObj, bind, M.bind, readAs, hq, if_true, M.modify, hs, hflat]
    congr 2
    funext i
    simp [upd]
  simp only [withElem, bind, M.bind, newObj, M.withLocal, lendContent, Follows]
  rw [wp] at h
  simp only [addElem] at h
  cases hr : f w.next { w with objs := upd w.objs w.next (some (k, v)), next := w.next + 1 } with
  | ok a w2 =>
    rw [hr] at h
    obtain ⟨q, hq, hs, hP⟩ := h
    simp only [hd w2 ⟨q, hq⟩ hs]
    exact ⟨setVal j id q ws, by simp only [giveBack, hq], q, hP, rfl⟩
  | exc e w2 =>
    rw [hr] at h
    obtain ⟨q, hq, hs, hP⟩ := h
    simp only [hd w2 ⟨q, hq⟩ hs]
    exact ⟨setVal j id q ws, by simp only [giveBack, hq], q, hP, rfl⟩
  | fault x => rw [hr] at h; exact h.elim

theorem lendConstruct (hf : Fresh w) (hk : k < C.n) (rv foreign : Bool) (x : VarId) :
    Follows (withElem k v (fun t => convertConstruct C x (if rv then .rref k t foreign else .lref k t foreign)) w)
      (lendContent j id k v (fun t => convertConstruct C x (if rv then .rref k t foreign else .lref k t foreign)) (ws, w))
      (fun e ws' => ∃ q, (q = if rv then (match e with | none => C.ops.movedFrom k v | some _ => C.ops.moveFailSrc k v) else v) ∧
        ws' = setVal j id q ws) := by
  have hot : (addElem k v w).objs w.next = some (k, v) := by simp [addElem]
  refine lend_follows hf.flat ?_
  cases rv with
  | true =>
    refine wp_mono (wp_convertConstruct (.rref k w.next foreign) ⟨v, hot⟩ hk (hf.addElem k v)) ?_ ?_
    · rintro _ w2 ⟨id', v', hid', hv', hc, ha, -⟩
      refine ⟨_, ?_, hc.sub, rfl⟩
      rw [hc.keep w.next (by simp [addElem])]
      simp [Src.after, hot]
    · rintro e w2 ⟨hek, hth, hv, hsub, ha, hnx, hob⟩
      refine ⟨_, ?_, hsub, rfl⟩
      rw [hob]
      simp [Src.afterExc, hot]
  | false =>
    refine wp_mono (wp_convertConstruct (.lref k w.next foreign) ⟨v, hot⟩ hk (hf.addElem k v)) ?_ ?_
    · rintro _ w2 ⟨id', v', hid', hv', hc, ha, -⟩
      refine ⟨_, ?_, hc.sub, rfl⟩
      rw [hc.keep w.next (by simp [addElem])]
      simp [Src.after, hot]
    · rintro e w2 ⟨hek, hth, hv, hsub, ha, hnx, hob⟩
      refine ⟨_, ?_, hsub, rfl⟩
      rw [hob]
      simp [Src.afterExc, hot]

theorem lendAssign (hb : BlankOk C) {l : VarId} {sl : VarSt} {idl : ObjId} {kl : TyIx} {vl : V}
    (hl : Owns C w l sl idl kl vl) (hf : Fresh w) (hk : k < C.n) (hlt : l ≠ .tmp 0) (htn : w.vars (.tmp 0) = none) (rv : Bool) :
    Follows (withElem k v (fun t => assignValue C l (if rv then .rref k t true else .lref k t true)) w)
      (lendContent j id k v (fun t => assignValue C l (if rv then .rref k t true else .lref k t true)) (ws, w))
      (fun e ws' => ∃ q, (if rv then q = C.ops.movedFrom k v ∨ (e.isSome = true ∧ q = C.ops.moveFailSrc k v) else q = v) ∧
        ws' = setVal j id q ws) := by
  have hot : (addElem k v w).objs w.next = some (k, v) := by simp [addElem]
  have hlt1 := hf.lt hl.obj
  have n1 : idl ≠ w.next := by omega
  have hl1 : Owns C (addElem k v w) l sl idl kl vl := ⟨hl.var, hl.rep, by simp only [addElem, upd_ne _ _ n1]; exact hl.obj⟩
  have hn : w.next < (addElem k v w).next := by simp [addElem]
  refine lend_follows hf.flat ?_
  cases rv with
  | true =>
    refine wp_mono (wp_assignValue hb (.rref k w.next true) hl1 (hf.addElem k v) ⟨v, hot⟩ n1.symm hk hlt htn) ?_ ?_
    · rintro _ w2 (⟨v', hh, -⟩ | ⟨v', hh, hw, hv, hr, ha⟩ | ⟨v', hh, hw, hv, ⟨id', -, hr⟩, ha⟩)
      · cases hh.1
      · exact ⟨_, by rw [hr.keep _ hn n1.symm]; simp [Src.after, hot], hr.sub, Or.inl rfl⟩
      · exact ⟨_, by rw [hr.keep _ hn n1.symm]; simp [Src.after, hot], hr.sub, Or.inl rfl⟩
    · rintro e w2 ⟨hth, ⟨v', hh, -⟩ | ⟨hh, hek, hr, ha⟩ | ⟨v', hh, hw, hek, hv, hr, ha⟩ | ⟨hh, hw, hek, h0, hr, ha⟩⟩
      · cases hh.1
      · exact ⟨_, by rw [hr.keep _ hn n1.symm]; simp [Src.afterExc, hot], hr.sub, Or.inr ⟨rfl, rfl⟩⟩
      · exact ⟨_, by rw [hr.keep _ hn n1.symm]; simp [Src.after, hot], hr.sub, Or.inl rfl⟩
      · exact ⟨_, by rw [h0.keep _ hn n1.symm]; simp [Src.after, hot], h0.sub, Or.inl rfl⟩
  | false =>
    refine wp_mono (wp_assignValue hb (.lref k w.next true) hl1 (hf.addElem k v) ⟨v, hot⟩ trivial hk hlt htn) ?_ ?_
    · rintro _ w2 (⟨v', hh, -⟩ | ⟨v', hh, hw, hv, hr, ha⟩ | ⟨v', hh, hw, hv, ⟨id', -, hr⟩, ha⟩)
      · cases hh.1
      · exact ⟨v, by rw [hr.keep _ hn n1.symm]; exact hot, hr.sub, rfl⟩
      · exact ⟨v, by rw [hr.keep _ hn n1.symm]; exact hot, hr.sub, rfl⟩
    · rintro e w2 ⟨hth, ⟨v', hh, -⟩ | ⟨hh, hek, hr, ha⟩ | ⟨v', hh, hw, hek, hv, hr, ha⟩ | ⟨hh, hw, hek, h0, hr, ha⟩⟩
      · cases hh.1
      · exact ⟨v, by rw [hr.keep _ hn n1.symm]; exact hot, hr.sub, rfl⟩
      · exact ⟨v, by rw [hr.keep _ hn n1.symm]; exact hot, hr.sub, rfl⟩
      · exact ⟨v, by rw [h0.keep _ hn n1.symm]; exact hot, h0.sub, rfl⟩

theorem setVal_same (h : ws.objs id = some (j, v)) : setVal j id v ws = ws := by
  have : upd ws.objs id (some (j, v)) = ws.objs := by
    funext i
    by_cases hi : i = id
    · rw [hi, upd_same, h]
    · rw [upd_ne _ _ hi]
  simp only [setVal, this]

/-! ### The theorems -/

/-- How the content would be given if it were given itself: as an lvalue or rvalue of a bounded type, or as something that has to
be converted; and its value as the bounded type. -/
def Foreign.asElement (F : Foreign) (j : TyIx) (o : Overload) : Mode :=
  if F.bound j o then if o.param.rv then .R else .L else .C

@[inherit_doc Foreign.asElement]
def Foreign.asValue (F : Foreign) (cv : ConvVal V) (j : TyIx) (o : Overload) (v : V) : V :=
  if F.bound j o then v else cv.value j o.index v

/-- The same for assignment, where it matters that what is given is a variant. -/
def Foreign.asContent (F : Foreign) (j : TyIx) (o : Overload) : Mode :=
  if F.bound j o then if o.param.rv then .VR else .VL else .C

/-- What may be left of the content of the source: it is as it was; or if it was given as an rvalue, what a move construction, or the
conversion, that returned or threw, leaves. -/
def Foreign.Left (F : Foreign) (C : Cfg V) (cv : ConvVal V) (j : TyIx) (o : Overload) (v : V) (e : Option Exc) (q : V) : Prop :=
  if F.bound j o then
    if o.param.rv then q = C.ops.movedFrom o.index v ∨ (e.isSome = true ∧ q = C.ops.moveFailSrc o.index v) else q = v
  else if F.rv then q = cv.left e j o.index v else q = v

theorem convert_follows {use : Src V → M V Unit} {op : M V Unit} (h : use (.conv k (cv.value j k v)) w = op w)
    (hno : ∀ x, op w ≠ .fault x) (hobj : ws.objs id = some (j, v)) (rv : Bool) :
    Follows (op w) (convertContent cv rv j id k v use (ws, w))
      (fun e ws' => ∃ q, (if rv then q = cv.left e j k v else q = v) ∧ ws' = setVal j id q ws) := by
  simp only [convertContent, h]
  have key : ∀ e, ∃ q, (if rv = true then q = cv.left e j k v else q = v) ∧
      (if rv = true then setVal j id (cv.left e j k v) ws else ws) = setVal j id q ws := by
    intro e
    cases rv with
    | true => exact ⟨_, rfl, rfl⟩
    | false => exact ⟨v, rfl, (setVal_same hobj).symm⟩
  cases hr : op w with
  | ok a w' => exact ⟨_, rfl, key none⟩
  | exc e w' => exact ⟨_, rfl, key (some e)⟩
  | fault x => exact (hno x hr).elim

/-- C40, construction: constructing `x` from a variant `y` of another type goes exactly as if the content of `y` had been given: the
same result or exception, and the same final state of all variants and objects. `o` is the call of `initialize` for an argument
of the type of the content, which C39 is about. Of the source at most the value of the content has changed. -/
theorem C40_construction (hg' : Good C' ws) (hy : ws.holds y j v) (hi : ws.objOf y = some id) (ho : F.overload j = some o)
    (hg : Good C w) (hk : o.index < C.n) (hx : w.vars (.user x) = none) :
    Follows (valueConstruct (F.asElement j o) (.user x) o.index (F.asValue cv j o v) C w)
      (constructForeign C' C F cv (.user y) (.user x) (ws, w))
      (fun e ws' => ∃ q, F.Left C cv j o v e q ∧ ws' = setVal j id q ws) := by
  obtain ⟨-, hobj⟩ := C40_content_found hg' hy hi
  rw [constructForeign, fromForeign_eq hg' hy hi ho]
  simp only [Foreign.asElement, Foreign.asValue, Foreign.Left]
  cases hbd : F.bound j o with
  | true =>
    simp only [if_true]
    have h := lendConstruct (ws := ws) (j := j) (id := id) (v := v) hg.wf.toFresh hk o.param.rv true (.user x)
    cases hrv : o.param.rv with
    | true =>
      rw [hrv] at h
      simp only [if_true] at h ⊢
      change Follows (valueConstruct .R (.user x) o.index v C w) _ _ at h
      revert h
      simp only [Follows]
      split
      · rintro ⟨ws', h1, q, h2, h3⟩; exact ⟨ws', h1, q, Or.inl h2, h3⟩
      · rintro ⟨ws', h1, q, h2, h3⟩; exact ⟨ws', h1, q, Or.inr ⟨rfl, h2⟩, h3⟩
      · exact fun h => h
    | false =>
      rw [hrv] at h
      exact h
  | false =>
    simp only [Bool.false_eq_true, if_false]
    refine convert_follows (op := valueConstruct .C (.user x) o.index (cv.value j o.index v) C) rfl ?_ hobj F.rv
    intro f hf
    rcases C42_converting_construction (v := cv.value j o.index v) hg .C hk hx with ⟨_, _, h, -⟩ | ⟨_, _, h, -⟩ <;>
      rw [hf] at h <;> cases h

/-- C40, assignment: assigning a variant `y` of another type to `x` goes exactly as assigning its content by way of a temporary variant
(statements `assignVL`, `assignVR`, `assignC` of the programs). -/
theorem C40_assignment (hb : BlankOk C) {kx : TyIx} {vx : V} (hg' : Good C' ws) (hy : ws.holds y j v) (hi : ws.objOf y = some id)
    (ho : F.overload j = some o) (hg : Good C w) (hk : o.index < C.n) (hx : w.holds x kx vx) :
    Follows ((valueAssign (F.asContent j o) x o.index (F.asValue cv j o v)).code C w)
      (assignForeign C' C F cv (.user y) (.user x) (ws, w))
      (fun e ws' => ∃ q, F.Left C cv j o v e q ∧ ws' = setVal j id q ws) := by
  obtain ⟨-, hobj⟩ := C40_content_found hg' hy hi
  obtain ⟨sx, ix, hxo⟩ := hg.holds hx
  rw [assignForeign, fromForeign_eq hg' hy hi ho]
  simp only [Foreign.asContent, Foreign.asValue, Foreign.Left]
  cases hbd : F.bound j o with
  | true =>
    simp only [if_true]
    have h := lendAssign (ws := ws) (j := j) (id := id) (v := v) hb hxo hg.wf.toFresh hk (by simp) (hg.noTmp 0) o.param.rv
    cases hrv : o.param.rv <;> rw [hrv] at h <;> exact h
  | false =>
    simp only [Bool.false_eq_true, if_false]
    refine convert_follows (op := (valueAssign .C x o.index (cv.value j o.index v)).code C) rfl ?_ hobj F.rv
    intro f hf
    have := wp_valueAssign (v := cv.value j o.index v) hb hg .C hxo hk
    rw [wp, hf] at this
    exact this

theorem overload_spec (h : F.overload j = some o) :
    ∃ e, F.src.elems[j]? = some e ∧ (F.contentArg e).resolve (initializerOverloads F.dst) = some o := by
  rw [Foreign.overload, Option.bind_eq_some_iff] at h
  exact h

/-- C40 and C39: the bounded type that the content is converted to is the one that overload resolution over the bounded types selects for
the content. -/
theorem C40_winner {e : Elem} (h : F.overload j = some o) (he : F.src.elems[j]? = some e) (hl : (F.contentArg e).Lawful F.dst)
    (hs : Separate F.dst) : Winner (F.contentArg e) F.dst o.index ∧ o.index < F.dst.length := by
  obtain ⟨e', he', hr⟩ := overload_spec h
  rw [he] at he'; cases he'
  have hw := (C39_selects_the_winner hl hs).mp ⟨o.param, hr⟩
  refine ⟨hw, ?_⟩
  obtain ⟨e', r, hi, -⟩ := hw
  exact (List.getElem?_eq_some_iff.mp hi).1

theorem makes_iff {a : InitArg} {d : Elem} : a.isConstructibleExt d = true ↔ a.Makes d := by
  cases d <;> simp [InitArg.isConstructibleExt, InitArg.Makes]

/-- C40: the constructor and the assignment operator that convert take part in overload resolution exactly if from each of the source's
bounded types some bounded type can be constructed. -/
theorem C40_constructible_iff : F.constructible = true ↔ ∀ e ∈ F.src.elems, ∃ d ∈ F.dst, F.Makes d e := by
  rw [Foreign.constructible, List.all_eq_true]
  refine forall_congr' fun e => forall_congr' fun _ => ?_
  cases e with
  | val t | ref t =>
    simp only [Foreign.elemConstructible, InitArg.isVariantConstructibleFrom, List.any_eq_true, makes_iff, Foreign.Makes]
  | wrapped t =>
    simp only [Foreign.elemConstructible, List.any_eq_true, Foreign.Makes]
    refine exists_congr fun d => and_congr_right fun _ => ?_
    cases d <;> simp

/-- C40: the conversion compiles exactly if from each of the source's bounded types some bounded type can be constructed and there is a
unique best bounded type for each content that the source may have. -/
theorem C40_well_formed_iff (hf : F.isForeign = true) (hl : ∀ e ∈ F.src.elems, (F.contentArg e).Lawful F.dst) (hs : Separate F.dst) :
    F.wellFormed = true ↔
      (∀ e ∈ F.src.elems, ∃ d ∈ F.dst, F.Makes d e) ∧ ∀ e ∈ F.src.elems, ∃ i, Winner (F.contentArg e) F.dst i := by
  rw [← C40_constructible_iff, Foreign.wellFormed, hf, if_pos rfl, Bool.and_eq_true, List.all_eq_true]
  refine and_congr_right fun _ => ⟨fun h e he => ?_, fun h j hj => ?_⟩
  · obtain ⟨j, hj, rfl⟩ := List.getElem_of_mem he
    obtain ⟨o, ho⟩ := Option.isSome_iff_exists.mp (h j (List.mem_range.mpr hj))
    exact ⟨_, (C40_winner ho (List.getElem?_eq_getElem hj) (hl _ he) hs).1⟩
  · have hj' := List.mem_range.mp hj
    obtain ⟨i, hi⟩ := h _ (List.getElem_mem hj')
    obtain ⟨p, hp⟩ := (C39_selects_the_winner (hl _ (List.getElem_mem hj')) hs).mpr hi
    rw [Foreign.overload, List.getElem?_eq_getElem hj']
    simp only [Option.bind_some, hp, Option.isSome_some]

/-- C40: for every state of the source, if the conversion compiles, there is a call of `initialize` for its content. -/
theorem C40_no_state_left_out (hf : F.isForeign = true) (hw : F.wellFormed = true) (hn : C'.n = F.src.elems.length)
    (hg' : Good C' ws) (hy : ws.holds y j v) : ∃ o, F.overload j = some o := by
  rw [Foreign.wellFormed, hf, if_pos rfl, Bool.and_eq_true, List.all_eq_true] at hw
  obtain ⟨s, i, ho⟩ := hg'.holds hy
  have := ho.rep.lt
  exact Option.isSome_iff_exists.mp (hw.2 j (List.mem_range.mpr (by omega)))

theorem bound_spec {e : Elem} (he : F.src.elems[j]? = some e) :
    F.bound j o = true ↔ (e.lvalue F.const).addConst = o.param.ty.addConst := by
  simp only [Foreign.bound, he, decide_eq_true_eq]

/-- C40: the source of a conversion from an lvalue is not changed at all. -/
theorem C40_source_kept (hL : F.L.Lawful) (hrv : F.rv = false) (ho : F.overload j = some o) (hobj : ws.objs id = some (j, v))
    {e : Option Exc} {q : V} (h : F.Left C cv j o v e q) : q = v ∧ setVal j id q ws = ws := by
  have hq : q = v := by
    rw [Foreign.Left] at h
    split at h
    · rename_i hb
      obtain ⟨el, he, hr⟩ := overload_spec ho
      rw [bound_spec he] at hb
      have hp : o.param.rv = false := by
        cases hp : o.param.rv with
        | false => rfl
        | true =>
          have h1 := List.find?_some hr
          have h2 := List.mem_of_find?_eq_some hr
          rw [List.mem_filter] at h2
          have h3 := h2.2
          simp only [InitArg.seq, hp, if_true, Foreign.contentArg, hrv, hL.lvalue _ _ hb] at h3
          simp at h3
      simpa [hp] using h
    · simpa [hrv] using h
  subst hq
  exact ⟨rfl, setVal_same hobj⟩

/-- C40: after any conversion the source holds a value of the same type in the same object and storage state, and all other variants
of its type are as they were. -/
theorem C40_source_state (hg' : Good C' ws) (hy : ws.holds y j v) (hi : ws.objOf y = some id) (q : V) :
    (setVal j id q ws).holds y j q ∧ (setVal j id q ws).vars = ws.vars ∧ Rest ws (setVal j id q ws) [y] ∧
      Good C' (setVal j id q ws) := by
  obtain ⟨s, p, ho⟩ := hg'.holds hy
  obtain rfl : p = id := by rw [ho.objOf] at hi; exact Option.some.inj hi
  have hr : Revalue ws (setVal j p q ws) (upd ws.objs p (some (j, q))) := ⟨rfl, rfl, rfl, rfl⟩
  refine ⟨?_, rfl, fun z hz => ⟨rfl, hg'.wf.upd_other ho (user_ne hz)⟩, hr.good hg' (SameTypes.upd _ _ ho.obj)⟩
  unfold World.holds
  simp [World.content, setVal, ho.var, ho.rep.contentId]

/-- C40: if element operations preserve values, then after an assignment from another variant type has returned, `x` holds the
(converted) content of the source, just as after assigning the content itself. Missing: that the two go the same way otherwise, too;
they do not (`C40_assignment_differs`). -/
theorem C40_assignment_value_partial (hl : C.ops.Lawful) (hb : BlankOk C) {kx : TyIx} {vx : V} (hg' : Good C' ws) (hy : ws.holds y j v)
    (ho : F.overload j = some o) (hg : Good C w) (hk : o.index < C.n) (hx : w.holds x kx vx) {s' : Two V}
    (h : assignForeign C' C F cv (.user y) (.user x) (ws, w) = .ok () s') :
    s'.2.holds x o.index (F.asValue cv j o v) ∧
      ∀ w'', (valueAssign (F.asElement j o) x o.index (F.asValue cv j o v)).code C w = .ok () w'' →
        w''.holds x o.index (F.asValue cv j o v) := by
  obtain ⟨s, id, hyo⟩ := hg'.holds hy
  have hfo := C40_assignment (cv := cv) hb hg' hy hyo.objOf ho hg hk hx
  refine ⟨?_, fun w'' h'' => C22_value_assignment_value hl hb hg _ hk hx h''⟩
  rw [h] at hfo
  simp only [Follows] at hfo
  split at hfo
  · rename_i w' hc
    obtain ⟨ws', h1, -⟩ := hfo
    cases h1
    exact C22_value_assignment_value hl hb hg _ hk hx hc
  · obtain ⟨ws', h1, -⟩ := hfo; cases h1
  · exact hfo.elim

/-- C40: assigning a variant is not in all respects assigning its content. If `x` holds the type of the content, the content itself
would be assigned to the held object; a variant is first converted to a temporary, which is move-assigned. So the held object gets
its value by another operation; and if it is in a heap backup, it stays there in the one case and is replaced in the other. -/
theorem C40_assignment_differs (hb : BlankOk C) {vx : V} (hg' : Good C' ws) (hy : ws.holds y j v)
    (ho : F.overload j = some o) (hbd : F.bound j o = true) (hg : Good C w) (hk : o.index < C.n) (hx : w.holds x o.index vx)
    {s' : Two V} {w'' : World V} (h : assignForeign C' C F cv (.user y) (.user x) (ws, w) = .ok () s')
    (h' : (valueAssign (F.asElement j o) x o.index v).code C w = .ok () w'') :
    w''.holds x o.index (if o.param.rv then C.ops.moveAssign o.index vx v else C.ops.assign o.index vx v) ∧ w''.vars = w.vars ∧
    (w.backedUp x = false →
      s'.2.holds x o.index (C.ops.moveAssign o.index vx (if o.param.rv then C.ops.move o.index v else C.ops.copy o.index v))) ∧
    (w.backedUp x = true → s'.2.backedUp x = false) := by
  obtain ⟨s, id, hyo⟩ := hg'.holds hy
  have hfo := C40_assignment (cv := cv) hb hg' hy hyo.objOf ho hg hk hx
  have hv : F.asValue cv j o v = v := by simp [Foreign.asValue, hbd]
  have hm : F.asElement j o = if o.param.rv then .R else .L := by simp [Foreign.asElement, hbd]
  have hm' : F.asContent j o = if o.param.rv then .VR else .VL := by simp [Foreign.asContent, hbd]
  rw [h, hv, hm'] at hfo
  rw [hm] at h'
  obtain ⟨w1, hw1, hs1⟩ : ∃ w1, (valueAssign (if o.param.rv then .VR else .VL) x o.index v).code C w = .ok () w1 ∧ s'.2 = w1 := by
    simp only [Follows] at hfo
    split at hfo
    · rename_i w' hc; obtain ⟨ws', h1, -⟩ := hfo; cases h1; exact ⟨_, hc, rfl⟩
    · obtain ⟨ws', h1, -⟩ := hfo; cases h1
    · exact hfo.elim
  rw [hs1]
  obtain ⟨⟨b, hbf, hcs⟩, -⟩ := C22_value_assignment_converted hb hg (m := if o.param.rv then .VR else .VL)
    (by cases o.param.rv <;> rfl) hk hx hw1
  have hbv : b = if o.param.rv then C.ops.move o.index v else C.ops.copy o.index v := by
    cases hrv : o.param.rv <;> rw [hrv] at hbf <;> exact hbf
  rcases C22_value_assignment_held_type hb hg (m := if o.param.rv then .R else .L) (v := v) (by cases o.param.rv <;> rfl) hk hx with
    ⟨_, w2, h2, h3, -, h4, -⟩ | ⟨_, w2, h2, -⟩
  · rw [h'] at h2; cases h2
    refine ⟨?_, h3, fun hn => ?_, fun hbk => ?_⟩
    · cases hrv : o.param.rv <;> rw [hrv] at h4 <;> exact h4
    · rcases hcs with ⟨-, -, hh⟩ | ⟨hbk, -⟩
      · rw [← hbv]; exact hh
      · rw [hn] at hbk; cases hbk
    · rcases hcs with ⟨hn, -⟩ | ⟨-, id', -, hin, -⟩
      · rw [hbk] at hn; cases hn
      · rw [World.inPlace] at hin
        simp only [World.backedUp, hin]
        exact decide_eq_false (by omega)
  · rw [h'] at h2; cases h2

/-- The result of an execution in the two worlds, without the world of the source. -/
def Res.dst : Res (Two V) Unit → Out V Unit
  | .ok a s => .ok a s.2
  | .exc e s => .exc e s.2
  | .fault x => .fault x

theorem Follows.dst {r : Out V Unit} {r' : Res (Two V) Unit} {P : Option Exc → World V → Prop} (h : Follows r r' P) : r'.dst = r := by
  simp only [Follows] at h
  split at h
  · obtain ⟨ws', h1, -⟩ := h; rw [h1]; rfl
  · obtain ⟨ws', h1, -⟩ := h; rw [h1]; rfl
  · exact h.elim

/-- C43: conversion to another variant type. From two sources with the same content, in whatever storage states, the results are the
same, and so is the world of the destination. -/
theorem C43_converting_construction {ws2 : World V} {y2 : Nat} (hg1 : Good C' ws) (hg2 : Good C' ws2) (h1 : ws.holds y j v)
    (h2 : ws2.holds y2 j v) (ho : F.overload j = some o) (hg : Good C w) (hk : o.index < C.n) (hx : w.vars (.user x) = none) :
    (constructForeign C' C F cv (.user y) (.user x) (ws, w)).dst = (constructForeign C' C F cv (.user y2) (.user x) (ws2, w)).dst := by
  obtain ⟨s1, i1, o1⟩ := hg1.holds h1
  obtain ⟨s2, i2, o2⟩ := hg2.holds h2
  rw [(C40_construction hg1 h1 o1.objOf ho hg hk hx).dst, (C40_construction hg2 h2 o2.objOf ho hg hk hx).dst]

/-- C43, for assignment from another variant type. -/
theorem C43_converting_assignment (hb : BlankOk C) {kx : TyIx} {vx : V} {ws2 : World V} {y2 : Nat} (hg1 : Good C' ws)
    (hg2 : Good C' ws2) (h1 : ws.holds y j v) (h2 : ws2.holds y2 j v) (ho : F.overload j = some o) (hg : Good C w)
    (hk : o.index < C.n) (hx : w.holds x kx vx) :
    (assignForeign C' C F cv (.user y) (.user x) (ws, w)).dst = (assignForeign C' C F cv (.user y2) (.user x) (ws2, w)).dst := by
  obtain ⟨s1, i1, o1⟩ := hg1.holds h1
  obtain ⟨s2, i2, o2⟩ := hg2.holds h2
  rw [(C40_assignment hb hg1 h1 o1.objOf ho hg hk hx).dst, (C40_assignment hb hg2 h2 o2.objOf ho hg hk hx).dst]

/-! ### A variant that is itself a bounded type -/

/-- C40: the operand is stored whole exactly if its type is a bounded type, up to const and `recursive_wrapper`. -/
theorem C40_is_foreign_iff : F.isForeign = false ↔
    ∃ t, (.val t ∈ F.dst ∨ .wrapped t ∈ F.dst) ∧ t.base = F.src.base ∧ t.volatile = false := by
  have key : ∀ t : CvTy, t.addConst = F.srcTy.addConst ↔ t.base = F.src.base ∧ t.volatile = false := by
    intro t
    simp [CvTy.addConst, Foreign.srcTy]
  rw [Foreign.isForeign, Option.isNone_eq_false_iff, List.find?_isSome]
  constructor
  · rintro ⟨e, he, h⟩
    cases e with
    | val t => simp only [Elem.unwrap, decide_eq_true_eq] at h; exact ⟨t, Or.inl he, (key t).mp h⟩
    | wrapped t => simp only [Elem.unwrap, decide_eq_true_eq] at h; exact ⟨t, Or.inr he, (key t).mp h⟩
    | ref t => simp [Elem.unwrap] at h
  · rintro ⟨t, he | he, h⟩
    · exact ⟨_, he, by simp only [Elem.unwrap, decide_eq_true_eq]; exact (key t).mpr h⟩
    · exact ⟨_, he, by simp only [Elem.unwrap, decide_eq_true_eq]; exact (key t).mpr h⟩

/-- C40: if the type of the operand is a bounded type, and no other bounded type consists of or refers to it, then the operand is stored
whole, as that bounded type: construction and assignment are those of an element of this type with the operand's value. -/
theorem C40_stored_whole {i : Nat} {t : CvTy} {self : V} (hL : F.L.Lawful) (hl : (F.L.arg F.rv F.srcTy).Lawful F.dst)
    (hs : Separate F.dst) (hid : (F.L.arg F.rv F.srcTy).HasIdentity)
    (hi : F.dst[i]? = some (.val t) ∨ F.dst[i]? = some (.wrapped t)) (ht : F.srcTy = t ∨ F.srcTy = t.addConst)
    (hother : ∀ (j : Nat) (e : Elem), j ≠ i → F.dst[j]? = some e → e.base ≠ t.base) :
    F.isForeign = false ∧ (F.wellFormed = true ↔ F.constructible = true) ∧ ∃ m, (m = .L ∨ m = .R) ∧
      (∀ x, constructWhole C F self (.user x) w = valueConstruct m (.user x) i self C w) ∧
      (∀ x, assignWhole C F self (.user x) w = (valueAssign m x i self).code C w) := by
  have hfor : F.isForeign = false := by
    rw [C40_is_foreign_iff]
    refine ⟨t, ?_, ?_⟩
    · rcases hi with h | h
      · exact Or.inl (List.mem_of_getElem? h)
      · exact Or.inr (List.mem_of_getElem? h)
    · rcases ht with h | h
      · rw [← h]; exact ⟨rfl, rfl⟩
      · have := congrArg CvTy.base h
        have h' := congrArg CvTy.volatile h
        simp only [CvTy.addConst, Foreign.srcTy] at this h'
        exact ⟨this.symm, h'.symm⟩
  obtain ⟨hw, -⟩ := C39_same_type (a := F.L.arg F.rv F.srcTy) hl hs hid hi (by rw [hL.ty]; exact ht) hother
  obtain ⟨p, hp⟩ := (C39_selects_the_winner hl hs).mpr hw
  have hwo : F.wholeOverload = some ⟨p, i⟩ := hp
  refine ⟨hfor, by rw [Foreign.wellFormed, hfor, hwo]; simp, ?_⟩
  cases hrv : p.rv with
  | true =>
    refine ⟨.R, Or.inr rfl, fun x => ?_, fun x => ?_⟩
    · simp only [constructWhole, fromWhole, hwo, hrv, if_true]; rfl
    · simp only [assignWhole, fromWhole, hwo, hrv, if_true]; rfl
  | false =>
    refine ⟨.L, Or.inl rfl, fun x => ?_, fun x => ?_⟩
    · simp only [constructWhole, fromWhole, hwo, hrv]; rfl
    · simp only [assignWhole, fromWhole, hwo, hrv]; rfl

/-! ### Where conversion falls short -/

/-- F17: from `variant<recursive_wrapper<T> >` to a variant with bounded type `T` in place of `recursive_wrapper<T>`: each content has a
unique best type, but the constructors do not take part, because the condition looks at `recursive_wrapper<T>` itself. -/
theorem C40_wrapped_source_rejected {t : CvTy} (hsrc : F.src.elems = [.wrapped t]) (hdst : F.dst = [.val t])
    (hc : F.L.wrapCtor t (.val t) = false) (h : ((F.contentArg (.wrapped t)).rank t.addConst).isSome = true) :
    (∀ e ∈ F.src.elems, ∃ i, Winner (F.contentArg e) F.dst i) ∧ F.wellFormed = false := by
  constructor
  · intro e he
    rw [hsrc, List.mem_singleton] at he
    subst he
    obtain ⟨r, hr⟩ := Option.isSome_iff_exists.mp h
    refine ⟨0, .val t, r, by rw [hdst]; rfl, hr, fun j e' r' hj hj' _ => ?_⟩
    obtain ⟨j, rfl⟩ : ∃ j', j = j' + 1 := ⟨j - 1, by omega⟩
    simp [hdst] at hj'
  · have : F.constructible = false := by
      simp [Foreign.constructible, hsrc, Foreign.elemConstructible, hdst, hc]
    rw [Foreign.wellFormed, this]; rfl

/-- F17: a variant type that is a bounded type by way of `recursive_wrapper` is not stored whole: the condition asks whether
`recursive_wrapper<variant<U...> >` can be constructed from the bounded types of that variant. -/
theorem C40_wrapped_whole_rejected {u : CvTy} {t : CvTy} (hL : F.L.Lawful) (hsrc : F.src.elems = [.val u])
    (hdst : F.dst = [.wrapped t]) (ht : t.base = F.src.base ∧ t.volatile = false) (hu : u.base ≠ t.base) :
    F.isForeign = false ∧ F.wellFormed = false := by
  refine ⟨C40_is_foreign_iff.mpr ⟨t, Or.inr (by rw [hdst]; exact List.mem_singleton_self _), ht⟩, ?_⟩
  have : F.constructible = false := by
    have h1 : u ≠ t := fun h => hu (by rw [h])
    have h2 : u ≠ t.addConst := fun h => hu (by rw [h]; rfl)
    simp [Foreign.constructible, hsrc, Foreign.elemConstructible, hdst, InitArg.isVariantConstructibleFrom,
      InitArg.isConstructibleExt, hL.ty, h1, h2]
  rw [Foreign.wellFormed, this]; rfl

/-- F18: conversion from an rvalue moves out of what a reference in the source refers to: the argument of `initialize` is an rvalue of
the referent's type, just as for a bounded type `T`. -/
theorem C40_moves_from_referent (t : CvTy) (hc : F.const = false) (hrv : F.rv = true) :
    F.contentArg (.ref t) = F.L.arg true t ∧ F.contentArg (.ref t) = F.contentArg (.val t) := by
  simp [Foreign.contentArg, Elem.lvalue, hc, hrv]

end

/-! ### Non-vacuity -/

/-- A language where type `n` converts to all types with greater numbers, the smaller the better. -/
def exLang : Lang where
  arg rv t := natArg t
    (fun s => if s.base = t.base then
        if s.const then some 1 else if !rv && !t.const then some 0 else none
      else if s.const && decide (t.base < s.base) then some (s.base + 2) else none)
    (fun s => decide (s.base ≠ t.base) || (rv && !t.const))
  wrapCtor _ _ := false

theorem exLang_lawful : exLang.Lawful where
  ty _ _ := rfl
  lvalue t s h := by
    have : t.addConst.base = s.addConst.base := by rw [h]
    have : t.base = s.base := this
    simp [exLang, natArg, this]

/-- From `variant<class 3, recursive_wrapper<class 4> >` to `variant<class 5, class 3, recursive_wrapper<class 4> >`. -/
def exForeign (rv : Bool) : Foreign where
  L := exLang
  src := ⟨20, [.val (tyN 3), .wrapped (tyN 4)]⟩
  dst := [.val (tyN 5), .val (tyN 3), .wrapped (tyN 4)]
  rv := rv
  const := !rv

/-- From `variant<class 3, class 4>` to `variant<class 5, class 3&>`, by conversion. -/
def exForeignC (rv : Bool) : Foreign where
  L := exLang
  src := ⟨20, [.val (tyN 3), .val (tyN 4)]⟩
  dst := [.val (tyN 5), .ref (tyN 3)]
  rv := rv
  const := !rv

def exConv : ConvVal Nat := ⟨fun j k v => 100 * j + 10 * k + v, fun e _ _ v => if e.isSome then v else 0⟩

example : (exForeign true).wellFormed = true ∧ (exForeign false).wellFormed = true ∧ (exForeignC true).wellFormed = true ∧
    (exForeign true).isForeign = true := by decide +kernel

/-- The destination. -/
def exDst : World Nat := stateAfter exFall [.constructC 0 1 5]

theorem exDst_good : Good exFall exDst := stateAfter_good exFall_sane (by decide +kernel)

/-- The overload that is called: `const T&` or `T&&` of the same type; or for the conversion, that of the other bounded type. -/
def exO (rv : Bool) : Overload := ⟨⟨rv, if rv then tyN 3 else (tyN 3).addConst⟩, 1⟩

def exOC : Overload := ⟨⟨true, tyN 5⟩, 0⟩

theorem exO_eq (rv : Bool) : (exForeign rv).overload 0 = some (exO rv) ∧ (exForeignC rv).overload 0 = some exOC := by
  cases rv <;> decide +kernel

theorem exThree_obj : exThree.objOf 0 = some 4 := by decide +kernel

/-- The source is in the heap-backup state (`exThree`, variable 0). The content is copied, moved, or converted. -/
example (rv : Bool) := C40_construction (cv := exConv) (x := 3) exThree_good exThree_facts.1 exThree_obj (exO_eq rv).1 exDst_good
  (show 1 < exFall.n by decide) rfl
example (rv : Bool) := C40_construction (cv := exConv) (x := 3) exThree_good exThree_facts.1 exThree_obj (exO_eq rv).2 exDst_good
  (by decide) rfl
example (rv : Bool) := C40_assignment (cv := exConv) exFall_sane.1 exThree_good exThree_facts.1 exThree_obj (exO_eq rv).1
  exDst_good (show 1 < exFall.n by decide) (x := 0) (kx := 1) (vx := 5) (by unfold World.holds; decide +kernel)

/-- What is in the two worlds after the conversions: variable `x` of the destination and 0 of the source. -/
def Res.contents {V : Type} (x : Nat) : Res (Two V) Unit → Option (Option (TyIx × V) × Option (TyIx × V))
  | .ok _ s => some (s.1.content (.user 0), s.2.content (.user x))
  | _ => none

example : (constructForeign exTwo exFall (exForeign false) exConv (.user 0) (.user 3) (exThree, exDst)).contents 3 =
      some (some (0, 5), some (1, 5)) ∧
    (constructForeign exTwo exFall (exForeign true) exConv (.user 0) (.user 3) (exThree, exDst)).contents 3 =
      some (some (0, 0), some (1, 5)) ∧
    (constructForeign exTwo exFall (exForeignC true) exConv (.user 0) (.user 3) (exThree, exDst)).contents 3 =
      some (some (0, 0), some (0, 5)) ∧
    (assignForeign exTwo exFall (exForeign true) exConv (.user 0) (.user 0) (exThree, exDst)).contents 0 =
      some (some (0, 0), some (1, 5)) := by decide +kernel

example := C40_winner (F := exForeignC true) (exO_eq true).2 rfl (natArg_lawful (by decide +kernel)) (separate_of (by decide +kernel))
example : (exForeign false).constructible = true ∧ (∀ e ∈ (exForeign false).src.elems, ∃ d ∈ (exForeign false).dst, (exForeign false).Makes d e) ∧
    ({ exForeign false with dst := [] } : Foreign).constructible = false :=
  ⟨by decide +kernel, C40_constructible_iff.mp (by decide +kernel), by decide +kernel⟩
example : (exForeign false).wellFormed = true ↔
    (∀ e ∈ (exForeign false).src.elems, ∃ d ∈ (exForeign false).dst, (exForeign false).Makes d e) ∧
    ∀ e ∈ (exForeign false).src.elems, ∃ i, Winner ((exForeign false).contentArg e) (exForeign false).dst i :=
  C40_well_formed_iff (by decide +kernel) (by
    intro e he
    simp only [exForeign, List.mem_cons, List.not_mem_nil, or_false] at he
    rcases he with rfl | rfl
    · exact natArg_lawful (by decide +kernel)
    · exact natArg_lawful (by decide +kernel)) (separate_of (by decide +kernel))
example := C40_no_state_left_out (F := exForeign true) (by decide +kernel) (by decide +kernel) (by decide +kernel) exThree_good
  exThree_facts.1
example := C40_source_kept (F := exForeign false) (C := exFall) (cv := exConv) (ws := exThree) exLang_lawful rfl (exO_eq false).1
  (C40_content_found exThree_good exThree_facts.1 exThree_obj).2 (e := none) (q := 5) (by unfold Foreign.Left; decide +kernel)
example : ∃ s', assignForeign exTwo exFall (exForeignC true) exConv (.user 0) (.user 0) (exThree, exDst) = .ok () s' ∧
    s'.2.holds 0 0 5 := by
  have h : (assignForeign exTwo exFall (exForeignC true) exConv (.user 0) (.user 0) (exThree, exDst)).contents 0 =
    some (some (0, 0), some (0, 5)) := by decide +kernel
  cases hr : assignForeign exTwo exFall (exForeignC true) exConv (.user 0) (.user 0) (exThree, exDst) with
  | ok a s' =>
    exact ⟨s', rfl, (C40_assignment_value_partial natOps_lawful exFall_sane.1 exThree_good exThree_facts.1 (exO_eq true).2 exDst_good
      (by decide) (x := 0) (kx := 1) (vx := 5) (by unfold World.holds; decide +kernel) hr).1⟩
  | exc e s' => rw [hr] at h; cases h
  | fault f => rw [hr] at h; cases h

example : ∃ s' w'', assignForeign exTwo exTwo { exForeign true with dst := [.val (tyN 3), .val (tyN 6)] } exConv (.user 0) (.user 0)
      (exThree, exBackup) = .ok () s' ∧ (valueAssign .R 0 0 5).code exTwo exBackup = .ok () w'' ∧
    w''.backedUp 0 = true ∧ s'.2.backedUp 0 = false := by
  obtain ⟨w'', h2⟩ := of_endsOk (m := (valueAssign .R 0 0 5).code exTwo) (w := exBackup) (by decide +kernel)
  have h : (assignForeign exTwo exTwo { exForeign true with dst := [.val (tyN 3), .val (tyN 6)] } exConv (.user 0) (.user 0)
      (exThree, exBackup)).contents 0 = some (some (0, 0), some (0, 5)) := by decide +kernel
  cases hr : assignForeign exTwo exTwo { exForeign true with dst := [.val (tyN 3), .val (tyN 6)] } exConv (.user 0) (.user 0)
      (exThree, exBackup) with
  | ok a s' =>
    obtain ⟨-, h3, -, h4⟩ := C40_assignment_differs (o := ⟨⟨true, tyN 3⟩, 0⟩) exTwo_blankOk exThree_good exThree_facts.1
      (by decide +kernel) (by decide +kernel) exBackup_good (by decide) exBackup_facts.2.1 hr h2
    exact ⟨s', w'', rfl, h2, by rw [World.backedUp, h3]; exact exBackup_facts.2.2, h4 exBackup_facts.2.2⟩
  | exc e s' => rw [hr] at h; cases h
  | fault f => rw [hr] at h; cases h

/-- Variables 0 and 2 of `exThree` hold 5, one in a heap backup, one in place. -/
example := C43_converting_construction (F := exForeignC true) (cv := exConv) (x := 3) exThree_good exThree_good exThree_facts.1
  exThree_facts.2.2.1 (exO_eq true).2 exDst_good (by decide) rfl
example := C43_converting_assignment (F := exForeign true) (cv := exConv) exFall_sane.1 exThree_good exThree_good exThree_facts.1
  exThree_facts.2.2.1 (exO_eq true).1 exDst_good (by decide) (x := 0) (kx := 1) (vx := 5) (by unfold World.holds; decide +kernel)

/-- `variant<class 5, variant<class 3> >` from a `variant<class 3>`, which is class 20. -/
def exWhole : Foreign where
  L := exLang
  src := ⟨20, [.val (tyN 3)]⟩
  dst := [.val (tyN 5), .val (tyN 20)]
  rv := true
  const := false

theorem exLang_identity (rv : Bool) (t : CvTy) : (exLang.arg rv t).HasIdentity where
  self := by simp [exLang, natArg]
  best := by
    intro s (r : Nat) (r' : Nat) h1 h2 h3
    have h1' : some 1 = some r := by simpa [exLang, natArg] using h1
    cases h1'
    simp only [exLang, natArg] at h3 h2
    rw [if_neg h2] at h3
    split at h3
    · rename_i h4
      simp only [Bool.and_eq_true, decide_eq_true_eq] at h4
      cases h3
      exact decide_eq_true (show 1 < s.base + 2 by omega)
    · cases h3

example := C40_stored_whole (C := exFall) (w := exDst) (F := exWhole) (i := 1) (t := tyN 20) (self := 7) exLang_lawful
  (natArg_lawful (by decide +kernel)) (separate_of (by decide +kernel)) (exLang_identity _ _) (Or.inl rfl) (Or.inl rfl) (by
    intro j e hj he
    match j, hj, he with
    | 0, _, he => cases he; decide
    | 1, hj, _ => exact absurd rfl hj)
example : exWhole.wellFormed = true := by decide +kernel

example := C40_wrapped_source_rejected (t := tyN 3)
  (F := { exForeign true with src := ⟨20, [.wrapped (tyN 3)]⟩, dst := [.val (tyN 3)] }) rfl rfl rfl (by decide +kernel)
example := C40_wrapped_whole_rejected (u := tyN 3) (t := tyN 20)
  (F := { exForeign true with src := ⟨20, [.val (tyN 3)]⟩, dst := [.wrapped (tyN 20)] }) exLang_lawful rfl rfl (by decide) (by decide)
example := C40_moves_from_referent (F := exForeign true) (tyN 3) rfl rfl

example := C40_source_state exThree_good exThree_facts.1 exThree_obj 9
example : exWhole.isForeign = false := C40_is_foreign_iff.mpr ⟨tyN 20, Or.inl (by decide), rfl, rfl⟩

end BVariant
