/-
Lemmas on visitation of several variants.
-/
import Verif.Spec.Multi
import Verif.Lemmas.Run

set_option linter.unusedSimpArgs false

namespace BVariant

/-! ### Index sequences -/

theorem makeIndexSequence_eq (n : Nat) (is : List Nat) : makeIndexSequence n is = List.range n ++ is := by
  induction n generalizing is with
  | zero => simp [makeIndexSequence]
  | succ n ih => simp [makeIndexSequence, ih, List.range_succ]

theorem filterMap_range_getElem? {β γ : Type} (l : List β) (g : Nat → β → γ) :
    (List.range l.length).filterMap (fun i => (l[i]?).map (g i)) = l.mapIdx g := by
  induction l generalizing g with
  | nil => simp
  | cons a l ih =>
    rw [List.length_cons, List.range_succ_eq_map, List.mapIdx_cons, ← ih]
    simp [List.filterMap_map, Function.comp_def]

theorem tupleTail_eq {β : Type} (a : β) (l : List β) : tupleTail (a :: l) = l := by
  have := filterMap_range_getElem? l (fun _ b => b)
  simp only [Option.map_id'] at this
  simp only [tupleTail, makeIndexSequence_eq, List.append_nil, List.length_cons, Nat.add_sub_cancel, List.getElem?_cons_succ]
  rw [this]
  apply List.ext_getElem? ; intro i; simp

/-- The argument that replaces `a` at position `i`. -/
def unwrappedAt (t : Nat → Option ObjId) (i : Nat) (a : Arg) : Arg :=
  match t i with
  | some o => ⟨a.vt, a.ty, o, ⟨true, a.cat.const⟩⟩
  | none => a

theorem unwrapped_eq (values : List Arg) (t : Nat → Option ObjId) :
    unwrapped values t = values.mapIdx (unwrappedAt t) := by
  rw [← filterMap_range_getElem?, unwrapped, makeIndexSequence_eq, List.append_nil]
  congr 1
  funext i
  cases values[i]? with
  | none => rfl
  | some a => simp only [unwrappedAt, Option.map]; cases t i <;> rfl

theorem unwrapped_none (values : List Arg) : unwrapped values (fun _ => none) = values := by
  rw [unwrapped_eq]
  apply List.ext_getElem?
  intro i
  rw [List.getElem?_mapIdx]
  cases values[i]? <;> rfl

section
variable {V α : Type} {K : Nat → Cfg V} {ρ : Nat → Nat}

/-! ### Only lvalues -/

theorem unwrapArgs_lvalues {values : List Arg} (h : ∀ a ∈ values, a.rvalue = false) (order : List Nat)
    (t : Nat → Option ObjId) (k : (Nat → Option ObjId) → M V α) : unwrapArgs K values order t k = k t := by
  induction order generalizing t with
  | nil => rfl
  | cons i order ih =>
    simp only [unwrapArgs]
    cases ha : values[i]? with
    | none => exact ih t
    | some a => simp only [h a (List.mem_of_getElem? ha), Bool.false_eq_true, if_false]; exact ih t

theorem doCall_lvalues {values : List Arg} (h : ∀ a ∈ values, a.rvalue = false) (order : Nat → List Nat)
    (f : List Arg → M V α) : doCall K order f values = f values := by
  rw [doCall, unwrapArgs_lvalues h, unwrapped_none]

theorem applyVisitor1_run {w : World V} {x : VarId} {s : VarSt} {id : ObjId} {k : TyIx} {v : V}
    {vt : Nat} (h : Owns (K vt) w x s id k v) (f : Arg → M V α) (c : PassedAs) :
    applyVisitor1 K f ⟨vt, x, c⟩ w = f ⟨vt, k, id, c⟩ w := by
  rw [applyVisitor1]
  show applyVisitor (K vt) x _ w = _
  rw [applyVisitor_eq (K vt) _ h.var h.rep h.obj]
  obtain ⟨rv, const⟩ := c
  cases rv <;> rfl

theorem GoodMix.owns {w : World V} (hg : GoodMix K ρ w) {x : Nat} {s : VarSt} (hs : w.vars (.user x) = some s) :
    ∃ id k v, Owns (K (ρ x)) w (.user x) s id k v := by
  obtain ⟨id, k, v, hr, ho⟩ := hg.rep x s hs
  exact ⟨id, k, v, hs, hr, ho⟩

theorem GoodMix.holds {w : World V} (hg : GoodMix K ρ w) {x : Nat} {k : TyIx} {v : V} (h : w.holds x k v) :
    ∃ s id, Owns (K (ρ x)) w (.user x) s id k v := by
  unfold World.holds World.content at h
  cases hs : w.vars (.user x) with
  | none => rw [hs] at h; cases h
  | some s =>
    obtain ⟨id, k', v', ho⟩ := hg.owns hs
    simp only [hs, Option.bind, ho.rep.contentId, ho.obj, Option.some.injEq, Prod.mk.injEq] at h
    obtain ⟨rfl, rfl⟩ := h
    exact ⟨s, id, ho⟩

theorem GoodMix.toFresh {w : World V} (hg : GoodMix K ρ w) : Fresh w := ⟨hg.fresh, hg.flat⟩

theorem argOf_owns {w : World V} (hg : GoodMix K ρ w) {x : Nat} {c : PassedAs} {a : Arg} (h : w.argOf ρ x c = some a) :
    ∃ s v, Owns (K (ρ x)) w (.user x) s a.id a.ty v ∧ a = ⟨ρ x, a.ty, a.id, c⟩ := by
  unfold World.argOf World.objOf at h
  cases hs : w.vars (.user x) with
  | none => rw [hs] at h; cases h
  | some s =>
    obtain ⟨id, k, v, ho⟩ := hg.owns hs
    simp only [hs, Option.bind, ho.rep.contentId, ho.obj, Option.map, Option.some.injEq] at h
    subst h
    exact ⟨s, v, ho, rfl⟩

theorem unwrapVisitable_lvalue {v : Visitable} (h : v.cat.rvalue = false) (d : Nat) (body : Visitable → M V α) :
    unwrapVisitable K d v body = body v := by
  obtain ⟨vt, x, ⟨rv, const⟩⟩ := v
  simp only at h
  subst h
  rfl

theorem unwrapVisitable_rvalue {v : Visitable} (h : v.cat.rvalue = true) (d : Nat) (body : Visitable → M V α) :
    unwrapVisitable K d v body = M.bind (unwrapVar (K v.vt) v.cat.const (.tmp d) v.x) fun _ =>
      M.withLocal (body ⟨v.vt, .tmp d, v.cat⟩) (destroyVar (K v.vt) (.tmp d)) := by
  obtain ⟨vt, x, ⟨rv, const⟩⟩ := v
  simp only at h
  subst h
  rfl

theorem oneByOne_lvalues {w : World V} (hg : GoodMix K ρ w) (order : Nat → List Nat) (f : List Arg → M V α)
    (xs : List (Nat × PassedAs)) (hxs : ∀ p ∈ xs, p.2.rvalue = false) (d : Nat) (args values : List Arg) (value : Arg)
    (hargs : xs.map (fun p => w.argOf ρ p.1 p.2) = args.map some) (hv : ∀ a ∈ values ++ [value], a.rvalue = false) :
    oneByOne K order f d (visitables ρ xs) values value w = f (values ++ [value] ++ args) w := by
  induction xs generalizing d args values value with
  | nil =>
    cases args with
    | nil => simp only [visitables, List.map_nil, oneByOne, List.append_nil]; rw [doCall_lvalues hv]
    | cons a args => cases hargs
  | cons p xs ih =>
    cases args with
    | nil => cases hargs
    | cons a args =>
      simp only [List.map_cons, List.cons.injEq] at hargs
      obtain ⟨s, v, ho, ha⟩ := argOf_owns hg hargs.1
      have hp := hxs p (List.mem_cons_self ..)
      have ih' := ih (fun q hq => hxs q (List.mem_cons_of_mem _ hq)) (d + 1) args (values ++ [value]) a hargs.2
      simp only [visitables] at ih'
      simp only [visitables, List.map_cons, oneByOne]
      rw [unwrapVisitable_lvalue hp, applyVisitor1_run ho, ← ha, ih']
      · simp
      · intro b hb
        rcases List.mem_append.mp hb with hb | hb
        · exact hv b hb
        · rw [List.mem_singleton.mp hb, ha]; exact hp

/-! ### Rvalues: leaving the scopes of temporaries -/

section
variable {C : Cfg V} {w wa w1 : World V} {lo : ObjId} {k : TyIx} {out : Out V α} {body : M V α}

theorem Spares.mono {lo' : ObjId} {w2 : World V} (h : Spares lo w1 w2) (hl : lo ≤ lo') : Spares lo' w1 w2 :=
  ⟨h.tmp, fun i hi => h.types i (Nat.le_trans hl hi), h.sub⟩

theorem Out.All.mono {P P' : World V → Prop} (h : out.All P) (hp : ∀ w, P w → P' w) : out.All P' := by
  cases out <;> simp only [Out.All] at h ⊢ <;> exact hp _ h

theorem some_of_map_fst {o o' : Option (TyIx × V)} (h : o.map Prod.fst = o'.map Prod.fst) {v : V} (ho : o' = some (k, v)) :
    ∃ v', o = some (k, v') := by
  subst ho
  cases o with
  | none => cases h
  | some p => simp only [Option.map, Option.some.injEq] at h; exact ⟨p.2, by rw [← h]⟩

theorem cleanup_step {w2 : World V} (hn : wa.next = w.next + 1) (h1 : wa.next ≤ w1.next)
    {vs : VarId → Option VarSt} (hvu : ∀ n, vs (.user n) = w2.vars (.user n)) (hvt : ∀ n, vs (.tmp n) = w.vars (.tmp n)) :
    { World.cleanup wa w1 w2 with objs := upd (World.cleanup wa w1 w2).objs w.next none, vars := vs } =
      World.cleanup w w1 w2 := by
  have h2 : upd (World.cleanup wa w1 w2).objs w.next none = (World.cleanup w w1 w2).objs := by
    funext i
    simp only [World.cleanup, upd]
    by_cases hi : i = w.next
    · have : w.next ≤ i ∧ i < w1.next := by omega
      simp [hi] at this ⊢; omega
    · by_cases h3 : w.next ≤ i ∧ i < w1.next
      · have : wa.next ≤ i ∧ i < w1.next := by omega
        simp [hi, this, h3]
      · have : ¬ (wa.next ≤ i ∧ i < w1.next) := by omega
        simp [hi, this, h3]
  have h3 : vs = (World.cleanup w w1 w2).vars := by
    funext x
    cases x with
    | user n => exact hvu n
    | tmp n => exact hvt n
  rw [h2, h3]
  rfl

/-- The scope of a temporary object. -/
theorem withLocal_obj (hb : body wa = out.mapWorld (World.cleanup wa w1)) (ho : out.All (Spares lo w1)) (hlo : lo ≤ w.next)
    (hn : wa.next = w.next + 1) (h1 : wa.next ≤ w1.next) (hv : wa.vars = w.vars) (hf : ∀ i, w1.sub i = [])
    {v : V} (hobj : w1.objs w.next = some (k, v)) :
    M.withLocal body (destroyObj k w.next) wa = out.mapWorld (World.cleanup w w1) := by
  have key : ∀ w2, Spares lo w1 w2 →
      destroyObj k w.next (World.cleanup wa w1 w2) = .ok () (World.cleanup w w1 w2) := by
    intro w2 hs
    obtain ⟨v', hv'⟩ := some_of_map_fst (hs.types w.next hlo (by omega)) hobj
    have hc : (World.cleanup wa w1 w2).objs w.next = some (k, v') := by
      simp only [World.cleanup]
      rw [if_neg (by omega)]; exact hv'
    rw [destroyObj_run (by intro i; show w2.sub i = []; rw [hs.sub]; exact hf i) hc]
    congr 1
    exact cleanup_step (vs := (World.cleanup wa w1 w2).vars) hn h1 (fun _ => rfl) (fun n => by simp [World.cleanup, hv])
  cases out with
  | ok a w2 => simp only [M.withLocal, hb, Out.mapWorld]; rw [key w2 ho]
  | exc e w2 => simp only [M.withLocal, hb, Out.mapWorld]; rw [key w2 ho]
  | fault x => simp only [M.withLocal, hb, Out.mapWorld]

/-- The scope of a temporary variant. -/
theorem withLocal_var {d : Nat} (hb : body wa = out.mapWorld (World.cleanup wa w1)) (ho : out.All (Spares lo w1))
    (hlo : lo ≤ w.next) (hn : wa.next = w.next + 1) (h1 : wa.next ≤ w1.next)
    (hv : wa.vars = upd w.vars (.tmp d) (some ⟨(k : Int), .obj w.next⟩)) (hk : k < C.n) (hd : w.vars (.tmp d) = none)
    (hf : ∀ i, w1.sub i = []) {v : V} (hobj : w1.objs w.next = some (k, v)) :
    M.withLocal body (destroyVar C (.tmp d)) wa = out.mapWorld (World.cleanup w w1) := by
  have key : ∀ w2, Spares lo w1 w2 →
      destroyVar C (.tmp d) (World.cleanup wa w1 w2) = .ok () (World.cleanup w w1 w2) := by
    intro w2 hs
    obtain ⟨v', hv'⟩ := some_of_map_fst (hs.types w.next hlo (by omega)) hobj
    have hown : Owns C (World.cleanup wa w1 w2) (.tmp d) ⟨(k : Int), .obj w.next⟩ w.next k v' := by
      refine ⟨?_, .inPlace _ _ hk, ?_⟩
      · simp [World.cleanup, hv]
      · simp only [World.cleanup]
        rw [if_neg (by omega)]; exact hv'
    rw [destroyVar_run hown (by intro i; show w2.sub i = []; rw [hs.sub]; exact hf i)]
    congr 1
    refine cleanup_step (vs := upd (World.cleanup wa w1 w2).vars (.tmp d) none) hn h1 (fun _ => ?_) (fun n => ?_)
    · simp [World.cleanup, upd]
    · by_cases hnd : n = d
      · simp [hnd, hd]
      · simp [World.cleanup, upd, hv, hnd]
  cases out with
  | ok a w2 => simp only [M.withLocal, hb, Out.mapWorld]; rw [key w2 ho]
  | exc e w2 => simp only [M.withLocal, hb, Out.mapWorld]; rw [key w2 ho]
  | fault x => simp only [M.withLocal, hb, Out.mapWorld]

end

/-! ### Rvalues: unwrapping the arguments of the call -/

theorem Entered.refl {w : World V} (hw : Fresh w) (srcs : ObjId → Prop) : Entered w w srcs :=
  ⟨fun _ => rfl, fun _ _ => rfl, rfl, rfl, Nat.le_refl _, hw.fresh, fun _ _ _ => rfl⟩

theorem Entered.flat {w w1 : World V} {srcs : ObjId → Prop} (h : Entered w w1 srcs) (hw : Fresh w) : Fresh w1 :=
  ⟨h.fresh, fun i => by rw [h.sub]; exact hw.flat i⟩

/-- What is left of an rvalue after a failed construction of a temporary from it. -/
def failLeft (C : Cfg V) (const : Bool) (k : TyIx) (v : V) : V := if const then v else C.ops.moveFailSrc k v

/-- Whether making a temporary from an rvalue cannot throw. -/
def takeNothrow (C : Cfg V) (const : Bool) (k : TyIx) : Bool := if const then (C.tr k).nothrowCopy else (C.tr k).nothrowMove

/-- What a throwing construction of a temporary throws. -/
def takeKind (const : Bool) (k : TyIx) : ExcKind := if const then .copyCtor k else .moveCtor k

theorem upd_keepVal {β : Type} {f : Nat → Option β} {i : Nat} {b : β} (h : f i = some b) : upd f i (some b) = f := by
  funext j
  by_cases hj : j = i
  · simp [upd, hj, h]
  · simp [upd, hj]

theorem unwrapObj_run {C : Cfg V} {w : World V} {id : ObjId} {k : TyIx} {v : V} (const : Bool) (h : w.objs id = some (k, v)) :
    unwrapObj C const k id w = if (!takeNothrow C const k && C.throws w.tick) = true then
        .exc ⟨takeKind const k, w.tick⟩ { w with tick := w.tick + 1, objs := upd w.objs id (some (k, failLeft C const k v)) }
      else .ok w.next { w with
        tick := w.tick + 1
        objs := upd (upd w.objs id (some (k, leftover C const k v))) w.next (some (k, taken C const k v))
        next := w.next + 1 } := by
  cases const with
  | false => exact moveCtor_run h
  | true =>
    simp only [unwrapObj, takeNothrow, takeKind, failLeft, leftover, taken, if_true, upd_keepVal h]
    exact copyCtor_run h

theorem unwrapVar_run {C : Cfg V} {w : World V} {x y : VarId} {s : VarSt} {id : ObjId} {k : TyIx} {v : V} (const : Bool)
    (h : Owns C w y s id k v) :
    unwrapVar C const x y w = if (!takeNothrow C const k && C.throws w.tick) = true then
        .exc ⟨takeKind const k, w.tick⟩ { w with tick := w.tick + 1, objs := upd w.objs id (some (k, failLeft C const k v)) }
      else .ok () { w with
        tick := w.tick + 1
        objs := upd (upd w.objs id (some (k, leftover C const k v))) w.next (some (k, taken C const k v))
        next := w.next + 1
        vars := upd w.vars x (some ⟨(k : Int), .obj w.next⟩) } := by
  cases const with
  | false => exact moveConstruct_run_owns h
  | true =>
    simp only [unwrapVar, takeNothrow, takeKind, failLeft, leftover, taken, if_true, upd_keepVal h.obj]
    exact copyConstruct_run_owns h

/-- The sources of the temporaries made for the positions in `order` that are moved from. -/
def Sources (values : List Arg) (order : List Nat) (i : ObjId) : Prop :=
  ∃ j a, j ∈ order ∧ values[j]? = some a ∧ a.cat.moved = true ∧ a.id = i

/-- The types of the temporaries made for the positions in `order`. -/
def Takes (values : List Arg) (order : List Nat) (vt : Nat) (ty : TyIx) (const : Bool) : Prop :=
  ∃ j a, j ∈ order ∧ values[j]? = some a ∧ a.rvalue = true ∧ a.vt = vt ∧ a.ty = ty ∧ a.cat.const = const

theorem PassedAs.moved_rvalue {c : PassedAs} (h : c.moved = true) : c.rvalue = true := by
  simp only [PassedAs.moved, Bool.and_eq_true] at h; exact h.1

theorem PassedAs.const_of_not_moved {c : PassedAs} (hr : c.rvalue = true) (h : ¬ c.moved = true) : c.const = true := by
  cases hc : c.const with
  | true => rfl
  | false => exact absurd (by simp [PassedAs.moved, hr, hc]) h

theorem Unwound.weaken {w w' : World V} {srcs srcs' : ObjId → Prop} {fr fr' : Nat → TyIx → Bool → Prop} {e : Exc}
    (h : Unwound K w w' srcs fr e) (hs : ∀ i, srcs i → srcs' i) (hf : ∀ vt ty c, fr vt ty c → fr' vt ty c) :
    Unwound K w w' srcs' fr' e := by
  obtain ⟨vt, ty, c, h1, h2⟩ := h.thrown
  exact ⟨h.vars, h.sub, h.allocs, fun i hi => h.keep i (fun h => hi (hs i h)), h.types, h.next, vt, ty, c, hf _ _ _ h1, h2⟩

theorem Entered.weaken {w w1 : World V} {srcs srcs' : ObjId → Prop} (h : Entered w w1 srcs) (hs : ∀ i, srcs i → srcs' i) :
    Entered w w1 srcs' :=
  ⟨h.user, h.tmp, h.sub, h.allocs, h.next, h.fresh, fun i hi hn => h.keep i hi (fun h => hn (hs i h))⟩

/-- The temporaries `t'` made for the positions in `order`, from the contents `val`. -/
structure Temps (K : Nat → Cfg V) (w w1 : World V) (values : List Arg) (val : Nat → V) (order : List Nat)
    (t t' : Nat → Option ObjId) : Prop where
  made : ∀ j a, j ∈ order → values[j]? = some a → a.rvalue = true → ∃ o, t' j = some o ∧ w.next ≤ o ∧ o < w1.next ∧
    w1.objs o = some (a.ty, taken (K a.vt) a.cat.const a.ty (val j)) ∧
    w1.objs a.id = some (a.ty, leftover (K a.vt) a.cat.const a.ty (val j))
  same : ∀ j, (∀ a, j ∈ order → values[j]? = some a → a.rvalue = false) → t' j = t j
  inj : ∀ i j o, (∀ o, t i = some o → o < w.next) → (∀ o, t j = some o → o < w.next) →
    t' i = some o → t' j = some o → w.next ≤ o → i = j

/-- Leaving the scope of a temporary object by an exception. -/
theorem withLocal_obj_exc {w wa w' : World V} {body : M V α} {k : TyIx} {v : V} {e : Exc}
    (hb : body wa = .exc e w') (hf : ∀ i, w'.sub i = []) (ho : w'.objs w.next = some (k, v)) :
    M.withLocal body (destroyObj k w.next) wa = .exc e { w' with objs := upd w'.objs w.next none } := by
  simp only [M.withLocal, hb]; rw [destroyObj_run hf ho]

theorem unwrapArgs_run (α : Type) {values : List Arg} {val : Nat → V} {lo : ObjId} (order : List Nat) (hnd : order.Nodup) (t : Nat → Option ObjId)
    (w : World V) (hw : Fresh w) (hlo : lo ≤ w.next)
    (hobj : ∀ j a, j ∈ order → values[j]? = some a → a.rvalue = true → w.objs a.id = some (a.ty, val j))
    (hinj : ∀ i j a b, i ∈ order → j ∈ order → values[i]? = some a → values[j]? = some b → a.cat.moved = true →
      b.rvalue = true → a.id = b.id → i = j) :
    (∃ e w', (∀ k : (Nat → Option ObjId) → M V α, unwrapArgs K values order t k w = .exc e w') ∧
      Unwound K w w' (Sources values order) (Takes values order) e) ∨
    (∃ t' w1, Entered w w1 (Sources values order) ∧ Temps K w w1 values val order t t' ∧
      ∀ k : (Nat → Option ObjId) → M V α, (k t' w1).All (Spares lo w1) →
        unwrapArgs K values order t k w = (k t' w1).mapWorld (World.cleanup w w1)) := by
  induction order generalizing t w with
  | nil =>
    refine .inr ⟨t, w, .refl hw _, ⟨by simp, fun _ _ => rfl, ?_⟩, ?_⟩
    · intro i j o hi _ h1 _ h2
      have := hi o h1; omega
    · intro k hk
      rw [unwrapArgs]
      have hc : ∀ w2, Spares lo w w2 → World.cleanup w w w2 = w2 := by
        intro w2 hs
        have h1 : (fun i => if w.next ≤ i ∧ i < w.next then none else w2.objs i) = w2.objs := by
          funext i; rw [if_neg (by omega)]
        have h2 : (World.cleanup w w w2).vars = w2.vars := by
          funext x; cases x with
          | user n => rfl
          | tmp n => exact (hs.tmp n).symm
        simp only [World.cleanup] at h2 ⊢
        rw [h1, h2]
      cases hh : k t w with
      | ok a w2 => rw [hh] at hk; simp only [Out.mapWorld, hc w2 hk]
      | exc e w2 => rw [hh] at hk; simp only [Out.mapWorld, hc w2 hk]
      | fault x => rfl
  | cons j order ih =>
    have hnd' := (List.nodup_cons.mp hnd)
    have skip : ∀ (hskip : ∀ a, values[j]? = some a → a.rvalue = false)
        (heq : ∀ k : (Nat → Option ObjId) → M V α, unwrapArgs K values (j :: order) t k = unwrapArgs K values order t k),
        (∃ e w', (∀ k : (Nat → Option ObjId) → M V α, unwrapArgs K values (j :: order) t k w = .exc e w') ∧
          Unwound K w w' (Sources values (j :: order)) (Takes values (j :: order)) e) ∨
        (∃ t' w1, Entered w w1 (Sources values (j :: order)) ∧ Temps K w w1 values val (j :: order) t t' ∧
          ∀ k : (Nat → Option ObjId) → M V α, (k t' w1).All (Spares lo w1) →
            unwrapArgs K values (j :: order) t k w = (k t' w1).mapWorld (World.cleanup w w1)) := by
      intro hskip heq
      have hsrc : ∀ i, Sources values order i → Sources values (j :: order) i := by
        rintro i ⟨j', b, hj, h⟩; exact ⟨j', b, List.mem_cons_of_mem _ hj, h⟩
      have htk : ∀ vt ty c, Takes values order vt ty c → Takes values (j :: order) vt ty c := by
        rintro vt ty c ⟨j', b, hj, h⟩; exact ⟨j', b, List.mem_cons_of_mem _ hj, h⟩
      simp only [heq]
      rcases ih hnd'.2 t w hw hlo (fun j' a hj => hobj j' a (List.mem_cons_of_mem _ hj))
        (fun i j' a b hi hj => hinj i j' a b (List.mem_cons_of_mem _ hi) (List.mem_cons_of_mem _ hj)) with ⟨e, w', h1, h2⟩ | ⟨t', w1, he, ht, hr⟩
      · exact .inl ⟨e, w', h1, h2.weaken hsrc htk⟩
      · refine .inr ⟨t', w1, he.weaken hsrc, ⟨?_, ?_, ht.inj⟩, hr⟩
        · intro j' a hj ha hrv
          rcases List.mem_cons.mp hj with rfl | hj
          · rw [hskip a ha] at hrv; cases hrv
          · exact ht.made j' a hj ha hrv
        · intro j' h
          exact ht.same j' (fun a hj => h a (List.mem_cons_of_mem _ hj))
    cases ha : values[j]? with
    | none =>
      refine skip (by simp [ha]) (fun k => ?_)
      simp only [unwrapArgs, ha]
    | some a =>
      cases hrv : a.rvalue with
      | false =>
        refine skip (by rw [ha]; intro b hb; rw [← Option.some.inj hb]; exact hrv) (fun k => ?_)
        simp only [unwrapArgs, ha, show a.cat.rvalue = false from hrv, Bool.false_eq_true, if_false]
      | true =>
        have ho := hobj j a (List.mem_cons_self ..) ha hrv
        have hlt := hw.lt ho
        have hsj : a.cat.moved = true → Sources values (j :: order) a.id :=
          fun h => ⟨j, a, List.mem_cons_self .., ha, h, rfl⟩
        have hmono : ∀ i, Sources values order i → Sources values (j :: order) i := by
          rintro i ⟨j', b, hj, h⟩; exact ⟨j', b, List.mem_cons_of_mem _ hj, h⟩
        have htk : ∀ vt ty c, Takes values order vt ty c → Takes values (j :: order) vt ty c := by
          rintro vt ty c ⟨j', b, hj, h⟩; exact ⟨j', b, List.mem_cons_of_mem _ hj, h⟩
        have hrun := unwrapObj_run (C := K a.vt) a.cat.const ho
        by_cases hth : (!takeNothrow (K a.vt) a.cat.const a.ty && (K a.vt).throws w.tick) = true
        · rw [if_pos hth] at hrun
          refine .inl ⟨⟨takeKind a.cat.const a.ty, w.tick⟩,
            { w with tick := w.tick + 1, objs := upd w.objs a.id (some (a.ty, failLeft (K a.vt) a.cat.const a.ty (val j))) }, ?_, ?_⟩
          · intro k; simp only [unwrapArgs, ha, show a.cat.rvalue = true from hrv, if_true, bind, M.bind, hrun]
          · refine ⟨rfl, rfl, rfl, ?_, SameTypes.upd _ _ ho, Nat.le_refl _,
              ⟨a.vt, a.ty, a.cat.const, ⟨j, a, List.mem_cons_self .., ha, hrv, rfl, rfl, rfl⟩,
                ⟨Nat.le_refl _, Nat.lt_succ_self _, ?_⟩, rfl, ?_⟩⟩
            · intro i hi
              by_cases h : i = a.id
              · have hc := PassedAs.const_of_not_moved hrv (fun hm => hi (h ▸ hsj hm))
                simp only [failLeft, hc, if_true, upd_keepVal ho]
              · simp [upd, h]
            · simp only [Bool.and_eq_true] at hth; exact hth.2
            · simpa [takeNothrow] using (Bool.and_eq_true_iff.mp hth).1
        · rw [if_neg hth] at hrun
          generalize hwa : ({ w with
            tick := w.tick + 1
            objs := upd (upd w.objs a.id (some (a.ty, leftover (K a.vt) a.cat.const a.ty (val j)))) w.next
              (some (a.ty, taken (K a.vt) a.cat.const a.ty (val j)))
            next := w.next + 1 } : World V) = wa at hrun
          have wa_next : wa.next = w.next + 1 := by rw [← hwa]
          have wa_vars : wa.vars = w.vars := by rw [← hwa]
          have wa_sub : wa.sub = w.sub := by rw [← hwa]
          have wa_allocs : wa.allocs = w.allocs := by rw [← hwa]
          have wa_tick : wa.tick = w.tick + 1 := by rw [← hwa]
          have wa_new : wa.objs w.next = some (a.ty, taken (K a.vt) a.cat.const a.ty (val j)) := by rw [← hwa]; simp
          have wa_src : wa.objs a.id = some (a.ty, leftover (K a.vt) a.cat.const a.ty (val j)) := by
            rw [← hwa]; simp [upd, Nat.ne_of_lt hlt]
          have wa_keep : ∀ i, i ≠ w.next → (a.cat.moved = true → i ≠ a.id) → wa.objs i = w.objs i := by
            intro i h1 h2
            by_cases h : i = a.id
            · have hc := PassedAs.const_of_not_moved hrv (fun hm => h2 hm h)
              rw [h, wa_src, ho]
              simp only [leftover, hc, if_true]
            · rw [← hwa]; simp [upd, h1, h]
          have hwaf : Fresh wa := by
            refine ⟨fun i hi => ?_, fun i => by rw [wa_sub]; exact hw.flat i⟩
            rw [wa_next] at hi
            rw [wa_keep i (by omega) (fun _ => by omega)]; exact hw.fresh i (by omega)
          have hnsrc : ¬ Sources values order w.next := by
            rintro ⟨j', b, hj, hb, hr, hi⟩
            have := hw.lt (hobj j' b (List.mem_cons_of_mem _ hj) hb (PassedAs.moved_rvalue hr))
            omega
          have hnsrc' : ¬ Sources values order a.id := by
            rintro ⟨j', b, hj, hb, hr, hi⟩
            have := hinj j' j b a (List.mem_cons_of_mem _ hj) (List.mem_cons_self ..) hb ha hr hrv hi
            exact hnd'.1 (this ▸ hj)
          have hrec := ih hnd'.2 (upd t j (some w.next)) wa hwaf (by omega)
            (fun j' b hj hb hr => by
              have hb' := hobj j' b (List.mem_cons_of_mem _ hj) hb hr
              rw [wa_keep b.id (Nat.ne_of_lt (hw.lt hb')) ?_]
              · exact hb'
              · intro hm h
                have := hinj j j' a b (List.mem_cons_self ..) (List.mem_cons_of_mem _ hj) ha hb hm hr h.symm
                exact hnd'.1 (this ▸ hj))
            (fun i j' a b hi hj => hinj i j' a b (List.mem_cons_of_mem _ hi) (List.mem_cons_of_mem _ hj))
          have hunf : ∀ k : (Nat → Option ObjId) → M V α, unwrapArgs K values (j :: order) t k w =
              M.withLocal (unwrapArgs K values order (upd t j (some w.next)) k) (destroyObj a.ty w.next) wa := by
            intro k
            simp only [unwrapArgs, ha, show a.cat.rvalue = true from hrv, if_true, bind, M.bind, hrun]
          rcases hrec with ⟨e, w', hr, hu⟩ | ⟨t', w1, he, ht, hr⟩
          · refine .inl ⟨e, { w' with objs := upd w'.objs w.next none }, ?_, ?_⟩
            · intro k
              rw [hunf]
              exact withLocal_obj_exc (hr k) (fun i => by rw [hu.sub, wa_sub]; exact hw.flat i) ((hu.keep _ hnsrc).trans wa_new)
            · refine ⟨hu.vars.trans wa_vars, hu.sub.trans wa_sub, hu.allocs.trans wa_allocs, ?_, ?_, by have := hu.next; show w.next ≤ w'.next; omega, ?_⟩
              · intro i hi
                by_cases h1 : i = w.next
                · simp [h1, hw.fresh]
                · have h2 : a.cat.moved = true → i ≠ a.id := fun hm h => hi (h ▸ hsj hm)
                  simp only [upd, h1, if_false]
                  rw [hu.keep i (fun h => hi (hmono i h)), wa_keep i h1 h2]
              · intro i
                by_cases h1 : i = w.next
                · simp [h1, hw.fresh]
                · simp only [upd, h1, if_false]
                  rw [hu.types i]
                  by_cases h2 : i = a.id
                  · rw [h2, wa_src, ho]; rfl
                  · rw [wa_keep i h1 (fun _ => h2)]
              · obtain ⟨vt, ty, c, h0, ⟨h1, h2, h3⟩, h4⟩ := hu.thrown
                exact ⟨vt, ty, c, htk _ _ _ h0, ⟨by omega, h2, h3⟩, h4⟩
          · have hk1 := he.keep w.next (by omega) hnsrc
            refine .inr ⟨t', w1, ?_, ?_, ?_⟩
            · refine ⟨fun n => (he.user n).trans (by rw [wa_vars]), fun n hn => ?_, he.sub.trans wa_sub, he.allocs.trans wa_allocs,
                by have := he.next; omega, he.fresh, ?_⟩
              · rw [he.tmp n (by rw [wa_vars]; exact hn), wa_vars]
              · intro i hi hs
                have h2 : a.cat.moved = true → i ≠ a.id := fun hm h => hs (h ▸ hsj hm)
                rw [he.keep i (by omega) (fun h => hs (hmono i h)), wa_keep i (by omega) h2]
            · have hne : ∀ j', j' ∈ order → j' ≠ j := fun j' hj h => hnd'.1 (h ▸ hj)
              have hj' : t' j = some w.next := by
                rw [ht.same j (fun b hj => absurd hj hnd'.1)]; simp
              refine ⟨?_, ?_, ?_⟩
              · intro j' b hj hb hrb
                by_cases hjj : j' = j
                · subst hjj
                  rw [ha] at hb; cases hb
                  refine ⟨w.next, hj', Nat.le_refl _, by have := he.next; omega, hk1.trans wa_new, ?_⟩
                  rw [he.keep a.id (by omega) hnsrc', wa_src]
                · have hj2 : j' ∈ order := by
                    rcases List.mem_cons.mp hj with h | h
                    · exact absurd h hjj
                    · exact h
                  obtain ⟨o, h1, h2, h3⟩ := ht.made j' b hj2 hb hrb
                  exact ⟨o, h1, by omega, h3⟩
              · intro j' h
                have hjj : j' ≠ j := by
                  rintro rfl
                  have := h a (List.mem_cons_self ..) ha
                  rw [hrv] at this; cases this
                rw [ht.same j' (fun b hj => h b (List.mem_cons_of_mem _ hj))]
                simp [upd, hjj]
              · intro i i' o hi hi' h1 h2 hlo'
                have hup : ∀ z, (∀ o, t z = some o → o < w.next) → ∀ o, upd t j (some w.next) z = some o → o < wa.next := by
                  intro z hz o ho
                  by_cases hzj : z = j
                  · simp [hzj] at ho; omega
                  · simp only [upd, hzj, if_false] at ho
                    have := hz o ho; omega
                by_cases hle : wa.next ≤ o
                · exact ht.inj i i' o (hup i hi) (hup i' hi') h1 h2 hle
                · have hon : o = w.next := by omega
                  have hz : ∀ z, (∀ o, t z = some o → o < w.next) → t' z = some o → z = j := by
                    intro z hz hzo
                    by_cases hcond : ∀ b, z ∈ order → values[z]? = some b → b.rvalue = false
                    · rw [ht.same z hcond] at hzo
                      by_cases hzj : z = j
                      · exact hzj
                      · simp only [upd, hzj, if_false] at hzo
                        have := hz o hzo; omega
                    · exfalso
                      apply hcond
                      intro b hb hvb
                      cases hrb : b.rvalue with
                      | false => rfl
                      | true =>
                        obtain ⟨o', h1, h2, _⟩ := ht.made z b hb hvb hrb
                        rw [hzo] at h1; cases h1
                        omega
                  rw [hz i hi h1, hz i' hi' h2]
            · intro k hk
              rw [hunf]
              exact withLocal_obj (hr k hk) hk hlo wa_next he.next wa_vars
                (fun i => by rw [he.sub, wa_sub]; exact hw.flat i) (hk1.trans wa_new)

/-! ### Rvalues: one variant after the other -/

/-- What is expected of an argument: its type and category, the object it comes from and that object's value, and the value
the visitor is to see. -/
structure ArgSlot (V : Type) where
  vt : Nat
  ty : TyIx
  cat : PassedAs
  id : ObjId
  v : V
  seen : V

/-- Whether an rvalue is expected. -/
abbrev ArgSlot.rv {V : Type} (s : ArgSlot V) : Bool := s.cat.rvalue

/-- A variable still to be visited, and its content. -/
structure Item (V : Type) where
  vt : Nat
  x : Nat
  cat : PassedAs
  id : ObjId
  k : TyIx
  v : V

/-- Whether the variable is passed as an rvalue. -/
abbrev Item.rv {V : Type} (l : Item V) : Bool := l.cat.rvalue

/-- The visitable of an item. -/
def Item.vis (l : Item V) : Visitable := ⟨l.vt, .user l.x, l.cat⟩

/-- A value already visited is moved (or, if const, copied) once more if it is an rvalue. -/
def slotR (K : Nat → Cfg V) (r : Arg × V) : ArgSlot V :=
  ⟨r.1.vt, r.1.ty, r.1.cat, r.1.id, r.2, if r.1.rvalue then taken (K r.1.vt) r.1.cat.const r.1.ty r.2 else r.2⟩

/-- The content of a variant still to be visited is moved (or, if const, copied) twice if it is an rvalue. -/
def slotL (K : Nat → Cfg V) (l : Item V) : ArgSlot V :=
  ⟨l.vt, l.k, l.cat, l.id, l.v,
    if l.rv then taken (K l.vt) l.cat.const l.k (taken (K l.vt) l.cat.const l.k l.v) else l.v⟩

/-- All expected arguments. -/
def slots (K : Nat → Cfg V) (R : List (Arg × V)) (L : List (Item V)) : List (ArgSlot V) := R.map (slotR K) ++ L.map (slotL K)

/-- The objects moved from. -/
def Srcs (ss : List (ArgSlot V)) (i : ObjId) : Prop := ∃ s, s ∈ ss ∧ s.cat.moved = true ∧ s.id = i

/-- The types of the temporaries. -/
def TakesS (ss : List (ArgSlot V)) (vt : Nat) (ty : TyIx) (const : Bool) : Prop :=
  ∃ s, s ∈ ss ∧ s.cat = ⟨true, const⟩ ∧ s.vt = vt ∧ s.ty = ty

/-- An object that is moved from is used for one argument only. -/
def Apart (ss : List (ArgSlot V)) : Prop := ss.Pairwise fun p q => p.id = q.id → p.cat.moved = false ∧ q.cat.moved = false

/-- The arguments are as expected. -/
structure Called (K : Nat → Cfg V) (w w1 : World V) (ss : List (ArgSlot V)) (args : List Arg) : Prop where
  length : args.length = ss.length
  at_ : ∀ (j : Nat) (s : ArgSlot V) (a : Arg), ss[j]? = some s → args[j]? = some a → a.vt = s.vt ∧ a.ty = s.ty ∧ a.cat = s.cat ∧ (s.rv = false → a.id = s.id) ∧
    (s.rv = true → w.next ≤ a.id ∧ a.id < w1.next ∧ w1.objs a.id = some (s.ty, s.seen) ∧
      w1.objs s.id = some (s.ty, leftover (K s.vt) s.cat.const s.ty s.v))
  inj : ∀ (i j : Nat) (a b : Arg), args[i]? = some a → args[j]? = some b → a.rvalue = true → b.rvalue = true → a.id = b.id → i = j

theorem Apart.at_ {ss : List (ArgSlot V)} (h : Apart ss) {i j : Nat} {p q : ArgSlot V} (hi : ss[i]? = some p) (hj : ss[j]? = some q)
    (hid : p.id = q.id) (hrv : p.cat.moved = true) : i = j := by
  have hp := List.pairwise_iff_getElem.mp h
  obtain ⟨hi1, hi2⟩ := List.getElem?_eq_some_iff.mp hi
  obtain ⟨hj1, hj2⟩ := List.getElem?_eq_some_iff.mp hj
  rcases Nat.lt_trichotomy i j with hlt | heq | hgt
  · have := (hp i j hi1 hj1 hlt (by rw [hi2, hj2]; exact hid)).1
    rw [hi2, hrv] at this; cases this
  · exact heq
  · have := (hp j i hj1 hi1 hgt (by rw [hi2, hj2]; exact hid.symm)).2
    rw [hi2, hrv] at this; cases this

theorem doCall_run (α : Type) {order : Nat → List Nat} (hord : ∀ n, (order n).Perm (List.range n)) {lo : ObjId} {R : List (Arg × V)} {w : World V} (hw : Fresh w) (hlo : lo ≤ w.next)
    (hne : R ≠ []) (hR : ∀ r ∈ R, w.objs r.1.id = some (r.1.ty, r.2)) (hap : Apart (slots K R [])) :
    (∃ e w', (∀ f : List Arg → M V α, doCall K order f (R.map Prod.fst) w = .exc e w') ∧
      Unwound K w w' (Srcs (slots K R [])) (TakesS (slots K R [])) e) ∨
    (∃ args w1, Entered w w1 (Srcs (slots K R [])) ∧ Called K w w1 (slots K R []) args ∧
      ∀ f : List Arg → M V α, (f args w1).All (Spares lo w1) →
        doCall K order f (R.map Prod.fst) w = (f args w1).mapWorld (World.cleanup w w1)) := by
  have hget : ∀ (j : Nat) (a : Arg), (R.map Prod.fst)[j]? = some a → ∃ v, R[j]? = some (a, v) := by
    intro j a h
    rw [List.getElem?_map] at h
    cases hr : R[j]? with
    | none => rw [hr] at h; cases h
    | some r => rw [hr] at h; cases h; exact ⟨r.2, rfl⟩
  have hslot : ∀ (j : Nat), (slots K R [])[j]? = (R[j]?).map (slotR K) := by
    intro j; simp [slots]
  obtain ⟨v0⟩ : Nonempty V := by
    cases R with
    | nil => exact absurd rfl hne
    | cons r R => exact ⟨r.2⟩
  have hmem : ∀ j, j ∈ order (R.map Prod.fst).length ↔ j < (R.map Prod.fst).length := by
    intro j; rw [(hord _).mem_iff, List.mem_range]
  have hsrc : Sources (R.map Prod.fst) (order (R.map Prod.fst).length) = Srcs (slots K R []) := by
    funext i
    apply propext
    constructor
    · rintro ⟨j, a, hj, ha, hr, hi⟩
      obtain ⟨v, hv⟩ := hget j a ha
      exact ⟨slotR K (a, v), List.mem_of_getElem? (i := j) (by rw [hslot, hv]; rfl), hr, hi⟩
    · rintro ⟨s, hs, hr, hi⟩
      obtain ⟨j, hj⟩ := List.getElem?_of_mem hs
      rw [hslot] at hj
      cases hRj : R[j]? with
      | none => rw [hRj] at hj; cases hj
      | some r =>
        rw [hRj] at hj; cases hj
        obtain ⟨hlt, _⟩ := List.getElem?_eq_some_iff.mp hRj
        exact ⟨j, r.1, (hmem j).mpr (by simpa using hlt), by rw [List.getElem?_map, hRj]; rfl, hr, hi⟩
  have htk : Takes (R.map Prod.fst) (order (R.map Prod.fst).length) = TakesS (slots K R []) := by
    funext vt ty c
    apply propext
    constructor
    · rintro ⟨j, a, hj, ha, hr, h1, h2, h3⟩
      obtain ⟨v, hv⟩ := hget j a ha
      exact ⟨slotR K (a, v), List.mem_of_getElem? (i := j) (by rw [hslot, hv]; rfl), by
        simp only [slotR]; rw [← h3, ← (show a.cat.rvalue = true from hr)], h1, h2⟩
    · rintro ⟨s, hs, hr, h1, h2⟩
      obtain ⟨j, hj⟩ := List.getElem?_of_mem hs
      rw [hslot] at hj
      cases hRj : R[j]? with
      | none => rw [hRj] at hj; cases hj
      | some r =>
        rw [hRj] at hj; cases hj
        obtain ⟨hlt, _⟩ := List.getElem?_eq_some_iff.mp hRj
        have hr' : r.1.cat = ⟨true, c⟩ := hr
        exact ⟨j, r.1, (hmem j).mpr (by simpa using hlt), by rw [List.getElem?_map, hRj]; rfl,
          by rw [Arg.rvalue, hr'], h1, h2, by rw [hr']⟩
  have hun := unwrapArgs_run (K := K) α (values := R.map Prod.fst) (val := fun j => ((R[j]?).map Prod.snd).getD v0) (order (R.map Prod.fst).length)
    ((hord _).nodup_iff.mpr List.nodup_range) (fun _ => none) w hw hlo
    (by
      intro j a _ ha _
      obtain ⟨v, hv⟩ := hget j a ha
      simp only [hv, Option.map, Option.getD]
      exact hR _ (List.mem_of_getElem? hv))
    (by
      intro i j a b _ _ ha hb hra _ hid
      obtain ⟨va, hva⟩ := hget i a ha
      obtain ⟨vb, hvb⟩ := hget j b hb
      exact hap.at_ (by rw [hslot, hva]; rfl) (by rw [hslot, hvb]; rfl) hid hra)
  rw [hsrc, htk] at hun
  rcases hun with ⟨e, w', hr, hu⟩ | ⟨t', w1, he, ht, hr⟩
  · exact .inl ⟨e, w', fun f => hr _, hu⟩
  · have hat : ∀ (j : Nat), (unwrapped (R.map Prod.fst) t')[j]? = (R[j]?).map (fun r => unwrappedAt t' j r.1) := by
      intro j
      rw [unwrapped_eq, List.getElem?_mapIdx, List.getElem?_map]
      cases R[j]? <;> rfl
    have harg : ∀ (j : Nat) (r : Arg × V), R[j]? = some r → (r.1.rvalue = false → unwrappedAt t' j r.1 = r.1) ∧
        (r.1.rvalue = true → ∃ o, t' j = some o ∧ unwrappedAt t' j r.1 = ⟨r.1.vt, r.1.ty, o, ⟨true, r.1.cat.const⟩⟩ ∧ w.next ≤ o ∧ o < w1.next ∧
          w1.objs o = some (r.1.ty, taken (K r.1.vt) r.1.cat.const r.1.ty r.2) ∧
          w1.objs r.1.id = some (r.1.ty, leftover (K r.1.vt) r.1.cat.const r.1.ty r.2)) := by
      intro j r hRj
      have hv : (R.map Prod.fst)[j]? = some r.1 := by rw [List.getElem?_map, hRj]; rfl
      constructor
      · intro hrv
        have := ht.same j (fun a _ ha => by rw [hv] at ha; cases ha; exact hrv)
        simp only [unwrappedAt, this]
      · intro hrv
        obtain ⟨hlt, _⟩ := List.getElem?_eq_some_iff.mp hv
        obtain ⟨o, h1, h2, h3, h4, h5⟩ := ht.made j r.1 ((hmem j).mpr hlt) hv hrv
        simp only [hRj, Option.map, Option.getD] at h4 h5
        exact ⟨o, h1, by simp only [unwrappedAt, h1], h2, h3, h4, h5⟩
    refine .inr ⟨_, w1, he, ⟨?_, ?_, ?_⟩, fun f hf => hr (fun t => f (unwrapped (R.map Prod.fst) t)) hf⟩
    · simp [unwrapped_eq, slots]
    · intro j s a hs ha
      rw [hslot] at hs
      rw [hat] at ha
      cases hRj : R[j]? with
      | none => rw [hRj] at hs; cases hs
      | some r =>
        rw [hRj] at hs ha
        simp only [Option.map, Option.some.injEq] at hs ha
        subst hs
        obtain ⟨h1, h2⟩ := harg j r hRj
        cases hrv : r.1.rvalue with
        | false =>
          rw [h1 hrv] at ha; subst ha
          exact ⟨rfl, rfl, rfl, fun _ => rfl, fun h => by simp only [slotR, ArgSlot.rv] at h; rw [show r.1.cat.rvalue = false from hrv] at h; cases h⟩
        | true =>
          obtain ⟨o, _, h3, h4, h5, h6, h7⟩ := h2 hrv
          rw [h3] at ha; subst ha
          refine ⟨rfl, rfl, (by simp only [slotR]; rw [← (show r.1.cat.rvalue = true from hrv)]),
            fun h => absurd (hrv.symm.trans h) (by simp), fun _ => ⟨h4, h5, ?_, h7⟩⟩
          simp only [slotR, show r.1.cat.rvalue = true from hrv, if_true]; exact h6
    · intro i j a b ha hb hra hrb hid
      rw [hat] at ha hb
      cases hRi : R[i]? with
      | none => rw [hRi] at ha; cases ha
      | some r =>
        cases hRj : R[j]? with
        | none => rw [hRj] at hb; cases hb
        | some r' =>
          rw [hRi] at ha; rw [hRj] at hb
          simp only [Option.map, Option.some.injEq] at ha hb
          obtain ⟨h1, h2⟩ := harg i r hRi
          obtain ⟨h1', h2'⟩ := harg j r' hRj
          cases hrv : r.1.rvalue with
          | false => rw [h1 hrv] at ha; rw [← ha, hrv] at hra; cases hra
          | true =>
            cases hrv' : r'.1.rvalue with
            | false => rw [h1' hrv'] at hb; rw [← hb, hrv'] at hrb; cases hrb
            | true =>
              obtain ⟨o, ho, h3, h4, _⟩ := h2 hrv
              obtain ⟨o', ho', h3', _⟩ := h2' hrv'
              rw [h3] at ha; rw [h3'] at hb
              subst ha hb
              simp only at hid
              subst hid
              exact ht.inj i j o (by simp) (by simp) ho ho' h4

/-- Leaving the scope of a temporary variant by an exception. -/
theorem withLocal_var_exc {C : Cfg V} {d : Nat} {wa w' : World V} {body : M V α} {st : VarSt} {id : ObjId} {k : TyIx} {v : V}
    {e : Exc} (hb : body wa = .exc e w') (hf : ∀ i, w'.sub i = []) (ho : Owns C w' (.tmp d) st id k v) :
    M.withLocal body (destroyVar C (.tmp d)) wa =
      .exc e { w' with objs := upd w'.objs id none, vars := upd w'.vars (.tmp d) none } := by
  simp only [M.withLocal, hb]; rw [destroyVar_run ho hf]

theorem getElem?_replace {β : Type} (A B : List β) (h h' : β) {j : Nat} (hj : j ≠ A.length) :
    (A ++ h :: B)[j]? = (A ++ h' :: B)[j]? := by
  rcases Nat.lt_trichotomy j A.length with hlt | heq | hgt
  · rw [List.getElem?_append_left hlt, List.getElem?_append_left hlt]
  · exact absurd heq hj
  · rw [List.getElem?_append_right (by omega), List.getElem?_append_right (by omega)]
    obtain ⟨n, hn⟩ : ∃ n, j - A.length = n + 1 := ⟨j - A.length - 1, by omega⟩
    rw [hn]; rfl

theorem oneByOne_run (α : Type) {order : Nat → List Nat} (hord : ∀ n, (order n).Perm (List.range n)) {lo : ObjId}
    (L : List (Item V)) (d : Nat)
    (R : List (Arg × V)) (values : List Arg) (value : Arg) (w : World V) (hval : values ++ [value] = R.map Prod.fst)
    (hw : Fresh w) (hlo : lo ≤ w.next) (hR : ∀ r ∈ R, w.objs r.1.id = some (r.1.ty, r.2))
    (hL : ∀ l ∈ L, ∃ s, Owns (K l.vt) w (.user l.x) s l.id l.k l.v) (hap : Apart (slots K R L))
    (htmp : ∀ n, d ≤ n → w.vars (.tmp n) = none) :
    (∃ e w', (∀ f : List Arg → M V α, oneByOne K order f d (L.map Item.vis) values value w = .exc e w') ∧
      Unwound K w w' (Srcs (slots K R L)) (TakesS (slots K R L)) e) ∨
    (∃ args w1, Entered w w1 (Srcs (slots K R L)) ∧ Called K w w1 (slots K R L) args ∧
      ∀ f : List Arg → M V α, (f args w1).All (Spares lo w1) →
        oneByOne K order f d (L.map Item.vis) values value w = (f args w1).mapWorld (World.cleanup w w1)) := by
  induction L generalizing d R values value w with
  | nil =>
    have hunf : ∀ f : List Arg → M V α, oneByOne K order f d (([] : List (Item V)).map Item.vis) values value w =
        doCall K order f (R.map Prod.fst) w := by
      intro f; rw [← hval]; rfl
    simp only [hunf]
    exact doCall_run α hord hw hlo (by intro h; rw [h] at hval; simp at hval) hR hap
  | cons l L ih =>
    obtain ⟨st, ho⟩ := hL l (List.mem_cons_self ..)
    cases hrv : l.rv with
    | false =>
      have hunf : ∀ f : List Arg → M V α, oneByOne K order f d ((l :: L).map Item.vis) values value w =
          oneByOne K order f (d + 1) (L.map Item.vis) (values ++ [value]) ⟨l.vt, l.k, l.id, l.cat⟩ w := by
        intro f
        rw [List.map_cons, oneByOne]
        show unwrapVisitable K d l.vis _ w = _
        rw [unwrapVisitable_lvalue (show l.vis.cat.rvalue = false from hrv)]
        exact applyVisitor1_run ho _ _
      have hslots : slots K R (l :: L) = slots K (R ++ [(⟨l.vt, l.k, l.id, l.cat⟩, l.v)]) L := by
        simp [slots, slotR, slotL, Arg.rvalue, hrv, show l.cat.rvalue = false from hrv]
      simp only [hunf, hslots]
      refine ih (d + 1) _ _ _ w (by rw [hval]; simp) hw hlo ?_ (fun l' hl => hL l' (List.mem_cons_of_mem _ hl))
        (hslots ▸ hap) (fun n hn => htmp n (by omega))
      intro r hr
      rcases List.mem_append.mp hr with hr | hr
      · exact hR r hr
      · rw [List.mem_singleton.mp hr]; exact ho.obj
    | true =>
      have hlt := hw.lt ho.obj
      have hrv' : l.cat.rvalue = true := hrv
      have hcat : (⟨true, l.cat.const⟩ : PassedAs) = l.cat := by rw [← hrv']
      have hrun := unwrapVar_run (C := K l.vt) (x := .tmp d) l.cat.const ho
      have hslots : slots K R (l :: L) = R.map (slotR K) ++
          ⟨l.vt, l.k, l.cat, l.id, l.v, taken (K l.vt) l.cat.const l.k (taken (K l.vt) l.cat.const l.k l.v)⟩ :: L.map (slotL K) := by
        simp [slots, slotL, hrv]
      have hpos : (slots K R (l :: L))[(R.map (slotR K)).length]? =
          some ⟨l.vt, l.k, l.cat, l.id, l.v, taken (K l.vt) l.cat.const l.k (taken (K l.vt) l.cat.const l.k l.v)⟩ := by
        rw [hslots, List.getElem?_append_right (Nat.le_refl _), Nat.sub_self]; rfl
      have hsl : l.cat.moved = true → Srcs (slots K R (l :: L)) l.id := fun h => ⟨_, List.mem_of_getElem? hpos, h, rfl⟩
      by_cases hth : (!takeNothrow (K l.vt) l.cat.const l.k && (K l.vt).throws w.tick) = true
      · rw [if_pos hth] at hrun
        refine .inl ⟨⟨takeKind l.cat.const l.k, w.tick⟩,
          { w with tick := w.tick + 1, objs := upd w.objs l.id (some (l.k, failLeft (K l.vt) l.cat.const l.k l.v)) }, ?_, ?_⟩
        · intro f
          rw [List.map_cons, oneByOne]
          show unwrapVisitable K d l.vis _ w = _
          rw [unwrapVisitable_rvalue (show l.vis.cat.rvalue = true from hrv)]
          simp only [Item.vis, M.bind, hrun]
        · refine ⟨rfl, rfl, rfl, ?_, SameTypes.upd _ _ ho.obj, Nat.le_refl _, ⟨l.vt, l.k, l.cat.const,
            ⟨_, List.mem_of_getElem? hpos, hcat.symm, rfl, rfl⟩, ⟨Nat.le_refl _, Nat.lt_succ_self _, ?_⟩, rfl, ?_⟩⟩
          · intro i hi
            by_cases h : i = l.id
            · have hc := PassedAs.const_of_not_moved hrv' (fun hm => hi (h ▸ hsl hm))
              simp only [failLeft, hc, if_true, upd_keepVal ho.obj]
            · simp [upd, h]
          · simp only [Bool.and_eq_true] at hth; exact hth.2
          · simpa [takeNothrow] using (Bool.and_eq_true_iff.mp hth).1
      · rw [if_neg hth] at hrun
        generalize hwa : ({ w with
          tick := w.tick + 1
          objs := upd (upd w.objs l.id (some (l.k, leftover (K l.vt) l.cat.const l.k l.v))) w.next (some (l.k, taken (K l.vt) l.cat.const l.k l.v))
          next := w.next + 1
          vars := upd w.vars (.tmp d) (some ⟨(l.k : Int), .obj w.next⟩) } : World V) = wa at hrun
        have wa_next : wa.next = w.next + 1 := by rw [← hwa]
        have wa_vars : wa.vars = upd w.vars (.tmp d) (some ⟨(l.k : Int), .obj w.next⟩) := by rw [← hwa]
        have wa_sub : wa.sub = w.sub := by rw [← hwa]
        have wa_allocs : wa.allocs = w.allocs := by rw [← hwa]
        have wa_tick : wa.tick = w.tick + 1 := by rw [← hwa]
        have wa_new : wa.objs w.next = some (l.k, taken (K l.vt) l.cat.const l.k l.v) := by rw [← hwa]; simp
        have wa_src : wa.objs l.id = some (l.k, leftover (K l.vt) l.cat.const l.k l.v) := by
          rw [← hwa]; simp [upd, Nat.ne_of_lt hlt]
        have wa_keep : ∀ i, i ≠ w.next → (l.cat.moved = true → i ≠ l.id) → wa.objs i = w.objs i := by
          intro i h1 h2
          by_cases h : i = l.id
          · have hc := PassedAs.const_of_not_moved hrv' (fun hm => h2 hm h)
            rw [h, wa_src, ho.obj]
            simp only [leftover, hc, if_true]
          · rw [← hwa]; simp [upd, h1, h]
        have wa_user : ∀ n, wa.vars (.user n) = w.vars (.user n) := by
          intro n; rw [wa_vars]; simp [upd]
        have wa_tmp : ∀ n, n ≠ d → wa.vars (.tmp n) = w.vars (.tmp n) := by
          intro n hn; rw [wa_vars]; simp [upd, hn]
        have wa_d : wa.vars (.tmp d) = some ⟨(l.k : Int), .obj w.next⟩ := by rw [wa_vars]; simp
        have hwaf : Fresh wa := by
          refine ⟨fun i hi => ?_, fun i => by rw [wa_sub]; exact hw.flat i⟩
          rw [wa_next] at hi
          rw [wa_keep i (by omega) (fun _ => by omega)]; exact hw.fresh i (by omega)
        have hrep : Rep (K l.vt) ⟨(l.k : Int), .obj w.next⟩ w.next l.k := .inPlace _ _ ho.rep.lt
        have hown : Owns (K l.vt) wa (.tmp d) ⟨(l.k : Int), .obj w.next⟩ w.next l.k (taken (K l.vt) l.cat.const l.k l.v) := ⟨wa_d, hrep, wa_new⟩
        have hunf : ∀ f : List Arg → M V α, oneByOne K order f d ((l :: L).map Item.vis) values value w =
            M.withLocal (applyVisitor1 K (oneByOne K order f (d + 1) (L.map Item.vis) (values ++ [value])) ⟨l.vt, .tmp d, l.cat⟩)
              (destroyVar (K l.vt) (.tmp d)) wa := by
          intro f
          rw [List.map_cons, oneByOne]
          show unwrapVisitable K d l.vis _ w = _
          rw [unwrapVisitable_rvalue (show l.vis.cat.rvalue = true from hrv)]
          simp only [Item.vis, M.bind, hrun]
        have hslots' : slots K (R ++ [(⟨l.vt, l.k, w.next, l.cat⟩, taken (K l.vt) l.cat.const l.k l.v)]) L = R.map (slotR K) ++
            ⟨l.vt, l.k, l.cat, w.next, taken (K l.vt) l.cat.const l.k l.v, taken (K l.vt) l.cat.const l.k (taken (K l.vt) l.cat.const l.k l.v)⟩ :: L.map (slotL K) := by
          simp [slots, slotR, Arg.rvalue, hrv']
        -- the identities of all sources are old
        have hold : ∀ s ∈ slots K R (l :: L), s.id < w.next := by
          intro s hs
          rcases List.mem_append.mp hs with hs | hs
          · obtain ⟨r, hr, rfl⟩ := List.mem_map.mp hs
            exact hw.lt (hR r hr)
          · obtain ⟨l', hl, rfl⟩ := List.mem_map.mp hs
            obtain ⟨_, h⟩ := hL l' hl
            exact hw.lt h.obj
        have hoff : ∀ (j : Nat), j ≠ (R.map (slotR K)).length →
            (slots K R (l :: L))[j]? = (slots K (R ++ [(⟨l.vt, l.k, w.next, l.cat⟩, taken (K l.vt) l.cat.const l.k l.v)]) L)[j]? := by
          intro j hj
          rw [hslots, hslots']; exact getElem?_replace _ _ _ _ hj
        -- no other argument comes from the object of `l`
        have hother : ∀ (j : Nat) s, j ≠ (R.map (slotR K)).length → (slots K R (l :: L))[j]? = some s →
            l.cat.moved = true ∨ s.cat.moved = true → s.id ≠ l.id := by
          intro j s hj hs hm hid
          rcases hm with hm | hm
          · exact hj (hap.at_ hpos hs hid.symm hm).symm
          · exact hj (hap.at_ hs hpos hid hm)
        generalize hss' : slots K (R ++ [(⟨l.vt, l.k, w.next, l.cat⟩, taken (K l.vt) l.cat.const l.k l.v)]) L = ss' at hoff hslots'
        generalize hss : slots K R (l :: L) = ss at hap hslots hpos hsl hold hoff hother
        have hpos' : ss'[(R.map (slotR K)).length]? =
            some ⟨l.vt, l.k, l.cat, w.next, taken (K l.vt) l.cat.const l.k l.v, taken (K l.vt) l.cat.const l.k (taken (K l.vt) l.cat.const l.k l.v)⟩ := by
          rw [hslots', List.getElem?_append_right (Nat.le_refl _), Nat.sub_self]; rfl
        generalize hm : (R.map (slotR K)).length = m at hpos hoff hother hpos'
        have hidx : ∀ s ∈ ss', s.id ≠ w.next → ∃ j, j ≠ m ∧ ss[j]? = some s := by
          intro s hs hne
          obtain ⟨j, hj⟩ := List.getElem?_of_mem hs
          have hjm : j ≠ m := by
            rintro rfl
            rw [hpos'] at hj; cases hj
            exact hne rfl
          exact ⟨j, hjm, by rw [hoff j hjm]; exact hj⟩
        have hsrc : ∀ i, i ≠ w.next → Srcs ss' i → Srcs ss i ∧ i ≠ l.id := by
          rintro i hi ⟨s, hs, h1, h2⟩
          obtain ⟨j, hjm, hj⟩ := hidx s hs (by rw [h2]; exact hi)
          exact ⟨⟨s, List.mem_of_getElem? hj, h1, h2⟩, h2 ▸ hother j s hjm hj (.inr h1)⟩
        have hnl : ¬ Srcs ss' l.id := fun h => (hsrc l.id (Nat.ne_of_lt hlt) h).2 rfl
        have hap' : Apart ss' := by
          rw [Apart, List.pairwise_iff_getElem]
          intro i j hi hj hij hid
          have hi' := List.getElem?_eq_getElem hi
          have hj' := List.getElem?_eq_getElem hj
          generalize ss'[i] = p at hid hi' ⊢
          generalize ss'[j] = q at hid hj' ⊢
          by_cases him : i = m
          · exfalso
            rw [him, hpos'] at hi'; cases hi'
            rw [← hoff j (by omega)] at hj'
            have := hold q (List.mem_of_getElem? hj')
            simp only at hid; omega
          · by_cases hjm : j = m
            · exfalso
              rw [hjm, hpos'] at hj'; cases hj'
              rw [← hoff i him] at hi'
              have := hold p (List.mem_of_getElem? hi')
              simp only at hid; omega
            · rw [← hoff i him] at hi'
              rw [← hoff j hjm] at hj'
              obtain ⟨h1, h2⟩ := List.getElem?_eq_some_iff.mp hi'
              obtain ⟨h3, h4⟩ := List.getElem?_eq_some_iff.mp hj'
              have := List.pairwise_iff_getElem.mp hap i j h1 h3 hij
              rw [h2, h4] at this
              exact this hid
        have hmemR : ∀ r ∈ R, ∃ j, j ≠ m ∧ ss[j]? = some (slotR K r) := by
          intro r hr
          obtain ⟨j, hj⟩ := List.getElem?_of_mem hr
          obtain ⟨hjlt, _⟩ := List.getElem?_eq_some_iff.mp hj
          refine ⟨j, by rw [← hm]; simp; omega, ?_⟩
          rw [hslots, List.getElem?_append_left (by simpa using hjlt), List.getElem?_map, hj]; rfl
        have hmemL : ∀ l' ∈ L, ∃ j, j ≠ m ∧ ss[j]? = some (slotL K l') := by
          intro l' hl
          obtain ⟨j, hj⟩ := List.getElem?_of_mem hl
          refine ⟨m + (j + 1), by omega, ?_⟩
          rw [hslots, List.getElem?_append_right (by omega), hm, Nat.add_sub_cancel_left, List.getElem?_cons_succ,
            List.getElem?_map, hj]; rfl
        have hrec := ih (d + 1) (R ++ [(⟨l.vt, l.k, w.next, l.cat⟩, taken (K l.vt) l.cat.const l.k l.v)]) (values ++ [value]) ⟨l.vt, l.k, w.next, l.cat⟩ wa
          (by rw [hval]; simp) hwaf (by omega)
          (by
            intro r hr
            rcases List.mem_append.mp hr with hr | hr
            · obtain ⟨j, hjm, hj⟩ := hmemR r hr
              have h1 := hR r hr
              rw [wa_keep _ (Nat.ne_of_lt (hw.lt h1)) (fun hm => hother j _ hjm hj (.inl hm))]
              exact h1
            · rw [List.mem_singleton.mp hr]; exact wa_new)
          (by
            intro l' hl
            obtain ⟨s', h1⟩ := hL l' (List.mem_cons_of_mem _ hl)
            obtain ⟨j, hjm, hj⟩ := hmemL l' hl
            exact ⟨s', (wa_user _).trans h1.var, h1.rep,
              (wa_keep _ (Nat.ne_of_lt (hw.lt h1.obj)) (fun hm => hother j _ hjm hj (.inl hm))).trans h1.obj⟩)
          (hss'.symm ▸ hap')
          (fun n hn => (wa_tmp n (by omega)).trans (htmp n (by omega)))
        have hav : ∀ f : List Arg → M V α,
            applyVisitor1 K (oneByOne K order f (d + 1) (L.map Item.vis) (values ++ [value])) ⟨l.vt, .tmp d, l.cat⟩ wa =
              oneByOne K order f (d + 1) (L.map Item.vis) (values ++ [value]) ⟨l.vt, l.k, w.next, l.cat⟩ wa :=
          fun f => applyVisitor1_run hown _ l.cat
        rw [hss'] at hrec
        rcases hrec with ⟨e, w', hr, hu⟩ | ⟨args, w1, he, hc, hr⟩
        · have hobj' : ∃ v', w'.objs w.next = some (l.k, v') := some_of_map_fst (hu.types w.next) wa_new
          obtain ⟨v', hv'⟩ := hobj'
          refine .inl ⟨e, { w' with objs := upd w'.objs w.next none, vars := upd w'.vars (.tmp d) none }, ?_, ?_⟩
          · intro f
            rw [hunf]
            exact withLocal_var_exc ((hav f).trans (hr f)) (fun i => by rw [hu.sub, wa_sub]; exact hw.flat i)
              ⟨(by rw [hu.vars]; exact wa_d), hrep, hv'⟩
          · refine ⟨?_, hu.sub.trans wa_sub, hu.allocs.trans wa_allocs, ?_, ?_, by have := hu.next; show w.next ≤ w'.next; omega, ?_⟩
            · funext x
              simp only [hu.vars, wa_vars, upd]
              by_cases hx : x = .tmp d
              · simp [hx, htmp d (Nat.le_refl _)]
              · simp [hx]
            · intro i hi
              by_cases h1 : i = w.next
              · simp [h1, hw.fresh]
              · have h2 : l.cat.moved = true → i ≠ l.id := fun hm h => hi (h ▸ hsl hm)
                simp only [upd, h1, if_false]
                rw [hu.keep i (fun h => hi (hsrc i h1 h).1), wa_keep i h1 h2]
            · intro i
              by_cases h1 : i = w.next
              · simp [h1, hw.fresh]
              · simp only [upd, h1, if_false]
                rw [hu.types i]
                by_cases h2 : i = l.id
                · rw [h2, wa_src, ho.obj]; rfl
                · rw [wa_keep i h1 (fun _ => h2)]
            · obtain ⟨vt, ty, c, ⟨sl, h0, h0'⟩, ⟨h1, h2, h3⟩, h4⟩ := hu.thrown
              refine ⟨vt, ty, c, ?_, ⟨by omega, h2, h3⟩, h4⟩
              obtain ⟨j, hj⟩ := List.getElem?_of_mem h0
              by_cases hjm : j = m
              · subst hjm
                rw [hpos'] at hj; cases hj
                exact ⟨_, List.mem_of_getElem? hpos, h0'⟩
              · rw [← hoff j hjm] at hj
                exact ⟨sl, List.mem_of_getElem? hj, h0'⟩
        · have hle : ss'.length = ss.length := by rw [hslots, hslots']; simp
          obtain ⟨am, ham⟩ : ∃ a, args[m]? = some a := by
            obtain ⟨h1, _⟩ := List.getElem?_eq_some_iff.mp hpos'
            exact ⟨_, List.getElem?_eq_getElem (by rw [hc.length]; exact h1)⟩
          obtain ⟨c0, c1, c2, _, c3⟩ := hc.at_ m _ am hpos' ham
          obtain ⟨c4, c5, c6, c7⟩ := c3 hrv'
          simp only at c0 c1 c2 c6 c7
          refine .inr ⟨args, w1, ?_, ⟨hc.length.trans hle, ?_, hc.inj⟩, ?_⟩
          · refine ⟨fun n => (he.user n).trans (wa_user n), fun n hn => ?_, he.sub.trans wa_sub, he.allocs.trans wa_allocs,
              by have := he.next; omega, he.fresh, ?_⟩
            · have hnd : n ≠ d := by
                rintro rfl; exact hn (htmp n (Nat.le_refl _))
              rw [he.tmp n (by rw [wa_tmp n hnd]; exact hn), wa_tmp n hnd]
            · intro i hi hs
              have h2 : l.cat.moved = true → i ≠ l.id := fun hm h => hs (h ▸ hsl hm)
              rw [he.keep i (by omega) (fun h => hs (hsrc i (by omega) h).1), wa_keep i (by omega) h2]
          · intro j s a hs ha
            by_cases hjm : j = m
            · subst hjm
              rw [hpos] at hs; cases hs
              rw [ham] at ha; cases ha
              refine ⟨c0, c1, c2, fun h => absurd (hrv'.symm.trans h) (by simp), fun _ => ⟨by omega, c5, c6, ?_⟩⟩
              rw [he.keep l.id (by omega) hnl, wa_src]
            · rw [hoff j hjm] at hs
              obtain ⟨h0, h1, h2, h3, h4⟩ := hc.at_ j s a hs ha
              refine ⟨h0, h1, h2, h3, fun h => ?_⟩
              obtain ⟨h5, h6⟩ := h4 h
              exact ⟨by omega, h6⟩
          · intro f hf
            rw [hunf]
            exact withLocal_var ((hav f).trans (hr f hf)) hf hlo wa_next he.next wa_vars ho.rep.lt (htmp d (Nat.le_refl _))
              (fun i => by rw [he.sub, wa_sub]; exact hw.flat i) c7

end
end BVariant
