/-
Which variables the statements of C72 and C73 begin.
-/
import Verif.Lemmas.Control

namespace BVariant

section
variable {S α β : Type} {P : S → Prop}

/-- The code keeps `P`, whether it throws or not. -/
def Stays (P : S → Prop) (m : Eff S α) : Prop := ∀ s, P s →
  match m s with
  | .ok _ s' => P s'
  | .exc _ s' => P s'
  | .fault _ => True

theorem Stays.pure {a : α} : Stays P (Pure.pure a : Eff S α) := fun _ h => h

theorem Stays.fail {f : Fault} : Stays P (Eff.fail f : Eff S α) := fun _ _ => trivial

theorem Stays.bind {m : Eff S α} {f : α → Eff S β} (h : Stays P m) (h' : ∀ a, Stays P (f a)) : Stays P (m >>= f) := fun s hs => by
  have h1 := h s hs
  show match Eff.bind m f s with | .ok _ s' => P s' | .exc _ s' => P s' | .fault _ => True
  unfold Eff.bind
  cases hm : m s with
  | ok a s' => rw [hm] at h1; exact h' a s' h1
  | exc e s' => rw [hm] at h1; exact h1
  | fault f => trivial

theorem Stays.onExc {m : Eff S α} {h : Eff S Unit} (h1 : Stays P m) (h2 : Stays P h) : Stays P (Eff.onExc m h) := fun s hs => by
  have h3 := h1 s hs
  unfold Eff.onExc
  cases hm : m s with
  | ok a s' => rw [hm] at h3; exact h3
  | exc e s' =>
    rw [hm] at h3
    have h4 := h2 s' h3
    cases hh : h s' with
    | ok _ s'' => simp only [hh] at h4 ⊢; exact h4
    | exc e s'' => simp only [hh]
    | fault f => simp only [hh]
  | fault f => trivial

theorem Stays.ite {c : Prop} [Decidable c] {m m' : Eff S α} (h : Stays P m) (h' : Stays P m') : Stays P (if c then m else m') := by
  split <;> assumption

theorem Stays.modify {f : S → S} (h : ∀ s, P s → P (f s)) : Stays P (Eff.modify f) := fun s hs => h s hs

end

section
variable {V : Type} {C : TreeCfg V} {y : Nat}

/-- The variable is not alive. -/
def XTSt.Dead (y : Nat) (σ : XTSt V) : Prop := σ.vars y = none

theorem keeps_xtRun {γ : Type} {m : Eff Count γ} : Stays (XTSt.Dead (V := V) y) (xtRun m) := fun s hs => by
  unfold xtRun
  cases m s.count <;> first | exact hs | trivial

theorem keeps_xtGet {t : TPlace} : Stays (XTSt.Dead (V := V) y) (xtGet t) := fun s hs => by
  unfold xtGet
  cases s.at t <;> first | exact hs | trivial

theorem keeps_xtPut {t : TPlace} {u : XTree V} : Stays (XTSt.Dead y) (xtPut t u) := .modify fun s hs => by
  unfold XTSt.Dead at hs ⊢
  by_cases h : y = t.var
  · subst h; simp [upd, hs]
  · simp [upd, h, hs]

theorem keeps_xtSet {x : Nat} {u : Option (XTree V)} (h : y ≠ x ∨ u = none) : Stays (XTSt.Dead y) (xtSet x u) := .modify fun s hs => by
  unfold XTSt.Dead at hs ⊢
  by_cases hx : y = x
  · subst hx; simpa [upd] using h
  · simp [upd, hx, hs]

theorem keeps_xtTake {t : TPlace} : Stays (XTSt.Dead y) (xtTake C t) := by
  refine .bind keeps_xtGet fun u s hs => ?_
  cases xtMove C s.count u with
  | ok u' src c => exact keeps_xtPut (t := t) (u := src) ⟨s.vars, c⟩ hs
  | exc e src c => exact keeps_xtPut (t := t) (u := src) ⟨s.vars, c⟩ hs

theorem keeps_xtFallback {x : TPlace} {fb : TyIx} : Stays (XTSt.Dead y) (xtFallback C x fb) := .bind keeps_xtRun fun _ => keeps_xtPut

theorem keeps_xtGuarded {x : TPlace} {l r : XTree V} : Stays (XTSt.Dead y) (xtGuarded C x l r) := by
  unfold xtGuarded
  split
  · exact .bind keeps_xtRun fun _ => keeps_xtPut
  · split
    · exact .bind keeps_xtRun fun _ => .bind (.onExc keeps_xtRun (.bind keeps_xtRun fun _ => keeps_xtPut)) fun _ => keeps_xtPut
    · exact .bind keeps_xtRun fun _ => .bind keeps_xtRun fun _ => .bind (.onExc keeps_xtRun keeps_xtPut) fun _ => keeps_xtPut

theorem keeps_xtReplace {x : TPlace} {l r : XTree V} : Stays (XTSt.Dead y) (xtReplace C x l r) := by
  unfold xtReplace
  split
  · exact .bind keeps_xtRun fun _ => keeps_xtPut
  · split
    · exact .bind keeps_xtRun fun _ => .bind keeps_xtRun fun _ => keeps_xtPut
    · split
      · exact .bind (.onExc keeps_xtRun keeps_xtFallback) fun _ => keeps_xtPut
      · exact keeps_xtGuarded

theorem keeps_xtReplaceMove {x t : TPlace} {l r : XTree V} : Stays (XTSt.Dead y) (xtReplaceMove C x t l r) := by
  unfold xtReplaceMove
  split
  · exact .bind keeps_xtTake fun _ => keeps_xtPut
  · split
    · exact .bind keeps_xtRun fun _ => keeps_xtPut
    · split
      · exact .bind (.onExc keeps_xtTake keeps_xtFallback) fun _ => keeps_xtPut
      · exact keeps_xtGuarded

theorem keeps_xtAssign {x t : TPlace} : Stays (XTSt.Dead y) (xtAssign C x t) := by
  refine .bind keeps_xtGet fun l => .bind keeps_xtGet fun r => .ite ?_ keeps_xtReplace
  cases l <;> cases r
  · exact .bind (.onExc keeps_xtRun keeps_xtPut) fun _ => keeps_xtPut
  · exact .fail
  · exact .fail
  · exact .bind keeps_xtRun fun _ => .bind keeps_xtRun fun _ => keeps_xtPut

theorem keeps_xtMoveAssign {x t : TPlace} : Stays (XTSt.Dead y) (xtMoveAssign C x t) := by
  refine .bind keeps_xtGet fun l => .bind keeps_xtGet fun r => .ite ?_ keeps_xtReplaceMove
  cases l <;> cases r
  · exact .ite (.bind (.onExc keeps_xtRun keeps_xtPut) fun _ => keeps_xtPut)
      (.bind (.onExc keeps_xtRun (.bind keeps_xtPut fun _ => keeps_xtPut)) fun _ => .bind keeps_xtPut fun _ => keeps_xtPut)
  · exact .fail
  · exact .fail
  · exact .bind keeps_xtPut fun _ => keeps_xtPut

/-- After a local variable has ended, it is not alive. -/
theorem keeps_ended {z : Nat} {u : Option (XTree V)} {m : Eff (XTSt V) Unit} (hm : ∀ y, Stays (XTSt.Dead y) m) :
    Stays (XTSt.Dead y) (do xtSet z u; Eff.onExc m (xtSet z none); xtSet z none) := by
  by_cases hy : y = z
  · subst hy
    intro s hs
    simp only [bind, Eff.bind, xtSet, Eff.modify, Eff.onExc]
    cases h : m { s with vars := upd s.vars y u } with
    | ok a s' => simp [XTSt.Dead, upd]
    | exc e s' => simp [XTSt.Dead, upd]
    | fault f => trivial
  · exact .bind (keeps_xtSet (.inl hy)) fun _ => .bind (.onExc (hm y) (keeps_xtSet (.inl hy))) fun _ => keeps_xtSet (.inl hy)

theorem keeps_xtSwap {x t : TPlace} {z : Nat} : Stays (XTSt.Dead y) (xtSwap C x t z) := by
  refine .bind keeps_xtGet fun l => .bind keeps_xtGet fun r => .ite (.ite ?_ ?_) ?_
  · exact .bind (.onExc keeps_xtRun keeps_xtPut) fun _ => keeps_xtPut
  · exact .bind (.onExc keeps_xtRun (.bind keeps_xtPut fun _ => keeps_xtPut)) fun _ => .bind keeps_xtPut fun _ => keeps_xtPut
  · exact .bind keeps_xtTake fun u => keeps_ended fun _ => .bind keeps_xtMoveAssign fun _ => keeps_xtMoveAssign

theorem keeps_xtGetAll : ∀ {ts : List TPlace}, Stays (XTSt.Dead (V := V) y) (xtGetAll ts)
  | [] => .pure
  | _ :: _ => .bind keeps_xtGet fun _ => .bind keeps_xtGetAll fun _ => .pure

theorem keeps_texact {c : TCmd V} (h : y ∉ c.begins) : Stays (XTSt.Dead y) (c.exact C) := by
  cases c with
  | leaf x k v => exact .bind keeps_xtRun fun _ => keeps_xtSet (.inl (by simpa [TCmd.begins] using h))
  | node x k a ys =>
    exact .bind keeps_xtGetAll fun _ => .bind keeps_xtRun fun _ => .bind keeps_xtRun fun _ => keeps_xtSet (.inl (by simpa [TCmd.begins] using h))
  | copy x t => exact .bind keeps_xtGet fun _ => .bind keeps_xtRun fun _ => keeps_xtSet (.inl (by simpa [TCmd.begins] using h))
  | move x t => exact .bind keeps_xtTake fun _ => keeps_xtSet (.inl (by simpa [TCmd.begins] using h))
  | assign x t => exact keeps_xtAssign
  | moveAssign x t => exact keeps_xtMoveAssign
  | swap x t z => exact keeps_xtSwap
  | store x v => exact .bind keeps_xtGet fun _ => keeps_xtPut
  | destroy x => exact keeps_xtSet (.inr rfl)

end

section
variable {V : Type} {C : Cfg V} {y : Nat} {l r x : VarId} {a b : Tag V}

/-- The variable is not alive. -/
def XSt.Dead (y : Nat) (σ : XSt V) : Prop := σ.vars (.user y) = none

theorem keeps_xGet : Stays (XSt.Dead (V := V) y) (xGet x) := fun s hs => by
  unfold xGet
  cases s.vars x <;> first | exact hs | trivial

theorem keeps_xPut {t : Option (Tag V)} (h : x ≠ .user y ∨ t = none) : Stays (XSt.Dead y) (xPut x t) := .modify fun s hs => by
  unfold XSt.Dead at hs ⊢
  by_cases hx : VarId.user y = x
  · subst hx; simpa [upd] using h
  · simp [upd, hx, hs]

theorem keeps_xMay {b : Bool} {k : ExcKind} : Stays (XSt.Dead y) (xMay C b k) := fun s hs => by
  by_cases h : b = false ∧ C.throws s.tick = true
  · simp only [xMay, if_pos h]; exact hs
  · simp only [xMay, if_neg h]; exact hs

theorem keeps_xNew : Stays (XSt.Dead y) (xNew C) := .bind (.modify fun _ h => h) fun _ => keeps_xMay

theorem keeps_xMove (h : x ≠ .user y) : Stays (XSt.Dead y) (xMove C x b) :=
  .bind (.onExc keeps_xMay (keeps_xPut (.inl h))) fun _ => keeps_xPut (.inl h)

theorem keeps_xCopyConstruct (h : x ≠ .user y) : Stays (XSt.Dead y) (xCopyConstruct C x r) :=
  .bind keeps_xGet fun _ => .bind keeps_xMay fun _ => keeps_xPut (.inl h)

theorem keeps_xMoveConstruct (h : x ≠ .user y) (hr : r ≠ .user y) : Stays (XSt.Dead y) (xMoveConstruct C x r) :=
  .bind keeps_xGet fun _ => .bind (keeps_xMove hr) fun _ => keeps_xPut (.inl h)

theorem keeps_xConvert (h : x ≠ .user y) {m : XMode} {k : TyIx} {v : V} : Stays (XSt.Dead y) (xConvert C x m k v) := by
  cases m
  · exact .bind keeps_xMay fun _ => keeps_xPut (.inl h)
  · exact .bind keeps_xMay fun _ => keeps_xPut (.inl h)
  · exact .bind keeps_xMay fun _ => .bind keeps_xMay fun _ => keeps_xPut (.inl h)

theorem keeps_xAssignElem (h : l ≠ .user y) {v : V} : Stays (XSt.Dead y) (xAssignElem C l a v) :=
  .bind (.onExc keeps_xMay (keeps_xPut (.inl h))) fun _ => keeps_xPut (.inl h)

theorem keeps_xMoveAssignElem (h : l ≠ .user y) {v : V} : Stays (XSt.Dead y) (xMoveAssignElem C l a v) :=
  .bind (.onExc keeps_xMay (keeps_xPut (.inl h))) fun _ => keeps_xPut (.inl h)

theorem keeps_xMoveAssignElems (h : l ≠ .user y) (hr : r ≠ .user y) : Stays (XSt.Dead y) (xMoveAssignElems C l r a b) := by
  refine .ite ?_ ?_
  · exact .bind (.onExc keeps_xMay (keeps_xPut (.inl h))) fun _ => keeps_xPut (.inl h)
  · exact .bind (.onExc keeps_xMay (.bind (keeps_xPut (.inl hr)) fun _ => keeps_xPut (.inl h))) fun _ =>
      .bind (keeps_xPut (.inl hr)) fun _ => keeps_xPut (.inl h)

theorem keeps_xFallback (h : l ≠ .user y) {fb : TyIx} : Stays (XSt.Dead y) (xFallback C l fb) :=
  .bind keeps_xMay fun _ => keeps_xPut (.inl h)

theorem keeps_xGuardedCopy (h : l ≠ .user y) {k : TyIx} {v : V} : Stays (XSt.Dead y) (xGuardedCopy C l a k v) := by
  refine .ite ?_ (.ite ?_ ?_)
  · exact .bind keeps_xMay fun _ => keeps_xPut (.inl h)
  · exact .bind keeps_xMay fun _ => .bind (.onExc keeps_xMay (.bind keeps_xMay fun _ => keeps_xPut (.inl h))) fun _ => keeps_xPut (.inl h)
  · exact .bind keeps_xNew fun _ => .bind keeps_xMay fun _ => .bind (.onExc keeps_xMay (keeps_xPut (.inl h))) fun _ => keeps_xPut (.inl h)

theorem keeps_xReplaceCopy (h : l ≠ .user y) : Stays (XSt.Dead y) (xReplaceCopy C l a b) := by
  refine .ite ?_ (.ite ?_ ?_)
  · exact .bind keeps_xMay fun _ => keeps_xPut (.inl h)
  · exact .bind keeps_xMay fun _ => .bind keeps_xMay fun _ => keeps_xPut (.inl h)
  · cases C.fallback with
    | some fb => exact .bind (.onExc keeps_xMay (keeps_xFallback h)) fun _ => keeps_xPut (.inl h)
    | none => exact keeps_xGuardedCopy h

theorem keeps_xReplaceMove (h : l ≠ .user y) (hr : r ≠ .user y) : Stays (XSt.Dead y) (xReplaceMove C l r a b) := by
  refine .ite ?_ (.ite ?_ ?_)
  · exact .bind (keeps_xMove hr) fun _ => keeps_xPut (.inl h)
  · exact .bind keeps_xMay fun _ => keeps_xPut (.inl h)
  · cases C.fallback with
    | some fb => exact .bind (.onExc (keeps_xMove hr) (keeps_xFallback h)) fun _ => keeps_xPut (.inl h)
    | none => exact keeps_xGuardedCopy h

theorem keeps_xCopyAssign (h : l ≠ .user y) : Stays (XSt.Dead y) (xCopyAssign C l r) :=
  .bind keeps_xGet fun _ => .bind keeps_xGet fun _ => .ite (keeps_xAssignElem h) (keeps_xReplaceCopy h)

theorem keeps_xMoveAssign (h : l ≠ .user y) (hr : r ≠ .user y) : Stays (XSt.Dead y) (xMoveAssign C l r) :=
  .bind keeps_xGet fun _ => .bind keeps_xGet fun _ => .ite (keeps_xMoveAssignElems h hr) (keeps_xReplaceMove h hr)

theorem keeps_xWithLocal {m : Eff (XSt V) Unit} (h : Stays (XSt.Dead y) m) : Stays (XSt.Dead y) (xWithLocal x m) :=
  .bind (.onExc h (keeps_xPut (.inr rfl))) fun _ => keeps_xPut (.inr rfl)

theorem keeps_xAssignValue (h : l ≠ .user y) {m : XMode} {d : Bool} {k : TyIx} {v : V} : Stays (XSt.Dead y) (xAssignValue C l m d k v) := by
  refine .bind keeps_xGet fun _ => .ite ?_ (.bind (keeps_xConvert (x := .tmp 0) nofun) fun _ => keeps_xWithLocal (keeps_xMoveAssign h nofun))
  cases m
  · exact keeps_xAssignElem h
  · exact keeps_xMoveAssignElem h
  · exact keeps_xMoveAssignElem h

theorem keeps_xAssignGet (h : l ≠ .user y) (hr : r ≠ .user y) {rv : Bool} : Stays (XSt.Dead y) (xAssignGet C rv l r) := by
  cases rv
  · exact .bind keeps_xGet fun _ => .bind keeps_xGet fun _ => .ite (keeps_xAssignElem h)
      (.bind (keeps_xCopyConstruct nofun) fun _ => keeps_xWithLocal (keeps_xMoveAssign h nofun))
  · exact .bind keeps_xGet fun _ => .bind keeps_xGet fun _ => .ite (keeps_xMoveAssignElems h hr)
      (.bind (keeps_xMoveConstruct nofun hr) fun _ => keeps_xWithLocal (keeps_xMoveAssign h nofun))

theorem keeps_xSwap (h : l ≠ .user y) (hr : r ≠ .user y) : Stays (XSt.Dead y) (xSwap C l r) := by
  refine .bind keeps_xGet fun _ => .bind keeps_xGet fun _ => .ite (.ite ?_ ?_) ?_
  · exact .bind (.onExc keeps_xMay (keeps_xPut (.inl h))) fun _ => keeps_xPut (.inl h)
  · exact .bind (.onExc keeps_xMay (.bind (keeps_xPut (.inl hr)) fun _ => keeps_xPut (.inl h))) fun _ =>
      .bind (keeps_xPut (.inl hr)) fun _ => keeps_xPut (.inl h)
  · exact .bind (keeps_xMoveConstruct nofun hr) fun _ =>
      keeps_xWithLocal (.bind (keeps_xMoveAssign hr h) fun _ => keeps_xMoveAssign h nofun)

/-- A valid statement begins only the variables it declares. -/
theorem keeps_exact {c : Cmd V} {σ : XSt V} (hv : c.exactValid C σ = true) (hy : σ.Dead y) (h : y ∉ c.starts) :
    Stays (XSt.Dead y) (c.exact C) := by
  have ne : ∀ z, (σ.vars (.user z)).isSome = true → VarId.user z ≠ .user y := fun z hz e => by
    cases e
    rw [XSt.Dead] at hy
    rw [hy] at hz
    cases hz
  have ne' : ∀ z, y ∉ [z] → VarId.user z ≠ .user y := fun z hz e => hz (by cases e; exact List.mem_cons_self)
  cases c <;> simp only [Cmd.exactValid, Bool.and_eq_true, decide_eq_true_eq, Cmd.starts] at hv h <;> unfold Cmd.exact
  case defaultConstruct x => exact .bind keeps_xMay fun _ => keeps_xPut (.inl (ne' _ h))
  case copyConstruct x z => exact keeps_xCopyConstruct (ne' _ h)
  case moveConstruct x z => exact keeps_xMoveConstruct (ne' _ h) (ne _ hv.2)
  case constructGet rv x z =>
    cases rv
    · exact keeps_xCopyConstruct (ne' _ h)
    · exact keeps_xMoveConstruct (ne' _ h) (ne _ hv.2)
  case constructL => exact keeps_xConvert (ne' _ h)
  case constructR => exact keeps_xConvert (ne' _ h)
  case constructC => exact keeps_xConvert (ne' _ h)
  case destroy => exact keeps_xPut (.inr rfl)
  case copyAssign => exact keeps_xCopyAssign (ne _ hv.1)
  case moveAssign => exact keeps_xMoveAssign (ne _ hv.1) (ne _ hv.2)
  case assignL => exact keeps_xAssignValue (ne _ hv.1)
  case assignR => exact keeps_xAssignValue (ne _ hv.1)
  case assignC => exact keeps_xAssignValue (ne _ hv.1)
  case assignVL => exact keeps_xAssignValue (ne _ hv.1)
  case assignVR => exact keeps_xAssignValue (ne _ hv.1)
  case assignGet => exact keeps_xAssignGet (ne _ hv.1) (ne _ hv.2)
  case swap => exact keeps_xSwap (ne _ hv.1) (ne _ hv.2)
  case mutate => exact .bind keeps_xGet fun _ => keeps_xPut (.inl (ne _ hv))

end

/-! ### Programs in which all variables are declared -/

section
variable {A B T : Type} {N : Actions A B T} {inp : Nat → Except Exc Bool} {dead : Nat → T → Prop} {begins : A → List Nat}

/-- At the end only declared variables are alive. -/
theorem Eval.declared (hact : ∀ a y t, y ∉ begins a → dead y t → ∀ u, (N.act a t = .ok () u ∨ ∃ e, N.act a t = .exc e u) → dead y u)
    (htest : ∀ b y t, dead y t → ∀ u, ((∃ v, N.test b t = .ok v u) ∨ ∃ e, N.test b t = .exc e u) → dead y u)
    (hclose : ∀ x t u, N.act (N.close x) t = .ok () u → dead x u ∧ ∀ y, dead y t → dead y u)
    {p : Prog A B} {i j : Nat} {t u : T} {r : Option Exc} (h : Eval N inp p i t r j u) :
    ∀ X, p.Declared begins X → (∀ y, y ∉ X → dead y t) → ∀ y, y ∉ X → dead y u := by
  have hask : ∀ {c : Ask B} {i j : Nat} {t u : T} {v : Except Exc Bool} {X : List Nat}, Answer N inp c i t v j u →
      (∀ y, y ∉ X → dead y t) → ∀ y, y ∉ X → dead y u := by
    intro c i j t u v X h hd y hy
    cases h with
    | test h => exact htest _ y _ (hd y hy) _ (.inl ⟨_, h⟩)
    | test_exc h => exact htest _ y _ (hd y hy) _ (.inr ⟨_, h⟩)
    | input => exact hd y hy
  induction h with
  | act h => exact fun X hX hd y hy => hact _ y _ (fun hb => hy (hX y hb)) (hd y hy) _ (.inl h)
  | act_exc h => exact fun X hX hd y hy => hact _ y _ (fun hb => hy (hX y hb)) (hd y hy) _ (.inr ⟨_, h⟩)
  | skip => exact fun X _ hd => hd
  | raise => exact fun X _ hd => hd
  | seq _ _ ih1 ih2 => exact fun X hX hd => ih2 X hX.2 (ih1 X hX.1 hd)
  | seq_exc _ ih => exact fun X hX hd => ih X hX.1 hd
  | cond_true h _ ih => exact fun X hX hd => ih X hX.1 (hask h hd)
  | cond_false h _ ih => exact fun X hX hd => ih X hX.2 (hask h hd)
  | cond_exc h => exact fun X hX hd => hask h hd
  | loop_end h => exact fun X hX hd => hask h hd
  | loop_next h _ _ ih1 ih2 => exact fun X hX hd => ih2 X hX (ih1 X hX (hask h hd))
  | loop_body_exc h _ ih => exact fun X hX hd => ih X hX (hask h hd)
  | loop_exc h => exact fun X hX hd => hask h hd
  | guarded _ ih => exact fun X hX hd => ih X hX.1 hd
  | caught _ _ ih1 ih2 => exact fun X hX hd => ih2 X hX.2 (ih1 X hX.1 hd)
  | @scope x p i j t u v r _ h ih =>
    intro X hX hd y hy
    by_cases hyx : y = x
    · subst hyx; exact (hclose _ _ _ h).1
    · exact (hclose _ _ _ h).2 y (ih (x :: X) hX (fun z hz => hd z fun h => hz (List.mem_cons_of_mem _ h)) y
        fun h => (List.mem_cons.mp h).elim hyx hy)

end

end BVariant
