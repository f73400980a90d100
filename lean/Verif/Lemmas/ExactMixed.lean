/-
What the specification says about some of the variables does not depend on the others; and the model with variables of several variant types seen through
the variables of one.
-/
import Verif.Spec.ExactMixed
import Verif.Lemmas.ExactValue
import Verif.Lemmas.MixedConvert
import Verif.Props.Exact
import Verif.Props.Mixed

set_option linter.unusedSimpArgs false

namespace BVariant

section
variable {V α β : Type} {S : VarId → Prop}

open Classical in
/-- The variables in `S`, with the others as `g` says. -/
noncomputable def XSt.over (S : VarId → Prop) (g : VarId → Option (Tag V)) (σ : XSt V) : XSt V :=
  { σ with vars := fun x => if S x then σ.vars x else g x }

/-- The same for a result. -/
noncomputable def Res.over (S : VarId → Prop) (g : VarId → Option (Tag V)) : Res (XSt V) α → Res (XSt V) α
  | .ok a σ => .ok a (σ.over S g)
  | .exc e σ => .exc e (σ.over S g)
  | .fault f => .fault f

theorem XSt.over_in {g : VarId → Option (Tag V)} {σ : XSt V} {x : VarId} (h : S x) : (σ.over S g).vars x = σ.vars x := if_pos h

theorem XSt.over_out {g : VarId → Option (Tag V)} {σ : XSt V} {x : VarId} (h : ¬ S x) : (σ.over S g).vars x = g x := if_neg h

/-- The code works on the variables in `S` alone. -/
def XLocal (S : VarId → Prop) (X : Eff (XSt V) α) : Prop := ∀ g σ, X (σ.over S g) = (X σ).over S g

theorem XLocal.bind {X : Eff (XSt V) α} {Y : α → Eff (XSt V) β} (h : XLocal S X) (hY : ∀ a, XLocal S (Y a)) : XLocal S (X >>= Y) := by
  intro g σ
  simp only [Bind.bind, Eff.bind, h g σ]
  cases X σ with
  | ok a σ' => exact hY a g σ'
  | exc e σ' => rfl
  | fault f => rfl

theorem XLocal.onExc {X : Eff (XSt V) α} {Y : Eff (XSt V) Unit} (h : XLocal S X) (hY : XLocal S Y) : XLocal S (Eff.onExc X Y) := by
  intro g σ
  simp only [Eff.onExc, h g σ]
  cases X σ with
  | ok a σ' => rfl
  | exc e σ' =>
    simp only [Res.over, hY g σ']
    cases Y σ' <;> rfl
  | fault f => rfl

theorem XLocal.ite {b : Prop} [Decidable b] {X Y : Eff (XSt V) α} (h1 : XLocal S X) (h2 : XLocal S Y) : XLocal S (if b then X else Y) := by
  split
  · exact h1
  · exact h2

theorem XLocal.get {y : VarId} (h : S y) : XLocal S (xGet (V := V) y) := by
  intro g σ
  simp only [xGet, XSt.over_in h]
  cases σ.vars y <;> rfl

theorem XLocal.put {y : VarId} (h : S y) (t : Option (Tag V)) : XLocal S (xPut y t) := by
  intro g σ
  simp only [xPut, Eff.modify, Res.over, XSt.over, Res.ok.injEq, XSt.mk.injEq, and_true, true_and]
  funext x
  by_cases hx : x = y
  · subst hx; simp [upd_same, h]
  · simp [upd_ne _ _ hx]

variable {C : Cfg V} {k : TyIx} {v : V} {l r x y : VarId}

theorem XLocal.may (b : Bool) (e : ExcKind) : XLocal S (xMay C b e) := by
  intro g σ
  simp only [xMay]
  by_cases h : b = false ∧ C.throws σ.tick = true
  · rw [if_pos h, if_pos (by exact h)]; rfl
  · rw [if_neg h, if_neg (by exact h)]; rfl

theorem XLocal.new : XLocal S (xNew C) := .bind (fun _ _ => rfl) fun _ => .may _ _

theorem XLocal.move (b : Tag V) (h : S r) : XLocal S (xMove C r b) := .bind (.onExc (.may _ _) (.put h _)) fun _ => .put h _

theorem XLocal.fallback (h : S l) (fb : TyIx) : XLocal S (xFallback C l fb) := .bind (.may _ _) fun _ => .put h _

theorem XLocal.guardedCopy (h : S l) (a : Tag V) : XLocal S (xGuardedCopy C l a k v) :=
  .ite (.bind (.may _ _) fun _ => .put h _)
    (.ite (.bind (.may _ _) fun _ => .bind (.onExc (.may _ _) (.bind (.may _ _) fun _ => .put h _)) fun _ => .put h _)
      (.bind .new fun _ => .bind (.may _ _) fun _ => .bind (.onExc (.may _ _) (.put h _)) fun _ => .put h _))

theorem XLocal.copyConstruct (hx : S x) (hy : S y) : XLocal S (xCopyConstruct C x y) :=
  .bind (.get hy) fun _ => .bind (.may _ _) fun _ => .put hx _

theorem XLocal.moveConstruct (hx : S x) (hy : S y) : XLocal S (xMoveConstruct C x y) :=
  .bind (.get hy) fun _ => .bind (.move _ hy) fun _ => .put hx _

theorem XLocal.convert (hx : S x) (m : XMode) : XLocal S (xConvert C x m k v) := by
  cases m with
  | lvalue => exact .bind (.may _ _) fun _ => .put hx _
  | rvalue => exact .bind (.may _ _) fun _ => .put hx _
  | other => exact .bind (.may _ _) fun _ => .bind (.may _ _) fun _ => .put hx _

theorem XLocal.assignElem (hl : S l) (a : Tag V) : XLocal S (xAssignElem C l a v) :=
  .bind (.onExc (.may _ _) (.put hl _)) fun _ => .put hl _

theorem XLocal.moveAssignElem (hl : S l) (a : Tag V) : XLocal S (xMoveAssignElem C l a v) :=
  .bind (.onExc (.may _ _) (.put hl _)) fun _ => .put hl _

theorem XLocal.moveAssignElems (hl : S l) (hr : S r) (a b : Tag V) : XLocal S (xMoveAssignElems C l r a b) :=
  .ite (.bind (.onExc (.may _ _) (.put hl _)) fun _ => .put hl _)
    (.bind (.onExc (.may _ _) (.bind (.put hr _) fun _ => .put hl _)) fun _ => .bind (.put hr _) fun _ => .put hl _)

theorem XLocal.replaceCopy (hl : S l) (a b : Tag V) : XLocal S (xReplaceCopy C l a b) := by
  refine .ite (.bind (.may _ _) fun _ => .put hl _) (.ite (.bind (.may _ _) fun _ => .bind (.may _ _) fun _ => .put hl _) ?_)
  split
  · exact .bind (.onExc (.may _ _) (.fallback hl _)) fun _ => .put hl _
  · exact .guardedCopy hl _

theorem XLocal.replaceMove (hl : S l) (hr : S r) (a b : Tag V) : XLocal S (xReplaceMove C l r a b) := by
  refine .ite (.bind (.move _ hr) fun _ => .put hl _) (.ite (.bind (.may _ _) fun _ => .put hl _) ?_)
  split
  · exact .bind (.onExc (.move _ hr) (.fallback hl _)) fun _ => .put hl _
  · exact .guardedCopy hl _

theorem XLocal.copyAssign (hl : S l) (hr : S r) : XLocal S (xCopyAssign C l r) :=
  .bind (.get hl) fun _ => .bind (.get hr) fun _ => .ite (.assignElem hl _) (.replaceCopy hl _ _)

theorem XLocal.moveAssign (hl : S l) (hr : S r) : XLocal S (xMoveAssign C l r) :=
  .bind (.get hl) fun _ => .bind (.get hr) fun _ => .ite (.moveAssignElems hl hr _ _) (.replaceMove hl hr _ _)

theorem XLocal.withLocal (hl : S l) {X : Eff (XSt V) Unit} (h : XLocal S X) : XLocal S (xWithLocal l X) :=
  .bind (.onExc h (.put hl _)) fun _ => .put hl _

theorem XLocal.assignValue (hl : S l) (ht : S (.tmp 0)) (m : XMode) (d : Bool) : XLocal S (xAssignValue C l m d k v) := by
  refine .bind (.get hl) fun a => .ite ?_ (.bind (.convert ht _) fun _ => .withLocal ht (.moveAssign hl ht))
  split
  · exact .assignElem hl _
  · exact .moveAssignElem hl _

theorem XLocal.assignGet (hl : S l) (hr : S r) (ht : S (.tmp 0)) (rv : Bool) : XLocal S (xAssignGet C rv l r) := by
  refine .bind (.get hl) fun a => .bind (.get hr) fun b => .ite ?_ ?_
  · exact .ite (.moveAssignElems hl hr _ _) (.assignElem hl _)
  · cases rv with
    | true => exact .bind (.moveConstruct ht hr) fun _ => .withLocal ht (.moveAssign hl ht)
    | false => exact .bind (.copyConstruct ht hr) fun _ => .withLocal ht (.moveAssign hl ht)

theorem XLocal.swap (hl : S l) (hr : S r) (ht : S (.tmp 0)) : XLocal S (xSwap C l r) := by
  refine .bind (.get hl) fun a => .bind (.get hr) fun b => .ite (.ite ?_ ?_) ?_
  · exact .bind (.onExc (.may _ _) (.put hl _)) fun _ => .put hl _
  · exact .bind (.onExc (.may _ _) (.bind (.put hr _) fun _ => .put hl _)) fun _ => .bind (.put hr _) fun _ => .put hl _
  · exact .bind (.moveConstruct ht hr) fun _ => .withLocal ht (.bind (.moveAssign hr hl) fun _ => .moveAssign hl ht)

/-- Every statement works on the variables that it names, and a temporary. -/
theorem XLocal.cmd (c : Cmd V) (hn : ∀ x ∈ c.names, S (.user x)) (ht : S (.tmp 0)) : XLocal S (c.exact C) := by
  cases c with
  | defaultConstruct x => exact .bind (.may _ _) fun _ => .put (hn x (by simp [Cmd.names])) _
  | copyConstruct x y => exact .copyConstruct (hn x (by simp [Cmd.names])) (hn y (by simp [Cmd.names]))
  | moveConstruct x y => exact .moveConstruct (hn x (by simp [Cmd.names])) (hn y (by simp [Cmd.names]))
  | constructL x k v => exact XLocal.convert (hn x (by simp [Cmd.names])) .lvalue
  | constructR x k v => exact XLocal.convert (hn x (by simp [Cmd.names])) .rvalue
  | constructC x k v => exact XLocal.convert (hn x (by simp [Cmd.names])) .other
  | destroy x => exact .put (hn x (by simp [Cmd.names])) _
  | copyAssign x y => exact .copyAssign (hn x (by simp [Cmd.names])) (hn y (by simp [Cmd.names]))
  | moveAssign x y => exact .moveAssign (hn x (by simp [Cmd.names])) (hn y (by simp [Cmd.names]))
  | assignL x k v => exact XLocal.assignValue (hn x (by simp [Cmd.names])) ht .lvalue true
  | assignR x k v => exact XLocal.assignValue (hn x (by simp [Cmd.names])) ht .rvalue true
  | assignC x k v => exact XLocal.assignValue (hn x (by simp [Cmd.names])) ht .other false
  | assignVL x k v => exact XLocal.assignValue (hn x (by simp [Cmd.names])) ht .lvalue false
  | assignVR x k v => exact XLocal.assignValue (hn x (by simp [Cmd.names])) ht .rvalue false
  | swap x y => exact .swap (hn x (by simp [Cmd.names])) (hn y (by simp [Cmd.names])) ht
  | mutate x v => exact .bind (.get (hn x (by simp [Cmd.names]))) fun _ => .put (hn x (by simp [Cmd.names])) _
  | constructGet rv x y =>
    cases rv with
    | true => exact .moveConstruct (hn x (by simp [Cmd.names])) (hn y (by simp [Cmd.names]))
    | false => exact .copyConstruct (hn x (by simp [Cmd.names])) (hn y (by simp [Cmd.names]))
  | assignGet rv x y => exact .assignGet (hn x (by simp [Cmd.names])) (hn y (by simp [Cmd.names])) ht rv

end

/-! ### The variables of one type -/

section
variable {V : Type} {K : Nat → Cfg V} {ρ : Nat → Nat} {w w' wh' : World V} {vt : Nat}

/-- The variables of type `vt`, and temporaries. -/
def OfType (ρ : Nat → Nat) (vt : Nat) : VarId → Prop
  | .user n => ρ n = vt
  | .tmp _ => True

/-- What the variables of one type show, on their own and with the others. -/
theorem GoodMix.only_tagged (hg : GoodMix K ρ w) (x : VarId) (hx : OfType ρ vt x) : (w.only ρ vt).tagged x = w.tagged x := by
  cases x with
  | tmp n =>
    have h1 : w.vars (.tmp n) = none := hg.noTmp n
    rw [tagged_none h1, tagged_none (show (w.only ρ vt).vars (.tmp n) = none from h1)]
  | user n =>
    have hv : (w.only ρ vt).vars (.user n) = w.vars (.user n) := GoodMix.only_var w hx
    cases hs : w.vars (.user n) with
    | none => rw [tagged_none hs, tagged_none (hv.trans hs)]
    | some s =>
      obtain ⟨i, k, v, ho⟩ := hg.owns hs
      have h1 := hg.only_content (x := n) hx
      simp only [World.content, hv, hs, Option.bind_some, ho.rep.contentId] at h1
      simp only [World.tagged, hv, hs, Option.bind_some, ho.rep.contentId, h1]

theorem GoodMix.view_over (hg : GoodMix K ρ w) (vt : Nat) : w.view = (w.only ρ vt).view.over (OfType ρ vt) w.tagged := by
  simp only [World.view, XSt.over, XSt.mk.injEq]
  refine ⟨?_, rfl, rfl⟩
  funext x
  by_cases hx : OfType ρ vt x
  · rw [if_pos hx, hg.only_tagged x hx]
  · rw [if_neg hx]

theorem unchanged_tagged {x : VarId} (h : Unchanged w w' x) : w'.tagged x = w.tagged x := by
  simp only [World.tagged, h.1]
  cases hs : w.vars x with
  | none => rfl
  | some s =>
    cases hi : s.contentId with
    | none => simp [hi]
    | some i => simp only [Option.bind_some, hi, h.2 s i hs hi]

/-- The code shows what `X` says. -/
def Shows (m : M V Unit) (X : Eff (XSt V) Unit) (w : World V) : Prop :=
  match m w with
  | .ok _ w' => X w.view = .ok () w'.view
  | .exc e w' => X w.view = .exc e w'.view
  | .fault _ => False

theorem LikeAlone.view (hg : GoodMix K ρ w') (h : LikeAlone ρ vt w w' wh') : w'.view = wh'.view.over (OfType ρ vt) w.tagged := by
  rw [hg.view_over vt, h.only]
  simp only [XSt.over, XSt.mk.injEq, and_true]
  funext x
  by_cases hx : OfType ρ vt x
  · rw [if_pos hx, if_pos hx]
  · rw [if_neg hx, if_neg hx]
    cases x with
    | tmp n => exact absurd trivial hx
    | user n => exact unchanged_tagged (h.others n hx)

/-- A statement on variables of one type. -/
theorem shows_on (hs : Sane (K vt)) (hg : GoodMix K ρ w) {c : Cmd V} (hn : ∀ x ∈ c.names, ρ x = vt) (hv : c.valid (K vt) w = true)
    (hz : c.readsBackup w = false) : Shows (c.code (K vt)) (c.exact (K vt)) w := by
  have h := C72_statement hs (hg.only vt) c (by rw [GoodMix.valid_only w _ c hn]; exact hv) (by rw [hg.readsBackup_only c hn]; exact hz)
  have h2 := C52_other_types_do_not_matter hg hn
  have h3 := C01_statement_several_types_partial hs hg hn hv hz
  have hX := XLocal.cmd (C := K vt) c (S := OfType ρ vt) hn trivial w.tagged (w.only ρ vt).view
  rw [← hg.view_over vt] at hX
  unfold Shows
  rw [hX]
  cases he : c.code (K vt) (w.only ρ vt) with
  | ok a wh' =>
    obtain ⟨w', e1, e2⟩ := h2.1 wh' he
    rw [he] at h
    rw [e1, h]
    rcases h3 with ⟨_, w2, e3, e4, -⟩ | ⟨_, w2, e3, -⟩
    · rw [e1] at e3; cases e3
      simp only [Res.over, e2.view e4]
    · rw [e1] at e3; cases e3
  | exc e wh' =>
    obtain ⟨w', e1, e2⟩ := h2.2 e wh' he
    rw [he] at h
    rw [e1, h]
    rcases h3 with ⟨_, w2, e3, -⟩ | ⟨_, w2, e3, e4, -⟩
    · rw [e1] at e3; cases e3
    · rw [e1] at e3; cases e3
      simp only [Res.over, e2.view e4]
  | fault f => rw [he] at h; exact h.elim

end


/-! ### Lent content -/

section
variable {V : Type} {K : Nat → Cfg V} {ρ : Nat → Nat} {w : World V} {vt y : Nat} {sy : VarSt} {id : ObjId} {j k : TyIx} {v : V}

/-- The variables of type `vt`, and an object of its bounded type `k`. -/
noncomputable def World.lone (ρ : Nat → Nat) (vt : Nat) (id : ObjId) (k : TyIx) (v : V) (w : World V) : World V :=
  { w.only ρ vt with objs := upd (w.only ρ vt).objs id (some (k, v)) }

/-- The variables of type `vt`, and the variable `y`, as if it were one of them, with the object as content. -/
noncomputable def World.joined (ρ : Nat → Nat) (vt y : Nat) (id : ObjId) (k : TyIx) (v : V) (w : World V) : World V :=
  { w.lone ρ vt id k v with vars := upd (w.only ρ vt).vars (.user y) (some ⟨(k : Int), .obj id⟩) }

theorem only_vars_some {x : VarId} {s : VarSt} (h : (w.only ρ vt).vars x = some s) : OfType ρ vt x ∧ w.vars x = some s := by
  cases x with
  | tmp n => exact ⟨trivial, h⟩
  | user n =>
    by_cases hn : ρ n = vt
    · exact ⟨hn, (GoodMix.only_var w hn).symm.trans h⟩
    · rw [show (w.only ρ vt).vars (.user n) = none from if_neg hn] at h; cases h

theorem GoodMix.lone_loose (hg : GoodMix K ρ w) (hy : Owns (K (ρ y)) w (.user y) sy id j v) (hne : ρ y ≠ vt) {x : VarId} {s : VarSt}
    (h : (w.only ρ vt).vars x = some s) : s.contentId ≠ some id := by
  intro hi
  obtain ⟨h1, h2⟩ := only_vars_some h
  cases x with
  | tmp n => rw [hg.noTmp n] at h2; cases h2
  | user n =>
    have := hg.inj n y s sy id h2 hy.var hi hy.rep.contentId
    subst this
    exact hne h1

theorem GoodMix.lone_inv (hg : GoodMix K ρ w) (hy : Owns (K (ρ y)) w (.user y) sy id j v) (hne : ρ y ≠ vt) :
    Inv (K vt) [(id, k)] (w.lone ρ vt id k v) := by
  have hi := (hg.only vt).wf.inv
  have hlt : id < w.next := by
    rcases Nat.lt_or_ge id w.next with h | h
    · exact h
    · have := hg.fresh id h; rw [hy.obj] at this; cases this
  refine ⟨fun x s hx => ?_, hi.inj, ⟨fun i h => ?_, hi.fresh.flat⟩, fun p hp => ?_⟩
  · obtain ⟨i, k', v', ho⟩ := hi.rep x s hx
    refine ⟨i, k', v', hx, ho.rep, ?_⟩
    rw [← ho.obj]
    refine upd_ne _ _ ?_
    rintro rfl
    exact hg.lone_loose hy hne hx ho.rep.contentId
  · show upd (w.only ρ vt).objs id _ i = none
    rw [upd_ne _ _ (by have : w.next ≤ i := h; omega)]
    exact hi.fresh.fresh i h
  · obtain rfl := List.mem_singleton.mp hp
    exact ⟨⟨v, upd_same _ _ _⟩, fun x s hx => hg.lone_loose hy hne hx⟩

theorem GoodMix.joined_owns (hk : k < (K vt).n) : Owns (K vt) (w.joined ρ vt y id k v) (.user y) ⟨(k : Int), .obj id⟩ id k v :=
  ⟨upd_same _ _ _, Rep.inPlace id k hk, upd_same _ _ _⟩

theorem GoodMix.joined_inv (hg : GoodMix K ρ w) (hy : Owns (K (ρ y)) w (.user y) sy id j v) (hne : ρ y ≠ vt) (hk : k < (K vt).n) :
    Inv (K vt) [] (w.joined ρ vt y id k v) := by
  have hi := hg.lone_inv (k := k) hy hne
  have hv : ∀ x s, (w.joined ρ vt y id k v).vars x = some s → x = .user y ∧ s = ⟨(k : Int), .obj id⟩ ∨ x ≠ .user y ∧ (w.only ρ vt).vars x = some s := by
    intro x s hx
    by_cases hxy : x = .user y
    · subst hxy
      rw [show (w.joined ρ vt y id k v).vars (.user y) = _ from upd_same _ _ _] at hx
      cases hx
      exact .inl ⟨rfl, rfl⟩
    · rw [show (w.joined ρ vt y id k v).vars x = _ from upd_ne _ _ hxy] at hx
      exact .inr ⟨hxy, hx⟩
  refine ⟨fun x s hx => ?_, fun x z sx sz i hx hz h1 h2 => ?_, ⟨hi.fresh.fresh, hi.fresh.flat⟩, fun _ h => absurd h List.not_mem_nil⟩
  · rcases hv x s hx with ⟨rfl, rfl⟩ | ⟨-, h⟩
    · exact ⟨id, k, v, GoodMix.joined_owns hk⟩
    · obtain ⟨i, k', v', ho⟩ := hi.rep x s h
      exact ⟨i, k', v', hx, ho.rep, ho.obj⟩
  · rcases hv x sx hx with ⟨rfl, rfl⟩ | ⟨-, ha⟩ <;> rcases hv z sz hz with ⟨rfl, rfl⟩ | ⟨-, hb⟩
    · rfl
    · cases h1; exact absurd h2 (hg.lone_loose hy hne hb)
    · cases h2; exact absurd h1 (hg.lone_loose hy hne ha)
    · exact hi.inj x z sx sz i ha hb h1 h2

theorem GoodMix.lone_fr (hg : GoodMix K ρ w) (hy : Owns (K (ρ y)) w (.user y) sy id j v) (_hne : ρ y ≠ vt) :
    Fr (fun i => w.foreign ρ vt i ∧ i ≠ id) (fun x => ∃ n, x = .user n ∧ ρ n ≠ vt) (w.seenAs k id) (w.lone ρ vt id k v) (w.seenAs k id) := by
  have h := hg.fr vt
  have ho := seenAs_objs (k := k) hy.obj
  refine ⟨rfl, rfl, rfl, rfl, h.flat, fun i hi => h.old i hi.1, fun i hi => ?_, fun _ _ => rfl, fun i hi => ?_, h.varHid, fun _ _ => rfl, h.var⟩
  · exact (upd_ne _ _ hi.2).trans (h.objHid i hi.1)
  · show upd (w.only ρ vt).objs id _ i = _
    rw [ho]
    by_cases e : i = id
    · subst e; rw [upd_same, upd_same]
    · rw [upd_ne _ _ e, upd_ne _ _ e]
      exact h.obj i fun hf => hi ⟨hf, e⟩

theorem GoodMix.joined_fr (hg : GoodMix K ρ w) (_hy : Owns (K (ρ y)) w (.user y) sy id j v) (hne : ρ y ≠ vt) :
    Fr (fun _ => False) (fun x => x = .user y) (w.joined ρ vt y id k v) (w.lone ρ vt id k v) (w.joined ρ vt y id k v) := by
  refine ⟨rfl, rfl, rfl, rfl, hg.flat, fun i hi => hi.elim, fun i hi => hi.elim, fun _ _ => rfl, fun _ _ => rfl, ?_, fun _ _ => rfl, ?_⟩
  · rintro x rfl
    exact if_neg hne
  · intro x hx
    exact (upd_ne _ _ hx).symm

/-- The variables of type `vt`, and `y`. -/
def OfTypeOr (ρ : Nat → Nat) (vt y : Nat) (x : VarId) : Prop := OfType ρ vt x ∨ x = .user y

/-- What all variables show when `y` is lent. -/
theorem GoodMix.view_lent (hg : GoodMix K ρ w) (hy : Owns (K (ρ y)) w (.user y) sy id j v) (hne : ρ y ≠ vt) (hk : k < (K vt).n) :
    (⟨upd w.tagged (.user y) (some ⟨k, v, false⟩), w.tick, w.allocs⟩ : XSt V) =
      (w.joined ρ vt y id k v).view.over (OfTypeOr ρ vt y) w.tagged := by
  simp only [World.view, XSt.over, XSt.mk.injEq]
  refine ⟨?_, rfl, rfl⟩
  funext x
  by_cases hxy : x = .user y
  · subst hxy
    rw [upd_same, if_pos (.inr rfl), (GoodMix.joined_owns hk).tagged]
    simp only [VarSt.backed, Option.some.injEq, Tag.mk.injEq, true_and]
    exact (decide_eq_false (by omega)).symm
  · rw [upd_ne _ _ hxy]
    by_cases hx : OfType ρ vt x
    · rw [if_pos (.inl hx), ← hg.only_tagged x hx]
      refine ((hg.only vt).wf.inv.tagged_same (w' := w.joined ρ vt y id k v) (upd_ne _ _ hxy) fun s i k' v' ho => ?_).symm
      refine upd_ne _ _ ?_
      rintro rfl
      exact hg.lone_loose hy hne ho.var ho.rep.contentId
    · rw [if_neg (fun h => h.elim hx hxy)]

/-- The content of `y` is lent to code on variables of type `vt`. -/
theorem shows_lent (hg : GoodMix K ρ w) (hy : Owns (K (ρ y)) w (.user y) sy id j v) (hne : ρ y ≠ vt) (hk : k < (K vt).n) {m : M V Unit}
    {X X1 : Eff (XSt V) Unit}
    (hm1 : Framed (fun i => w.foreign ρ vt i ∧ i ≠ id) (fun x => ∃ n, x = .user n ∧ ρ n ≠ vt) (w.seenAs k id) m)
    (hm2 : Framed (fun _ => False) (fun x => x = .user y) (w.joined ρ vt y id k v) m)
    (hA : Conforms (K vt) [(id, k)] m X1 (w.lone ρ vt id k v)) (hB : Conforms (K vt) [] m X (w.joined ρ vt y id k v))
    (hX : XLocal (OfTypeOr ρ vt y) X) : Shows (asBounded j k id m) (xLend (.user y) ⟨j, v, sy.backed⟩ k X) w := by
  have hv := hg.view_lent hy hne hk
  have hXv := hX w.tagged (w.joined ρ vt y id k v).view
  rw [← hv] at hXv
  have hXv : X { w.view with vars := upd w.view.vars (.user y) (some ⟨k, v, false⟩) } = _ := hXv
  -- what the variables show afterwards
  have after : ∀ wh' w' wd', Inv (K vt) [(id, k)] wh' → Fr (fun i => w.foreign ρ vt i ∧ i ≠ id) (fun x => ∃ n, x = .user n ∧ ρ n ≠ vt) (w.seenAs k id) wh' w' →
      Fr (fun _ => False) (fun x => x = .user y) (w.joined ρ vt y id k v) wh' wd' →
      ∃ q, (wd'.view.over (OfTypeOr ρ vt y) w.tagged).vars (.user y) = some ⟨k, q, false⟩ ∧
        (w'.seenAs j id).view = ⟨upd (wd'.view.over (OfTypeOr ρ vt y) w.tagged).vars (.user y) (some ⟨j, q, sy.backed⟩), wd'.tick, wd'.allocs⟩ := by
    intro wh' w' wd' hi hf hd
    obtain ⟨⟨q, hq⟩, hloose⟩ := hi.loose (id, k) (List.mem_singleton.mpr rfl)
    have hw' : w'.objs id = some (k, q) := (hf.alive hq).2
    have hd' : wd'.objs id = some (k, q) := (hd.alive hq).2
    have hso := seenAs_objs (k := j) hw'
    have hdy : wd'.vars (.user y) = some ⟨(k : Int), .obj id⟩ := (hd.varOld _ rfl).trans (upd_same _ _ _)
    have hwy : w'.vars (.user y) = some sy := (hf.varOld _ ⟨y, rfl, hne⟩).trans hy.var
    have hty : wd'.tagged (.user y) = some ⟨k, q, false⟩ := by
      simp only [World.tagged, hdy, Option.bind_some, VarSt.contentId, hd', Option.map_some, Option.some.injEq, Tag.mk.injEq, true_and]
      exact decide_eq_false (by omega)
    refine ⟨q, by rw [XSt.over_in (.inr rfl)]; exact hty, ?_⟩
    simp only [World.view, XSt.mk.injEq]
    refine ⟨?_, hf.tick.symm.trans hd.tick, hf.allocs.symm.trans hd.allocs⟩
    funext x
    by_cases hxy : x = .user y
    · subst hxy
      rw [upd_same]
      simp only [World.tagged, World.seenAs, hwy, Option.bind_some, hy.rep.contentId, upd_same, hw', Option.map_some, VarSt.backed]
    · rw [upd_ne _ _ hxy]
      by_cases hx : OfType ρ vt x
      · rw [XSt.over_in (.inl hx)]
        show _ = wd'.tagged x
        have h1 : wh'.vars x = w'.vars x := hf.var x (by
          rintro ⟨n, rfl, hn⟩
          exact hn hx)
        have h2 : wh'.vars x = wd'.vars x := hd.var x hxy
        cases hs : wh'.vars x with
        | none => rw [tagged_none (h2.symm.trans hs), tagged_none (show (w'.seenAs j id).vars x = none from h1.symm.trans hs)]
        | some s =>
          obtain ⟨i, k', v', ho⟩ := hi.rep x s hs
          have hne' : i ≠ id := by
            rintro rfl
            exact hloose x s hs ho.rep.contentId
          have e1 : (w'.seenAs j id).objs i = some (k', v') := by rw [hso, upd_ne _ _ hne']; exact (hf.alive ho.obj).2
          have e2 : wd'.objs i = some (k', v') := (hd.alive ho.obj).2
          have e3 : (w'.seenAs j id).vars x = some s := h1.symm.trans hs
          simp only [World.tagged, e3, h2.symm.trans hs, Option.bind_some, ho.rep.contentId, e1, e2]
      · rw [XSt.over_out (fun h => h.elim hx hxy)]
        cases x with
        | tmp n => exact absurd trivial hx
        | user n =>
          have e3 : w'.vars (.user n) = w.vars (.user n) := hf.varOld _ ⟨n, rfl, hx⟩
          refine unchanged_tagged ⟨e3, fun s i hs hi' => ?_⟩
          have hne' : i ≠ id := by
            rintro rfl
            have := hg.inj n y s sy i hs hy.var hi' hy.rep.contentId
            subst this
            exact hxy rfl
          rw [hso, upd_ne _ _ hne', hf.objOld i ⟨⟨n, s, hx, hs, hi'⟩, hne'⟩, seenAs_objs hy.obj, upd_ne _ _ hne']
  have h1 := hm1 _ _ (hg.lone_fr hy hne)
  have h2 := hm2 _ _ (hg.joined_fr hy hne)
  unfold Conforms wp at hA hB
  unfold Shows asBounded
  cases hr : m (w.lone ρ vt id k v) with
  | fault f => rw [hr] at hA; exact hA.elim
  | ok a wh' =>
    rw [hr] at h1 h2 hA
    obtain ⟨w', e1, f1⟩ := h1
    obtain ⟨wd', e2, f2⟩ := h2
    rw [e2] at hB
    obtain ⟨q, g1, g2⟩ := after wh' w' wd' hA.2 f1 f2
    rw [e1]
    simp only [xLend, bind, Eff.bind, Eff.onExc, hXv, hB.1, Res.over, xReturn, xGet, g1, xPut, Eff.modify, g2]
    rfl
  | exc e wh' =>
    rw [hr] at h1 h2 hA
    obtain ⟨w', e1, f1⟩ := h1
    obtain ⟨wd', e2, f2⟩ := h2
    rw [e2] at hB
    obtain ⟨q, g1, g2⟩ := after wh' w' wd' hA.2 f1 f2
    rw [e1]
    simp only [xLend, bind, Eff.bind, Eff.onExc, hXv, hB.1, Res.over, xReturn, xGet, g1, xPut, Eff.modify, g2]
    rfl

end

end BVariant
