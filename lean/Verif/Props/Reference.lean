/-
C57 validity of references into variants.
-/
import Verif.Lemmas.Reference
import Verif.Props.Identity

set_option linter.unusedSimpArgs false

namespace BVariant

section
variable {V : Type} {C : Cfg V} {w w' : World V} {x : Nat} {id : ObjId} {k : TyIx} {v : V} {c : Cmd V}

theorem wp_all {α ι : Type} {m : M V α} {Q : ι → α → World V → Prop} {E : ι → Exc → World V → Prop} (i0 : ι)
    (h : ∀ i, wp m (Q i) (E i) w) : wp m (fun a w' => ∀ i, Q i a w') (fun e w' => ∀ i, E i e w') w := by
  unfold wp at *
  cases hm : m w with
  | ok a w' => simp only [hm] at h; exact h
  | exc e w' => simp only [hm] at h; exact h
  | fault f => simp only [hm] at h; exact h i0

/-- The objects of `w'` that are not new are objects of `w`, of the same type and in the same variant. -/
structure Older (C : Cfg V) (w w' : World V) : Prop where
  good : Good C w'
  next : w.next ≤ w'.next
  old : ∀ i k v', i < w.next → w'.objs i = some (k, v') →
    ∃ z v, w.objOf z = some i ∧ w'.objOf z = some i ∧ w.objs i = some (k, v)

theorem older_of_track (hg : Good C w') {kp : Nat → Bool} {rt : Bool} (h : ∀ z, Track w w' z (kp z) rt) : Older C w w' := by
  refine ⟨hg, (h 0).next, fun i k v' hi ho => ?_⟩
  obtain ⟨y, s, hy, hs⟩ := hg.wf.noLeak i (by rw [ho]; simp)
  cases y with
  | tmp n => rw [hg.noTmp n] at hy; cases hy
  | user z =>
    have hz : w'.objOf z = some i := by simp only [World.objOf, hy]; exact hs
    rcases (h z).new i k v' hz ho with ⟨h1, v, h2⟩ | h1
    · exact ⟨z, v, h1, hz, h2⟩
    · omega

theorem objOf_inj (hg : Good C w) {z : Nat} (hx : w.objOf x = some id) (hz : w.objOf z = some id) : z = x := by
  simp only [World.objOf] at hx hz
  cases h1 : w.vars (.user x) with
  | none => rw [h1] at hx; cases hx
  | some sx =>
    cases h2 : w.vars (.user z) with
    | none => rw [h2] at hz; cases hz
    | some sz =>
      rw [h1] at hx; rw [h2] at hz
      exact VarId.user.inj (hg.wf.inj _ _ _ _ _ h2 h1 hz hx)

/-- Everything about one statement. -/
theorem step_facts (hs : Sane C) (hg : Good C w) (hv : c.valid C w = true) (hz : c.readsBackup w = false) :
    wp (c.code C) (fun _ w' => Older C w w' ∧ ∀ z, Track w w' z (c.keeps w z) true)
      (fun _ w' => Older C w w' ∧ ∀ z, Track w w' z (c.keeps w z) false) w :=
  wp_mono (wp_and (wp_step hs hg c hv hz) (wp_all 0 fun z => wp_step_track hs hg c hv hz z))
    (fun _ _ h => ⟨older_of_track h.1.1 h.2, h.2⟩) (fun _ _ h => ⟨older_of_track h.1.1 h.2, h.2⟩)

/-- C57: a statement, whether it returns or throws, leaves the content object of `x` in place, alive and of the same type, if it
is one of those listed in `Cmd.keeps`. If it is not and returns, the object is dead. If it is not and throws, the object
is dead or still the content of `x`; in no case has it become part of another variant. -/
theorem C57_statement (hs : Sane C) (hg : Good C w) (hv : c.valid C w = true) (hz : c.readsBackup w = false)
    (hx : w.objOf x = some id) (ho : w.objs id = some (k, v)) :
    Ends (c.code C) w
      (fun _ w' => if c.keeps w x then Ref.into ⟨k, id⟩ w' x else w'.objs id = none)
      (fun _ w' => Ref.into ⟨k, id⟩ w' x ∨ (c.keeps w x = false ∧ w'.objs id = none)) := by
  have hlt := hg.wf.toFresh.lt ho
  refine Ends.of_wp (step_facts hs hg hv hz) ?_ ?_
  · rintro _ w' ⟨ho', ht⟩
    cases hk : c.keeps w x with
    | true => simp only [if_true]; exact (ht x).kept hk id k v hx ho
    | false =>
      simp only [Bool.false_eq_true, if_false]
      cases h1 : w'.objs id with
      | none => rfl
      | some p =>
        obtain ⟨z, _, h2, h3, -⟩ := ho'.old id p.1 p.2 hlt h1
        obtain rfl := objOf_inj hg hx h2
        exact absurd h3 ((ht z).lost hk rfl id hx)
  · rintro e w' ⟨ho', ht⟩
    cases hk : c.keeps w x with
    | true => exact Or.inl ((ht x).kept hk id k v hx ho)
    | false =>
      cases h1 : w'.objs id with
      | none => exact Or.inr ⟨rfl, rfl⟩
      | some p =>
        obtain ⟨z, v0, h2, h3, h4⟩ := ho'.old id p.1 p.2 hlt h1
        obtain rfl := objOf_inj hg hx h2
        rw [ho] at h4; cases h4
        exact Or.inl ⟨h3, p.2, h1⟩

/-! ### Programs -/

variable {s s' : RSt V} {r : Nat} {p : Ref}

theorem Good.objOf_alive (hg : Good C w) (hx : (w.vars (.user x)).isSome = true) :
    ∃ st id k v, Owns C w (.user x) st id k v ∧ w.objOf x = some id := by
  obtain ⟨st, id, k, v, h⟩ := hg.owns hx
  exact ⟨st, id, k, v, h, h.objOf⟩

/-- The world after a statement of any kind, from a state of such a program. -/
structure RStep (C : Cfg V) (s s' : RSt V) (c : RCmd V) : Prop where
  good : RGood C s'
  older : Older C s.w s'.w
  refs : ∀ r, (∀ x, c ≠ .bind r x) → s'.refs r = s.refs r

theorem Older.refl (hg : Good C w) : Older C w w := by
  refine ⟨hg, Nat.le_refl _, fun i k v hi ho => ?_⟩
  obtain ⟨y, s, hy, hs⟩ := hg.wf.noLeak i (by rw [ho]; simp)
  cases y with
  | tmp n => rw [hg.noTmp n] at hy; cases hy
  | user z => exact ⟨z, v, by simp only [World.objOf, hy]; exact hs, by simp only [World.objOf, hy]; exact hs, ho⟩

theorem Older.refs (h : Older C w w') {p : Ref} (hp : p.id < w.next ∧ ∀ k v, w.objs p.id = some (k, v) → k = p.ty) :
    p.id < w'.next ∧ ∀ k v, w'.objs p.id = some (k, v) → k = p.ty := by
  refine ⟨Nat.lt_of_lt_of_le hp.1 h.next, fun k v ho => ?_⟩
  obtain ⟨_, v0, _, _, h1⟩ := h.old _ _ _ hp.1 ho
  exact hp.2 k v0 h1

theorem readAs_alive (h : p.alive w) : ∃ v, w.objs p.id = some (p.ty, v) ∧ readAs p.ty p.id w = .ok v w := by
  obtain ⟨v, h⟩ := h
  exact ⟨v, h, by simp [readAs, h]⟩

theorem readAs_dead (h : w.objs p.id = none) : readAs p.ty p.id w = .fault .ub := by simp [readAs, h]

theorem alive_or_dead (hg : RGood C s) (hr : s.refs r = some p) : p.alive s.w ∨ s.w.objs p.id = none := by
  cases h : s.w.objs p.id with
  | none => exact Or.inr rfl
  | some q => have := (hg.refs r p hr).2 q.1 q.2 h; exact Or.inl ⟨q.2, by rw [h, ← this]⟩

/-- Storing a value into a live object. -/
theorem older_setVal (hg : Good C w) {u : V} (ho : w.objs id = some (k, v)) : Older C w (setVal k id u w) := by
  have hr : Revalue w (setVal k id u w) (upd w.objs id (some (k, u))) := ⟨rfl, rfl, rfl, rfl⟩
  refine ⟨hr.good hg (SameTypes.upd _ _ ho), Nat.le_refl _, fun i k' v' hi h => ?_⟩
  have h0 : ∃ v0, w.objs i = some (k', v0) := by
    by_cases he : i = id
    · subst he; simp only [setVal, upd_same] at h; cases h; exact ⟨v, ho⟩
    · simp only [setVal, upd_ne _ _ he] at h; exact ⟨v', h⟩
  obtain ⟨v0, h0⟩ := h0
  obtain ⟨z, _, h1, h2, h3⟩ := (Older.refl hg).old i k' v0 hi h0
  exact ⟨z, v0, h1, h2, h0⟩

theorem RGood.world (hg : RGood C s) {w' : World V} (h : Older C s.w w') (q : List (TyIx × V)) :
    RGood C { s with w := w', seen := q } :=
  ⟨h.good, fun r p hr => h.refs (hg.refs r p hr)⟩

/-- One statement outside finding F1 goes through, unless it uses a reference to a dead object. -/
theorem rStep_cases (hs : Sane C) (hg : RGood C s) (c : RCmd V)
    (ha : c.outsideF1 C s.w = true) :
    (∃ s', rStep C s c = some s' ∧ RStep C s s' c) ∨
      (rStep C s c = none ∧ ∃ r p, c.uses r ∧ s.refs r = some p ∧ s.w.objs p.id = none) := by
  have hgw := hg.good
  cases c with
  | stmt c =>
    left
    simp only [rStep]
    by_cases hv : c.valid C s.w = true
    · simp only [hv, if_true]
      have hz : c.readsBackup s.w = false := by simpa [RCmd.outsideF1, hv] using ha
      rcases wp_elim (step_facts hs hgw hv hz) with ⟨a, w', h1, h2, -⟩ | ⟨e, w', h1, h2, -⟩ <;>
      · simp only [h1]
        exact ⟨_, rfl, hg.world h2 _, h2, fun _ _ => rfl⟩
    · simp only [hv, Bool.false_eq_true, if_false]
      exact ⟨_, rfl, hg, Older.refl hgw, fun _ _ => rfl⟩
  | bind r x =>
    left
    simp only [rStep]
    by_cases hx : (s.w.vars (.user x)).isSome = true
    · obtain ⟨st, id, k, v, ho, hi⟩ := hgw.objOf_alive hx
      have : getRef C (.user x) s.w = .ok ⟨k, id⟩ s.w := applyVisitor_eq C _ ho.var ho.rep ho.obj
      simp only [hx, if_true, this]
      refine ⟨_, rfl, ⟨hgw, fun r' p' hr => ?_⟩, Older.refl hgw, fun r' hr' => upd_ne _ _ fun he => hr' x (by rw [he])⟩
      by_cases he : r' = r
      · subst he
        simp only [upd_same, Option.some.injEq] at hr
        subst hr
        exact ⟨hgw.wf.toFresh.lt ho.obj, fun k' v' h => by simp only [ho.obj, Option.some.injEq, Prod.mk.injEq] at h; exact h.1.symm⟩
      · simp only [upd_ne _ _ he] at hr; exact hg.refs r' p' hr
    · simp only [hx, Bool.false_eq_true, if_false]
      exact ⟨_, rfl, hg, Older.refl hgw, fun _ _ => rfl⟩
  | read r =>
    simp only [rStep]
    cases hr : s.refs r with
    | none => exact Or.inl ⟨_, rfl, hg, Older.refl hgw, fun _ _ => rfl⟩
    | some p =>
      rcases alive_or_dead hg hr with h | h
      · obtain ⟨v, h1, h2⟩ := readAs_alive h
        left
        simp only [Ref.read, bind, M.bind, h2, pure, M.pure]
        exact ⟨_, rfl, hg.world (Older.refl hgw) _, Older.refl hgw, fun _ _ => rfl⟩
      · right
        simp only [Ref.read, bind, M.bind, readAs_dead h, true_and]
        exact ⟨r, p, rfl, hr, h⟩
  | write r u =>
    simp only [rStep]
    cases hr : s.refs r with
    | none => exact Or.inl ⟨_, rfl, hg, Older.refl hgw, fun _ _ => rfl⟩
    | some p =>
      rcases alive_or_dead hg hr with h | h
      · obtain ⟨v, h1, h2⟩ := readAs_alive h
        left
        simp only [Ref.write, bind, M.bind, h2, M.modify]
        have hold := older_setVal (u := u) hgw h1
        exact ⟨_, rfl, hg.world hold _, hold, fun _ _ => rfl⟩
      · right
        simp only [Ref.write, bind, M.bind, readAs_dead h, true_and]
        exact ⟨r, p, rfl, hr, h⟩
  | look x =>
    left
    simp only [rStep]
    by_cases hx : (s.w.vars (.user x)).isSome = true
    · obtain ⟨st, id, k, v, ho, hi⟩ := hgw.objOf_alive hx
      have : lookAt C (.user x) s.w = .ok (k, v) s.w := by
        rw [lookAt, applyVisitor_eq C _ ho.var ho.rep ho.obj]
        simp [Ref.read, bind, M.bind, readAs, ho.obj, pure, M.pure]
      simp only [hx, if_true, this]
      exact ⟨_, rfl, hg.world (Older.refl hgw) _, Older.refl hgw, fun _ _ => rfl⟩
    · simp only [hx, Bool.false_eq_true, if_false]
      exact ⟨_, rfl, hg, Older.refl hgw, fun _ _ => rfl⟩

theorem rRun_append (pre post : List (RCmd V)) (s : RSt V) : rRun C (pre ++ post) s = (rRun C pre s).bind (rRun C post) := by
  induction pre generalizing s with
  | nil => rfl
  | cons c cs ih =>
    simp only [List.cons_append, rRun]
    cases rStep C s c with
    | none => rfl
    | some s1 => exact ih s1

theorem rStep_dead {c : RCmd V} (hu : c.uses r) (hr : s.refs r = some p) (hd : s.w.objs p.id = none) : rStep C s c = none := by
  cases c with
  | read q => obtain rfl : q = r := hu; simp only [rStep, hr, Ref.read, bind, M.bind, readAs_dead hd]
  | write q u => obtain rfl : q = r := hu; simp only [rStep, hr, Ref.write, bind, M.bind, readAs_dead hd]
  | stmt _ => exact hu.elim
  | bind _ _ => exact hu.elim
  | look _ => exact hu.elim

theorem rRun_cases (hs : Sane C) (cs : List (RCmd V)) (hg : RGood C s) (ha : rAvoids C cs s = true) :
    (∃ s', rRun C cs s = some s' ∧ RGood C s' ∧ s.w.next ≤ s'.w.next ∧
      ∀ r p, NotBound r cs → s.refs r = some p → s'.refs r = some p ∧ (s.w.objs p.id = none → s'.w.objs p.id = none)) ∨
    (rRun C cs s = none ∧ UsesDead C cs s) := by
  induction cs generalizing s with
  | nil => exact Or.inl ⟨s, rfl, hg, Nat.le_refl _, fun _ _ _ h => ⟨h, id⟩⟩
  | cons c cs ih =>
    simp only [rAvoids, Bool.and_eq_true] at ha
    rcases rStep_cases hs hg c ha.1 with ⟨s1, h1, h2⟩ | ⟨h1, r, p, h2, h3, h4⟩
    · have ha2 := ha.2
      simp only [h1] at ha2
      rcases ih h2.good ha2 with ⟨s', h3, h4, h5, h6⟩ | ⟨h3, pre, c', post, s', r, p, e1, e2, e3⟩
      · refine Or.inl ⟨s', by simp only [rRun, h1]; exact h3, h4, Nat.le_trans h2.older.next h5, fun r p hn hr => ?_⟩
        have hr1 : s1.refs r = some p := by
          rw [h2.refs r fun x he => hn x (by rw [he]; exact List.mem_cons_self), hr]
        obtain ⟨h7, h8⟩ := h6 r p (fun x hx => hn x (List.mem_cons_of_mem _ hx)) hr1
        refine ⟨h7, fun hd => h8 ?_⟩
        cases h9 : s1.w.objs p.id with
        | none => rfl
        | some q =>
          obtain ⟨_, _, _, _, h10⟩ := h2.older.old _ q.1 q.2 (hg.refs r p hr).1 h9
          rw [hd] at h10; cases h10
      · refine Or.inr ⟨by simp only [rRun, h1]; exact h3, c :: pre, c', post, s', r, p, by rw [e1]; rfl, ?_, e3⟩
        simp only [rRun, h1]; exact e2
    · exact Or.inr ⟨by simp only [rRun, h1]; rfl, [], c, cs, s, r, p, rfl, rfl, h2, h3, h4⟩

/-- C57: the only way in which a program that avoids finding F1 can go wrong is that it uses a reference to an object
that has been destroyed; if it comes to such a use it does go wrong. -/
theorem C57_fault_iff (hs : Sane C) (cs : List (RCmd V)) (hg : RGood C s) (ha : rAvoids C cs s = true) :
    rRun C cs s = none ↔ UsesDead C cs s := by
  constructor
  · intro h
    rcases rRun_cases hs cs hg ha with ⟨s', h1, -⟩ | ⟨-, h2⟩
    · rw [h] at h1; cases h1
    · exact h2
  · rintro ⟨pre, c, post, s', r, p, rfl, h1, h2, h3, h4⟩
    rw [rRun_append, h1]
    simp only [Option.bind, rRun, rStep_dead h2 h3 h4]

/-- C57: a reference to a destroyed object never becomes good again unless it is bound anew: whatever runs in between, the next
use of it is undefined. -/
theorem C57_dead_forever (hs : Sane C) {cs : List (RCmd V)} {c : RCmd V} {post : List (RCmd V)} (hg : RGood C s)
    (ha : rAvoids C cs s = true) (hr : s.refs r = some p) (hd : s.w.objs p.id = none) (hn : NotBound r cs) (hu : c.uses r) :
    rRun C (cs ++ c :: post) s = none := by
  rw [rRun_append]
  rcases rRun_cases hs cs hg ha with ⟨s', h1, -, -, h2⟩ | ⟨h1, -⟩
  · obtain ⟨h3, h4⟩ := h2 r p hn hr
    rw [h1]
    simp only [Option.bind, rRun, rStep_dead hu h3 (h4 hd)]
  · rw [h1]; rfl

/-! ### Careful programs -/

theorem getRef_eq (hg : Good C w) (hx : (w.vars (.user x)).isSome = true) :
    ∃ p : Ref, getRef C (.user x) w = .ok p w ∧ p.into w x ∧ ∃ v, w.objs p.id = some (p.ty, v) ∧ lookAt C (.user x) w = .ok (p.ty, v) w ∧
      ∀ u, (Cmd.mutate x u).code C w = .ok () (setVal p.ty p.id u w) := by
  obtain ⟨st, id, k, v, ho, hi⟩ := hg.objOf_alive hx
  refine ⟨⟨k, id⟩, applyVisitor_eq C _ ho.var ho.rep ho.obj, ⟨hi, v, ho.obj⟩, v, ho.obj, ?_, fun u => ?_⟩
  · rw [lookAt, applyVisitor_eq C _ ho.var ho.rep ho.obj]
    simp [Ref.read, bind, M.bind, readAs, ho.obj, pure, M.pure]
  · simp only [Cmd.code]
    rw [applyVisitor_eq C _ ho.var ho.rep ho.obj]
    rfl

theorem into_var (h : w.objOf x = some id) : (w.vars (.user x)).isSome = true := by
  simp only [World.objOf] at h
  cases hv : w.vars (.user x) with
  | none => rw [hv] at h; cases h
  | some _ => rfl

theorem into_unique {p q : Ref} (h : p.into w x) (h' : q.into w x) : p = q := by
  obtain ⟨h1, v1, h2⟩ := h
  obtain ⟨h3, v2, h4⟩ := h'
  rw [h1] at h3; obtain ⟨pt, pi⟩ := p; obtain ⟨qt, qi⟩ := q
  cases h3; rw [h2] at h4; cases h4; rfl

theorem into_setVal {q : Ref} {z : Nat} (h : p.alive w) (hq : q.into w z) (u : V) : q.into (setVal p.ty p.id u w) z := by
  obtain ⟨h1, v1, h2⟩ := hq
  obtain ⟨v, h⟩ := h
  refine ⟨h1, ?_⟩
  by_cases he : q.id = p.id
  · rw [he, h] at h2
    have ht : p.ty = q.ty := congrArg Prod.fst (Option.some.inj h2)
    exact ⟨u, by simp only [setVal]; rw [he, upd_same, ht]⟩
  · exact ⟨v1, by simp only [setVal]; rw [upd_ne _ _ he]; exact h2⟩

/-- One step of a careful program keeps the loans sound. -/
theorem careful_step (hs : Sane C) (hg : RGood C s) {b : Loans} (hb : b.Sound s) (c : RCmd V) (ha : b.allows C s.w c = true) :
    ∃ s', rStep C s c = some s' ∧ RGood C s' ∧ (b.after C s.w c).Sound s' := by
  have hav : c.outsideF1 C s.w = true := by
    cases c <;> first | rfl | exact ha
  have hlive : ¬ ∃ r p, c.uses r ∧ s.refs r = some p ∧ s.w.objs p.id = none := by
    rintro ⟨r, p, hu, hr, hd⟩
    have hbr : (b r).isSome = true := by
      cases c with
      | read q => obtain rfl : q = r := hu; exact ha
      | write q _ => obtain rfl : q = r := hu; exact ha
      | stmt _ => exact hu.elim
      | bind _ _ => exact hu.elim
      | look _ => exact hu.elim
    obtain ⟨x, hx⟩ := Option.isSome_iff_exists.1 hbr
    obtain ⟨p', h1, -, v, h2⟩ := hb r x hx
    rw [hr] at h1; cases h1
    rw [hd] at h2; cases h2
  rcases rStep_cases hs hg c hav with ⟨s', h1, h2⟩ | ⟨-, h⟩
  case inr => exact (hlive h).elim
  refine ⟨s', h1, h2.good, ?_⟩
  cases c with
  | stmt c =>
    intro r x hx
    simp only [Loans.after, Option.filter_eq_some_iff] at hx
    obtain ⟨p, hp, hi⟩ := hb r x hx.1
    refine ⟨p, by rw [h2.refs r (fun _ he => by cases he)]; exact hp, ?_⟩
    simp only [rStep] at h1
    by_cases hv : c.valid C s.w = true
    · simp only [hv, if_true] at h1
      have hz : c.readsBackup s.w = false := by simpa [RCmd.outsideF1, hv] using hav
      have hk : c.keeps s.w x = true := by simpa [hv] using hx.2
      obtain ⟨h3, v, h4⟩ := hi
      rcases wp_elim (step_facts hs hg.good hv hz) with ⟨a, w', h5, -, h6⟩ | ⟨e, w', h5, -, h6⟩ <;>
      · simp only [h5, Option.some.injEq] at h1
        subst h1
        exact (h6 x).kept hk p.id p.ty v h3 h4
    · simp only [hv, Bool.false_eq_true, if_false, Option.some.injEq] at h1
      subst h1; exact hi
  | bind r x =>
    simp only [Loans.allows] at ha
    obtain ⟨p, h3, h4, -⟩ := getRef_eq (C := C) hg.good ha
    simp only [rStep, ha, if_true, h3, Option.some.injEq] at h1
    subst h1
    intro r' x' hx'
    by_cases he : r' = r
    · subst he
      simp only [Loans.after, upd_same, Option.some.injEq] at hx'
      subst hx'
      exact ⟨p, by simp, h4⟩
    · simp only [Loans.after, upd_ne _ _ he] at hx'
      obtain ⟨q, hq, hi⟩ := hb r' x' hx'
      exact ⟨q, by simp only [upd_ne _ _ he]; exact hq, hi⟩
  | read r =>
    intro r' x' hx'
    obtain ⟨q, hq, hi⟩ := hb r' x' hx'
    obtain ⟨x, hx⟩ := Option.isSome_iff_exists.1 ha
    obtain ⟨p, hp, hip⟩ := hb r x hx
    obtain ⟨v, h3, h4⟩ := readAs_alive hip.2
    simp only [rStep, hp, Ref.read, bind, M.bind, h4, pure, M.pure, Option.some.injEq] at h1
    subst h1
    exact ⟨q, hq, hi⟩
  | write r u =>
    intro r' x' hx'
    obtain ⟨q, hq, hi⟩ := hb r' x' hx'
    obtain ⟨x, hx⟩ := Option.isSome_iff_exists.1 ha
    obtain ⟨p, hp, hip⟩ := hb r x hx
    obtain ⟨v, h3, h4⟩ := readAs_alive hip.2
    simp only [rStep, hp, Ref.write, bind, M.bind, h4, M.modify, Option.some.injEq] at h1
    subst h1
    exact ⟨q, hq, into_setVal hip.2 hi u⟩
  | look x =>
    intro r' x' hx'
    obtain ⟨q, hq, hi⟩ := hb r' x' hx'
    obtain ⟨p, -, -, v, -, h3, -⟩ := getRef_eq (C := C) hg.good ha
    simp only [Loans.allows] at ha
    simp only [rStep, ha, if_true, h3, Option.some.injEq] at h1
    subst h1
    exact ⟨q, hq, hi⟩

/-- C57: a program that uses a reference only while the variant it was taken from has not run through a statement that may
replace its content ends well, and its good references still refer to the contents of their variants. -/
theorem C57_careful (hs : Sane C) (cs : List (RCmd V)) (hg : RGood C s) {b : Loans} (hb : b.Sound s)
    (hc : careful C cs b s = true) : ∃ s', rRun C cs s = some s' ∧ RGood C s' := by
  induction cs generalizing s b with
  | nil => exact ⟨s, rfl, hg⟩
  | cons c cs ih =>
    simp only [careful, Bool.and_eq_true] at hc
    obtain ⟨s1, h1, h2, h3⟩ := careful_step hs hg hb c hc.1
    have hc2 := hc.2
    simp only [h1] at hc2
    obtain ⟨s', h4, h5⟩ := ih h2 h3 hc2
    exact ⟨s', by simp only [rRun, h1]; exact h4, h5⟩

/-- The statements of a step read and change only the world and what was seen, except for the references. -/
theorem rStep_norefs {c : RCmd V} (hc : ∀ q, ¬ c.uses q) (hc' : ∀ q y, c ≠ .bind q y) {s t : RSt V} (hw : t.w = s.w)
    (hq : t.seen = s.seen) (h1 : rStep C s c = some s') : rStep C t c = some { t with w := s'.w, seen := s'.seen } := by
  obtain ⟨tw, tr, tq⟩ := t
  simp only at hw hq
  subst hw; subst hq
  cases c with
  | stmt c =>
    simp only [rStep] at h1 ⊢
    split at h1
    · rename_i hv
      simp only [hv, if_true]
      cases hm : c.code C s.w with
      | ok a w' => simp only [hm, Option.some.injEq] at h1 ⊢; subst h1; rfl
      | exc e w' => simp only [hm, Option.some.injEq] at h1 ⊢; subst h1; rfl
      | fault f => simp only [hm] at h1; cases h1
    · rename_i hv
      simp only [hv, if_false, Option.some.injEq] at h1 ⊢
      subst h1; rfl
  | look x =>
    simp only [rStep] at h1 ⊢
    split at h1
    · rename_i hv
      simp only [hv, if_true]
      cases hm : lookAt C (.user x) s.w with
      | ok a w' => simp only [hm, Option.some.injEq] at h1 ⊢; subst h1; rfl
      | exc e w' => simp only [hm, Option.some.injEq] at h1 ⊢; subst h1; rfl
      | fault f => simp only [hm] at h1; cases h1
    · rename_i hv
      simp only [hv, Bool.false_eq_true, if_false, Option.some.injEq] at h1 ⊢
      subst h1; rfl
  | bind q y => exact absurd rfl (hc' q y)
  | read q => exact absurd rfl (hc q)
  | write q _ => exact absurd rfl (hc q)

theorem like_get (hs : Sane C) (cs : List (RCmd V)) (hg : RGood C s) {b d : Loans} (hb : b.Sound s)
    (hd : ∀ r x, b r = some x → d r = some x) (hc : careful C cs b s = true) {t : RSt V} (hw : t.w = s.w) (hq : t.seen = s.seen) :
    ∃ s' t', rRun C cs s = some s' ∧ rRun C (inline cs d) t = some t' ∧ t'.w = s'.w ∧ t'.seen = s'.seen := by
  induction cs generalizing s b d t with
  | nil => exact ⟨s, t, rfl, rfl, hw, hq⟩
  | cons c cs ih =>
    simp only [careful, Bool.and_eq_true] at hc
    obtain ⟨s1, h1, h2, h3⟩ := careful_step hs hg hb c hc.1
    have hc2 := hc.2
    simp only [h1] at hc2
    cases c with
    | stmt c =>
      have ht := rStep_norefs (by intro q h; exact h) (by intro q y h; cases h) hw hq h1
      obtain ⟨s', t', h4, h5, h6⟩ := ih (t := { t with w := s1.w, seen := s1.seen }) (d := d) h2 h3 (fun r x hx => by
        simp only [Loans.after, Option.filter_eq_some_iff] at hx; exact hd r x hx.1) hc2 rfl rfl
      exact ⟨s', t', by simp only [rRun, h1]; exact h4, by simp only [inline, rRun, ht]; exact h5, h6⟩
    | look x =>
      have ht := rStep_norefs (by intro q h; exact h) (by intro q y h; cases h) hw hq h1
      obtain ⟨s', t', h4, h5, h6⟩ := ih (t := { t with w := s1.w, seen := s1.seen }) (d := d) h2 h3 hd hc2 rfl rfl
      exact ⟨s', t', by simp only [rRun, h1]; exact h4, by simp only [inline, rRun, ht]; exact h5, h6⟩
    | bind r x =>
      obtain ⟨p, h7, -⟩ := getRef_eq (C := C) hg.good hc.1
      have hx := hc.1
      simp only [Loans.allows] at hx
      have h1' := h1
      simp only [rStep, hx, if_true, h7, Option.some.injEq] at h1'
      obtain ⟨s', t', h4, h5, h6⟩ := ih (t := t) (d := upd d r (some x)) h2 h3 (fun r' x' hx' => by
        by_cases he : r' = r
        · subst he; simpa [Loans.after] using hx'
        · simp only [Loans.after, upd_ne _ _ he] at hx' ⊢; exact hd r' x' hx') hc2 (by rw [hw, ← h1']) (by rw [hq, ← h1'])
      exact ⟨s', t', by simp only [rRun, h1]; exact h4, by simp only [inline]; exact h5, h6⟩
    | read r =>
      obtain ⟨x, hx⟩ := Option.isSome_iff_exists.1 hc.1
      obtain ⟨p, hp, hi⟩ := hb r x hx
      obtain ⟨p', h7, h8, v, h9, h10, -⟩ := getRef_eq (C := C) hg.good (into_var hi.1)
      obtain rfl := into_unique hi h8
      have hr : readAs p.ty p.id s.w = .ok v s.w := by simp [readAs, h9]
      have h1' := h1
      simp only [rStep, hp, Ref.read, bind, M.bind, hr, pure, M.pure, Option.some.injEq] at h1'
      obtain ⟨s', t', h4, h5, h6⟩ := ih (t := { t with w := s1.w, seen := s1.seen }) (d := d) h2 h3 hd hc2 rfl rfl
      refine ⟨s', t', by simp only [rRun, h1]; exact h4, ?_, h6⟩
      have ht : rStep C t (.look x) = some { t with w := s1.w, seen := s1.seen } := by
        simp only [rStep, hw, into_var hi.1, if_true, h10, hq, ← h1']
      simp only [inline, hd r x hx, List.cons_append, List.nil_append, rRun, ht]
      exact h5
    | write r u =>
      obtain ⟨x, hx⟩ := Option.isSome_iff_exists.1 hc.1
      obtain ⟨p, hp, hi⟩ := hb r x hx
      obtain ⟨p', h7, h8, v, h9, -, h10⟩ := getRef_eq (C := C) hg.good (into_var hi.1)
      obtain rfl := into_unique hi h8
      have hr : readAs p.ty p.id s.w = .ok v s.w := by simp [readAs, h9]
      have h1' := h1
      simp only [rStep, hp, Ref.write, bind, M.bind, hr, M.modify, Option.some.injEq] at h1'
      obtain ⟨s', t', h4, h5, h6⟩ := ih (t := { t with w := s1.w, seen := s1.seen }) (d := d) h2 h3 hd hc2 rfl rfl
      refine ⟨s', t', by simp only [rRun, h1]; exact h4, ?_, h6⟩
      have hval : (Cmd.mutate x u).valid C s.w = true := into_var hi.1
      have ht : rStep C t (.stmt (.mutate x u)) = some { t with w := s1.w, seen := s1.seen } := by
        simp only [rStep, hw, hval, if_true, h10, hq, ← h1']
      simp only [inline, hd r x hx, List.cons_append, List.nil_append, rRun, ht]
      exact h5

/-- C57: in such a program every reference is as good as a new `get` on its variant: the program in which each use of
a reference is replaced by one reads the same values and leaves the same variants. -/
theorem C57_like_get (hs : Sane C) (cs : List (RCmd V)) (hg : RGood C s) {b : Loans} (hb : b.Sound s)
    (hc : careful C cs b s = true) :
    ∃ s' t', rRun C cs s = some s' ∧ rRun C (inline cs b) s = some t' ∧ t'.w = s'.w ∧ t'.seen = s'.seen :=
  like_get hs cs hg hb (fun _ _ h => h) hc rfl rfl

/-! ### Visitors that change what they visit -/

/-- C57: `apply_visitor` with a visitor that itself runs statements on variants, the visited one included, behaves as the
statements do with a reference got from the variant before. -/
theorem C57_visitor (cs : List (RCmd V)) (hg : Good C s.w) (hx : (s.w.vars (.user x)).isSome = true) :
    visitWith C r (.user x) cs s s.w =
      match rRun C (.bind r x :: cs) s with
      | some s' => .ok s' s'.w
      | none => .fault .ub := by
  obtain ⟨st, id, k, v, ho, hi⟩ := hg.objOf_alive hx
  have hb : getRef C (.user x) s.w = .ok ⟨k, id⟩ s.w := applyVisitor_eq C _ ho.var ho.rep ho.obj
  rw [visitWith, applyVisitor_eq C _ ho.var ho.rep ho.obj]
  simp only [rRun, rStep, hx, if_true, hb, Option.bind]
  rfl

/-- C57: a careful visitor may change, assign or swap any variants, the visited one included. -/
theorem C57_visitor_careful (hs : Sane C) (cs : List (RCmd V)) (hg : RGood C s) {b : Loans} (hb : b.Sound s)
    (hx : (s.w.vars (.user x)).isSome = true) (hc : careful C (.bind r x :: cs) b s = true) :
    ∃ s', visitWith C r (.user x) cs s s.w = .ok s' s'.w ∧ RGood C s' := by
  obtain ⟨s', h1, h2⟩ := C57_careful hs _ hg hb hc
  exact ⟨s', by rw [C57_visitor cs hg.good hx, h1], h2⟩

/-- C57: a visitor that replaces the content of the variant it visits and then uses its argument is undefined, whatever runs
between the two. -/
theorem C57_visitor_dangling (hs : Sane C) {mid post : List (RCmd V)} {u : RCmd V} (hg : RGood C s)
    (hx : (s.w.vars (.user x)).isSome = true) (hv : c.valid C s.w = true) (hz : c.readsBackup s.w = false)
    (hk : c.keeps s.w x = false) {a : Unit} (hok : c.code C s.w = .ok a w')
    (hm : rAvoids C (.bind r x :: .stmt c :: mid) s = true) (hn : NotBound r mid) (hu : u.uses r) :
    visitWith C r (.user x) (.stmt c :: mid ++ u :: post) s s.w = .fault .ub := by
  rw [C57_visitor _ hg.good hx]
  obtain ⟨p, h1, h2, v, h3, -⟩ := getRef_eq (C := C) hg.good hx
  have hb : rStep C s (.bind r x) = some { s with refs := upd s.refs r (some p) } := by
    simp only [rStep, hx, if_true, h1]
  have hc : rStep C { s with refs := upd s.refs r (some p) } (.stmt c) = some { s with w := w', refs := upd s.refs r (some p) } := by
    simp only [rStep, hv, if_true, hok]
  have hg1 : RGood C { s with refs := upd s.refs r (some p) } := by
    rcases rStep_cases hs hg (.bind r x) rfl with ⟨s', h4, h5⟩ | ⟨h4, -⟩
    · rw [hb] at h4; cases h4; exact h5.good
    · rw [hb] at h4; cases h4
  have hg2 : RGood C { s with w := w', refs := upd s.refs r (some p) } := by
    rcases rStep_cases hs hg1 (.stmt c) (by simp [RCmd.outsideF1, hz]) with ⟨s', h4, h5⟩ | ⟨h4, -⟩
    · rw [hc] at h4; cases h4; exact h5.good
    · rw [hc] at h4; cases h4
  simp only [rAvoids, hb, hc, Bool.and_eq_true] at hm
  have hd : w'.objs p.id = none := by
    rcases C57_statement hs hg.good hv hz h2.1 h3 with ⟨a', w'', h4, h5⟩ | ⟨e, w'', h4, -⟩
    · rw [hok] at h4; cases h4
      simpa [hk] using h5
    · rw [hok] at h4; cases h4
  have := C57_dead_forever hs (c := u) (post := post) hg2 hm.2.2 (p := p) (r := r) (by simp) hd hn hu
  simp only [rRun, List.cons_append, hb, hc, Option.bind]
  rw [this]

end

/-! ### Examples -/

/-- A state in which no reference is bound yet. -/
def noRefs {V : Type} (w : World V) : RSt V := ⟨w, fun _ => none, []⟩

theorem noRefs_good {V : Type} {C : Cfg V} {w : World V} (hg : Good C w) : RGood C (noRefs w) :=
  ⟨hg, fun _ _ h => by cases h⟩

theorem noLoans_sound {V : Type} (s : RSt V) : Loans.Sound (fun _ => none) s := fun _ _ h => by cases h

/-- Whether the object of a variant is alive after a statement, and whether the variant still holds it. -/
def fate {V : Type} (C : Cfg V) (c : Cmd V) (x : Nat) (w : World V) : Option (Bool × Bool × Bool) :=
  match w.objOf x with
  | none => none
  | some id => match c.code C w with
    | .ok _ w' => some (true, (w'.objs id).isSome, w'.objOf x == some id)
    | .exc _ w' => some (false, (w'.objs id).isSome, w'.objOf x == some id)
    | .fault _ => none

/-- Variable 0 of `exTwo` holds 5 of type 0, variable 1 holds 7 of type 1. -/
def exPair (f : List Nat) : World Nat := stateAfter (exCfg [tThrowing, tThrowing] f) [.constructC 0 0 5, .constructC 1 1 7]

/-- C57, the cases: a statement that keeps the object and returns; one that keeps it and throws; one that replaces it; one that
throws before and one that throws after the object was destroyed. -/
example : fate (exCfg [tThrowing, tThrowing] []) (.assignC 0 0 9) 0 (exPair []) = some (true, true, true) ∧
    fate (exCfg [tThrowing, tThrowing] [4]) (.assignL 0 0 9) 0 (exPair [4]) = some (false, true, true) ∧
    fate (exCfg [tThrowing, tThrowing] []) (.copyAssign 0 1) 0 (exPair []) = some (true, false, false) ∧
    fate (exCfg [tThrowing, tThrowing] [4]) (.copyAssign 0 1) 0 (exPair [4]) = some (false, true, true) ∧
    fate (exCfg [tThrowing, tThrowing] [6]) (.copyAssign 0 1) 0 (exPair [6]) = some (false, false, false) := by decide +kernel

theorem exPair_good : Good exTwo (stateAfter exTwo [.constructC 0 0 5, .constructC 1 1 7]) :=
  stateAfter_good exTwo_sane (by decide +kernel)

/-- C57 applies to a copy assignment that throws after it has destroyed the content of the left side. -/
example := C57_statement (c := .copyAssign 0 1) (x := 0) (id := 1) (k := 0) (v := 5) exTwo_sane exPair_good
  (by decide +kernel) (by decide +kernel) (by decide +kernel) (by decide +kernel)

/-- A program that binds references, changes the variants through them, assigns to them and swaps them, and takes new references
after the statements that replaced the contents, one of which throws. -/
def exRefs : List (RCmd Nat) :=
  [.bind 0 0, .bind 1 1, .read 0, .write 0 8, .look 0, .stmt (.copyAssign 0 1), .bind 0 0, .read 0, .read 1,
   .stmt (.constructC 2 0 3), .bind 2 2, .stmt (.swap 0 2), .read 0, .read 2, .stmt (.assignC 0 1 6), .bind 0 0, .write 0 1, .read 2]

/-- C57 applies to it. -/
example := C57_careful exTwo_sane exRefs (noRefs_good exPair_good) (noLoans_sound _) (by decide +kernel)
example := C57_like_get exTwo_sane exRefs (noRefs_good exPair_good) (noLoans_sound _) (by decide +kernel)

/-- What it reads, the latest first. -/
example : (rRun exTwo exRefs (noRefs (stateAfter exTwo [.constructC 0 0 5, .constructC 1 1 7]))).map (·.seen) =
    some [(0, 8), (0, 8), (0, 3), (1, 7), (0, 8), (0, 8), (0, 5)] := by decide +kernel

/-- A program that uses the reference again after the assignment that replaced (here: moved to the heap) the content. -/
def exDangling : List (RCmd Nat) := [.bind 0 0, .stmt (.copyAssign 0 1), .stmt (.constructC 2 0 3), .read 0]

example : rRun exTwo exDangling (noRefs (stateAfter exTwo [.constructC 0 0 5, .constructC 1 1 7])) = none := by
  have : (rRun exTwo exDangling (noRefs (stateAfter exTwo [.constructC 0 0 5, .constructC 1 1 7]))).isNone = true := by
    decide +kernel
  exact Option.isNone_iff_eq_none.1 this

example := C57_fault_iff exTwo_sane exDangling (noRefs_good exPair_good) (by decide +kernel)

/-- A visitor of variable 0 that assigns another type to it and then reads its argument. -/
example : visitWith exTwo 0 (.user 0) [.stmt (.assignC 0 1 6), .look 0, .read 0] (noRefs exBackup) exBackup = .fault .ub := by
  obtain ⟨w', h⟩ := of_endsOk (m := (Cmd.assignC 0 1 6).code exTwo) (w := exBackup) (by decide +kernel)
  exact C57_visitor_dangling (c := .assignC 0 1 6) (mid := [.look 0]) (u := .read 0) (post := []) (s := noRefs exBackup)
    exTwo_sane (noRefs_good exBackup_good) (by decide +kernel) (by decide +kernel) (by decide +kernel) (by decide +kernel) h
    (by decide +kernel) (fun x hx => by simp at hx) rfl

/-- A visitor of variable 0 that assigns a value of the held type to it, swaps it with another variant of that type, and
uses its argument all along. -/
example := C57_visitor_careful (r := 0) (x := 0) exTwo_sane
  [.stmt (.assignL 0 0 6), .read 0, .stmt (.constructC 2 0 3), .stmt (.swap 0 2), .read 0, .write 0 4]
  (s := noRefs exBackup) (noRefs_good exBackup_good) (noLoans_sound _) (by decide +kernel) (by decide +kernel)

example := C57_visitor (C := exTwo) (r := 0) (x := 0) (s := noRefs exBackup) exDangling exBackup_good (by decide +kernel)

/-- A reference to an object that is dead: object 1, which `exPair` had in variable 0. -/
example : rRun exTwo ([.stmt (.constructC 2 0 3), .bind 1 2] ++ .read 0 :: [.read 1]) ⟨exBackup, fun r => if r = 0 then some ⟨0, 1⟩ else none, []⟩ =
    none :=
  C57_dead_forever (r := 0) (p := ⟨0, 1⟩) exTwo_sane
    ⟨exBackup_good, fun r p h => by
      have h' : (if r = 0 then some (⟨0, 1⟩ : Ref) else none) = some p := h
      split at h'
      · cases h'
        exact ⟨by decide +kernel, fun k v hk => by
          have : exBackup.objs 1 = none := by decide +kernel
          rw [show exBackup.objs 1 = some (k, v) from hk] at this
          cases this⟩
      · cases h'⟩
    (by decide +kernel) rfl (by decide +kernel) (fun x hx => by simp at hx) rfl

end BVariant
