/-
Effect of assignment between variants, as weakest preconditions.
-/
import Verif.Lemmas.Replace
import Verif.Lemmas.Exec
import Verif.Props.Fallback
import Verif.Spec.Program
import Verif.Spec.Broken

set_option linter.unusedSimpArgs false

namespace BVariant

/-- Closes the fields of a `Replace`, `Create` or `Remove` statement about an explicitly given world. -/
macro "frame_tac" : tactic => `(tactic| (constructor <;> (try simp only [upd]) <;> grind [Rep]))

section
variable {V : Type} {C : Cfg V} {w : World V}

/-- Variant `x` with state `s` owns the live object `id` of bounded type `k` and value `v`. -/
structure Owns (C : Cfg V) (w : World V) (x : VarId) (s : VarSt) (id : ObjId) (k : TyIx) (v : V) : Prop where
  var : w.vars x = some s
  rep : Rep C s id k
  obj : w.objs id = some (k, v)

/-- Object identities from `next` on are unused, and no object is nested in another. -/
structure Fresh (w : World V) : Prop where
  fresh : ∀ i, w.next ≤ i → w.objs i = none
  flat : ∀ i, w.sub i = []

theorem WF.toFresh (h : WF C w) : Fresh w := ⟨h.fresh, h.flat⟩

theorem Fresh.lt (h : Fresh w) {i : ObjId} {p : TyIx × V} (hi : w.objs i = some p) : i < w.next := by
  rcases Nat.lt_or_ge i w.next with h1 | h1
  · exact h1
  · rw [h.fresh i h1] at hi; cases hi

theorem wp_destroyContent {Q : Unit → World V → Prop} {E : Exc → World V → Prop} {x : VarId} {s : VarSt}
    {id : ObjId} {k : TyIx} {v : V} (h : Owns C w x s id k v) (hf : ∀ i, w.sub i = []) :
    wp (destroyContent C x) Q E w =
      Q () { w with objs := upd w.objs id none, vars := upd w.vars x (some { s with slot := .raw }) } := by
  obtain ⟨hx, hr, ho⟩ := h
  rw [destroyContent, wp_noexceptIf]
  cases hr with
  | inPlace _ _ hk =>
    rw [wp_iav_inPlace C hx hk ho]
    simp only [destroyer, wp_bind, wpx_destroyObj hf, wpx_setSlot, ho, hx, if_true]
  | inBackup _ _ hk hb =>
    rw [wp_iav_backup C hx hk hb]
    simp only [destroyer, wp_bind, holderDtor, wpx_destroyObj hf, wpx_setSlot, ho, hx, if_true]

theorem wp_destroyContent_intro {Q : Unit → World V → Prop} {E : Exc → World V → Prop} {x : VarId} {s : VarSt}
    {id : ObjId} {k : TyIx} {v : V} (h : Owns C w x s id k v) (hf : ∀ i, w.sub i = [])
    (hq : Q () { w with objs := upd w.objs id none, vars := upd w.vars x (some { s with slot := .raw }) }) :
    wp (destroyContent C x) Q E w := by
  rw [wp_destroyContent h hf]; exact hq

theorem BlankOk.fallback_spec (hb : BlankOk C) {fb : TyIx} (h : C.fallback = some fb) :
    fb < C.n ∧ (C.tr fb).nothrowDefault = true := by
  obtain ⟨t, ht, hd⟩ := C05_fallback_nothrow _ _ _ hb h
  refine ⟨(List.getElem?_eq_some_iff.mp ht).1, ?_⟩
  simp only [Cfg.tr, List.getD, ht, Option.getD]
  exact hd

theorem Sane.fallback_spec (hs : Sane C) {fb : TyIx} (h : C.fallback = some fb) :
    fb < C.n ∧ (C.tr fb).nothrowDefault = true := BlankOk.fallback_spec hs.blank h

theorem wp_constructFallback {Q : Unit → World V → Prop} {E : Exc → World V → Prop} {x : VarId} {s : VarSt}
    {fb : TyIx} (hb : BlankOk C) (hc : C.fallbackCtor = .element ∨ (C.tr fb).trivialDefault = true) (hx : w.vars x = some s)
    (hfb : C.fallback = some fb) :
    wp (constructFallback C x) Q E w =
      Q () { w with objs := upd w.objs w.next (some (fb, C.ops.defaultInit fb)), next := w.next + 1,
                    tick := w.tick + 1, vars := upd w.vars x (some ⟨(fb : Int), .obj w.next⟩) } := by
  have hnt := (hb.fallback_spec hfb).2
  rw [constructFallback, wp_noexceptIf]
  simp only [hfb, hc, if_true, wp_bind, wp_defaultCtor, hnt, Bool.true_eq_false, false_and, if_false,
    wpx_setSlot, wpx_setWhich, hx, upd_same, indicateWhich, upd_upd_same]

/-- Outside finding F10 the fallback object is built whenever it is to be. -/
theorem Sane.built (hs : Sane C) {fb kl kr : TyIx} (hfb : C.fallback = some fb) (hk : kl < C.n) (hkr : kr < C.n) (hkk : kl ≠ kr)
    (hm : (C.tr kr).nothrowMove = false) (hc : (C.tr kr).nothrowCopy = false) :
    C.fallbackCtor = .element ∨ (C.tr fb).trivialDefault = true := by
  rcases hs.fallback fb hfb with h | h | h
  · exact .inl h
  · exact .inr h
  · rcases h kl kr hk hkr hkk with h | h
    · rw [hm] at h; cases h
    · rw [hc] at h; cases h

/-- Without `Sane` no object may result (finding F10), but nothing goes wrong at this point. -/
theorem wp_constructFallback_gen {Q : Unit → World V → Prop} {E : Exc → World V → Prop} {x : VarId} {s : VarSt}
    {fb : TyIx} (hb : BlankOk C) (hx : w.vars x = some s) (hfb : C.fallback = some fb)
    (h1 : Q () { w with objs := upd w.objs w.next (some (fb, C.ops.defaultInit fb)), next := w.next + 1,
                        tick := w.tick + 1, vars := upd w.vars x (some ⟨(fb : Int), .obj w.next⟩) })
    (h2 : ¬ (C.fallbackCtor = .element ∨ (C.tr fb).trivialDefault = true) → Q () { w with vars := upd w.vars x (some ⟨(fb : Int), .raw⟩) }) :
    wp (constructFallback C x) Q E w := by
  have hnt := (hb.fallback_spec hfb).2
  rw [constructFallback, wp_noexceptIf]
  simp only [hfb]
  by_cases hc : C.fallbackCtor = .element ∨ (C.tr fb).trivialDefault = true
  · simp only [hc, if_true, wp_bind, wp_defaultCtor, hnt, Bool.true_eq_false, false_and, if_false,
      wpx_setSlot, wpx_setWhich, hx, upd_same, indicateWhich, upd_upd_same]
    exact h1
  · simp only [hc, if_false, wp_bind, wpx_setSlot, wpx_setWhich, hx, upd_same, indicateWhich, upd_upd_same]
    exact h2 hc

/-- How many heap allocations a type-changing assignment makes: none, or one if neither the held type nor the
assigned type can be copied or moved without throwing. -/
def AllocBound (C : Cfg V) (w w' : World V) (kl kr : TyIx) : Prop :=
  w'.allocs = w.allocs ∨ (C.mayBackup kl ∧ C.mayBackup kr ∧ w'.allocs = w.allocs + 1)

/-- The value a copy assignment that changes the type gives to the target. -/
def copyAssignVal (C : Cfg V) (k : TyIx) (v : V) : V :=
  if (C.tr k).nothrowCopy then C.ops.copy k v
  else if (C.tr k).nothrowMove then C.ops.move k (C.ops.copy k v)
  else C.ops.copy k v

/-- The states in which a failed type-changing assignment may leave its target, which was `s` owning
object `id` of type `k` and value `v`, when content of type `kr` was to be assigned. -/
inductive Leftover (C : Cfg V) (s : VarSt) (id : ObjId) (k : TyIx) (v : V) (kr : TyIx) : VarSt → ObjId → TyIx → V → Prop
  /-- not touched -/
  | same : Leftover C s id k v kr s id k v
  /-- moved to a local and back -/
  | restored (id' : ObjId) : id' ≠ id → C.hasFallback = false → (C.tr k).nothrowMove = true →
      Leftover C s id k v kr ⟨(k : Int), .obj id'⟩ id' k (C.ops.move k (C.ops.move k v))
  /-- a copy on the heap -/
  | backup (id' : ObjId) : id' ≠ id → C.mayBackup k → C.mayBackup kr → s = ⟨(k : Int), .obj id⟩ →
      Leftover C s id k v kr ⟨-((k : Int) + 1), .holder k (some id')⟩ id' k (C.ops.copy k v)
  /-- an object of the fallback type -/
  | fallback (fb : TyIx) (id' : ObjId) : id' ≠ id → C.fallback = some fb → (C.tr kr).nothrowMove = false →
      (C.tr kr).nothrowCopy = false →
      Leftover C s id k v kr ⟨(fb : Int), .obj id'⟩ id' fb (C.ops.defaultInit fb)

/-- Effect of a type-changing assignment that succeeds. -/
def AssignOk (C : Cfg V) (w w' : World V) (base : ObjId → Option (TyIx × V)) (l : VarId) (old : ObjId)
    (k : TyIx) (v : V) : Prop :=
  ∃ id', w.next ≤ id' ∧ Replace C w w' base l old ⟨(k : Int), .obj id'⟩ id' k v

/-- Effect of a type-changing assignment that throws `e`. -/
def AssignExc (C : Cfg V) (w w' : World V) (base : ObjId → Option (TyIx × V)) (l : VarId) (s : VarSt)
    (old : ObjId) (k : TyIx) (v : V) (kr : TyIx) (e : Exc) : Prop :=
  Thrown C w w' e ∧
    ∃ s' id' k' v', Replace C w w' base l old s' id' k' v' ∧ Leftover C s old k v kr s' id' k' v'

/-- Effect of a type-changing assignment that throws `e`, in any configuration: nothing but the target and
what `base` says has changed, and the target is as after a failure in a sane configuration, or broken. -/
structure AssignExc0 (C : Cfg V) (w w' : World V) (base : ObjId → Option (TyIx × V)) (l : VarId) (s : VarSt)
    (old : ObjId) (k : TyIx) (v : V) (kr : TyIx) (e : Exc) : Prop where
  thrown : Thrown C w w' e
  vars : ∀ y, y ≠ l → w'.vars y = w.vars y
  keep : ∀ i, i < w.next → i ≠ old → w'.objs i = base i
  next : w.next ≤ w'.next
  sub : w'.sub = w.sub
  left : w'.broken C l ∨ ∃ s' id' k' v', Replace C w w' base l old s' id' k' v' ∧ Leftover C s old k v kr s' id' k' v'

theorem AssignExc.toExc0 {w' : World V} {base : ObjId → Option (TyIx × V)} {l : VarId} {s : VarSt}
    {old : ObjId} {k : TyIx} {v : V} {kr : TyIx} {e : Exc} (h : AssignExc C w w' base l s old k v kr e) :
    AssignExc0 C w w' base l s old k v kr e := by
  obtain ⟨hth, _, _, _, _, hr, hlo⟩ := h
  exact ⟨hth, fun y hy => by rw [hr.vars]; simp [hy], hr.keep, hr.next, hr.sub, .inr ⟨_, _, _, _, hr, hlo⟩⟩

theorem Sane.mayBackup (hs : Sane C) {kl kr : TyIx} (hmbr : C.mayBackup kr) (hk : kl < C.n) (hkr : kr < C.n)
    (hm : (C.tr kl).nothrowMove = false) : C.mayBackup kl := by
  refine ⟨hmbr.1, hm, ?_⟩
  cases hc : (C.tr kl).nothrowCopy with
  | false => rfl
  | true => have := hs.copyMove kl kr hk hkr hmbr hc; simp [hm] at this

section strategies
variable {l : VarId} {sl : VarSt} {idl : ObjId} {kl : TyIx} {vl : V} {kr : TyIx} {idr : ObjId} {vr : V}

private theorem both {p q : Prop} (h : p) (f : p → q) : q := f h

/-- Strategy 1: nothrow copy. -/
theorem wp_assignImpl_nothrowCopy (b1 b2 : Bool) (hl : Owns C w l sl idl kl vl) (hro : w.objs idr = some (kr, vr))
    (hne : idl ≠ idr) (hf : Fresh w) (hkr : kr < C.n) (hnt : (C.tr kr).nothrowCopy = true) :
    wp (assignImpl C l kr (.obj kr idr) true b1 b2)
      (fun _ w' => AssignOk C w w' w.objs l idl kr (C.ops.copy kr vr) ∧ w'.allocs = w.allocs)
      (fun _ _ => False) w := by
  have hlt1 := hf.lt hl.obj
  have hlt2 := hf.lt hro
  simp only [assignImpl, if_true, wp_noexceptIf, wp_bind]
  rw [wp_destroyContent hl hf.flat]
  simp only [copyRhsInto, copyRhs, wp_bind, wpx_copyCtor, wp_pure, wpx_setSlot, wpx_setWhich, upd_same,
    hnt, Bool.true_eq_false, false_and, if_false, upd_ne _ _ hne.symm, hro, if_true, upd_upd_same, indicateWhich]
  refine ⟨⟨w.next, Nat.le_refl _, ?_⟩, trivial⟩
  have hfr := hf.fresh
  frame_tac

/-- Strategy 2: nothrow move, through a temporary copy. -/
theorem wp_assignImpl_nothrowMove (b2 : Bool) (hl : Owns C w l sl idl kl vl) (hro : w.objs idr = some (kr, vr))
    (hf : Fresh w) (hkr : kr < C.n) (hnt : (C.tr kr).nothrowMove = true) :
    wp (assignImpl C l kr (.obj kr idr) false true b2)
      (fun _ w' => AssignOk C w w' w.objs l idl kr (C.ops.move kr (C.ops.copy kr vr)) ∧ w'.allocs = w.allocs)
      (fun e w' => e.kind = .copyCtor kr ∧ AssignExc C w w' w.objs l sl idl kl vl kr e ∧
        w'.vars = w.vars ∧ w'.objs = w.objs ∧ w'.allocs = w.allocs) w := by
  have hlt1 := hf.lt hl.obj
  have hlt2 := hf.lt hro
  obtain ⟨hx, hr, ho⟩ := hl
  have hfr := hf.fresh
  simp only [assignImpl, if_true, Bool.false_eq_true, if_false, wp_bind, wpx_copyCtor, hro]
  split
  · rename_i hth
    refine ⟨by trivial, ⟨⟨by simp, by simp, hth.2⟩, sl, idl, kl, vl, ?_, .same⟩, by trivial, by trivial, by trivial⟩
    frame_tac
  · rw [wp_withLocal]
    simp only [wp_bind]
    refine wp_destroyContent_intro (s := sl) (k := kl) (v := vl) ⟨hx, hr, by simp only [upd]; grind⟩ hf.flat ?_
    have h1 : w.next ≠ idl := by omega
    simp only [wpx_moveCtor, upd_same, upd_ne _ _ h1, hnt, Bool.true_eq_false, false_and, if_false, if_true,
      wpx_setSlot, wpx_setWhich, upd_upd_same, indicateWhich]
    have h2 : w.next ≠ w.next + 1 := by omega
    have hfl := hf.flat
    simp only [wpx_destroyObj, hfl, implies_true, upd_ne _ _ h2, upd_same, if_true]
    refine ⟨⟨w.next + 1, by omega, ?_⟩, trivial⟩
    frame_tac

/-- Strategy 3: fallback. -/
theorem wp_assignImpl_fallback (hb : BlankOk C) {fb : TyIx} (hfb : C.fallback = some fb)
    (hl : Owns C w l sl idl kl vl) (hro : w.objs idr = some (kr, vr))
    (hne : idl ≠ idr) (hf : Fresh w) (hkr : kr < C.n) (hkk : kl ≠ kr) (hm : (C.tr kr).nothrowMove = false)
    (hc : (C.tr kr).nothrowCopy = false) :
    wp (assignImpl C l kr (.obj kr idr) false false true)
      (fun _ w' => AssignOk C w w' w.objs l idl kr (C.ops.copy kr vr) ∧ w'.allocs = w.allocs)
      (fun e w' => e.kind = .copyCtor kr ∧ AssignExc0 C w w' w.objs l sl idl kl vl kr e ∧
        (Sane C → AssignExc C w w' w.objs l sl idl kl vl kr e) ∧ w'.allocs = w.allocs) w := by
  have hlt1 := hf.lt hl.obj
  have hlt2 := hf.lt hro
  have hfbn := (hb.fallback_spec hfb).1
  have hfr := hf.fresh
  simp only [assignImpl, if_true, Bool.false_eq_true, if_false, wp_bind]
  rw [wp_destroyContent hl hf.flat]
  simp only [wp_onExc, copyRhsInto, copyRhs, wp_bind, wpx_copyCtor, wp_pure, wpx_setSlot, wpx_setWhich, upd_same,
    upd_ne _ _ hne.symm, hro, if_true, upd_upd_same, indicateWhich]
  split
  · rename_i hth
    refine wp_constructFallback_gen (s := { sl with slot := .raw }) hb (by simp) hfb ?_
      (fun hns => ⟨by trivial, ⟨⟨by simp, by simp, hth.2⟩, fun y hy => by simp [hy], fun i _ hi => by simp [hi],
        by simp, rfl, .inl ⟨_, upd_same _ _ _, .inPlace _ _ hfbn (by simp)⟩⟩, fun hs => absurd (hs.built hfb hl.rep.lt hkr hkk hm hc) hns, by trivial⟩)
    refine both ?_ fun hex => ⟨by trivial, hex.toExc0, fun _ => hex, by trivial⟩
    refine ⟨⟨by simp, by simp; omega, hth.2⟩, ⟨fb, .obj w.next⟩, w.next, fb, C.ops.defaultInit fb, ?_,
      .fallback _ _ (by omega) hfb hm hc⟩
    obtain ⟨hx, hr, ho⟩ := hl
    frame_tac
  · refine ⟨⟨w.next, by omega, ?_⟩, trivial⟩
    obtain ⟨hx, hr, ho⟩ := hl
    frame_tac

/-- Strategy 4: roll back with a local or a heap copy of the old content. -/
theorem wp_assignImpl_backup (hmbr : C.mayBackup kr)
    (hl : Owns C w l sl idl kl vl) (hro : w.objs idr = some (kr, vr))
    (hne : idl ≠ idr) (hf : Fresh w) (hkr : kr < C.n) :
    wp (assignImpl C l kr (.obj kr idr) false false false)
      (fun _ w' => AssignOk C w w' w.objs l idl kr (C.ops.copy kr vr) ∧
        (Sane C → AllocBound C w w' kl kr))
      (fun e w' => (e.kind = .copyCtor kr ∨ (e.kind = .copyCtor kl ∨ e.kind = .badAlloc) ∧
          (C.hasFallback = false ∧ (C.tr kl).nothrowMove = false) ∧ w'.vars = w.vars ∧ w'.objs = w.objs) ∧
        AssignExc0 C w w' w.objs l sl idl kl vl kr e ∧
        (Sane C → AssignExc C w w' w.objs l sl idl kl vl kr e) ∧ (Sane C → AllocBound C w w' kl kr)) w := by
  have hlt1 := hf.lt hl.obj
  have hlt2 := hf.lt hro
  have hfr := hf.fresh
  have hfl := hf.flat
  have hnf := hmbr.1
  have n1 : w.next ≠ idl := by omega
  have n2 : w.next ≠ idr := by omega
  have n3 : idr ≠ w.next := by omega
  have n4 : idl ≠ w.next := by omega
  have n5 : w.next ≠ w.next + 1 := by omega
  obtain ⟨hx, hr, ho⟩ := hl
  have hmb : Sane C → (C.tr kl).nothrowMove = false → C.mayBackup kl := fun hs => hs.mayBackup hmbr hr.lt hkr
  simp only [assignImpl, Bool.false_eq_true, if_false]
  cases hr with
  | inPlace _ _ hk =>
    rw [wp_iav_inPlace C hx hk ho]
    simp only [backupAssigner]
    by_cases hm : (C.tr kl).nothrowMove = true
    · simp only [hm, if_true, wp_bind, wpx_moveCtor, ho, Bool.true_eq_false, false_and, if_false, wp_withLocal,
        wpx_destroyObj, hfl, implies_true, upd_ne _ _ n4, upd_same, wp_onExc, copyRhsInto, copyRhs, wpx_copyCtor,
        upd_ne _ _ n3, upd_ne _ _ hne.symm, hro, wp_pure, wpx_setSlot, wpx_setWhich, hx, upd_upd_same,
        upd_ne _ _ n1, indicateWhich, upd_ne _ _ n5]
      split
      · rename_i hth
        refine both ?_ fun hex => ⟨Or.inl (by trivial), hex.toExc0, fun _ => hex, fun _ => Or.inl (by trivial)⟩
        refine ⟨⟨by simp, by simp, hth.2⟩, _, _, _, _, ?_, .restored (w.next + 1) (by omega) hnf hm⟩
        frame_tac
      · refine ⟨⟨w.next + 1, by omega, ?_⟩, fun _ => Or.inl (by trivial)⟩
        frame_tac
    · have hm' : (C.tr kl).nothrowMove = false := by simpa using hm
      simp only [hm', Bool.false_eq_true, if_false, wp_bind, wpx_heapCopy, ho, if_true]
      split
      · rename_i hth
        refine both ?_ fun hex =>
          ⟨Or.inr ⟨Or.inr (by trivial), ⟨hnf, by first | exact hm' | trivial⟩, by trivial, by trivial⟩,
            hex.toExc0, fun _ => hex, fun hs => Or.inr ⟨hmb hs hm', hmbr, by trivial⟩⟩
        refine ⟨⟨by simp, by simp, hth⟩, _, _, _, _, ?_, .same⟩
        frame_tac
      split
      · rename_i hth
        refine both ?_ fun hex =>
          ⟨Or.inr ⟨Or.inl (by trivial), ⟨hnf, by first | exact hm' | trivial⟩, by trivial, by trivial⟩,
            hex.toExc0, fun _ => hex, fun hs => Or.inr ⟨hmb hs hm', hmbr, by trivial⟩⟩
        refine ⟨⟨by simp, by simp, hth.2⟩, _, _, _, _, ?_, .same⟩
        frame_tac
      simp only [wpx_destroyObj, hfl, implies_true, upd_ne _ _ n4, upd_same, wp_onExc, copyRhsInto, copyRhs,
        wpx_copyCtor, upd_ne _ _ n3, upd_ne _ _ hne.symm, hro, wp_pure, wpx_setSlot, wpx_setWhich, hx, upd_upd_same,
        upd_ne _ _ n1, indicateWhich, upd_ne _ _ n5, wp_bind, ho, if_true, wpx_which, whichOf_natCast,
        indicateBackupWhich]
      split
      · rename_i hth
        refine ⟨Or.inl (by trivial), ⟨⟨by simp; omega, by simp, hth.2⟩, fun y hy => by simp [hy],
            fun i hi hn => ?_, by simp, rfl, ?_⟩, fun hs => ⟨⟨by simp; omega, by simp, hth.2⟩, _, _, _, _, ?_,
          .backup w.next n1 (hmb hs hm') hmbr rfl⟩, fun hs => Or.inr ⟨hmb hs hm', hmbr, by trivial⟩⟩
        · have : i ≠ w.next := by omega
          simp [hn, this]
        · cases hc : (C.tr kl).nothrowCopy with
          | true => exact .inl ⟨_, upd_same _ _ _, .inBackup kl _ hk (by simp [neverUsesBackup, hc]) (by simp)⟩
          | false =>
            have hmb' : C.mayBackup kl := ⟨hnf, hm', hc⟩
            refine .inr ⟨⟨-((kl : Int) + 1), .holder kl (some w.next)⟩, w.next, kl, C.ops.copy kl vl, ?_, .backup w.next n1 hmb' hmbr rfl⟩
            frame_tac
        have hmb' := hmb hs hm'
        frame_tac
      · refine ⟨⟨w.next + 1, by omega, ?_⟩, fun hs => Or.inr ⟨hmb hs hm', hmbr, by trivial⟩⟩
        frame_tac
  | inBackup _ _ hk hb =>
    rw [wp_iav_backup C hx hk hb]
    simp only [backupAssigner, holderDtor, wp_bind, wp_pure, wpx_setSlot, hx, upd_upd_same, upd_same, wp_onExc,
      copyRhsInto, copyRhs, wpx_copyCtor, hro, if_true, wpx_setWhich, indicateWhich, wpx_destroyObj, hfl,
      implies_true, upd_ne _ _ n4, ho]
    split
    · rename_i hth
      refine both ?_ fun hex => ⟨Or.inl (by trivial), hex.toExc0, fun _ => hex, fun _ => Or.inl (by trivial)⟩
      refine ⟨⟨by simp, by simp, hth.2⟩, _, _, _, _, ?_, .same⟩
      frame_tac
    · refine ⟨⟨w.next, by omega, ?_⟩, fun _ => Or.inl (by trivial)⟩
      frame_tac

/-- What an exception of a type-changing copy assignment may be, and when the target is not touched. -/
def CopyExcKind (C : Cfg V) (w w' : World V) (kl kr : TyIx) (e : Exc) : Prop :=
  e.kind = .copyCtor kr ∨
    ((e.kind = .copyCtor kl ∨ e.kind = .badAlloc) ∧ C.mayBackup kl ∧ C.mayBackup kr ∧
      w'.vars = w.vars ∧ w'.objs = w.objs)

/-- What an exception of a type-changing copy assignment may be, in any configuration. -/
def CopyExcKind0 (C : Cfg V) (w w' : World V) (kl kr : TyIx) (e : Exc) : Prop :=
  e.kind = .copyCtor kr ∨
    ((e.kind = .copyCtor kl ∨ e.kind = .badAlloc) ∧ (C.hasFallback = false ∧ (C.tr kl).nothrowMove = false) ∧
      C.mayBackup kr ∧ w'.vars = w.vars ∧ w'.objs = w.objs)

/-- The type-changing copy assignment, in any configuration. -/
theorem wp_assignerVisit_gen (hb : BlankOk C) (hl : Owns C w l sl idl kl vl) (hro : w.objs idr = some (kr, vr))
    (hne : idl ≠ idr) (hf : Fresh w) (hkr : kr < C.n) (hkk : C.hasFallback = true → kl ≠ kr) :
    wp (assignerVisit C l kr (.obj kr idr))
      (fun _ w' => AssignOk C w w' w.objs l idl kr (copyAssignVal C kr vr) ∧
        (Sane C → AllocBound C w w' kl kr))
      (fun e w' => CopyExcKind0 C w w' kl kr e ∧ AssignExc0 C w w' w.objs l sl idl kl vl kr e ∧ (Sane C → CopyExcKind C w w' kl kr e ∧
        AssignExc C w w' w.objs l sl idl kl vl kr e ∧ AllocBound C w w' kl kr)) w := by
  simp only [assignerVisit, RhsContent.nothrowCopy, RhsContent.nothrowMove]
  cases hc : (C.tr kr).nothrowCopy with
  | true =>
    refine wp_mono (wp_assignImpl_nothrowCopy _ _ hl hro hne hf hkr hc) ?_ ?_
    · intro _ w' h; exact ⟨by simpa [copyAssignVal, hc] using h.1, fun _ => Or.inl h.2⟩
    · intro _ _ h; exact h.elim
  | false =>
    cases hm : (C.tr kr).nothrowMove with
    | true =>
      refine wp_mono (wp_assignImpl_nothrowMove _ hl hro hf hkr hm) ?_ ?_
      · intro _ w' h; exact ⟨by simpa [copyAssignVal, hc, hm] using h.1, fun _ => Or.inl h.2⟩
      · intro _ _ h; exact ⟨Or.inl h.1, h.2.1.toExc0, fun _ => ⟨Or.inl h.1, h.2.1, Or.inl h.2.2.2.2⟩⟩
    | false =>
      cases hfb : C.hasFallback with
      | true =>
        obtain ⟨fb, hfb'⟩ := Option.isSome_iff_exists.mp hfb
        refine wp_mono (wp_assignImpl_fallback hb hfb' hl hro hne hf hkr (hkk hfb) hm hc) ?_ ?_
        · intro _ w' h; exact ⟨by simpa [copyAssignVal, hc, hm] using h.1, fun _ => Or.inl h.2⟩
        · intro _ _ h; exact ⟨Or.inl h.1, h.2.1, fun hs => ⟨Or.inl h.1, h.2.2.1 hs, Or.inl h.2.2.2⟩⟩
      | false =>
        refine wp_mono (wp_assignImpl_backup ⟨hfb, hm, hc⟩ hl hro hne hf hkr) ?_ ?_
        · intro _ w' h; exact ⟨by simpa [copyAssignVal, hc, hm] using h.1, h.2⟩
        · intro _ _ h
          have hmbr : C.mayBackup kr := ⟨hfb, hm, hc⟩
          rcases h with ⟨h1 | ⟨h1, h2, h3⟩, h4, h5, h6⟩
          · exact ⟨Or.inl h1, h4, fun hs => ⟨Or.inl h1, h5 hs, h6 hs⟩⟩
          · exact ⟨Or.inr ⟨h1, h2, hmbr, h3⟩, h4, fun hs => ⟨Or.inr ⟨h1, hs.mayBackup hmbr hl.rep.lt hkr h2.2, hmbr, h3⟩, h5 hs, h6 hs⟩⟩

/-- The type-changing copy assignment. -/
theorem wp_assignerVisit (hs : Sane C) (hl : Owns C w l sl idl kl vl) (hro : w.objs idr = some (kr, vr))
    (hne : idl ≠ idr) (hf : Fresh w) (hkr : kr < C.n) (hkk : C.hasFallback = true → kl ≠ kr) :
    wp (assignerVisit C l kr (.obj kr idr))
      (fun _ w' => AssignOk C w w' w.objs l idl kr (copyAssignVal C kr vr) ∧
        AllocBound C w w' kl kr)
      (fun e w' => CopyExcKind C w w' kl kr e ∧ AssignExc C w w' w.objs l sl idl kl vl kr e ∧
        AllocBound C w w' kl kr) w :=
  wp_mono (wp_assignerVisit_gen hs.blank hl hro hne hf hkr hkk) (fun _ _ h => ⟨h.1, h.2 hs⟩) (fun _ _ h => h.2.2 hs)

/-- The values a type-changing move assignment gives to the target and leaves in the source. -/
def moveAssignVal (C : Cfg V) (k : TyIx) (v : V) : V :=
  if (C.tr k).nothrowMove then C.ops.move k v
  else if (C.tr k).nothrowCopy then C.ops.copy k v
  else if C.hasFallback then C.ops.move k v
  else C.ops.copy k v

@[inherit_doc moveAssignVal]
def moveAssignSrcVal (C : Cfg V) (k : TyIx) (v : V) : V :=
  if (C.tr k).nothrowMove then C.ops.movedFrom k v
  else if (C.tr k).nothrowCopy then v
  else if C.hasFallback then C.ops.movedFrom k v
  else v

/-- The value a throwing type-changing move assignment leaves in the source. -/
def moveAssignExcSrcVal (C : Cfg V) (k : TyIx) (v : V) : V :=
  if C.hasFallback then C.ops.moveFailSrc k v else v

/-- What an exception of a type-changing move assignment may be. -/
def MoveExcKind (C : Cfg V) (w w' : World V) (kl kr : TyIx) (e : Exc) : Prop :=
  (e.kind = .moveCtor kr ∧ C.hasFallback = true ∧ (C.tr kr).nothrowMove = false) ∨
    (C.mayBackup kr ∧ CopyExcKind C w w' kl kr e)

@[inherit_doc MoveExcKind]
def MoveExcKind0 (C : Cfg V) (w w' : World V) (kl kr : TyIx) (e : Exc) : Prop :=
  (e.kind = .moveCtor kr ∧ C.hasFallback = true ∧ (C.tr kr).nothrowMove = false ∧ (C.tr kr).nothrowCopy = false) ∨
    (C.mayBackup kr ∧ CopyExcKind0 C w w' kl kr e)

/-- What a type-changing move assignment may throw. -/
def MoveKind (C : Cfg V) (kl kr : TyIx) (e : ExcKind) : Prop :=
  (e = .moveCtor kr ∧ C.hasFallback = true ∧ (C.tr kr).nothrowMove = false ∧ (C.tr kr).nothrowCopy = false) ∨
    (C.mayBackup kr ∧ (e = .copyCtor kr ∨ ((e = .copyCtor kl ∨ e = .badAlloc) ∧ (C.tr kl).nothrowMove = false)))

theorem MoveExcKind0.kind {e : Exc} (h : MoveExcKind0 C w w' kl kr e) : MoveKind C kl kr e.kind := by
  rcases h with h | ⟨hb, h | ⟨h, ⟨-, h2⟩, -⟩⟩
  · exact .inl h
  · exact .inr ⟨hb, .inl h⟩
  · exact .inr ⟨hb, .inr ⟨h, h2⟩⟩

/-- The type-changing move assignment, in any configuration. -/
theorem wp_moveAssignerVisit_gen (hb : BlankOk C) (hl : Owns C w l sl idl kl vl) (hro : w.objs idr = some (kr, vr))
    (hne : idl ≠ idr) (hf : Fresh w) (hkr : kr < C.n) (hkk : C.hasFallback = true → kl ≠ kr) :
    wp (moveAssignerVisit C l kr (.obj kr idr))
      (fun _ w' => AssignOk C w w' (upd w.objs idr (some (kr, moveAssignSrcVal C kr vr))) l idl kr
          (moveAssignVal C kr vr) ∧
        (Sane C → AllocBound C w w' kl kr))
      (fun e w' => MoveExcKind0 C w w' kl kr e ∧
        AssignExc0 C w w' (upd w.objs idr (some (kr, moveAssignExcSrcVal C kr vr))) l sl idl kl vl kr e ∧ (Sane C → MoveExcKind C w w' kl kr e ∧
        AssignExc C w w' (upd w.objs idr (some (kr, moveAssignExcSrcVal C kr vr))) l sl idl kl vl kr e ∧
        AllocBound C w w' kl kr)) w := by
  have hlt1 := hf.lt hl.obj
  have hlt2 := hf.lt hro
  have hfr := hf.fresh
  have hself : upd w.objs idr (some (kr, vr)) = w.objs := upd_self _ _ _ hro
  simp only [moveAssignerVisit, RhsContent.nothrowCopy, RhsContent.nothrowMove]
  cases hm : (C.tr kr).nothrowMove with
  | true =>
    simp only [moveAssignImpl, if_true, wp_noexceptIf, wp_bind]
    rw [wp_destroyContent hl hf.flat]
    simp only [moveRhsInto, wp_bind, wpx_moveCtor, upd_ne _ _ hne.symm, hro, if_true, hm, Bool.true_eq_false,
      false_and, if_false, wpx_setSlot, wpx_setWhich, upd_same, upd_upd_same, indicateWhich]
    refine ⟨⟨w.next, Nat.le_refl _, ?_⟩, fun _ => Or.inl (by trivial)⟩
    simp only [moveAssignVal, moveAssignSrcVal, hm, if_true]
    obtain ⟨hx, hr, ho⟩ := hl
    frame_tac
  | false =>
    simp only [Bool.false_or]
    cases hc : (C.tr kr).nothrowCopy with
    | true =>
      simp only [moveAssignImpl, Bool.false_eq_true, if_false, if_true, wp_noexceptIf]
      refine wp_mono (wp_assignImpl_nothrowCopy _ _ hl hro hne hf hkr hc) ?_ ?_
      · intro _ w' h
        refine ⟨?_, fun _ => Or.inl h.2⟩
        simpa [moveAssignVal, moveAssignSrcVal, hc, hm, hself] using h.1
      · intro _ _ h; exact h.elim
    | false =>
      cases hfb : C.hasFallback with
      | true =>
        obtain ⟨fb, hfb'⟩ := Option.isSome_iff_exists.mp hfb
        have hfbn := (hb.fallback_spec hfb').1
        simp only [moveAssignImpl, Bool.false_eq_true, if_false, if_true, wp_bind]
        rw [wp_destroyContent hl hf.flat]
        simp only [wp_onExc, moveRhsInto, wp_bind, wpx_moveCtor, upd_ne _ _ hne.symm, hro, if_true,
          wpx_setSlot, wpx_setWhich, upd_same, upd_upd_same, indicateWhich]
        split
        · rename_i hth
          refine wp_constructFallback_gen (s := { sl with slot := .raw }) hb (by simp) hfb' ?_
            (fun hns => ⟨Or.inl ⟨by trivial, hfb, hm, hc⟩, ⟨⟨by simp, by simp, hth.2⟩, fun y hy => by simp [hy],
              fun i _ hi => by simp only [moveAssignExcSrcVal, hfb, if_true, upd]; grind, by simp, rfl,
              .inl ⟨_, upd_same _ _ _, .inPlace _ _ (hb.fallback_spec hfb').1 (by simp)⟩⟩,
              fun hs => absurd (hs.built hfb' hl.rep.lt hkr (hkk hfb) hm hc) hns⟩)
          refine both ?_ fun hex => ⟨Or.inl ⟨by trivial, hfb, hm, hc⟩, hex.toExc0, fun _ => ⟨Or.inl ⟨by trivial, hfb, hm⟩,
            hex, Or.inl (by trivial)⟩⟩
          refine ⟨⟨by simp, by simp; omega, hth.2⟩, _, _, _, _, ?_, .fallback _ w.next (by omega) hfb' hm hc⟩
          simp only [moveAssignExcSrcVal, hfb, if_true]
          obtain ⟨hx, hr, ho⟩ := hl
          frame_tac
        · refine ⟨⟨w.next, Nat.le_refl _, ?_⟩, fun _ => Or.inl (by trivial)⟩
          simp only [moveAssignVal, moveAssignSrcVal, hm, hc, hfb, if_true, Bool.false_eq_true, if_false]
          obtain ⟨hx, hr, ho⟩ := hl
          frame_tac
      | false =>
        simp only [moveAssignImpl, Bool.false_eq_true, if_false]
        have hmb : C.mayBackup kr := ⟨hfb, hm, hc⟩
        refine wp_mono (wp_assignImpl_backup ⟨hfb, hm, hc⟩ hl hro hne hf hkr) ?_ ?_
        · intro _ w' h
          refine ⟨?_, h.2⟩
          simpa [moveAssignVal, moveAssignSrcVal, hc, hm, hfb, hself] using h.1
        · intro _ _ h
          have h7 : moveAssignExcSrcVal C kr vr = vr := by simp [moveAssignExcSrcVal, hfb]
          rw [h7, hself]
          rcases h with ⟨h1 | ⟨h1, h2, h3⟩, h4, h5, h6⟩
          · exact ⟨Or.inr ⟨hmb, Or.inl h1⟩, h4, fun hs => ⟨Or.inr ⟨hmb, Or.inl h1⟩, h5 hs, h6 hs⟩⟩
          · exact ⟨Or.inr ⟨hmb, Or.inr ⟨h1, h2, hmb, h3⟩⟩, h4,
              fun hs => ⟨Or.inr ⟨hmb, Or.inr ⟨h1, hs.mayBackup hmb hl.rep.lt hkr h2.2, hmb, h3⟩⟩, h5 hs, h6 hs⟩⟩

/-- The type-changing move assignment. -/
theorem wp_moveAssignerVisit (hs : Sane C) (hl : Owns C w l sl idl kl vl) (hro : w.objs idr = some (kr, vr))
    (hne : idl ≠ idr) (hf : Fresh w) (hkr : kr < C.n) (hkk : C.hasFallback = true → kl ≠ kr) :
    wp (moveAssignerVisit C l kr (.obj kr idr))
      (fun _ w' => AssignOk C w w' (upd w.objs idr (some (kr, moveAssignSrcVal C kr vr))) l idl kr
          (moveAssignVal C kr vr) ∧
        AllocBound C w w' kl kr)
      (fun e w' => MoveExcKind C w w' kl kr e ∧
        AssignExc C w w' (upd w.objs idr (some (kr, moveAssignExcSrcVal C kr vr))) l sl idl kl vl kr e ∧
        AllocBound C w w' kl kr) w :=
  wp_mono (wp_moveAssignerVisit_gen hs.blank hl hro hne hf hkr hkk) (fun _ _ h => ⟨h.1, h.2 hs⟩) (fun _ _ h => h.2.2 hs)

end strategies

end

end BVariant
