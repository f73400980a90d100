/-
C72: what each statement does, exactly: the types and values of all variables afterwards, which exception leaves it, how many operations of the elements and
how many allocations it makes.
-/
import Verif.Lemmas.ExactValue
import Verif.Props.NeverEmpty

set_option linter.unusedSimpArgs false

namespace BVariant

section
variable {V : Type} {C : Cfg V} {w : World V}

/-- The specification and the model agree on which statements are valid. -/
theorem valid_view (hg : Good C w) (c : Cmd V) : c.exactValid C w.view = c.valid C w := by
  have h : ∀ x, w.view.vars x = none ↔ w.vars x = none := fun x => ⟨hg.wf.inv.vars_none, tagged_none⟩
  have h1 : ∀ x, (w.view.vars x).isSome = (w.vars x).isSome := fun x => by
    have := h x
    cases h2 : w.view.vars x <;> cases h3 : w.vars x <;> simp_all
  have h2 : ∀ x, (w.view.vars x).isNone = (w.vars x).isNone := fun x => by
    have := h x
    cases h2 : w.view.vars x <;> cases h3 : w.vars x <;> simp_all
  cases c <;> simp only [Cmd.exactValid, Cmd.valid, h1, h2]

/-- The specification and the model agree on which statements finding F1 concerns. -/
theorem hazard_view (hg : Good C w) (c : Cmd V) : c.exactHazard w.view = c.readsBackup w := by
  have hnone : ∀ x, w.vars x = none → w.view.vars x = none := fun x => tagged_none
  have key : ∀ x y, (match w.view.vars (.user x), w.view.vars (.user y) with
      | some a, some b => b.backed && !(decide (a.ty = b.ty) && a.backed)
      | _, _ => false) = (w.backedUp y && w.recordsDiffer x y) := by
    intro x y
    cases hx : w.vars (.user x) with
    | none =>
      rw [hnone _ hx]
      simp only [World.recordsDiffer, hx, Bool.and_false]
    | some sx =>
      cases hy : w.vars (.user y) with
      | none =>
        rw [hnone _ hy]
        simp only [World.recordsDiffer, hx, hy, Bool.and_false]
        split <;> rename_i h1 <;> simp_all
      | some sy =>
        obtain ⟨ix, kx, vx, ox⟩ := hg.wf.owns hx
        obtain ⟨iy, ky, vy, oy⟩ := hg.wf.owns hy
        have e1 : w.view.vars (.user x) = _ := ox.tagged
        have e2 : w.view.vars (.user y) = _ := oy.tagged
        rw [e1, e2]
        simp only [World.backedUp, World.recordsDiffer, hx, hy]
        have := ox.rep.record_iff oy.rep
        show (decide (sy.which_ < 0) && !(decide (kx = ky) && sx.backed)) = _
        by_cases hb : sy.which_ < 0
        · have hb' : sy.backed = true := by simp only [VarSt.backed, hb, decide_true]
          rw [hb'] at this
          simp only [hb, decide_true, Bool.true_and]
          by_cases h1 : sx.which_ = sy.which_
          · obtain ⟨h2, h3⟩ := this.mpr h1
            simp [h1, h2, h3]
          · have h4 : ¬ (kx = ky ∧ sx.backed = true) := fun h => h1 (this.mp h)
            simp only [ne_eq, h1, not_false_eq_true, decide_true, Bool.not_eq_true', Bool.and_eq_false_iff, decide_eq_false_iff_not]
            by_cases h5 : kx = ky
            · exact .inr (by simpa using fun h => h4 ⟨h5, h⟩)
            · exact .inl h5
        · simp only [hb, decide_false, Bool.false_and]
  cases c with
  | copyAssign x y => exact key x y
  | moveAssign x y => exact key x y
  | swap x y =>
    simp only [Cmd.exactHazard, Cmd.readsBackup]
    cases hx : w.vars (.user x) with
    | none =>
      rw [hnone _ hx]
      simp only [World.backedUp, hx, Bool.false_and]
    | some sx =>
      cases hy : w.vars (.user y) with
      | none =>
        rw [hnone _ hy]
        have : w.content (.user y) = none := by simp [World.content, hy]
        simp only [World.typesDiffer, this]
        split <;> rename_i h1 <;> simp_all
      | some sy =>
        obtain ⟨ix, kx, vx, ox⟩ := hg.wf.owns hx
        obtain ⟨iy, ky, vy, oy⟩ := hg.wf.owns hy
        have e1 : w.view.vars (.user x) = _ := ox.tagged
        have e2 : w.view.vars (.user y) = _ := oy.tagged
        rw [e1, e2]
        simp only [World.backedUp, World.typesDiffer, hx, ox.content, oy.content, VarSt.backed]
  | _ => rfl

/-- Every statement does exactly what the specification says. -/
theorem ref_step (hs : Sane C) (hg : Good C w) (c : Cmd V) (hv : c.valid C w = true) (hz : c.readsBackup w = false) :
    Conforms C [] (c.code C) (c.exact C) w := by
  have hw := hg.wf.inv
  have htn := hg.noTmp 0
  have hne : ∀ x : Nat, VarId.user x ≠ .tmp 0 := fun x h => by cases h
  have mem : ∀ k : TyIx, (w.next, k) ∈ [(w.next, k)] := fun k => List.mem_singleton.mpr rfl
  have own : ∀ {x : Nat} (k : TyIx) (v : V) {s i k' v'}, Owns C w (.user x) s i k' v' → Owns C (addElem k v w) (.user x) s i k' v' := by
    intro x k v s i k' v' h
    refine ⟨h.var, h.rep, ?_⟩
    rw [← h.obj]
    have := hw.fresh.lt h.obj
    exact upd_ne _ _ (by omega)
  cases c with
  | defaultConstruct x =>
    simp only [Cmd.valid, Bool.and_eq_true, Option.isNone_iff_eq_none, decide_eq_true_eq] at hv
    exact ref_defaultConstruct hw hv.1 hv.2
  | copyConstruct x y =>
    simp only [Cmd.valid, Bool.and_eq_true, Option.isNone_iff_eq_none] at hv
    obtain ⟨s, i, k, v, hy⟩ := hg.owns hv.2
    exact ref_copyConstruct hw hv.1 hy
  | moveConstruct x y =>
    simp only [Cmd.valid, Bool.and_eq_true, Option.isNone_iff_eq_none] at hv
    obtain ⟨s, i, k, v, hy⟩ := hg.owns hv.2
    exact ref_moveConstruct hw hv.1 hy
  | constructL x k v =>
    simp only [Cmd.valid, Bool.and_eq_true, Option.isNone_iff_eq_none, decide_eq_true_eq] at hv
    exact Conforms.withElem hw (ref_convertL (hw.addElem k v) hv.1 hv.2 (upd_same _ _ _) _)
  | constructR x k v =>
    simp only [Cmd.valid, Bool.and_eq_true, Option.isNone_iff_eq_none, decide_eq_true_eq] at hv
    exact Conforms.withElem hw (ref_convertR (hw.addElem k v) hv.1 hv.2 (mem k) (upd_same _ _ _) _)
  | constructC x k v =>
    simp only [Cmd.valid, Bool.and_eq_true, Option.isNone_iff_eq_none, decide_eq_true_eq] at hv
    exact ref_convertC hw hv.1 hv.2
  | destroy x =>
    obtain ⟨s, i, k, v, hx⟩ := hg.owns hv
    exact ref_destroyVar hw hx
  | copyAssign x y =>
    simp only [Cmd.valid, Bool.and_eq_true] at hv
    obtain ⟨s, i, k, v, hx⟩ := hg.owns hv.1
    obtain ⟨s', i', k', v', hy⟩ := hg.owns hv.2
    exact ref_copyAssign hs hw hx hy (noHazard_of hx.var hy.var hz)
  | moveAssign x y =>
    simp only [Cmd.valid, Bool.and_eq_true] at hv
    obtain ⟨s, i, k, v, hx⟩ := hg.owns hv.1
    obtain ⟨s', i', k', v', hy⟩ := hg.owns hv.2
    exact ref_moveAssign hs hw hx hy (noHazard_of hx.var hy.var hz)
  | assignL x k v =>
    simp only [Cmd.valid, Bool.and_eq_true, decide_eq_true_eq] at hv
    obtain ⟨s, i, k', v', hx⟩ := hg.owns hv.1
    exact Conforms.withElem hw (ref_assignL hs (hw.addElem k v) (own k v hx) (hne x) htn hv.2 (upd_same _ _ _) false)
  | assignR x k v =>
    simp only [Cmd.valid, Bool.and_eq_true, decide_eq_true_eq] at hv
    obtain ⟨s, i, k', v', hx⟩ := hg.owns hv.1
    exact Conforms.withElem hw (ref_assignR hs (hw.addElem k v) (own k v hx) (hne x) htn hv.2 (mem k) (upd_same _ _ _) false)
  | assignC x k v =>
    simp only [Cmd.valid, Bool.and_eq_true, decide_eq_true_eq] at hv
    obtain ⟨s, i, k', v', hx⟩ := hg.owns hv.1
    exact ref_assignC hs hw hx (hne x) htn hv.2
  | assignVL x k v =>
    simp only [Cmd.valid, Bool.and_eq_true, decide_eq_true_eq] at hv
    obtain ⟨s, i, k', v', hx⟩ := hg.owns hv.1
    exact Conforms.withElem hw (ref_assignL hs (hw.addElem k v) (own k v hx) (hne x) htn hv.2 (upd_same _ _ _) true)
  | assignVR x k v =>
    simp only [Cmd.valid, Bool.and_eq_true, decide_eq_true_eq] at hv
    obtain ⟨s, i, k', v', hx⟩ := hg.owns hv.1
    exact Conforms.withElem hw (ref_assignR hs (hw.addElem k v) (own k v hx) (hne x) htn hv.2 (mem k) (upd_same _ _ _) true)
  | swap x y =>
    simp only [Cmd.valid, Bool.and_eq_true] at hv
    obtain ⟨s, i, k, v, hx⟩ := hg.owns hv.1
    obtain ⟨s', i', k', v', hy⟩ := hg.owns hv.2
    refine ref_swap hs hw hx hy (hne x) (hne y) htn ((swapHazard_of hx hy hz).imp id fun h => ?_)
    simp only [VarSt.backed, decide_eq_false_iff_not]
    omega
  | mutate x v =>
    obtain ⟨s, i, k, u, hx⟩ := hg.owns hv
    exact ref_mutate hw hx v
  | constructGet rv x y =>
    simp only [Cmd.valid, Bool.and_eq_true, Option.isNone_iff_eq_none] at hv
    obtain ⟨s, i, k, v, hy⟩ := hg.owns hv.2
    cases rv with
    | false => exact ref_constructGet hw hv.1 hy false
    | true => exact ref_constructGet hw hv.1 hy true
  | assignGet rv x y =>
    simp only [Cmd.valid, Bool.and_eq_true] at hv
    obtain ⟨s, i, k, v, hx⟩ := hg.owns hv.1
    obtain ⟨s', i', k', v', hy⟩ := hg.owns hv.2
    exact ref_assignGet hs hw hx hy (hne x) htn rv

/-- From any good state, a valid statement that finding F1 does not concern does exactly what the specification says: it ends in the same way, throws the
same exception at the same operation, leaves the same content in every variable, and makes the same number of operations and allocations. -/
theorem C72_statement (hs : Sane C) (hg : Good C w) (c : Cmd V) (hv : c.valid C w = true) (hz : c.readsBackup w = false) :
    match c.code C w with
    | .ok _ w' => c.exact C w.view = .ok () w'.view
    | .exc e w' => c.exact C w.view = .exc e w'.view
    | .fault _ => False := by
  have h := ref_step hs hg c hv hz
  unfold Conforms wp at h
  revert h
  cases c.code C w with
  | ok => exact fun h => h.1
  | exc => exact fun h => h.1
  | fault => exact fun h => h

theorem exactRun_run (hs : Sane C) (p : List (Cmd V)) (hg : Good C w) :
    match exactRun C p w.view with
    | some (σ, es) => avoidsBackupReads C p w = true ∧ thrown C p w = es ∧ ∃ w', run C p w = some w' ∧ w'.view = σ
    | none => avoidsBackupReads C p w = false := by
  induction p generalizing w with
  | nil => exact ⟨rfl, rfl, w, rfl, rfl⟩
  | cons c p ih =>
    simp only [exactRun, avoidsBackupReads, thrown, run, valid_view hg, hazard_view hg]
    cases hv : c.valid C w with
    | false =>
      simp only [Bool.false_eq_true, if_false]
      have := ih hg
      revert this
      cases exactRun C p w.view with
      | none => exact fun h => h
      | some q => exact fun ⟨h1, h2, h3⟩ => ⟨h1, by rw [h2], h3⟩
    | true =>
      cases hz : c.readsBackup w with
      | true => simp only [if_true, Bool.not_true, Bool.false_and]
      | false =>
        simp only [if_true, Bool.false_eq_true, if_false, Bool.not_false, Bool.true_and]
        have h1 := C72_statement hs hg c hv hz
        rcases wp_elim (wp_step hs hg c hv hz) with ⟨a, w', hm, hg', _⟩ | ⟨e, w', hm, hg', _, _⟩
        · rw [hm] at h1
          simp only [hm, h1]
          have := ih hg'
          revert this
          cases exactRun C p w'.view with
          | none => exact fun h => h
          | some q => exact fun ⟨h1, h2, h3⟩ => ⟨h1, by rw [h2], h3⟩
        · rw [hm] at h1
          simp only [hm, h1]
          have := ih hg'
          revert this
          cases exactRun C p w'.view with
          | none => exact fun h => h
          | some q => exact fun ⟨h1, h2, h3⟩ => ⟨h1, by rw [h2], h3⟩

theorem view_init : (World.init V).view = XSt.init V := by
  simp only [World.view, XSt.init, World.init, XSt.mk.injEq, and_true]
  funext x
  rfl

/-- Any program does exactly what the specification says, statement by statement, unless it meets finding F1, which the specification predicts too. -/
theorem C72_program (hs : Sane C) (p : List (Cmd V)) :
    match exactRun C p (XSt.init V) with
    | some (σ, es) => avoidsBackupReads C p (World.init V) = true ∧ thrown C p (World.init V) = es ∧
        ∃ w', run C p (World.init V) = some w' ∧ w'.view = σ
    | none => avoidsBackupReads C p (World.init V) = false := by
  rw [← view_init]
  exact exactRun_run hs p good_init

/-- The specification does not depend on how visitation is unrolled, on `NDEBUG` or on the platform. -/
theorem exactRun_build (u : Nat) (nd : Bool) (fc : FallbackCtor) (p : List (Cmd V)) (σ : XSt V) :
    exactRun { C with unroll := u, ndebug := nd, fallbackCtor := fc } p σ = exactRun C p σ := by
  induction p generalizing σ with
  | nil => rfl
  | cons c p ih =>
    have h1 : c.exact { C with unroll := u, ndebug := nd, fallbackCtor := fc } = c.exact C := by
      cases c with
      | constructGet rv => cases rv <;> rfl
      | _ => rfl
    have h2 : c.exactValid { C with unroll := u, ndebug := nd, fallbackCtor := fc } σ = c.exactValid C σ := by cases c <;> rfl
    simp only [exactRun, h1, h2, ih]

/-- Programs behave in the same way however visitation is unrolled (`BOOST_VARIANT_VISITATION_UNROLLING_LIMIT`), with and without assertions and on every
platform: they meet finding F1 in the same place or not at all; and if not, their statements throw the same exceptions and leave the same content in every
variable. -/
theorem C72_build (hs : Sane C) (u : Nat) (nd : Bool) (fc : FallbackCtor) (hs' : Sane { C with unroll := u, ndebug := nd, fallbackCtor := fc })
    (p : List (Cmd V)) :
    avoidsBackupReads { C with unroll := u, ndebug := nd, fallbackCtor := fc } p (World.init V) = avoidsBackupReads C p (World.init V) ∧
    (avoidsBackupReads C p (World.init V) = true →
      thrown { C with unroll := u, ndebug := nd, fallbackCtor := fc } p (World.init V) = thrown C p (World.init V) ∧
      ∃ w w', run C p (World.init V) = some w ∧ run { C with unroll := u, ndebug := nd, fallbackCtor := fc } p (World.init V) = some w' ∧
        w'.view = w.view) := by
  have h1 := C72_program hs p
  have h2 := C72_program hs' p
  rw [exactRun_build] at h2
  revert h1 h2
  cases exactRun C p (XSt.init V) with
  | none => exact fun h1 h2 => ⟨by rw [h1, h2], fun h => by rw [h1] at h; cases h⟩
  | some q =>
    rintro ⟨a1, b1, w, c1, d1⟩ ⟨a2, b2, w', c2, d2⟩
    exact ⟨by rw [a1, a2], fun _ => ⟨by rw [b1, b2], w, w', c1, c2, by rw [d1, d2]⟩⟩

end

/-! ### Non-vacuity -/

/-- What the specification says about the program through a heap backup: after three statements variable 0 is in a heap backup, by an exception of the copy
constructor of type 1 at operation 6, and one allocation has been made. -/
example : (exactRun exTwo (exProg.take 3) (XSt.init Nat)).map (fun p => (p.2, (p.1.vars (.user 0)).map (fun t => (t.ty, t.val, t.backed)), p.1.tick, p.1.allocs)) =
    some ([none, none, some ⟨.copyCtor 1, 6⟩], some (0, 5, true), 7, 1) := by decide +kernel

/-- C72 for the whole program: its statements throw that exception only, and the content of variable 0 is in place at the end. -/
example : thrown exTwo exProg (World.init Nat) = [none, none, some ⟨.copyCtor 1, 6⟩, none, none, none, none, none] ∧
    ∃ w, run exTwo exProg (World.init Nat) = some w ∧ (w.tagged (.user 0)).map (fun t => (t.ty, t.val, t.backed)) = some (1, 9, false) ∧
      w.tick = 17 ∧ w.allocs = 2 := by
  have h := C72_program exTwo_sane exProg
  have he : (exactRun exTwo exProg (XSt.init Nat)).map (fun p => (p.2, (p.1.vars (.user 0)).map (fun t => (t.ty, t.val, t.backed)), p.1.tick, p.1.allocs)) =
    some ([none, none, some ⟨.copyCtor 1, 6⟩, none, none, none, none, none], some (1, 9, false), 17, 2) := by decide +kernel
  revert h he
  cases exactRun exTwo exProg (XSt.init Nat) with
  | none => intro _ he; cases he
  | some q =>
    rintro ⟨-, h2, w, h3, h4⟩ he
    simp only [Option.map_some, Option.some.injEq, Prod.mk.injEq] at he
    rw [← h4] at he
    exact ⟨by rw [h2]; exact he.1, w, h3, he.2.1, he.2.2⟩

/-- `C72_build` for that variant type, without assertions and with visitation by steps of one. -/
example : thrown { exTwo with unroll := 0, ndebug := true, fallbackCtor := exTwo.fallbackCtor } exProg (World.init Nat) = thrown exTwo exProg (World.init Nat) :=
  ((C72_build exTwo_sane 0 true exTwo.fallbackCtor ⟨exTwo_sane.blank, exTwo_sane.copyMove, exTwo_sane.fallback⟩ exProg).2 (by decide +kernel)).1

end BVariant
