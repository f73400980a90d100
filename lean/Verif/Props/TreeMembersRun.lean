/-
C79: programs on recursive variants whose classes assign member by member.
-/
import Verif.Lemmas.TreeMembersRun
import Verif.Props.TreeMembers

namespace BVariant

section
variable {V : Type} {C : TreeCfg V} {s s' : TreeSt V} {σ : TStore V} {own : Nat → List ObjId} {n m : Nat} {mw : TyIx → Bool} {ar : TyIx → Nat}

theorem TCmd.codeBy_other {c : TCmd V} (h : ∀ x t, c ≠ .assign x t) : c.codeBy C mw n = c.code C n := by
  cases c <;> first | rfl | exact absurd rfl (h _ _)

theorem TCmd.supported_other {c : TCmd V} (h : ∀ x t, c ≠ .assign x t) (hs : c.SupportedBy C s) : c.hazard C s = false := by
  cases c <;> first | exact hs | exact absurd rfl (h _ _)

theorem TreeSt.Represents.valid (hr : s.Represents σ own) (hf : s.Fresh) {c : TCmd V} : c.valid C s = true ↔ σ.Valid C c := by
  obtain ⟨α, hM, hS, _⟩ := hr.mem hf
  exact tValid_iff hM hS

/-- One statement. -/
theorem codeBy_run (hl : C.ops.Lawful) (hr : s.Represents σ own) (hf : s.Fresh) (hB : σ.Bound C.wrapped n) (hm : σ.Members mw ar) {c : TCmd V}
    (hv : c.valid C s = true) (hs : c.SupportedBy C s) :
    (∃ s' σ' own', c.codeBy C mw n s = .ok () s' ∧ TOk C c σ σ' ∧ s'.Represents σ' own' ∧ s'.Fresh) ∨
    (∃ e s' σ' own', c.codeBy C mw n s = .exc e s' ∧ TExcBy C mw c σ σ' ∧ s'.Represents σ' own' ∧ s'.Fresh ∧ C.throws e.tick = true) := by
  by_cases ha : ∃ x t, c = .assign x t
  · obtain ⟨x, t, rfl⟩ := ha
    obtain ⟨hx, ht⟩ := (hr.valid hf).mp hv
    obtain ⟨u, hx⟩ := at_of_ne hx
    obtain ⟨v, ht⟩ := at_of_ne ht
    rcases C79_member_assignment hl hr hf hB hx ht (hm.at hx) (hm.at ht) hs.1 hs.2 with ⟨s', own', h1, h2, h3⟩ | ⟨e, s', w, own', h1, h2, h3, h4, h5⟩
    · exact .inl ⟨s', _, own', h1, .assign ht, h2, h3⟩
    · exact .inr ⟨e, s', _, own', h1, .assign hx ht h3, h4, h5, h2⟩
  · have ha' : ∀ x t, c ≠ .assign x t := fun x t h => ha ⟨x, t, h⟩
    rw [TCmd.codeBy_other ha']
    rcases C37_statement hl hr hf hB hv (TCmd.supported_other ha' hs) with ⟨s', σ', own', h1, h2, h3, h4⟩ | ⟨e, s', σ', own', h1, h2, h3, h4, h5⟩
    · exact .inl ⟨s', σ', own', h1, h2, h3, h4⟩
    · exact .inr ⟨e, s', σ', own', h1, .other ha' h2, h3, h4, h5⟩

theorem tRunBy_inv (hl : C.ops.Lawful) (hfb : ∀ fb, C.fallback = some fb → C.wrapped fb = false) (hst : ∀ k, mw k = true → C.steals k = false)
    (cs : List (TCmd V)) (hb : ∀ c ∈ cs, c.Builds mw ar) (hr : s.Represents σ own) (hf : s.Fresh) (hB : σ.Bound C.wrapped m) (hM : σ.Members mw ar)
    (hm : 1 ≤ m) (hn : m * 2 ^ cs.length ≤ n) (hc : CleanBy C mw n cs s) :
    ∃ s' σ' own', tRunBy C mw n cs s = some s' ∧ s'.Represents σ' own' ∧ s'.Fresh ∧ σ'.Bound C.wrapped (m * 2 ^ cs.length) ∧
      σ'.Members mw ar ∧ TStepsBy C mw cs σ σ' := by
  induction cs generalizing s σ own m with
  | nil => exact ⟨s, σ, own, rfl, hr, hf, by simpa using hB, hM, .nil⟩
  | cons c cs ih =>
    have hpow : m * 2 ^ (c :: cs).length = 2 * m * 2 ^ cs.length := by
      rw [List.length_cons, Nat.pow_succ, Nat.mul_comm 2 m, Nat.mul_assoc, Nat.mul_comm (2 ^ cs.length)]
    have h2 : 2 * m ≤ 2 * m * 2 ^ cs.length := Nat.le_mul_of_pos_right _ (two_pow_pos _)
    have hbs : ∀ c ∈ cs, c.Builds mw ar := fun c hc => hb c (List.mem_cons_of_mem _ hc)
    rw [hpow] at hn ⊢
    by_cases hv : c.valid C s = true
    · rw [CleanBy, if_pos hv] at hc
      obtain ⟨hz, hc⟩ := hc
      have hv' := (hr.valid hf).mp hv
      rcases codeBy_run (n := n) (mw := mw) hl hr hf (hB.mono (by omega)) hM hv hz with
        ⟨s1, σ1, own1, hr1, ho, hR1, hf1⟩ | ⟨e, s1, σ1, own1, hr1, ho, hR1, hf1, _⟩
      · rw [hr1] at hc
        obtain ⟨s2, σ2, own2, g1, g2, g3, g4, g5, g6⟩ := ih hbs hR1 hf1 (ho.bound hm hB hv') (ho.members hst hM (hb c List.mem_cons_self))
          (by omega) hn hc
        exact ⟨s2, σ2, own2, by rw [tRunBy, if_pos hv, hr1]; exact g1, g2, g3, g4, g5, .ok hv' ho g6⟩
      · rw [hr1] at hc
        obtain ⟨s2, σ2, own2, g1, g2, g3, g4, g5, g6⟩ := ih hbs hR1 hf1 (ho.bound hm hfb hB hv') (ho.members hst hM) (by omega) hn hc
        exact ⟨s2, σ2, own2, by rw [tRunBy, if_pos hv, hr1]; exact g1, g2, g3, g4, g5, .exc hv' ho g6⟩
    · rw [CleanBy, if_neg hv] at hc
      obtain ⟨s2, σ2, own2, g1, g2, g3, g4, g5, g6⟩ := ih hbs hr hf (hB.mono (by omega : m ≤ 2 * m)) hM (by omega) hn hc
      exact ⟨s2, σ2, own2, by rw [tRunBy, if_neg hv]; exact g1, g2, g3, g4, g5, .skip (fun h => hv ((hr.valid hf).mpr h)) g6⟩

/-- **C79**, for whole programs in which the classes `mw` are assigned member by member, with any operation failing: if all statements
executed are supported, the run has no undefined behaviour, on a stack that is deep enough; afterwards every variable has the value
it has in the store of plain trees, its blocks are its own, and there is no memory but theirs. -/
theorem C79_programs (hl : C.ops.Lawful) (hfb : ∀ fb, C.fallback = some fb → C.wrapped fb = false) (hst : ∀ k, mw k = true → C.steals k = false)
    (cs : List (TCmd V)) (hb : ∀ c ∈ cs, c.Builds mw ar) (hn : 2 ^ cs.length ≤ n) (hc : CleanBy C mw n cs (TreeSt.init V)) :
    ∃ (s : TreeSt V) (σ : TStore V) (own : Nat → List ObjId), tRunBy C mw n cs (TreeSt.init V) = some s ∧
      TStepsBy C mw cs (fun _ => none) σ ∧ s.Represents σ own ∧ s.Fresh ∧ σ.Bound C.wrapped (2 ^ cs.length) ∧ σ.Members mw ar := by
  obtain ⟨s, σ, own, h1, h2, h3, h4, h5, h6⟩ := tRunBy_inv (m := 1) (σ := fun _ => none) hl hfb hst cs hb TreeSt.Represents.init
    TreeSt.Fresh.init nofun nofun (Nat.le_refl _) (by omega) hc
  exact ⟨s, σ, own, h1, h6, h2, h3, by simpa using h4, h5⟩

/-- **C79**: a program that has destroyed its variants has freed all memory. -/
theorem C79_nothing_leaks (hl : C.ops.Lawful) (hfb : ∀ fb, C.fallback = some fb → C.wrapped fb = false)
    (hst : ∀ k, mw k = true → C.steals k = false) {cs : List (TCmd V)} (hb : ∀ c ∈ cs, c.Builds mw ar) (hn : 2 ^ cs.length ≤ n)
    (hc : CleanBy C mw n cs (TreeSt.init V)) (h : tRunBy C mw n cs (TreeSt.init V) = some s) (hdead : ∀ x, s.vars x = none) (p : ObjId) :
    s.heap p = none := by
  obtain ⟨s', σ, own, h1, _, h2, _⟩ := C79_programs hl hfb hst cs hb hn hc
  rw [h] at h1; cases h1
  cases hp : s.heap p with
  | none => rfl
  | some b =>
    obtain ⟨x, hx⟩ := h2.owned p (by rw [hp]; nofun)
    rw [(h2.dead x (h2.vars_none.mp (hdead x))).2] at hx; cases hx

/-- What a program does not touch it does not change. -/
theorem TStepsBy.frame {cs : List (TCmd V)} {σ σ' : TStore V} {x : Nat} (h : TStepsBy C mw cs σ σ') (hw : ∀ c ∈ cs, ¬ c.Touches x) :
    σ' x = σ x := by
  induction h with
  | nil => rfl
  | ok hv ho _ ih =>
    rw [ih fun c hc => hw c (.tail _ hc)]
    exact TSteps.frame (.ok hv ho .nil) (fun c hc => by cases hc with | head => exact hw _ (.head _) | tail _ h => cases h)
  | exc hv ho _ ih =>
    rw [ih fun c hc => hw c (.tail _ hc)]
    cases ho with
    | assign => exact TStore.put_ne (hw _ (.head _))
    | other _ ho => exact TSteps.frame (.exc hv ho .nil) (fun c hc => by cases hc with | head => exact hw _ (.head _) | tail _ h => cases h)
  | skip _ _ ih => exact ih fun c hc => hw c (.tail _ hc)

theorem TCmd.supported_of_fine (hr : s.Represents σ own) (hf : s.Fresh) {c : TCmd V} (h : c.fineBy C s = true) : c.SupportedBy C s := by
  cases c with
  | assign x t =>
    simp only [TCmd.fineBy, Bool.and_eq_true, Bool.or_eq_true, decide_eq_true_eq, Bool.not_eq_true'] at h
    obtain ⟨h1, h2⟩ := h
    have hb : ∀ p < s.next, ∀ c, s.heap p ≠ some (.box c) := by
      intro p hp c hc
      have := List.all_eq_true.mp h1 p (List.mem_range.mpr hp)
      simp [hc] at this
    have hin : ∀ t : TPlace, t.InPlace s := hr.inPlace hf hb
    refine ⟨?_, fun _ => hin x⟩
    rcases h2 with h2 | ⟨h2, h3⟩
    · exact .inl h2
    · exact .inr ⟨h2, h3, hin t⟩
  | _ => simpa [TCmd.fineBy, TCmd.SupportedBy] using h

theorem cleanBy_of_fine (hl : C.ops.Lawful) (hfb : ∀ fb, C.fallback = some fb → C.wrapped fb = false) (hst : ∀ k, mw k = true → C.steals k = false)
    (cs : List (TCmd V)) (hb : ∀ c ∈ cs, c.Builds mw ar) (hr : s.Represents σ own) (hf : s.Fresh) (hB : σ.Bound C.wrapped m) (hM : σ.Members mw ar)
    (hm : 1 ≤ m) (hn : m * 2 ^ cs.length ≤ n) (hc : fineBy C mw n cs s = true) : CleanBy C mw n cs s := by
  induction cs generalizing s σ own m with
  | nil => exact trivial
  | cons c cs ih =>
    have hpow : m * 2 ^ (c :: cs).length = 2 * m * 2 ^ cs.length := by
      rw [List.length_cons, Nat.pow_succ, Nat.mul_comm 2 m, Nat.mul_assoc, Nat.mul_comm (2 ^ cs.length)]
    have h2 : 2 * m ≤ 2 * m * 2 ^ cs.length := Nat.le_mul_of_pos_right _ (two_pow_pos _)
    have hbs : ∀ c ∈ cs, c.Builds mw ar := fun c hc => hb c (List.mem_cons_of_mem _ hc)
    rw [hpow] at hn
    rw [CleanBy]
    by_cases hv : c.valid C s = true
    · rw [fineBy, if_pos hv, Bool.and_eq_true] at hc
      obtain ⟨hz, hc⟩ := hc
      have hz := TCmd.supported_of_fine hr hf hz
      rw [if_pos hv]
      refine ⟨hz, ?_⟩
      have hv' := (hr.valid hf).mp hv
      rcases codeBy_run (n := n) (mw := mw) hl hr hf (hB.mono (by omega)) hM hv hz with
        ⟨s1, σ1, own1, hr1, ho, hR1, hf1⟩ | ⟨e, s1, σ1, own1, hr1, ho, hR1, hf1, _⟩
      · rw [hr1] at hc ⊢
        exact ih hbs hR1 hf1 (ho.bound hm hB hv') (ho.members hst hM (hb c List.mem_cons_self)) (by omega) hn hc
      · rw [hr1] at hc ⊢
        exact ih hbs hR1 hf1 (ho.bound hm hfb hB hv') (ho.members hst hM) (by omega) hn hc
    · rw [fineBy, if_neg hv] at hc
      rw [if_neg hv]
      exact ih hbs hr hf (hB.mono (by omega : m ≤ 2 * m)) hM (by omega) hn hc

/-- **C79.** In particular where no statement is executed with a backup in memory, and no side of an assignment is a proper part
of the other: a condition on the run that can be computed. -/
theorem C79_programs_checked (hl : C.ops.Lawful) (hfb : ∀ fb, C.fallback = some fb → C.wrapped fb = false)
    (hst : ∀ k, mw k = true → C.steals k = false) (cs : List (TCmd V)) (hb : ∀ c ∈ cs, c.Builds mw ar) (hn : 2 ^ cs.length ≤ n)
    (hc : fineBy C mw n cs (TreeSt.init V) = true) : CleanBy C mw n cs (TreeSt.init V) ∧
    ∃ (s : TreeSt V) (σ : TStore V) (own : Nat → List ObjId), tRunBy C mw n cs (TreeSt.init V) = some s ∧
      TStepsBy C mw cs (fun _ => none) σ ∧ s.Represents σ own := by
  have h := cleanBy_of_fine (m := 1) (σ := fun _ => none) hl hfb hst cs hb TreeSt.Represents.init
    TreeSt.Fresh.init nofun nofun (Nat.le_refl _) (by omega) hc
  obtain ⟨s, σ, own, h1, h2, h3, _⟩ := C79_programs hl hfb hst cs hb hn h
  exact ⟨h, s, σ, own, h1, h2, h3⟩

end

/-! ### Examples -/

/-- The program of the other examples; then `4` is assigned `3`, `3` itself and a member of `4` a plain variant; then all is
destroyed. -/
def exMembersRun : List (TCmd Nat) :=
  exMembersProg ++ [.assign ⟨4, []⟩ ⟨3, []⟩, .assign ⟨3, []⟩ ⟨3, []⟩, .assign ⟨4, [0, 1]⟩ ⟨0, []⟩] ++
  [.destroy 0, .destroy 1, .destroy 2, .destroy 3, .destroy 4, .destroy 5]

theorem exMembersRun_builds : ∀ c ∈ exMembersRun, c.Builds (· == 1) (fun _ => 2) := by
  simp [exMembersRun, exMembersProg, TCmd.Builds]

/-- C79: with a fallback type, whether no operation fails or one fails in the middle of the first assignment: the run meets the
hypotheses, the program ends with all variants destroyed, and without memory. -/
example : ∀ bad ∈ [[], [43]], ∃ s, tRunBy (exTree (some 2) bad) (· == 1) 65536 exMembersRun (TreeSt.init Nat) = some s ∧
    ∀ p, s.heap p = none := by
  intro bad hbad
  have hn : 2 ^ exMembersRun.length ≤ 65536 := by decide
  have key : fineBy (exTree (some 2) bad) (· == 1) 65536 exMembersRun (TreeSt.init Nat) = true ∧
      (∀ x < 6, (match tRunBy (exTree (some 2) bad) (· == 1) 65536 exMembersRun (TreeSt.init Nat) with
        | some s => (s.vars x).isNone
        | none => false) = true) := by
    rcases List.mem_cons.mp hbad with rfl | hbad
    · decide +kernel
    · rcases List.mem_cons.mp hbad with rfl | hbad
      · decide +kernel
      · cases hbad
  obtain ⟨hc, s, σ, own, h1, h2, h3⟩ := C79_programs_checked (ar := fun _ => 2) natOps_lawful (by intro fb h; cases h; rfl)
    (by intro k _; rfl) exMembersRun exMembersRun_builds hn key.1
  refine ⟨s, h1, C79_nothing_leaks (ar := fun _ => 2) natOps_lawful (by intro fb h; cases h; rfl) (by intro k _; rfl) exMembersRun_builds hn hc h1 ?_⟩
  intro x
  by_cases hx : x < 6
  · have := key.2 x hx
    rw [h1] at this
    exact Option.isNone_iff_eq_none.mp this
  · refine h3.vars_none.mpr (h2.frame ?_)
    intro c hc
    simp only [exMembersRun, exMembersProg, List.cons_append, List.nil_append, List.mem_cons, List.not_mem_nil, or_false] at hc
    rcases hc with rfl | rfl | rfl | rfl | rfl | rfl | rfl | rfl | rfl | rfl | rfl | rfl | rfl | rfl | rfl | rfl <;>
      simp only [TCmd.Touches] <;> omega

end BVariant
