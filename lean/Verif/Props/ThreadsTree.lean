import Verif.Spec.ThreadsTree
import Verif.Props.ExactTree
import Verif.Props.TreeRefs
import Verif.Props.TreeVisit
import Verif.Props.TreeObserve
import Verif.Props.Threads

/-
C86 for recursive variants: threads that share only variants which none of them changes do not affect each other.
-/

namespace BVariant

section
variable {V α β : Type}

/-! ### What the specification of a statement depends on and changes -/

/-- The two states agree on `S` and have the same counters. -/
structure TSame (S : Nat → Prop) (σ τ : XTSt V) : Prop where
  vars : ∀ x, S x → σ.vars x = τ.vars x
  count : σ.count = τ.count

/-- The code depends on the variables in `S` only and changes those in `W` only. -/
structure TConfined (S W : Nat → Prop) (m : Eff (XTSt V) α) : Prop where
  run : ∀ σ τ, TSame S σ τ →
    match m σ, m τ with
    | .ok a σ', .ok b τ' => a = b ∧ TSame S σ' τ' ∧ ∀ x, ¬ W x → σ'.vars x = σ.vars x
    | .exc e σ', .exc f τ' => e = f ∧ TSame S σ' τ' ∧ ∀ x, ¬ W x → σ'.vars x = σ.vars x
    | .fault f, .fault g => f = g
    | _, _ => False

variable {S W : Nat → Prop}

theorem TConfined.bind {m : Eff (XTSt V) α} {f : α → Eff (XTSt V) β} (hm : TConfined S W m) (hf : ∀ a, TConfined S W (f a)) : TConfined S W (m >>= f) := by
  constructor; intro σ τ h
  have h1 := hm.run σ τ h
  show match Eff.bind m f σ, Eff.bind m f τ with | .ok a σ', .ok b τ' => _ | .exc e σ', .exc f τ' => _ | .fault f, .fault g => _ | _, _ => False
  unfold Eff.bind
  cases e1 : m σ <;> cases e2 : m τ <;> simp only [e1, e2] at h1 ⊢
  · obtain ⟨rfl, h2, h3⟩ := h1
    rename_i a σ1 τ1
    have h4 := (hf a).run σ1 τ1 h2
    cases e3 : f a σ1 <;> cases e4 : f a τ1 <;> simp only [e3, e4] at h4 ⊢
    · exact ⟨h4.1, h4.2.1, fun x hx => (h4.2.2 x hx).trans (h3 x hx)⟩
    · exact ⟨h4.1, h4.2.1, fun x hx => (h4.2.2 x hx).trans (h3 x hx)⟩
    · exact h4
  · exact h1
  · exact h1

theorem TConfined.onExc {m : Eff (XTSt V) α} {h : Eff (XTSt V) Unit} (hm : TConfined S W m) (hh : TConfined S W h) : TConfined S W (Eff.onExc m h) := by
  constructor; intro σ τ ha
  have h1 := hm.run σ τ ha
  unfold Eff.onExc
  cases e1 : m σ <;> cases e2 : m τ <;> simp only [e1, e2] at h1 ⊢
  · exact h1
  · obtain ⟨rfl, h2, h3⟩ := h1
    rename_i e σ1 τ1
    have h4 := hh.run σ1 τ1 h2
    cases e3 : h σ1 <;> cases e4 : h τ1 <;> simp only [e3, e4] at h4 ⊢
    · exact ⟨trivial, h4.2.1, fun x hx => (h4.2.2 x hx).trans (h3 x hx)⟩
    · exact h4
  · exact h1

theorem tconfined_pure (a : α) : TConfined (V := V) S W (pure a) := ⟨fun _ _ h => ⟨rfl, h, fun _ _ => rfl⟩⟩

theorem tconfined_fail (f : Fault) : TConfined (V := V) (α := α) S W (Eff.fail f) := ⟨fun _ _ _ => rfl⟩

theorem tconfined_exc (e : Exc) : TConfined (V := V) (α := α) S W (fun σ => .exc e σ) := ⟨fun _ _ h => ⟨rfl, h, fun _ _ => rfl⟩⟩

theorem tconfined_run (m : Eff Count α) : TConfined (V := V) S W (xtRun m) := by
  constructor; intro σ τ h
  simp only [xtRun, ← h.count]
  cases m σ.count
  · exact ⟨rfl, ⟨h.vars, rfl⟩, fun _ _ => rfl⟩
  · exact ⟨rfl, ⟨h.vars, rfl⟩, fun _ _ => rfl⟩
  · rfl

theorem TSame.at {σ τ : XTSt V} (h : TSame S σ τ) {t : TPlace} (ht : S t.var) : σ.at t = τ.at t := by
  simp only [XTSt.at, h.vars _ ht]

theorem tconfined_get {t : TPlace} (ht : S t.var) : TConfined (V := V) S W (xtGet t) := by
  constructor; intro σ τ h
  simp only [xtGet, h.at ht]
  cases τ.at t
  · rfl
  · exact ⟨rfl, h, fun _ _ => rfl⟩

theorem tconfined_put {t : TPlace} (ht : W t.var) (u : XTree V) : TConfined S W (xtPut t u) := by
  constructor; intro σ τ h
  refine ⟨rfl, ⟨fun y hy => ?_, h.count⟩, fun y hy => ?_⟩
  · by_cases e : y = t.var
    · subst e; simp only [upd_same, h.vars _ hy]
    · simp only [upd_ne _ _ e]; exact h.vars y hy
  · have e : y ≠ t.var := fun e => hy (e ▸ ht)
    exact upd_ne _ _ e

theorem tconfined_set {x : Nat} (hx : W x) (u : Option (XTree V)) : TConfined S W (xtSet x u) := by
  constructor; intro σ τ h
  refine ⟨rfl, ⟨fun y hy => ?_, h.count⟩, fun y hy => ?_⟩
  · by_cases e : y = x
    · subst e; simp only [upd_same]
    · simp only [upd_ne _ _ e]; exact h.vars y hy
  · have e : y ≠ x := fun e => hy (e ▸ hx)
    exact upd_ne _ _ e

variable (C : TreeCfg V)

theorem tconfined_take {t : TPlace} (ht : S t.var) (wt : W t.var) : TConfined S W (xtTake C t) := by
  refine (tconfined_get ht).bind fun u => ?_
  constructor; intro σ τ h
  simp only [← h.count]
  cases xtMove C σ.count u with
  | ok u' src c => exact ((tconfined_put (S := S) wt src).bind fun _ => tconfined_pure u').run { σ with count := c } { τ with count := c } ⟨h.vars, rfl⟩
  | exc e src c => exact ((tconfined_put (S := S) wt src).bind fun _ => tconfined_exc (α := XTree V) e).run { σ with count := c } { τ with count := c } ⟨h.vars, rfl⟩

/-- Decides confinement, down to which variables are in which set. -/
macro "tconfine" : tactic => `(tactic| repeat' (first
  | assumption
  | apply tconfined_run
  | apply tconfined_get
  | apply tconfined_put
  | apply tconfined_set
  | apply tconfined_take
  | apply tconfined_fail
  | apply tconfined_pure
  | apply TConfined.onExc
  | apply TConfined.bind
  | intro _
  | split))

theorem tconfined_assign {x t : TPlace} (hx : S x.var) (ht : S t.var) (wx : W x.var) : TConfined S W (xtAssign C x t) := by
  unfold xtAssign xtReplace xtGuarded xtFallback
  tconfine

theorem tconfined_moveAssign {x t : TPlace} (hx : S x.var) (ht : S t.var) (wx : W x.var) (wt : W t.var) : TConfined S W (xtMoveAssign C x t) := by
  unfold xtMoveAssign xtReplaceMove xtGuarded xtFallback
  tconfine

theorem tconfined_swap {x t : TPlace} {z : Nat} (hx : S x.var) (ht : S t.var) (hz : S z) (wx : W x.var) (wt : W t.var) (wz : W z) :
    TConfined S W (xtSwap C x t z) := by
  have h1 := tconfined_moveAssign (S := S) (W := W) C ht hx wt wx
  have h2 := tconfined_moveAssign (S := S) (W := W) (t := ⟨z, []⟩) C hx hz wx wz
  unfold xtSwap
  tconfine

theorem tconfined_getAll {ys : List TPlace} (h : ∀ t ∈ ys, S t.var) : TConfined (V := V) S W (xtGetAll ys) := by
  induction ys with
  | nil => exact tconfined_pure _
  | cons t ts ih =>
    have h1 := ih fun t' h' => h t' (by simp [h'])
    have h2 := h t (by simp)
    unfold xtGetAll
    tconfine

theorem tconfined_exact (c : TCmd V) (hS : ∀ x ∈ c.vars, S x) (hW : ∀ x ∈ c.changes, W x) : TConfined S W (c.exact C) := by
  cases c with
  | node x k a ys =>
    have h1 : TConfined (V := V) S W (xtGetAll ys) := tconfined_getAll fun t ht => hS _ (by simp only [TCmd.vars, List.mem_cons, List.mem_map]; exact .inr ⟨t, ht, rfl⟩)
    have h2 := hW x (by simp [TCmd.changes])
    unfold TCmd.exact; tconfine
  | assign x t =>
    exact tconfined_assign C (hS _ (by simp [TCmd.vars])) (hS _ (by simp [TCmd.vars])) (hW _ (by simp [TCmd.changes]))
  | moveAssign x t =>
    exact tconfined_moveAssign C (hS _ (by simp [TCmd.vars])) (hS _ (by simp [TCmd.vars])) (hW _ (by simp [TCmd.changes, TCmd.vars]))
      (hW _ (by simp [TCmd.changes, TCmd.vars]))
  | swap x t z =>
    exact tconfined_swap C (hS _ (by simp [TCmd.vars])) (hS _ (by simp [TCmd.vars])) (hS _ (by simp [TCmd.vars])) (hW _ (by simp [TCmd.changes, TCmd.vars]))
      (hW _ (by simp [TCmd.changes, TCmd.vars])) (hW _ (by simp [TCmd.changes, TCmd.vars]))
  | _ =>
    simp only [TCmd.vars, TCmd.changes, List.mem_cons, List.not_mem_nil, or_false, forall_eq_or_imp, forall_eq] at hS hW
    try have hS1 := hS.1
    try have hS2 := hS.2
    try have hW1 := hW.1
    try have hW2 := hW.2
    unfold TCmd.exact; tconfine

theorem okay_same {σ τ : XTSt V} (h : TSame S σ τ) (c : TCmd V) (hS : ∀ x ∈ c.vars, S x) : c.okay C σ = c.okay C τ := by
  cases c with
  | node x k a ys =>
    have h1 : ∀ t ∈ ys, σ.at t = τ.at t := fun t ht => h.at (hS _ (by simp only [TCmd.vars, List.mem_cons, List.mem_map]; exact .inr ⟨t, ht, rfl⟩))
    have h2 := h.vars x (hS x (by simp [TCmd.vars]))
    have h3 : (ys.all fun t => (σ.at t).isSome) = ys.all fun t => (τ.at t).isSome := by
      rw [Bool.eq_iff_iff, List.all_eq_true, List.all_eq_true]
      exact ⟨fun k t ht => by rw [← h1 t ht]; exact k t ht, fun k t ht => by rw [h1 t ht]; exact k t ht⟩
    simp only [TCmd.okay, h2, h3]
  | _ =>
    have h1 : ∀ {t : TPlace}, S t.var → σ.at t = τ.at t := fun ht => h.at ht
    simp only [TCmd.vars, List.mem_cons, List.not_mem_nil, or_false, forall_eq_or_imp, forall_eq] at hS
    simp only [TCmd.okay, XTSt.at, h.vars, hS]

theorem risky_same {σ τ : XTSt V} (h : TSame S σ τ) (c : TCmd V) (hS : ∀ x ∈ c.vars, S x) : c.risky C σ = c.risky C τ := by
  cases c with
  | node => rfl
  | _ =>
    simp only [TCmd.vars, List.mem_cons, List.not_mem_nil, or_false, forall_eq_or_imp, forall_eq] at hS
    simp only [TCmd.risky, XTSt.at, h.vars, hS]

/-! ### Threads -/

variable {C}

/-- The counters of a thread, as in the specification. -/
def Counts.toCount (t : Counts) : Count := ⟨t.tick, t.allocs⟩

theorem Counts.toCount_inj {t t' : Counts} (h : t.toCount = t'.toCount) : t = t' := by
  cases t; cases t'; simpa [toCount] using h

/-- The variables that thread `i` may use. -/
def tUsable (owner : Nat → Option Nat) (i : Nat) (x : Nat) : Prop := owner x = some i ∨ owner x = none

theorem mem_at {s : TreeSt V} {α : AStore V} (hM : Mem s α []) (t : Counts) : Mem (s.at t) α [] := hM.same rfl rfl (Nat.le_refl _)

theorem writes_changes {c : TCmd V} {x : TPlace} (hx : x ∈ c.writes) : x.var ∈ c.changes := by
  cases c <;> simp only [TCmd.writes, List.mem_cons, List.not_mem_nil, or_false] at hx <;> simp only [TCmd.changes, TCmd.vars, List.mem_cons, List.not_mem_nil, or_false]
  · subst hx; exact .inr rfl
  · subst hx; rfl
  · rcases hx with rfl | rfl
    · exact .inl rfl
    · exact .inr rfl
  · rcases hx with rfl | rfl
    · exact .inl rfl
    · exact .inr (.inl rfl)
  · subst hx; rfl
  · subst hx; rfl

theorem tree_threads_run (hfb : ∀ fb, C.fallback = some fb → C.wrapped fb = false) {throws : Nat → Nat → Bool} {owner : Nat → Option Nat} {n : Nat}
    (p : List (Nat × TCmd V)) (hp : TDisciplined owner p) {s : TreeSt V} {t : Nat → Counts} {α : AStore V} {vs : XStore V} {m : Nat} (hM : Mem s α [])
    (hS : ShowsS α vs) (hB : ∀ k, (XTSt.values ⟨vs, k⟩ : TStore V).Bound C.wrapped m) (hm : 1 ≤ m) (hn : m * 2 ^ p.length ≤ n) (τ : Nat → XTSt V)
    (hτ : ∀ i, TSame (tUsable owner i) ⟨vs, (t i).toCount⟩ (τ i)) (ρ : Nat → XTSt V) (fs : Nat → List (Option Exc))
    (hρ : ∀ i, xtRunAll (C.inThread throws i) (partOf i p) (τ i) = some (ρ i, fs i)) :
    ∃ s' t' es α' vs', tRunThreads C throws n p s t = some (s', t', es) ∧ Mem s' α' [] ∧ ShowsS α' vs' ∧
      (∀ i, TSame (tUsable owner i) ⟨vs', (t' i).toCount⟩ (ρ i) ∧ partOf i es = fs i) ∧ (∀ x, owner x = none → vs' x = vs x) ∧
      (C.ops.Lawful → ∀ y : TPlace, y.valid s = true → (∀ a ∈ p, owner y.var ≠ some a.1) → y.loc s' = y.loc s ∧ y.object s' = y.object s) := by
  induction p generalizing s t α vs m τ fs with
  | nil =>
    refine ⟨s, t, [], α, vs, rfl, hM, hS, fun i => ?_, fun _ _ => rfl, fun _ _ _ _ => ⟨rfl, rfl⟩⟩
    have := hρ i
    simp only [partOf, List.filter_nil, List.map_nil, xtRunAll, Option.some.injEq, Prod.mk.injEq] at this ⊢
    rw [← this.1, ← this.2]
    exact ⟨hτ i, rfl⟩
  | cons a p ih =>
    obtain ⟨i, c⟩ := a
    have hp' : TDisciplined owner p := fun a ha => hp a (List.mem_cons_of_mem _ ha)
    obtain ⟨hch, hns⟩ := hp (i, c) (by simp)
    simp only at hch hns
    have hpow : m * 2 ^ ((i, c) :: p).length = 2 * m * 2 ^ p.length := by
      rw [List.length_cons, Nat.pow_succ, Nat.mul_comm 2 m, Nat.mul_assoc, Nat.mul_comm (2 ^ p.length)]
    have h2m : 2 * m ≤ 2 * m * 2 ^ p.length := Nat.le_mul_of_pos_right _ (two_pow_pos _)
    rw [hpow] at hn
    have hMt := mem_at hM (t i)
    have hok : c.valid (C.inThread throws i) s = c.okay (C.inThread throws i) (τ i) := by
      rw [← okay_same (C.inThread throws i) (hτ i) c hns]
      exact okay_eq (C := C.inThread throws i) (k := (t i).toCount) hM hS c
    have hother : ∀ {β : Type} (b : β) (q : List (Nat × β)) {j : Nat}, j ≠ i → partOf j ((i, b) :: q) = partOf j q := fun b q j hj => by
      rw [partOf_cons, if_neg (Ne.symm hj)]
    have hown : ∀ {β : Type} (b : β) (q : List (Nat × β)), partOf i ((i, b) :: q) = b :: partOf i q := fun b q => by rw [partOf_cons, if_pos rfl]
    have hi := hρ i
    rw [hown, xtRunAll, ← hok] at hi
    simp only [tRunThreads]
    -- the rest, once the statement of thread `i` is done
    have fin : ∀ {s1 : TreeSt V} {k1 : Counts} {α1 : AStore V} {vs1 : XStore V} {τ1 : XTSt V} (e : Option Exc) (gs : List (Option Exc)), Mem s1 α1 [] → ShowsS α1 vs1 →
        (∀ k, (XTSt.values ⟨vs1, k⟩ : TStore V).Bound C.wrapped (2 * m)) → TSame (tUsable owner i) ⟨vs1, k1.toCount⟩ τ1 →
        (∀ x, ¬ owner x = some i → vs1 x = vs x) →
        (C.ops.Lawful → ∀ y : TPlace, y.valid s = true → owner y.var ≠ some i → y.loc s1 = y.loc s ∧ y.object s1 = y.object s ∧ y.valid s1 = true) →
        xtRunAll (C.inThread throws i) (partOf i p) τ1 = some (ρ i, gs) → fs i = e :: gs →
        ∃ s' t' es α' vs', (tRunThreads C throws n p s1 (upd t i k1)).map (fun r => (r.1, r.2.1, (i, e) :: r.2.2)) = some (s', t', es) ∧ Mem s' α' [] ∧
          ShowsS α' vs' ∧ (∀ j, TSame (tUsable owner j) ⟨vs', (t' j).toCount⟩ (ρ j) ∧ partOf j es = fs j) ∧ (∀ x, owner x = none → vs' x = vs x) ∧
          (C.ops.Lawful → ∀ y : TPlace, y.valid s = true → (∀ a ∈ ((i, c) :: p), owner y.var ≠ some a.1) → y.loc s' = y.loc s ∧ y.object s' = y.object s) := by
      intro s1 k1 α1 vs1 τ1 e gs hM1 hS1 hB1 hT1 hkeep hstay hr hfs
      obtain ⟨s', t', es, α', vs', h1, h2, h3, h4, h5, h5s⟩ := ih hp' hM1 hS1 hB1 (by omega) hn (t := upd t i k1) (upd τ i τ1) (fun j => by
        by_cases hj : j = i
        · subst hj; simp only [upd_same]; exact hT1
        · simp only [upd_ne _ _ hj]
          refine ⟨fun x hx => ?_, (hτ j).count⟩
          refine Eq.trans (hkeep x fun hc => ?_) ((hτ j).vars x hx)
          rcases hx with hx | hx <;> rw [hc] at hx <;> simp at hx
          exact hj hx.symm) (upd fs i gs) (fun j => by
        by_cases hj : j = i
        · subst hj; simp only [upd_same]; exact hr
        · simp only [upd_ne _ _ hj]; rw [← hother c p hj]; exact hρ j)
      refine ⟨s', t', (i, e) :: es, α', vs', by rw [h1]; rfl, h2, h3, fun j => ⟨(h4 j).1, ?_⟩, fun x hx => (h5 x hx).trans (hkeep x fun hc => ?_),
        fun hl y hy hn => ?_⟩
      · have h6 := (h4 j).2
        by_cases hj : j = i
        · subst hj; rw [upd_same] at h6; rw [hown, h6, hfs]
        · rw [upd_ne _ _ hj] at h6; rw [hother _ _ hj, h6]
      · rw [hc] at hx; cases hx
      · obtain ⟨g1, g2, g3⟩ := hstay hl y hy (hn (i, c) (by simp))
        obtain ⟨g4, g5⟩ := h5s hl y g3 fun a ha => hn a (List.mem_cons_of_mem _ ha)
        exact ⟨g4.trans g1, g5.trans g2⟩
    cases hv : c.valid (C.inThread throws i) s with
    | false =>
      simp only [hv, Bool.false_eq_true, if_false, Option.map_eq_some_iff] at hi ⊢
      obtain ⟨⟨q1, q2⟩, h1, h2⟩ := hi
      simp only [Prod.mk.injEq] at h2
      obtain ⟨rfl, h2⟩ := h2
      have := fin none q2 hM hS (fun k => (hB k).mono (by omega)) (k1 := t i) (hτ i) (fun _ _ => rfl) (fun _ _ hy _ => ⟨rfl, rfl, hy⟩) h1 h2.symm
      have hu : upd t i (t i) = t := funext fun j => by
        by_cases hj : j = i
        · subst hj; rw [upd_same]
        · rw [upd_ne _ _ hj]
      rw [hu] at this
      simpa only [Option.map_eq_some_iff] using this
    | true =>
      simp only [hv, if_true] at hi ⊢
      have hv1 : c.valid (C.inThread throws i) (s.at (t i)) = true := by
        rw [← hv, okay_eq (C := C.inThread throws i) (k := (t i).toCount) hMt hS c, okay_eq (C := C.inThread throws i) (k := (t i).toCount) hM hS c]
      have hvv : (XTSt.values ⟨vs, (s.at (t i)).count⟩ : TStore V).Valid (C.inThread throws i) c :=
        okay_iff.mp (by rw [← okay_eq (C := C.inThread throws i) (k := (s.at (t i)).count) hMt hS c]; exact hv1)
      have hrk := risky_eq hMt hS hvv
      have hrs : c.risky (C.inThread throws i) ⟨vs, (s.at (t i)).count⟩ = c.risky (C.inThread throws i) (τ i) :=
        risky_same (C.inThread throws i) (hτ i) c hns
      cases hz : c.risky (C.inThread throws i) (τ i) with
      | true => simp only [hz, if_true] at hi; cases hi
      | false =>
        simp only [hz, Bool.false_eq_true, if_false] at hi
        have hhz : c.hazard (C.inThread throws i) (s.at (t i)) = false := by rw [hrk, hrs, hz]
        have hb := exact_bound (C := C.inThread throws i) hfb hm (hB (s.at (t i)).count) hvv (hrs.trans hz)
        have hcf := (tconfined_exact (C.inThread throws i) c (S := tUsable owner i) (W := fun x => owner x = some i) hns hch).run
          ⟨vs, (s.at (t i)).count⟩ (τ i) (hτ i)
        have stay : ∀ {s1 : TreeSt V}, c.EndsIn (C.inThread throws i) n (s.at (t i)) s1 → C.ops.Lawful → ∀ y : TPlace, y.valid s = true →
            owner y.var ≠ some i → y.loc s1 = y.loc s ∧ y.object s1 = y.object s ∧ y.valid s1 = true := fun he hl y hy hno => by
          obtain ⟨ok, α1, g1, g2, -⟩ := tEnds (C := C.inThread throws i) hl hMt hS.isS (hB (s.at (t i)).count) (by omega : m ≤ n) hv1 hhz he
          exact g2.stays hM g1 hy fun x hx hu => hno (hu.1 ▸ hch _ (writes_changes hx))
        rcases tStep_x (C := C.inThread throws i) (n := n) hMt hS (hB _) (by omega) hvv hhz with
          ⟨s1, α1, vs1, e1, e2, e3, e4, _⟩ | ⟨e, s1, α1, vs1, e1, e2, e3, e4, _⟩
        · rw [e2] at hb hcf
          simp only [e1]
          cases h6 : c.exact (C.inThread throws i) (τ i) with
          | ok a τ1 =>
            simp only [h6] at hcf
            simp only [h6, Option.map_eq_some_iff] at hi
            obtain ⟨⟨q1, q2⟩, h7, h8⟩ := hi
            simp only [Prod.mk.injEq] at h8
            obtain ⟨rfl, h8⟩ := h8
            exact fin (k1 := s1.counts) none q2 e4 e3 (fun _ => hb) hcf.2.1 hcf.2.2 (stay (.inl e1)) h7 h8.symm
          | exc f τ1 => simp only [h6] at hcf
          | fault f => simp only [h6] at hcf
        · rw [e2] at hb hcf
          simp only [e1]
          cases h6 : c.exact (C.inThread throws i) (τ i) with
          | ok a τ1 => simp only [h6] at hcf
          | exc f τ1 =>
            simp only [h6] at hcf
            obtain ⟨rfl, hcf⟩ := hcf
            simp only [h6, Option.map_eq_some_iff] at hi
            obtain ⟨⟨q1, q2⟩, h7, h8⟩ := hi
            simp only [Prod.mk.injEq] at h8
            obtain ⟨rfl, h8⟩ := h8
            exact fin (k1 := s1.counts) (some e) q2 e4 e3 (fun _ => hb) hcf.1 hcf.2 (stay (.inr ⟨_, e1⟩)) h7 h8.symm
          | fault f => simp only [h6] at hcf

theorem length_partOf {γ : Type} (i : Nat) (p : List (Nat × γ)) : (partOf i p).length ≤ p.length := by
  unfold partOf
  rw [List.length_map]
  exact List.length_filter_le _ _

theorem xtRunAll_bound (hfb : ∀ fb, C.fallback = some fb → C.wrapped fb = false) (cs : List (TCmd V)) {σ : XTSt V} {m : Nat} (hB : σ.values.Bound C.wrapped m)
    (hm : 1 ≤ m) {q : XTSt V × List (Option Exc)} (hq : xtRunAll C cs σ = some q) : q.1.values.Bound C.wrapped (m * 2 ^ cs.length) := by
  induction cs generalizing σ m q with
  | nil => cases hq; rw [List.length_nil, Nat.pow_zero, Nat.mul_one]; exact hB
  | cons c cs ih =>
    have hpow : m * 2 ^ (c :: cs).length = 2 * m * 2 ^ cs.length := by
      rw [List.length_cons, Nat.pow_succ, Nat.mul_comm 2 m, Nat.mul_assoc, Nat.mul_comm (2 ^ cs.length)]
    rw [hpow]
    rw [xtRunAll] at hq
    cases hok : c.okay C σ with
    | false =>
      simp only [hok, Bool.false_eq_true, if_false, Option.map_eq_some_iff] at hq
      obtain ⟨r, h1, rfl⟩ := hq
      exact ih (q := r) (hB.mono (by omega)) (by omega) h1
    | true =>
      cases hz : c.risky C σ with
      | true => simp only [hok, hz, if_true] at hq; cases hq
      | false =>
        simp only [hok, hz, Bool.false_eq_true, if_false, if_true] at hq
        have hb := exact_bound (s := σ) hfb hm hB (okay_iff.mp hok) hz
        cases he : c.exact C σ with
        | ok a τ =>
          rw [he] at hb
          simp only [he, Option.map_eq_some_iff] at hq
          obtain ⟨r, h1, rfl⟩ := hq
          exact ih (q := r) hb (by omega) h1
        | exc e τ =>
          rw [he] at hb
          simp only [he, Option.map_eq_some_iff] at hq
          obtain ⟨r, h1, rfl⟩ := hq
          exact ih (q := r) hb (by omega) h1
        | fault f => simp only [he] at hq; cases hq

theorem tree_threads (hfb : ∀ fb, C.fallback = some fb → C.wrapped fb = false) {throws : Nat → Nat → Bool} {owner : Nat → Option Nat} {n m : Nat}
    {p : List (Nat × TCmd V)} (hp : TDisciplined owner p) {s : TreeSt V} {σ : XTSt V} {own : Nat → List ObjId} (hr : s.Shows σ own) (hf : s.Fresh)
    (hB : σ.values.Bound C.wrapped m) (hm : 1 ≤ m) (hn : m * 2 ^ p.length ≤ n) (t : Nat → Counts)
    (hz : ∀ i, tClean (C.inThread throws i) n (partOf i p) (s.at (t i)) = true) :
    ∃ s' t' es σ' own', tRunThreads C throws n p s t = some (s', t', es) ∧ s'.Shows σ' own' ∧ s'.Fresh ∧
      (∀ i, ∃ u τ own'', tRun (C.inThread throws i) n (partOf i p) (s.at (t i)) = some u ∧ u.Shows τ own'' ∧
        (∀ x, owner x = some i → σ'.vars x = τ.vars x) ∧ t' i = u.counts ∧ partOf i es = tThrown (C.inThread throws i) n (partOf i p) (s.at (t i)) ∧
        u.Fresh ∧ τ.values.Bound C.wrapped n ∧ ∀ x, owner x = none → σ'.vars x = τ.vars x) ∧
      (∀ x, owner x = none → σ'.vars x = σ.vars x) ∧
      (C.ops.Lawful → ∀ y : TPlace, y.valid s = true → (∀ a ∈ p, owner y.var ≠ some a.1) → y.loc s' = y.loc s ∧ y.object s' = y.object s) := by
  obtain ⟨α, hM, hS⟩ := hr.mem hf
  have hB' : ∀ k, (XTSt.values ⟨σ.vars, k⟩ : TStore V).Bound C.wrapped m := fun _ => hB
  have alone : ∀ i, ∃ q : XTSt V × List (Option Exc), xtRunAll (C.inThread throws i) (partOf i p) ⟨σ.vars, (t i).toCount⟩ = some q ∧
      tThrown (C.inThread throws i) n (partOf i p) (s.at (t i)) = q.2 ∧
      ∃ u own, tRun (C.inThread throws i) n (partOf i p) (s.at (t i)) = some u ∧ u.Shows q.1 own ∧ u.Fresh ∧ q.1.values.Bound C.wrapped n := fun i => by
    have hle : m * 2 ^ (partOf i p).length ≤ n :=
      Nat.le_trans (Nat.mul_le_mul_left _ (Nat.pow_le_pow_right (by omega) (length_partOf i p))) hn
    have h := xtRunAll_run (C := C.inThread throws i) (n := n) hfb (partOf i p) (mem_at hM (t i)) hS (hB' _) hm hle
    have hc : (s.at (t i)).count = (t i).toCount := rfl
    rw [hc] at h
    cases hq : xtRunAll (C.inThread throws i) (partOf i p) ⟨σ.vars, (t i).toCount⟩ with
    | none => rw [hq] at h; rw [hz i] at h; cases h
    | some q =>
      rw [hq] at h
      obtain ⟨-, h1, u, own, h2, h3, h4⟩ := h
      exact ⟨q, rfl, h1, u, own, h2, h3, h4,
        (xtRunAll_bound (C := C.inThread throws i) hfb (partOf i p) (σ := ⟨σ.vars, (t i).toCount⟩) (hB' _) hm hq).mono hle⟩
  obtain ⟨q, hq⟩ := Classical.skolem.mp alone
  obtain ⟨s', t', es, α', vs', h1, h2, h3, h4, h5, h5s⟩ := tree_threads_run (throws := throws) hfb p hp hM hS hB' hm hn (fun i => ⟨σ.vars, (t i).toCount⟩)
    (fun i => ⟨fun _ _ => rfl, rfl⟩) (fun i => (q i).1) (fun i => (q i).2) (fun i => (hq i).1)
  refine ⟨s', t', es, ⟨vs', s'.count⟩, _, h1, h2.shows h3, h2.fresh, fun i => ?_, h5, h5s⟩
  obtain ⟨-, h6, u, own'', h7, h8, h10, h11⟩ := hq i
  refine ⟨u, (q i).1, own'', h7, h8, fun x hx => (h4 i).1.vars x (.inl hx), Counts.toCount_inj ?_, by rw [(h4 i).2, h6], h10, h11,
    fun x hx => (h4 i).1.vars x (.inr hx)⟩
  have h9 := (h4 i).1.count
  simp only at h9
  rw [h9, h8.count]
  rfl

/-- C86 for recursive variants: threads each of which changes only variables of its own, and besides these reads only variables that none of them changes. Let
none of them, alone, meet a statement that the library does not support. Then, in whatever order their statements are executed, none goes wrong; each thread
does exactly what it does alone: its statements throw the same exceptions at the same operations, its variables are the same trees, with the same variants in
heap backups, and it makes as many operations and allocations. The shared variables stay as they are. -/
theorem C86_trees (hfb : ∀ fb, C.fallback = some fb → C.wrapped fb = false) {throws : Nat → Nat → Bool} {owner : Nat → Option Nat} {n m : Nat}
    {p : List (Nat × TCmd V)} (hp : TDisciplined owner p) {s : TreeSt V} {σ : XTSt V} {own : Nat → List ObjId} (hr : s.Shows σ own) (hf : s.Fresh)
    (hB : σ.values.Bound C.wrapped m) (hm : 1 ≤ m) (hn : m * 2 ^ p.length ≤ n) (t : Nat → Counts)
    (hz : ∀ i, tClean (C.inThread throws i) n (partOf i p) (s.at (t i)) = true) :
    ∃ s' t' es σ' own', tRunThreads C throws n p s t = some (s', t', es) ∧ s'.Shows σ' own' ∧ s'.Fresh ∧
      (∀ i, ∃ u τ own'', tRun (C.inThread throws i) n (partOf i p) (s.at (t i)) = some u ∧ u.Shows τ own'' ∧
        (∀ x, owner x = some i → σ'.vars x = τ.vars x) ∧ t' i = u.counts ∧ partOf i es = tThrown (C.inThread throws i) n (partOf i p) (s.at (t i))) ∧
      ∀ x, owner x = none → σ'.vars x = σ.vars x := by
  obtain ⟨s', t', es, σ', own', h1, h2, h3, h4, h5, -⟩ := tree_threads hfb hp hr hf hB hm hn t hz
  refine ⟨s', t', es, σ', own', h1, h2, h3, fun i => ?_, h5⟩
  obtain ⟨u, τ, own'', g1, g2, g3, g4, g5, -⟩ := h4 i
  exact ⟨u, τ, own'', g1, g2, g3, g4, g5⟩

theorem shows_represents {s : TreeSt V} {σ : XTSt V} {own : Nat → List ObjId} (hr : s.Shows σ own) (hf : s.Fresh) :
    ∃ own', s.Represents σ.values own' := by
  obtain ⟨α, hM, hS⟩ := hr.mem hf
  exact ⟨_, hM.represents hS.isS⟩

/-- C86 for recursive variants, reading: after an execution as in `C86_trees`, let a thread look at any variants `x` and `y` that are its own, or shared, or parts
of such variants. They exist if and only if they exist when the thread has been alone, and then all that the thread can find out is what it finds out alone: `==`,
`<`, `hash_value` and streaming have the same results, and a recursive visitor returns the same value, or throws as it does there. -/
theorem C86_trees_reads (hfb : ∀ fb, C.fallback = some fb → C.wrapped fb = false) {throws : Nat → Nat → Bool} {owner : Nat → Option Nat} {n m : Nat}
    {p : List (Nat × TCmd V)} (hp : TDisciplined owner p) {s : TreeSt V} {σ : XTSt V} {own : Nat → List ObjId} (hr : s.Shows σ own) (hf : s.Fresh)
    (hB : σ.values.Bound C.wrapped m) (hm : 1 ≤ m) (hn : m * 2 ^ p.length ≤ n) (t : Nat → Counts)
    (hz : ∀ i, tClean (C.inThread throws i) n (partOf i p) (s.at (t i)) = true) :
    ∃ s' t' es, tRunThreads C throws n p s t = some (s', t', es) ∧
      ∀ i, ∃ u, tRun (C.inThread throws i) n (partOf i p) (s.at (t i)) = some u ∧
        ∀ x : TPlace, (owner x.var = some i ∨ owner x.var = none) → (x.valid s' = true ↔ x.valid u = true) ∧ (x.valid s' = true →
          (∀ y : TPlace, (owner y.var = some i ∨ owner y.var = none) → y.valid s' = true →
            (∀ eq : TyIx → V → V → Bool, ∃ b, tEq eq n x y s' = .ok b s' ∧ tEq eq n x y u = .ok b u) ∧
            ∀ lt : TyIx → V → V → Bool, ∃ b, tLt lt n x y s' = .ok b s' ∧ tLt lt n x y u = .ok b u) ∧
          (∀ (H : Type) h hn (combine : H → TyIx → H), ∃ a, tHash h hn combine n x s' = .ok a s' ∧ tHash h hn combine n x u = .ok a u) ∧
          (∀ (S : Type) (P : Printer V S) out, ∃ a, tPrint P n x out s' = .ok a s' ∧ tPrint P n x out u = .ok a u) ∧
          ∀ (A R : Type) (vis : TVisitor V A R), vis.Within → ∀ a, ∃ (o : Option R) (s1 u1 : TreeSt V),
            tVisit vis n x a s' = o.elim (.exc ⟨.visitor, s'.tick⟩ s1) (fun r => .ok r s1) ∧
            tVisit vis n x a u = o.elim (.exc ⟨.visitor, u.tick⟩ u1) (fun r => .ok r u1)) := by
  obtain ⟨s', t', es, σ', own', h1, h2, h3, h4, h5, -⟩ := tree_threads hfb hp hr hf hB hm hn t hz
  have hmn : m ≤ n := Nat.le_trans (Nat.le_mul_of_pos_right _ (two_pow_pos _)) hn
  -- each variable is bounded, as its owner's are
  have hB' : σ'.values.Bound C.wrapped n := fun x w hx => by
    cases ho : owner x with
    | none =>
      refine (hB.mono hmn) x w ?_
      rw [← hx]; simp only [XTSt.values, h5 x ho]
    | some i =>
      obtain ⟨u, τ, o, -, -, g3, -, -, -, g6, -⟩ := h4 i
      refine g6 x w ?_
      rw [← hx]; simp only [XTSt.values, g3 x ho]
  obtain ⟨o1, r1⟩ := shows_represents h2 h3
  refine ⟨s', t', es, h1, fun i => ?_⟩
  obtain ⟨u, τ, o, g1, g2, g3, -, -, g4, g5, g6⟩ := h4 i
  obtain ⟨o2, r2⟩ := shows_represents g2 g4
  have hat : ∀ x : TPlace, (owner x.var = some i ∨ owner x.var = none) → σ'.values.at x = τ.values.at x := fun x hx => by
    have hv : σ'.values x.var = τ.values x.var := by
      rcases hx with hx | hx
      · simp only [XTSt.values, g3 _ hx]
      · simp only [XTSt.values, g6 _ hx]
    unfold TStore.at
    rw [hv]
  have alive : ∀ {q : TreeSt V} {ρ : TStore V} {oq : Nat → List ObjId}, q.Represents ρ oq → q.Fresh → ∀ x : TPlace, x.valid q = true ↔ ρ.at x ≠ none :=
    fun hq hqf x => by
      obtain ⟨α, hM, hS, _⟩ := hq.mem hqf
      exact hM.valid_iff.trans hS.at_iff.symm
  refine ⟨u, g1, fun x hx => ⟨by rw [alive r1 h3, alive r2 g4, hat x hx], fun hv => ?_⟩⟩
  obtain ⟨w, hw⟩ := tAlive_at r1 h3 hv
  have hw' := hw
  rw [hat x hx] at hw'
  refine ⟨fun y hy hvy => ?_, fun H h hn c => ⟨_, C55_hash_result r1 h3 hB' hw, C55_hash_result r2 g4 g5 hw'⟩,
    fun S P out => ⟨_, C55_streaming r1 h3 hB' hw, C55_streaming r2 g4 g5 hw'⟩, fun A R vis hvis a => ?_⟩
  · obtain ⟨z, hz⟩ := tAlive_at r1 h3 hvy
    have hz' := hz
    rw [hat y hy] at hz'
    refine ⟨fun eq => ?_, fun lt => ?_⟩
    · obtain ⟨b, k1, k2⟩ := C55_equality_result (eq := eq) r1 h3 hB' hw hz
      obtain ⟨b', k3, k4⟩ := C55_equality_result (eq := eq) r2 g4 g5 hw' hz'
      obtain rfl : b' = b := Bool.eq_iff_iff.mpr (k4.trans k2.symm)
      exact ⟨_, k1, k3⟩
    · obtain ⟨b, k1, k2⟩ := C55_less_result (lt := lt) r1 h3 hB' hw hz
      obtain ⟨b', k3, k4⟩ := C55_less_result (lt := lt) r2 g4 g5 hw' hz'
      obtain rfl : b' = b := Bool.eq_iff_iff.mpr (k4.trans k2.symm)
      exact ⟨_, k1, k3⟩
  · obtain ⟨v1, q1, s1, k1, k2, -⟩ := C81_visit hvis r1 h3 hB' hw a
    obtain ⟨v2, q2, u1, k3, k4, -⟩ := C81_visit hvis r2 g4 g5 hw' a
    obtain ⟨-, rfl⟩ := C81_deterministic k1 k3
    exact ⟨_, s1, u1, k2, k4⟩

/-- C86 for recursive variants, pointers: while other threads execute their statements, as in `C86_trees`, a thread's pointers to its own and to the shared
variants and nodes stay good: each variant that is a shared variable, or one of a thread that executes nothing, or a part of these, is where it was and has the
plain value or the node that it had. -/
theorem C86_trees_pointers (hl : C.ops.Lawful) (hfb : ∀ fb, C.fallback = some fb → C.wrapped fb = false) {throws : Nat → Nat → Bool}
    {owner : Nat → Option Nat} {n m : Nat} {p : List (Nat × TCmd V)} (hp : TDisciplined owner p) {s : TreeSt V} {σ : XTSt V} {own : Nat → List ObjId}
    (hr : s.Shows σ own) (hf : s.Fresh) (hB : σ.values.Bound C.wrapped m) (hm : 1 ≤ m) (hn : m * 2 ^ p.length ≤ n) (t : Nat → Counts)
    (hz : ∀ i, tClean (C.inThread throws i) n (partOf i p) (s.at (t i)) = true) {y : TPlace} (hy : y.valid s = true)
    (ho : ∀ a ∈ p, owner y.var ≠ some a.1) :
    ∃ s' t' es, tRunThreads C throws n p s t = some (s', t', es) ∧ y.loc s' = y.loc s ∧ y.object s' = y.object s := by
  obtain ⟨s', t', es, σ', own', h1, -, -, -, -, h2⟩ := tree_threads hfb hp hr hf hB hm hn t hz
  exact ⟨s', t', es, h1, h2 hl y hy ho⟩

mutual
/-- A variant in memory is one tree only. -/
theorem XTree.Rep.unique {h : ObjId → Option (TCell V)} : ∀ {u u' : XTree V} {v : TVar V} {ns ns' : List ObjId}, u.Rep h v ns → u'.Rep h v ns' → u = u'
  | .leaf false k a, u', v, ns, ns', h1, h2 => by
    rw [XTree.Rep] at h1
    obtain ⟨rfl, -⟩ := h1
    match u', h2 with
    | .leaf false k' a', h2 => rw [XTree.Rep] at h2; cases h2.1; rfl
    | .leaf true k' a', h2 => rw [XTree.Rep] at h2; obtain ⟨q, h3, -⟩ := h2; cases h3
    | .node false k' a' f', h2 => rw [XTree.Rep] at h2; obtain ⟨p, cs, ms, h3, -⟩ := h2; cases h3
    | .node true k' a' f', h2 => rw [XTree.Rep] at h2; obtain ⟨q, p, cs, ms, h3, -⟩ := h2; cases h3
  | .leaf true k a, u', v, ns, ns', h1, h2 => by
    rw [XTree.Rep] at h1
    obtain ⟨q, rfl, hq, -⟩ := h1
    match u', h2 with
    | .leaf false k' a', h2 => rw [XTree.Rep] at h2; cases h2.1
    | .leaf true k' a', h2 =>
      rw [XTree.Rep] at h2; obtain ⟨q', h3, h4, -⟩ := h2; cases h3; rw [hq] at h4; cases h4; rfl
    | .node false k' a' f', h2 => rw [XTree.Rep] at h2; obtain ⟨p, cs, ms, h3, -⟩ := h2; cases h3
    | .node true k' a' f', h2 => rw [XTree.Rep] at h2; obtain ⟨q, p, cs, ms, h3, h4, -⟩ := h2; cases h3; rw [hq] at h4; cases h4
  | .node false k a f, u', v, ns, ns', h1, h2 => by
    rw [XTree.Rep] at h1
    obtain ⟨p, cs, ms, rfl, hp, hf, -⟩ := h1
    match u', h2 with
    | .leaf false k' a', h2 => rw [XTree.Rep] at h2; cases h2.1
    | .leaf true k' a', h2 => rw [XTree.Rep] at h2; obtain ⟨q, h3, -⟩ := h2; cases h3
    | .node false k' a' f', h2 =>
      rw [XTree.Rep] at h2; obtain ⟨p, cs, ms, h3, h4, h5, -⟩ := h2; cases h3; rw [hp] at h4; cases h4; rw [XTree.RepL.unique hf h5]
    | .node true k' a' f', h2 => rw [XTree.Rep] at h2; obtain ⟨q, p, cs, ms, h3, -⟩ := h2; cases h3
  | .node true k a f, u', v, ns, ns', h1, h2 => by
    rw [XTree.Rep] at h1
    obtain ⟨q, p, cs, ms, rfl, hq, hp, hf, -⟩ := h1
    match u', h2 with
    | .leaf false k' a', h2 => rw [XTree.Rep] at h2; cases h2.1
    | .leaf true k' a', h2 => rw [XTree.Rep] at h2; obtain ⟨q, h3, h4, -⟩ := h2; cases h3; rw [hq] at h4; cases h4
    | .node false k' a' f', h2 => rw [XTree.Rep] at h2; obtain ⟨p, cs, ms, h3, -⟩ := h2; cases h3
    | .node true k' a' f', h2 =>
      rw [XTree.Rep] at h2; obtain ⟨q, p, cs, ms, h3, h4, h5, h6, -⟩ := h2
      cases h3; rw [hq] at h4; cases h4; rw [hp] at h5; cases h5; rw [XTree.RepL.unique hf h6]
theorem XTree.RepL.unique {h : ObjId → Option (TCell V)} : ∀ {f f' : List (XTree V)} {vs : List (TVar V)} {ns ns' : List ObjId}, XTree.RepL h f vs ns →
    XTree.RepL h f' vs ns' → f = f'
  | [], f', vs, ns, ns', h1, h2 => by
    rw [XTree.RepL] at h1
    obtain ⟨rfl, -⟩ := h1
    match f', h2 with
    | [], _ => rfl
    | t :: f', h2 => rw [XTree.RepL] at h2; obtain ⟨y, ys, ms, ms', h3, -⟩ := h2; cases h3
  | t :: f, f', vs, ns, ns', h1, h2 => by
    rw [XTree.RepL] at h1
    obtain ⟨y, ys, ms, ms', rfl, ht, hf, -⟩ := h1
    match f', h2 with
    | [], h2 => rw [XTree.RepL] at h2; cases h2.1
    | t' :: f', h2 =>
      rw [XTree.RepL] at h2; obtain ⟨y, ys, ms, ms', h3, h4, h5, -⟩ := h2
      cases h3; rw [XTree.Rep.unique ht h4, XTree.RepL.unique hf h5]
end

/-- A state shows one state of the specification only. -/
theorem TreeSt.Shows.unique {s : TreeSt V} {σ τ : XTSt V} {own own' : Nat → List ObjId} (h1 : s.Shows σ own) (h2 : s.Shows τ own') (x : Nat) :
    σ.vars x = τ.vars x := by
  cases e1 : σ.vars x with
  | none =>
    cases e2 : τ.vars x with
    | none => rfl
    | some u => obtain ⟨v, h3, -⟩ := h2.val x u e2; rw [(h1.dead x e1).1] at h3; cases h3
  | some u =>
    obtain ⟨v, h3, h4⟩ := h1.val x u e1
    cases e2 : τ.vars x with
    | none => rw [(h2.dead x e2).1] at h3; cases h3
    | some u' =>
      obtain ⟨v', h5, h6⟩ := h2.val x u' e2
      rw [h3] at h5; cases h5
      rw [h4.unique h6]

/-- C86 for recursive variants, the order does not matter: if two executions consist of the same statements of each thread in the same order, and they are as in
`C86_trees`, then afterwards all variables are the same trees, and each thread has met the same exceptions and has the same counters. -/
theorem C86_trees_order (hfb : ∀ fb, C.fallback = some fb → C.wrapped fb = false) {throws : Nat → Nat → Bool} {owner : Nat → Option Nat} {n m : Nat}
    {p q : List (Nat × TCmd V)} (hp : TDisciplined owner p) (hq : TDisciplined owner q) (hpq : ∀ i, partOf i p = partOf i q) {s : TreeSt V} {σ : XTSt V}
    {own : Nat → List ObjId} (hr : s.Shows σ own) (hf : s.Fresh) (hB : σ.values.Bound C.wrapped m) (hm : 1 ≤ m) (hn : m * 2 ^ p.length ≤ n)
    (hn' : m * 2 ^ q.length ≤ n) (t : Nat → Counts) (hz : ∀ i, tClean (C.inThread throws i) n (partOf i p) (s.at (t i)) = true) :
    ∃ s1 s2 t' es1 es2 σ1 σ2 own1 own2, tRunThreads C throws n p s t = some (s1, t', es1) ∧ tRunThreads C throws n q s t = some (s2, t', es2) ∧
      s1.Shows σ1 own1 ∧ s2.Shows σ2 own2 ∧ σ1.vars = σ2.vars ∧ ∀ i, partOf i es1 = partOf i es2 := by
  obtain ⟨s1, t1, es1, σ1, own1, h1, h2, -, h3, h4⟩ := C86_trees hfb hp hr hf hB hm hn t hz
  obtain ⟨s2, t2, es2, σ2, own2, k1, k2, -, k3, k4⟩ := C86_trees hfb hq hr hf hB hm hn' t fun i => by rw [← hpq i]; exact hz i
  have key : ∀ i, (∀ x, owner x = some i → σ1.vars x = σ2.vars x) ∧ t1 i = t2 i ∧ partOf i es1 = partOf i es2 := fun i => by
    obtain ⟨u, τ, o, a1, a2, a3, a4, a5⟩ := h3 i
    obtain ⟨v, τ', o', b1, b2, b3, b4, b5⟩ := k3 i
    rw [← hpq i, a1] at b1
    obtain rfl := Option.some.inj b1
    exact ⟨fun x hx => (a3 x hx).trans ((a2.unique b2 x).trans (b3 x hx).symm), a4.trans b4.symm, by rw [a5, b5, hpq i]⟩
  obtain rfl : t1 = t2 := funext fun i => (key i).2.1
  refine ⟨s1, s2, t1, es1, es2, σ1, σ2, own1, own2, h1, k1, h2, k2, funext fun x => ?_, fun i => (key i).2.2⟩
  cases hx : owner x with
  | none => rw [h4 x hx, k4 x hx]
  | some i => exact (key i).1 x hx

/-- The state after any program meets the hypotheses of `C86_trees`. -/
theorem tRun_shows (hfb : ∀ fb, C.fallback = some fb → C.wrapped fb = false) (hl : C.ops.Lawful) {n : Nat} (cs : List (TCmd V)) (hn : 2 ^ cs.length ≤ n)
    (hc : tClean C n cs (TreeSt.init V) = true) :
    ∃ s σ own, tRun C n cs (TreeSt.init V) = some s ∧ s.Shows σ own ∧ s.Fresh ∧ σ.values.Bound C.wrapped (2 ^ cs.length) := by
  obtain ⟨s, σ', own', h1, -, -, h4, -⟩ := C37_programs_on_trees hl hfb cs hn hc
  have h := C73_program hfb cs hn
  rw [hc] at h
  cases hq : xtRunAll C cs (XTSt.init V) with
  | none => rw [hq] at h; cases h
  | some q =>
    rw [hq] at h
    obtain ⟨-, -, s', own, h2, h3⟩ := h
    rw [h1] at h2; cases h2
    have hb := xtRunAll_bound (m := 1) hfb cs (σ := XTSt.init V) nofun (Nat.le_refl _) hq
    rw [Nat.one_mul] at hb
    exact ⟨s, _, own, h1, h3, h4, hb⟩

end

/-! ### Non-vacuity -/

/-- Two threads, after `exTreeProg`, whose last assignment fails and leaves variable 2 in a heap backup: they copy the shared variables 2 and 3, and parts of
3, into variables of their own, change these, assign them and move them. -/
def exTreeThreads : List (Nat × TCmd Nat) :=
  [(0, .copy 5 ⟨3, [0]⟩), (1, .node 7 1 9 [⟨2, []⟩, ⟨3, [2]⟩]), (0, .assign ⟨5, []⟩ ⟨3, []⟩), (1, .store ⟨7, [0]⟩ 4), (0, .assign ⟨5, [0]⟩ ⟨0, []⟩), (1, .move 8 ⟨7, []⟩)]

/-- Variables 5 and 6 belong to thread 0, those from 7 on to thread 1. -/
def exTreeOwner (x : Nat) : Option Nat := if x < 5 then none else if x < 7 then some 0 else some 1

/-- In thread 0 the operation number 14 throws. -/
def exTreeThrows (i t : Nat) : Bool := decide (i = 0 ∧ t = 14)

theorem exTreeThreads_disciplined : TDisciplined exTreeOwner exTreeThreads := by
  unfold TDisciplined exTreeThreads; decide

theorem exTreeThreads_clean (i : Nat) : tClean ((exTree none [35]).inThread exTreeThrows i) 4096 (partOf i exTreeThreads) ((tAfter none [35] exTreeProg).at ⟨0, 0⟩) = true := by
  match i with
  | 0 => decide +kernel
  | 1 => decide +kernel
  | i + 2 => rfl

/-- What the threads do: the last assignment of thread 0 fails at its operation 14, and variable 5 keeps its first member; variable 7 is moved to 8. -/
example : ((tRunThreads (exTree none [35]) exTreeThrows 4096 exTreeThreads (tAfter none [35] exTreeProg) fun _ => ⟨0, 0⟩).map fun r =>
      r.2.2.map fun e => (e.1, e.2.map (·.tick))) = some [(0, none), (1, none), (0, none), (1, none), (0, some 14), (1, none)] ∧
    ((tRunThreads (exTree none [35]) exTreeThrows 4096 exTreeThreads (tAfter none [35] exTreeProg) fun _ => ⟨0, 0⟩).map fun r =>
      (r.2.1 0, r.2.1 1)) = some (⟨15, 4⟩, ⟨19, 5⟩) ∧
    ((tRunThreads (exTree none [35]) exTreeThrows 4096 exTreeThreads (tAfter none [35] exTreeProg) fun _ => ⟨0, 0⟩).bind fun r =>
      r.1.vars 8) = some (.plain 1 (.wrap 15)) ∧
    ((tRunThreads (exTree none [35]) exTreeThrows 4096 exTreeThreads (tAfter none [35] exTreeProg) fun _ => ⟨0, 0⟩).bind fun r =>
      r.1.heap 15) = some (.node 9 [.plain 1 (.wrap 16), .plain 2 (.leaf 6)]) := by
  decide +kernel

theorem exTreeThreads_start : ∃ σ own, (tAfter none [35] exTreeProg).Shows σ own ∧ (tAfter none [35] exTreeProg).Fresh ∧
    σ.values.Bound (exTree none [35]).wrapped 64 := by
  obtain ⟨s, σ, own, h1, h2, h3, h4⟩ := tRun_shows (C := exTree none [35]) nofun natOps_lawful (n := 4096) exTreeProg (by decide) (by decide +kernel)
  have h0 : tAfter none [35] exTreeProg = s := by rw [tAfter, h1]; rfl
  rw [h0]
  exact ⟨σ, own, h2, h3, h4⟩

/-- C73: from that state, in which variable 2 is in a heap backup, it is swapped with variable 3; code and specification end alike. -/
example : (∃ s' σ σ' own', TCmd.code (exTree none [35]) 4096 (.swap ⟨2, []⟩ ⟨3, []⟩ 9) (tAfter none [35] exTreeProg) = .ok () s' ∧
      (tAfter none [35] exTreeProg).Shows σ own' ∧ TCmd.exact (exTree none [35]) (.swap ⟨2, []⟩ ⟨3, []⟩ 9) σ = .ok () σ') := by
  obtain ⟨σ, own, h1, h2, h3⟩ := exTreeThreads_start
  have hok : (match TCmd.code (exTree none [35]) 4096 (.swap ⟨2, []⟩ ⟨3, []⟩ 9) (tAfter none [35] exTreeProg) with | .ok _ _ => true | _ => false) = true := by
    decide +kernel
  rcases C73_statement (C := exTree none [35]) (n := 4096) (c := .swap ⟨2, []⟩ ⟨3, []⟩ 9) h1 h2 (h3.mono (by decide)) (by decide +kernel) (by decide +kernel) with
    ⟨s', σ', own', e1, e2, -⟩ | ⟨e, s', σ', own', e1, -⟩
  · exact ⟨s', σ, σ', own, e1, h1, e2⟩
  · rw [e1] at hok; cases hok

/-- C86: those threads do what each of them does alone. -/
example : ∃ s' t' es, tRunThreads (exTree none [35]) exTreeThrows 4096 exTreeThreads (tAfter none [35] exTreeProg) (fun _ => ⟨0, 0⟩) = some (s', t', es) ∧
    partOf 0 es = tThrown ((exTree none [35]).inThread exTreeThrows 0) 4096 (partOf 0 exTreeThreads) ((tAfter none [35] exTreeProg).at ⟨0, 0⟩) := by
  obtain ⟨σ, own, h1, h2, h3⟩ := exTreeThreads_start
  obtain ⟨s', t', es, _, _, h4, _, _, h5, _⟩ := C86_trees (C := exTree none [35]) nofun exTreeThreads_disciplined h1 h2 h3 (by decide) (n := 4096) (by decide)
    (fun _ => ⟨0, 0⟩) exTreeThreads_clean
  obtain ⟨_, _, _, _, _, _, _, h6⟩ := h5 0
  exact ⟨s', t', es, h4, h6⟩

/-- C86: the same when thread 1 is first. The nodes are then at other addresses: variable 8 is there at 11. -/
example : (∃ s1 s2 t' es1 es2 σ1 σ2 own1 own2,
      tRunThreads (exTree none [35]) exTreeThrows 4096 exTreeThreads (tAfter none [35] exTreeProg) (fun _ => ⟨0, 0⟩) = some (s1, t', es1) ∧
      tRunThreads (exTree none [35]) exTreeThrows 4096 ((partOf 1 exTreeThreads).map (1, ·) ++ (partOf 0 exTreeThreads).map (0, ·))
        (tAfter none [35] exTreeProg) (fun _ => ⟨0, 0⟩) = some (s2, t', es2) ∧
      s1.Shows σ1 own1 ∧ s2.Shows σ2 own2 ∧ σ1.vars = σ2.vars ∧ ∀ i, partOf i es1 = partOf i es2) ∧
    ((tRunThreads (exTree none [35]) exTreeThrows 4096 ((partOf 1 exTreeThreads).map (1, ·) ++ (partOf 0 exTreeThreads).map (0, ·))
      (tAfter none [35] exTreeProg) fun _ => ⟨0, 0⟩).bind fun r => r.1.vars 8) = some (.plain 1 (.wrap 11)) := by
  refine ⟨?_, by decide +kernel⟩
  obtain ⟨σ, own, h1, h2, h3⟩ := exTreeThreads_start
  refine C86_trees_order (C := exTree none [35]) nofun exTreeThreads_disciplined ?_ ?_ h1 h2 h3 (by decide) (n := 4096) (by decide) (by decide)
    (fun _ => ⟨0, 0⟩) exTreeThreads_clean
  · unfold TDisciplined; decide
  · intro i
    match i with
    | 0 => rfl
    | 1 => rfl
    | i + 2 => rfl

/-- C86: thread 0 executes its statements; the shared variable 3 and its first member, which it copies, stay where they are. -/
example : ∃ s' t' es, tRunThreads (exTree none [35]) exTreeThrows 4096 ((partOf 0 exTreeThreads).map (0, ·)) (tAfter none [35] exTreeProg) (fun _ => ⟨0, 0⟩) =
      some (s', t', es) ∧ TPlace.loc s' ⟨3, [0]⟩ = TPlace.loc (tAfter none [35] exTreeProg) ⟨3, [0]⟩ ∧
      TPlace.object s' ⟨3, [0]⟩ = some (1, .wrap 3, some (7, 2)) := by
  obtain ⟨σ, own, h1, h2, h3⟩ := exTreeThreads_start
  obtain ⟨s', t', es, h4, h5, h6⟩ := C86_trees_pointers (C := exTree none [35]) (throws := exTreeThrows) (owner := exTreeOwner)
    (p := (partOf 0 exTreeThreads).map (0, ·)) (y := ⟨3, [0]⟩) natOps_lawful nofun (by unfold TDisciplined; decide) h1 h2 h3
    (by decide) (n := 4096) (by decide) (fun _ => ⟨0, 0⟩) (fun i => by
      match i with
      | 0 => decide +kernel
      | i + 1 => rfl) (by decide +kernel) (by decide)
  exact ⟨s', t', es, h4, h5, h6.trans (by decide +kernel)⟩

/-- C86: thread 0 compares its variable 5 with the shared variable 3, with the result that it gets alone: they are equal, as the last assignment has failed. Thread 1
has moved variable 7 to 8 meanwhile. -/
example : ∃ s' t' es u r, tRunThreads (exTree none [35]) exTreeThrows 4096 exTreeThreads (tAfter none [35] exTreeProg) (fun _ => ⟨0, 0⟩) = some (s', t', es) ∧
    tRun ((exTree none [35]).inThread exTreeThrows 0) 4096 (partOf 0 exTreeThreads) ((tAfter none [35] exTreeProg).at ⟨0, 0⟩) = some u ∧
    tEq (fun _ a b => a == b) 4096 ⟨5, []⟩ ⟨3, []⟩ s' = .ok true s' ∧ tEq (fun _ a b => a == b) 4096 ⟨5, []⟩ ⟨3, []⟩ u = .ok true u ∧
    tHash (fun k a => k + a) (fun k a hs => k + a + hs.sum) (fun a k => a + k) 4096 ⟨5, []⟩ s' = .ok r s' ∧
    tHash (fun k a => k + a) (fun k a hs => k + a + hs.sum) (fun a k => a + k) 4096 ⟨5, []⟩ u = .ok r u := by
  obtain ⟨σ, own, h1, h2, h3⟩ := exTreeThreads_start
  obtain ⟨s', t', es, h4, h5⟩ := C86_trees_reads (C := exTree none [35]) nofun exTreeThreads_disciplined h1 h2 h3 (by decide) (n := 4096) (by decide)
    (fun _ => ⟨0, 0⟩) exTreeThreads_clean
  obtain ⟨u, h6, h7⟩ := h5 0
  have hv : ∀ x : TPlace, x = ⟨5, []⟩ ∨ x = ⟨3, []⟩ → x.valid s' = true := fun x hx => by
    have h8 : ((tRunThreads (exTree none [35]) exTreeThrows 4096 exTreeThreads (tAfter none [35] exTreeProg) fun _ => ⟨0, 0⟩).map fun r =>
      (TPlace.valid r.1 ⟨5, []⟩, TPlace.valid r.1 ⟨3, []⟩)) = some (true, true) := by decide +kernel
    rw [h4] at h8
    simp only [Option.map_some, Option.some.injEq, Prod.mk.injEq] at h8
    rcases hx with rfl | rfl
    · exact h8.1
    · exact h8.2
  obtain ⟨-, h9⟩ := h7 ⟨5, []⟩ (.inl rfl)
  obtain ⟨k1, k2, -⟩ := h9 (hv _ (.inl rfl))
  obtain ⟨b, k3, k4⟩ := (k1 ⟨3, []⟩ (.inr rfl) (hv _ (.inr rfl))).1 fun _ a b => a == b
  have hb : ((tRunThreads (exTree none [35]) exTreeThrows 4096 exTreeThreads (tAfter none [35] exTreeProg) fun _ => ⟨0, 0⟩).map fun r =>
      match tEq (fun _ a b => a == b) 4096 ⟨5, []⟩ ⟨3, []⟩ r.1 with | .ok b _ => b | _ => false) = some true := by decide +kernel
  rw [h4] at hb
  simp only [Option.map_some, k3, Option.some.injEq] at hb
  subst hb
  obtain ⟨r, k5, k6⟩ := k2 Nat (fun k a => k + a) (fun k a hs => k + a + hs.sum) (fun a k => a + k)
  exact ⟨s', t', es, u, r, h4, h6, k3, k4, k5, k6⟩

end BVariant
