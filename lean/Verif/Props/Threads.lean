import Verif.Spec.Threads
import Verif.Props.Exact
import Verif.Props.Backup
import Verif.Props.Reference

/-
C86: threads that share only variants which none of them changes do not affect each other.
-/

namespace BVariant

section
variable {V α β : Type}

/-! ### What the specification of a statement depends on and changes -/

/-- The two states agree on `S` and have the same counters. -/
def SameOn (S : VarId → Prop) (σ τ : XSt V) : Prop := (∀ x, S x → σ.vars x = τ.vars x) ∧ σ.tick = τ.tick ∧ σ.allocs = τ.allocs

/-- The code depends on the variables in `S` only and changes those in `W` only. -/
structure Confined (S W : VarId → Prop) (m : Eff (XSt V) α) : Prop where
  run : ∀ σ τ, SameOn S σ τ →
    match m σ, m τ with
    | .ok a σ', .ok b τ' => a = b ∧ SameOn S σ' τ' ∧ ∀ x, ¬ W x → σ'.vars x = σ.vars x
    | .exc e σ', .exc f τ' => e = f ∧ SameOn S σ' τ' ∧ ∀ x, ¬ W x → σ'.vars x = σ.vars x
    | .fault f, .fault g => f = g
    | _, _ => False

variable {S W : VarId → Prop}

theorem Confined.bind {m : Eff (XSt V) α} {f : α → Eff (XSt V) β} (hm : Confined S W m) (hf : ∀ a, Confined S W (f a)) : Confined S W (m >>= f) := by
  constructor; intro σ τ h
  have h1 := hm.run σ τ h
  show match Eff.bind m f σ, Eff.bind m f τ with | .ok a σ', .ok b τ' => _ | .exc e σ', .exc f τ' => _ | .fault f, .fault g => _ | _, _ => False
  unfold Eff.bind
  cases e1 : m σ <;> cases e2 : m τ <;> simp only [e1, e2] at h1 ⊢
  · obtain ⟨rfl, h2, h3⟩ := h1
    rename_i a σ1 τ1
    have h4 := (hf a).run σ1 τ1 h2
    cases e3 : f a σ1 <;> cases e4 : f a τ1 <;> simp only [e3, e4] at h4 ⊢
    · exact ⟨h4.1, h4.2.1, fun x hx => (h4.2.2 x hx).trans (h3 x hx)⟩
    · exact ⟨h4.1, h4.2.1, fun x hx => (h4.2.2 x hx).trans (h3 x hx)⟩
    · exact h4
  · exact h1
  · exact h1

theorem Confined.onExc {m : Eff (XSt V) α} {h : Eff (XSt V) Unit} (hm : Confined S W m) (hh : Confined S W h) : Confined S W (Eff.onExc m h) := by
  constructor; intro σ τ ha
  have h1 := hm.run σ τ ha
  unfold Eff.onExc
  cases e1 : m σ <;> cases e2 : m τ <;> simp only [e1, e2] at h1 ⊢
  · exact h1
  · obtain ⟨rfl, h2, h3⟩ := h1
    rename_i e σ1 τ1
    have h4 := hh.run σ1 τ1 h2
    cases e3 : h σ1 <;> cases e4 : h τ1 <;> simp only [e3, e4] at h4 ⊢
    · exact ⟨trivial, h4.2.1, fun x hx => (h4.2.2 x hx).trans (h3 x hx)⟩
    · exact h4
  · exact h1

theorem confined_get {x : VarId} (hx : S x) : Confined (V := V) S W (xGet x) := by
  constructor; intro σ τ h
  simp only [xGet, ← h.1 x hx]
  cases σ.vars x
  · rfl
  · exact ⟨rfl, h, fun _ _ => rfl⟩

theorem confined_put {x : VarId} (hx : W x) (t : Option (Tag V)) : Confined S W (xPut x t) := by
  constructor; intro σ τ h
  refine ⟨rfl, ⟨fun y hy => ?_, h.2⟩, fun y hy => ?_⟩
  · by_cases e : y = x
    · subst e; simp only [upd_same]
    · simp only [upd_ne _ _ e]; exact h.1 y hy
  · have e : y ≠ x := fun e => hy (e ▸ hx)
    exact upd_ne _ _ e

theorem confined_may (C : Cfg V) (b : Bool) (k : ExcKind) : Confined S W (xMay C b k) := by
  constructor; intro σ τ h
  simp only [xMay, ← h.2.1]
  by_cases hc : b = false ∧ C.throws σ.tick = true
  · simp only [hc, and_self, if_true]
    exact ⟨trivial, ⟨h.1, by simp [h.2.1], h.2.2⟩, fun _ _ => trivial⟩
  · simp only [hc, if_false]
    exact ⟨trivial, ⟨h.1, by simp [h.2.1], h.2.2⟩, fun _ _ => trivial⟩

theorem confined_new (C : Cfg V) : Confined S W (xNew C) := by
  refine Confined.bind ?_ fun _ => confined_may C _ _
  constructor; intro σ τ h
  exact ⟨rfl, ⟨h.1, h.2.1, by simp [h.2.2]⟩, fun _ _ => rfl⟩

/-- Decides confinement, down to which variables are in which set. -/
macro "confine" : tactic => `(tactic| repeat' (first
  | assumption
  | apply confined_may
  | apply confined_new
  | apply confined_get
  | apply confined_put
  | apply Confined.onExc
  | apply Confined.bind
  | intro _
  | split))

variable (C : Cfg V)

theorem confined_moveAssign {l r : VarId} (hl : S l) (hr : S r) (wl : W l) (wr : W r) : Confined S W (xMoveAssign C l r) := by
  unfold xMoveAssign xMoveAssignElems xReplaceMove xGuardedCopy xMove xCopy xMoveLocal xFallback
  confine

theorem confined_moveConstruct {l r : VarId} (hr : S r) (wl : W l) (wr : W r) : Confined S W (xMoveConstruct C l r) := by
  unfold xMoveConstruct xMove
  confine

theorem confined_copyConstruct {l r : VarId} (hr : S r) (wl : W l) : Confined S W (xCopyConstruct C l r) := by
  unfold xCopyConstruct xCopy
  confine

theorem confined_convert {l : VarId} (wl : W l) (m : XMode) (k : TyIx) (v : V) : Confined S W (xConvert C l m k v) := by
  unfold xConvert xCopy xMoveLocal
  confine

theorem confined_copyAssign {l r : VarId} (hl : S l) (hr : S r) (wl : W l) : Confined S W (xCopyAssign C l r) := by
  unfold xCopyAssign xAssignElem xReplaceCopy xGuardedCopy xCopy xMoveLocal xFallback
  confine

theorem confined_withLocal {t : VarId} (wt : W t) {m : Eff (XSt V) Unit} (hm : Confined S W m) : Confined S W (xWithLocal t m) := by
  unfold xWithLocal
  confine

theorem confined_assignValue {l : VarId} (hl : S l) (wl : W l) (ht : S (.tmp 0)) (wt : W (.tmp 0)) (m : XMode) (d : Bool) (k : TyIx) (v : V) :
    Confined S W (xAssignValue C l m d k v) := by
  unfold xAssignValue xAssignElem xMoveAssignElem
  have h1 := confined_convert (S := S) C wt m k v
  have h2 := confined_withLocal wt (confined_moveAssign C hl ht wl wt)
  confine

theorem confined_assignGet {l r : VarId} (hl : S l) (hr : S r) (wl : W l) (ht : S (.tmp 0)) (wt : W (.tmp 0)) (rv : Bool) (wr : rv = true → W r) :
    Confined S W (xAssignGet C rv l r) := by
  have h2 := confined_withLocal wt (confined_moveAssign C hl ht wl wt)
  have h3 := confined_copyConstruct (S := S) C hr wt
  cases rv with
  | false =>
    unfold xAssignGet xAssignElem
    simp only [Bool.false_eq_true, if_false]
    confine
  | true =>
    have wr := wr rfl
    have h4 := confined_moveConstruct (S := S) C hr wt wr
    unfold xAssignGet xMoveAssignElems
    simp only [if_true]
    confine

theorem confined_swap {l r : VarId} (hl : S l) (hr : S r) (wl : W l) (wr : W r) (ht : S (.tmp 0)) (wt : W (.tmp 0)) : Confined S W (xSwap C l r) := by
  have h1 := confined_withLocal wt
    ((confined_moveAssign (S := S) (W := W) C hr hl wr wl).bind fun _ => confined_moveAssign (S := S) (W := W) C hl ht wl wt)
  have h4 := confined_moveConstruct (S := S) C hr wt wr
  unfold xSwap
  confine

theorem confined_exact (c : Cmd V) (hS : ∀ x ∈ c.names, S (.user x)) (hW : ∀ x ∈ c.changes, W (.user x)) (ht : S (.tmp 0)) (wt : W (.tmp 0)) :
    Confined S W (c.exact C) := by
  cases c with
  | defaultConstruct x =>
    have := hW x (by simp [Cmd.changes, Cmd.names])
    unfold Cmd.exact xDefault; confine
  | copyConstruct x y => exact confined_copyConstruct C (hS y (by simp [Cmd.names])) (hW x (by simp [Cmd.changes]))
  | moveConstruct x y =>
    exact confined_moveConstruct C (hS y (by simp [Cmd.names])) (hW x (by simp [Cmd.changes, Cmd.names])) (hW y (by simp [Cmd.changes, Cmd.names]))
  | constructGet rv x y =>
    cases rv with
    | false => exact confined_copyConstruct C (hS y (by simp [Cmd.names])) (hW x (by simp [Cmd.changes]))
    | true =>
      exact confined_moveConstruct C (hS y (by simp [Cmd.names])) (hW x (by simp [Cmd.changes, Cmd.names])) (hW y (by simp [Cmd.changes, Cmd.names]))
  | constructL x k v => exact confined_convert C (hW x (by simp [Cmd.changes, Cmd.names])) .lvalue k v
  | constructR x k v => exact confined_convert C (hW x (by simp [Cmd.changes, Cmd.names])) .rvalue k v
  | constructC x k v => exact confined_convert C (hW x (by simp [Cmd.changes, Cmd.names])) .other k v
  | destroy x => exact confined_put (hW x (by simp [Cmd.changes, Cmd.names])) _
  | copyAssign x y => exact confined_copyAssign C (hS x (by simp [Cmd.names])) (hS y (by simp [Cmd.names])) (hW x (by simp [Cmd.changes]))
  | moveAssign x y =>
    exact confined_moveAssign C (hS x (by simp [Cmd.names])) (hS y (by simp [Cmd.names])) (hW x (by simp [Cmd.changes, Cmd.names]))
      (hW y (by simp [Cmd.changes, Cmd.names]))
  | assignL x k v => exact confined_assignValue C (hS x (by simp [Cmd.names])) (hW x (by simp [Cmd.changes, Cmd.names])) ht wt .lvalue true k v
  | assignR x k v => exact confined_assignValue C (hS x (by simp [Cmd.names])) (hW x (by simp [Cmd.changes, Cmd.names])) ht wt .rvalue true k v
  | assignC x k v => exact confined_assignValue C (hS x (by simp [Cmd.names])) (hW x (by simp [Cmd.changes, Cmd.names])) ht wt .other false k v
  | assignVL x k v => exact confined_assignValue C (hS x (by simp [Cmd.names])) (hW x (by simp [Cmd.changes, Cmd.names])) ht wt .lvalue false k v
  | assignVR x k v => exact confined_assignValue C (hS x (by simp [Cmd.names])) (hW x (by simp [Cmd.changes, Cmd.names])) ht wt .rvalue false k v
  | assignGet rv x y =>
    refine confined_assignGet C (hS x (by simp [Cmd.names])) (hS y (by simp [Cmd.names])) (hW x ?_) ht wt rv fun h => hW y ?_
    · cases rv <;> simp [Cmd.changes, Cmd.names]
    · subst h; simp [Cmd.changes, Cmd.names]
  | swap x y =>
    exact confined_swap C (hS x (by simp [Cmd.names])) (hS y (by simp [Cmd.names])) (hW x (by simp [Cmd.changes, Cmd.names]))
      (hW y (by simp [Cmd.changes, Cmd.names])) ht wt
  | mutate x v =>
    have h1 := hS x (by simp [Cmd.names])
    have h2 := hW x (by simp [Cmd.changes, Cmd.names])
    unfold Cmd.exact xStore; confine

theorem exactValid_agree {σ τ : XSt V} (h : SameOn S σ τ) (c : Cmd V) (hS : ∀ x ∈ c.names, S (.user x)) : c.exactValid C σ = c.exactValid C τ := by
  have h1 : ∀ x ∈ c.names, σ.vars (.user x) = τ.vars (.user x) := fun x hx => h.1 _ (hS x hx)
  cases c <;> simp only [Cmd.names, List.mem_cons, List.not_mem_nil, or_false, forall_eq_or_imp, forall_eq] at h1 <;> simp only [Cmd.exactValid, h1]

theorem exactHazard_agree {σ τ : XSt V} (h : SameOn S σ τ) (c : Cmd V) (hS : ∀ x ∈ c.names, S (.user x)) : c.exactHazard σ = c.exactHazard τ := by
  have h1 : ∀ x ∈ c.names, σ.vars (.user x) = τ.vars (.user x) := fun x hx => h.1 _ (hS x hx)
  cases c <;> simp only [Cmd.names, List.mem_cons, List.not_mem_nil, or_false, forall_eq_or_imp, forall_eq] at h1 <;> simp only [Cmd.exactHazard, h1]

/-! ### Threads -/

variable {C}

theorem good_at {w : World V} (throws : Nat → Nat → Bool) (i : Nat) (t : Counts) (hg : Good C w) : Good (C.inThread throws i) (w.at t) where
  wf := ⟨fun x s h => by
      obtain ⟨id, k, v, h1, h2⟩ := hg.wf.rep x s h
      refine ⟨id, k, v, ?_, h2⟩
      cases h1 with
      | inPlace _ _ h3 => exact .inPlace _ _ h3
      | inBackup _ _ h3 h4 => exact .inBackup _ _ h3 h4,
    hg.wf.inj, hg.wf.noLeak, hg.wf.fresh, hg.wf.flat⟩
  noTmp := hg.noTmp

theorem good_of_inThread {w : World V} {throws : Nat → Nat → Bool} {i : Nat} (hg : Good (C.inThread throws i) w) : Good C w where
  wf := ⟨fun x s h => by
      obtain ⟨id, k, v, h1, h2⟩ := hg.wf.rep x s h
      refine ⟨id, k, v, ?_, h2⟩
      cases h1 with
      | inPlace _ _ h3 => exact .inPlace _ _ h3
      | inBackup _ _ h3 h4 => exact .inBackup _ _ h3 h4,
    hg.wf.inj, hg.wf.noLeak, hg.wf.fresh, hg.wf.flat⟩
  noTmp := hg.noTmp

theorem sane_inThread (hs : Sane C) (throws : Nat → Nat → Bool) (i : Nat) : Sane (C.inThread throws i) := ⟨hs.blank, hs.copyMove, hs.fallback⟩

/-- The variables that thread `i` may use, and the library's temporaries. -/
def usable (owner : Nat → Option Nat) (i : Nat) : VarId → Prop
  | .user x => owner x = some i ∨ owner x = none
  | .tmp _ => True

/-- The variables that thread `i` may change, and the library's temporaries. -/
def changeable (owner : Nat → Option Nat) (i : Nat) : VarId → Prop
  | .user x => owner x = some i
  | .tmp _ => True

/-- The state of a thread that runs alone is as in the state of all threads. -/
structure AsAlone (C : Cfg V) (owner : Nat → Option Nat) (i : Nat) (w u : World V) : Prop where
  good : Good C u
  same : ∀ x, usable owner i x → w.tagged x = u.tagged x

theorem agree_of {owner : Nat → Option Nat} {i : Nat} {w u : World V} {t : Counts} (h : AsAlone C owner i w u) (ht : t = u.counts) :
    SameOn (usable owner i) (w.at t).view u.view := by
  subst ht
  exact ⟨h.same, rfl, rfl⟩

/-- One statement of thread `i`, among others and alone. -/
theorem thread_step (hs : Sane C) {throws : Nat → Nat → Bool} {owner : Nat → Option Nat} {i : Nat} {w u : World V} {t : Counts} (hg : Good C w)
    (h : AsAlone C owner i w u) (ht : t = u.counts) (c : Cmd V) (hch : ∀ x ∈ c.changes, owner x = some i)
    (hn : ∀ x ∈ c.names, owner x = some i ∨ owner x = none) :
    c.valid (C.inThread throws i) w = c.valid (C.inThread throws i) u ∧
    (c.valid (C.inThread throws i) u = true → c.readsBackup u = false →
      ∃ w' u', Good C w' ∧ AsAlone C owner i w' u' ∧ w'.counts = u'.counts ∧ (∀ x, ¬ changeable owner i x → w'.tagged x = w.tagged x) ∧
        ((c.code (C.inThread throws i) (w.at t) = .ok () w' ∧ c.code (C.inThread throws i) u = .ok () u') ∨
         ∃ e, c.code (C.inThread throws i) (w.at t) = .exc e w' ∧ c.code (C.inThread throws i) u = .exc e u')) := by
  have ha := agree_of h ht
  have hs' := sane_inThread hs throws i
  have hgw := good_at throws i t hg
  have hgu : Good (C.inThread throws i) u := good_at throws i u.counts h.good
  have hS : ∀ x ∈ c.names, usable owner i (.user x) := hn
  have hvw : c.valid (C.inThread throws i) (w.at t) = c.valid (C.inThread throws i) u := by
    rw [← valid_view hgw, ← valid_view hgu]; exact exactValid_agree _ ha c hS
  refine ⟨hvw, fun hv hz => ?_⟩
  have hzw : c.readsBackup (w.at t) = false := by
    rw [← hazard_view hgw, exactHazard_agree ha c hS, hazard_view hgu]; exact hz
  have h1 := C72_statement hs' hgw c (hvw.trans hv) hzw
  have h2 := C72_statement hs' hgu c hv hz
  have h3 := (confined_exact (C.inThread throws i) c hS (W := changeable owner i) hch trivial trivial).run _ _ ha
  rcases wp_elim (wp_step hs' hgw c (hvw.trans hv) hzw) with ⟨_, w', hw', hg', -⟩ | ⟨e, w', hw', hg', -, -⟩ <;>
    rcases wp_elim (wp_step hs' hgu c hv hz) with ⟨_, u', hu', hgu', -⟩ | ⟨f, u', hu', hgu', -, -⟩ <;>
    simp only [hw', hu'] at h1 h2 <;> simp only [h1, h2] at h3
  · exact ⟨w', u', good_of_inThread hg', ⟨good_of_inThread hgu', h3.2.1.1⟩, by
      simp only [World.counts, Counts.mk.injEq]; exact h3.2.1.2, h3.2.2, .inl ⟨hw', hu'⟩⟩
  · obtain ⟨rfl, h3⟩ := h3
    exact ⟨w', u', good_of_inThread hg', ⟨good_of_inThread hgu', h3.1.1⟩, by
      simp only [World.counts, Counts.mk.injEq]; exact h3.1.2, h3.2, .inr ⟨_, hw', hu'⟩⟩

theorem keeps_of {c : Cmd V} {x : Nat} (hx : x ∉ c.changes) (w : World V) : c.keeps w x = true := by
  cases c <;> simp only [Cmd.keeps]
  case assignGet rv y z =>
    have : y ≠ x := fun e => hx (by cases rv <;> simp [Cmd.changes, Cmd.names, e])
    simp [this]
  all_goals
    simp only [Cmd.changes, Cmd.names, List.mem_cons, List.not_mem_nil, or_false, not_or] at hx
  all_goals
    first
    | (have h1 := Ne.symm hx.1; have h2 := Ne.symm hx.2; simp [h1, h2])
    | (have h1 := Ne.symm hx; simp [h1])
    | simp_all

/-- A statement leaves the content objects of the variants that it may not change where they are. -/
theorem thread_stay (hs : Sane C) {throws : Nat → Nat → Bool} {i : Nat} {w w' : World V} {t : Counts} (hg : Good C w) {c : Cmd V}
    (hv : c.valid (C.inThread throws i) w = true) (hz : c.readsBackup w = false)
    (he : c.code (C.inThread throws i) (w.at t) = .ok () w' ∨ ∃ e, c.code (C.inThread throws i) (w.at t) = .exc e w') {x : Nat} (hx : x ∉ c.changes)
    (ht : w'.tagged (.user x) = w.tagged (.user x)) {id : ObjId} (ho : w.objOf x = some id) : w'.objOf x = some id ∧ w'.objs id = w.objs id := by
  have key : ∀ {k v}, w.objs id = some (k, v) → Ref.into ⟨k, id⟩ w' x := fun hid => by
    have h := C57_statement (x := x) (sane_inThread hs throws i) (good_at throws i t hg) hv hz ho hid
    rw [keeps_of hx] at h
    rcases h with ⟨a, w2, h1, h2⟩ | ⟨e, w2, h1, h2⟩ <;> rcases he with he | ⟨e', he⟩ <;> rw [h1] at he <;> cases he
    · exact h2
    · exact h2.resolve_right fun h => by cases h.1
  obtain ⟨st, hst, hc⟩ := Option.bind_eq_some_iff.mp ho
  obtain ⟨id', k, v, hr, hid⟩ := hg.wf.rep _ st hst
  obtain rfl : id' = id := by cases hr <;> simpa [VarSt.contentId] using hc
  have h1 := key hid
  refine ⟨h1.1, ?_⟩
  obtain ⟨v', hv'⟩ := h1.2
  obtain ⟨st', hst', hc'⟩ := Option.bind_eq_some_iff.mp h1.1
  have hc : st.contentId = some id' := hc
  simp only at hv' hc'
  simp only [World.tagged, hst, hst', Option.bind_some, hc, hc', hid, hv', Option.map_some, Option.some.injEq, Tag.mk.injEq] at ht
  rw [hv', hid, ht.2.1]

theorem partOf_cons {α : Type} (i j : Nat) (a : α) (p : List (Nat × α)) : partOf i ((j, a) :: p) = if j = i then a :: partOf i p else partOf i p := by
  unfold partOf
  by_cases h : j = i <;> simp [h]

theorem threads_run (hs : Sane C) {throws : Nat → Nat → Bool} {owner : Nat → Option Nat} (p : List (Nat × Cmd V)) (hp : Disciplined owner p)
    {w : World V} {t : Nat → Counts} (u : Nat → World V) (hg : Good C w) (h : ∀ i, AsAlone C owner i w (u i) ∧ t i = (u i).counts)
    (hz : ∀ i, avoidsBackupReads (C.inThread throws i) (partOf i p) (u i) = true) :
    ∃ w' t' es, runThreads C throws p w t = some (w', t', es) ∧ Good C w' ∧
      (∀ i, ∃ u', run (C.inThread throws i) (partOf i p) (u i) = some u' ∧ AsAlone C owner i w' u' ∧ t' i = u'.counts ∧
        partOf i es = thrown (C.inThread throws i) (partOf i p) (u i)) ∧
      (∀ x, owner x = none → w'.tagged (.user x) = w.tagged (.user x)) ∧
      ∀ x id, w.objOf x = some id → (∀ a ∈ p, owner x ≠ some a.1) → w'.objOf x = some id ∧ w'.objs id = w.objs id := by
  induction p generalizing w t u with
  | nil => exact ⟨w, t, [], rfl, hg, fun i => ⟨u i, rfl, (h i).1, (h i).2, rfl⟩, fun _ _ => rfl, fun _ _ ho _ => ⟨ho, rfl⟩⟩
  | cons a p ih =>
    obtain ⟨i, c⟩ := a
    have hp' : Disciplined owner p := fun a ha => hp a (List.mem_cons_of_mem _ ha)
    obtain ⟨hch, hn⟩ := hp (i, c) (by simp)
    obtain ⟨hval, hstep⟩ := thread_step hs (throws := throws) hg (h i).1 (h i).2 c hch hn
    have hzi := hz i
    rw [partOf_cons, if_pos rfl, avoidsBackupReads] at hzi
    have hother : ∀ {j : Nat}, j ≠ i → partOf j ((i, c) :: p) = partOf j p := fun hj => by rw [partOf_cons, if_neg (Ne.symm hj)]
    simp only [runThreads, hval]
    cases hv : c.valid (C.inThread throws i) (u i) with
    | false =>
      simp only [hv, Bool.false_eq_true, if_false] at hzi ⊢
      obtain ⟨w', t', es, h1, h2, h3, h4, h4s⟩ := ih hp' u hg h fun j => by
        by_cases hj : j = i
        · subst hj; exact hzi
        · rw [← hother hj]; exact hz j
      refine ⟨w', t', (i, none) :: es, by rw [h1]; rfl, h2, fun j => ?_, h4, fun x id ho hn => h4s x id ho fun a ha => hn a (List.mem_cons_of_mem _ ha)⟩
      obtain ⟨u', h5, h6, h7, h8⟩ := h3 j
      by_cases hj : j = i
      · subst hj
        refine ⟨u', ?_, h6, h7, ?_⟩
        · rw [partOf_cons, if_pos rfl]; simp only [run, hv, Bool.false_eq_true, if_false]; exact h5
        · rw [partOf_cons, partOf_cons, if_pos rfl, if_pos rfl]; simp only [thrown, hv, Bool.false_eq_true, if_false, h8]
      · refine ⟨u', by rw [hother hj]; exact h5, h6, h7, ?_⟩
        rw [partOf_cons, if_neg (Ne.symm hj), hother hj, h8]
    | true =>
      simp only [hv, if_true, Bool.and_eq_true, Bool.not_eq_true'] at hzi ⊢
      obtain ⟨w1, u1, hg1, hal, hcnt, hkeep, hres⟩ := hstep hv hzi.1
      have hinv : ∀ j, AsAlone C owner j w1 (upd u i u1 j) ∧ upd t i w1.counts j = (upd u i u1 j).counts := fun j => by
        by_cases hj : j = i
        · subst hj; simp only [upd_same]; exact ⟨hal, hcnt⟩
        · simp only [upd_ne _ _ hj]
          refine ⟨⟨(h j).1.good, fun x hx => ?_⟩, (h j).2⟩
          refine Eq.trans ?_ ((h j).1.same x hx)
          cases x with
          | user x =>
            refine hkeep _ fun hc => ?_
            have hc : owner x = some i := hc
            rcases hx with hx | hx <;> rw [hc] at hx <;> simp at hx
            exact hj hx.symm
          | tmp n => rw [tagged_none (hg1.noTmp n), tagged_none (hg.noTmp n)]
      have stay : ∀ x id, w.objOf x = some id → owner x ≠ some i → w1.objOf x = some id ∧ w1.objs id = w.objs id := fun x id ho hno => by
        have hzw : c.readsBackup w = false := by
          have ha := agree_of (h i).1 (h i).2
          have e1 := hazard_view (good_at throws i (t i) hg) (c := c)
          have e2 := hazard_view (good_at throws i (u i).counts (h i).1.good) (c := c)
          have e3 := exactHazard_agree ha c (S := usable owner i) hn
          exact (e1.symm.trans (e3.trans e2)).trans hzi.1
        exact thread_stay hs hg (hval.trans hv) hzw (hres.imp (·.1) fun ⟨e, he, _⟩ => ⟨e, he⟩) (fun hc => hno (hch x hc)) (hkeep _ hno) ho
      have fin : ∀ e : Option Exc, (∀ q : List (Cmd V), run (C.inThread throws i) (c :: q) (u i) = run (C.inThread throws i) q u1) →
          (∀ q : List (Cmd V), thrown (C.inThread throws i) (c :: q) (u i) = e :: thrown (C.inThread throws i) q u1) →
          avoidsBackupReads (C.inThread throws i) (partOf i p) u1 = true →
          ∃ w' t' es, (runThreads C throws p w1 (upd t i w1.counts)).map (fun r => (r.1, r.2.1, (i, e) :: r.2.2)) = some (w', t', es) ∧ Good C w' ∧
            (∀ j, ∃ u', run (C.inThread throws j) (partOf j ((i, c) :: p)) (u j) = some u' ∧ AsAlone C owner j w' u' ∧ t' j = u'.counts ∧
              partOf j es = thrown (C.inThread throws j) (partOf j ((i, c) :: p)) (u j)) ∧
            (∀ x, owner x = none → w'.tagged (.user x) = w.tagged (.user x)) ∧
            ∀ x id, w.objOf x = some id → (∀ a ∈ ((i, c) :: p), owner x ≠ some a.1) → w'.objOf x = some id ∧ w'.objs id = w.objs id := by
        intro e hrun hthr hav
        obtain ⟨w', t', es, h1, h2, h3, h4, h4s⟩ := ih hp' (upd u i u1) hg1 hinv fun j => by
          by_cases hj : j = i
          · subst hj; rw [upd_same]; exact hav
          · rw [upd_ne _ _ hj, ← hother hj]; exact hz j
        refine ⟨w', t', (i, e) :: es, by rw [h1]; rfl, h2, fun j => ?_, fun x hx => (h4 x hx).trans (hkeep _ fun hc => ?_),
          fun x id ho hno => ?_⟩
        · obtain ⟨u', h5, h6, h7, h8⟩ := h3 j
          by_cases hj : j = i
          · subst hj
            rw [upd_same] at h5 h8
            exact ⟨u', by rw [partOf_cons, if_pos rfl, hrun]; exact h5, h6, h7, by rw [partOf_cons, partOf_cons, if_pos rfl, if_pos rfl, hthr, h8]⟩
          · rw [upd_ne _ _ hj] at h5 h8
            exact ⟨u', by rw [hother hj]; exact h5, h6, h7, by rw [partOf_cons, if_neg (Ne.symm hj), hother hj, h8]⟩
        · have hc : owner x = some i := hc
          rw [hc] at hx; cases hx
        · obtain ⟨g1, g2⟩ := stay x id ho (hno (i, c) (by simp))
          obtain ⟨g3, g4⟩ := h4s x id g1 fun a ha => hno a (List.mem_cons_of_mem _ ha)
          exact ⟨g3, g4.trans g2⟩
      rcases hres with ⟨hw, hu⟩ | ⟨e, hw, hu⟩
      · rw [hw]
        refine fin none (fun q => ?_) (fun q => ?_) ?_
        · simp only [run, hv, if_true, hu]
        · simp only [thrown, hv, if_true, hu]
        · have := hzi.2; rw [hu] at this; exact this
      · rw [hw]
        refine fin (some e) (fun q => ?_) (fun q => ?_) ?_
        · simp only [run, hv, if_true, hu]
        · simp only [thrown, hv, if_true, hu]
        · have := hzi.2; rw [hu] at this; exact this

/-- C86: threads each of which changes only variants of its own, and besides these reads only variants that none of them changes. Let none of them, alone, meet a
statement of finding F1. Then, in whatever order their statements are executed, none goes wrong; each thread does exactly what it does alone: its
statements throw the same exceptions at the same operations of the elements, its variants have the same types and values and are in a heap backup or not
alike, and it makes as many operations and allocations. The shared variants keep type, value and backup. -/
theorem C86_threads (hs : Sane C) {throws : Nat → Nat → Bool} {owner : Nat → Option Nat} {p : List (Nat × Cmd V)} (hp : Disciplined owner p)
    {w : World V} (hg : Good C w) (t : Nat → Counts)
    (hz : ∀ i, avoidsBackupReads (C.inThread throws i) (partOf i p) (w.at (t i)) = true) :
    ∃ w' t' es, runThreads C throws p w t = some (w', t', es) ∧ Good C w' ∧
      (∀ i, ∃ u, run (C.inThread throws i) (partOf i p) (w.at (t i)) = some u ∧
        (∀ x, owner x = some i → w'.tagged (.user x) = u.tagged (.user x)) ∧ t' i = u.counts ∧
        partOf i es = thrown (C.inThread throws i) (partOf i p) (w.at (t i))) ∧
      ∀ x, owner x = none → w'.tagged (.user x) = w.tagged (.user x) := by
  obtain ⟨w', t', es, h1, h2, h3, h4, -⟩ := threads_run hs p hp (fun i => w.at (t i)) hg
    (fun i => ⟨⟨good_of_inThread (good_at throws i (t i) hg), fun _ _ => rfl⟩, rfl⟩) hz
  refine ⟨w', t', es, h1, h2, fun i => ?_, h4⟩
  obtain ⟨u, h5, h6, h7, h8⟩ := h3 i
  exact ⟨u, h5, fun x hx => h6.same _ (.inl hx), h7, h8⟩

/-- C86, the order does not matter: if two executions consist of the same statements of each thread in the same order, and they are as in `C86_threads`, then
afterwards all variants have the same types and values and are in heap backups or not alike, and each thread has met the same exceptions. -/
theorem C86_order (hs : Sane C) {throws : Nat → Nat → Bool} {owner : Nat → Option Nat} {p q : List (Nat × Cmd V)} (hp : Disciplined owner p)
    (hq : Disciplined owner q) (hpq : ∀ i, partOf i p = partOf i q) {w : World V} (hg : Good C w) (t : Nat → Counts)
    (hz : ∀ i, avoidsBackupReads (C.inThread throws i) (partOf i p) (w.at (t i)) = true) :
    ∃ w1 w2 t' es1 es2, runThreads C throws p w t = some (w1, t', es1) ∧ runThreads C throws q w t = some (w2, t', es2) ∧
      (∀ x, w1.tagged (.user x) = w2.tagged (.user x)) ∧ ∀ i, partOf i es1 = partOf i es2 := by
  obtain ⟨w1, t1, es1, h1, -, h2, h3⟩ := C86_threads hs hp hg t hz
  obtain ⟨w2, t2, es2, k1, -, k2, k3⟩ := C86_threads hs hq hg t fun i => by rw [← hpq i]; exact hz i
  have key : ∀ i, (∀ x, owner x = some i → w1.tagged (.user x) = w2.tagged (.user x)) ∧ t1 i = t2 i ∧ partOf i es1 = partOf i es2 := fun i => by
    obtain ⟨u, a1, a2, a3, a4⟩ := h2 i
    obtain ⟨v, b1, b2, b3, b4⟩ := k2 i
    rw [← hpq i, a1] at b1
    obtain rfl := Option.some.inj b1
    exact ⟨fun x hx => (a2 x hx).trans (b2 x hx).symm, a3.trans b3.symm, by rw [a4, b4, hpq i]⟩
  obtain rfl : t1 = t2 := funext fun i => (key i).2.1
  refine ⟨w1, w2, t1, es1, es2, h1, k1, fun x => ?_, fun i => (key i).2.2⟩
  cases hx : owner x with
  | none => rw [h3 x hx, k3 x hx]
  | some i => exact (key i).1 x hx

/-- C86, references: while other threads execute their statements, as in `C86_threads`, a thread's references into its own and into the shared variants stay good:
the content of each variant that is shared, or belongs to a thread that executes nothing, is the same object with the same value. -/
theorem C86_references (hs : Sane C) {throws : Nat → Nat → Bool} {owner : Nat → Option Nat} {p : List (Nat × Cmd V)} (hp : Disciplined owner p)
    {w : World V} (hg : Good C w) (t : Nat → Counts)
    (hz : ∀ i, avoidsBackupReads (C.inThread throws i) (partOf i p) (w.at (t i)) = true) {x : Nat} {id : ObjId} (hx : w.objOf x = some id)
    (ho : ∀ a ∈ p, owner x ≠ some a.1) :
    ∃ w' t' es, runThreads C throws p w t = some (w', t', es) ∧ w'.objOf x = some id ∧ w'.objs id = w.objs id := by
  obtain ⟨w', t', es, h1, -, -, -, h2⟩ := threads_run (t := t) hs p hp (fun i => w.at (t i)) hg
    (fun i => ⟨⟨good_of_inThread (good_at throws i (t i) hg), fun _ _ => rfl⟩, rfl⟩) hz
  exact ⟨w', t', es, h1, h2 x id hx ho⟩

theorem content_of_tagged {w u : World V} {x : VarId} (h : w.tagged x = u.tagged x) : w.content x = u.content x := by
  have key : ∀ w : World V, w.content x = (w.tagged x).map fun t => (t.ty, t.val) := fun w => by
    unfold World.content World.tagged
    cases w.vars x with
    | none => rfl
    | some s =>
      cases hs : s.contentId with
      | none => simp [hs]
      | some i => cases hi : w.objs i <;> simp [hs, hi]
  rw [key, key, h]

/-- C86, what a thread sees: after an execution as in `C86_threads`, the variants that thread `i` may use are alive if they are when it is alone, and visitors, queries,
comparisons, hashing and streaming give it the same results. (An execution may be any beginning of a longer one, so this holds at all times.) -/
theorem C86_reads (hs : Sane C) {throws : Nat → Nat → Bool} {owner : Nat → Option Nat} {p : List (Nat × Cmd V)} (hp : Disciplined owner p)
    {w : World V} (hg : Good C w) (t : Nat → Counts)
    (hz : ∀ i, avoidsBackupReads (C.inThread throws i) (partOf i p) (w.at (t i)) = true) {w' : World V} {t' : Nat → Counts} {es : List (Nat × Option Exc)}
    (hw : runThreads C throws p w t = some (w', t', es)) {i : Nat} {u : World V}
    (hu : run (C.inThread throws i) (partOf i p) (w.at (t i)) = some u) {x : Nat} (hx : owner x = some i ∨ owner x = none) :
    (w'.alive x ↔ u.alive x) ∧ (w'.alive x →
      (∀ {α : Type} (f : TyIx → ObjId → M V α), ValueVisitor f → (applyVisitor C (.user x) f w').res = (applyVisitor C (.user x) f u).res) ∧
      (which (.user x) w').res = (which (.user x) u).res ∧ (typeOf C (.user x) w').res = (typeOf C (.user x) u).res ∧
      (∀ {H : Type} (h : TyIx → V → H) (combine : H → Int → H),
        (hashValue C (elemHash h) combine (.user x) w').res = (hashValue C (elemHash h) combine (.user x) u).res) ∧
      (∀ {S : Type} (pr : TyIx → V → S → S) (out : S),
        (streamOut C (elemPrint pr) out (.user x) w').res = (streamOut C (elemPrint pr) out (.user x) u).res) ∧
      ∀ (r : TyIx → V → V → Bool) (y : Nat), (owner y = some i ∨ owner y = none) → w'.alive y →
        (opEq C (elemCmp r) (.user x) (.user y) w').res = (opEq C (elemCmp r) (.user x) (.user y) u).res ∧
        (opLt C (elemCmp r) (.user x) (.user y) w').res = (opLt C (elemCmp r) (.user x) (.user y) u).res) := by
  obtain ⟨w1, t1, es1, h1, h2, h3, -⟩ := threads_run (t := t) hs p hp (fun i => w.at (t i)) hg
    (fun i => ⟨⟨good_of_inThread (good_at throws i (t i) hg), fun _ _ => rfl⟩, rfl⟩) hz
  rw [hw] at h1
  cases h1
  obtain ⟨u1, h4, h5, -⟩ := h3 i
  rw [hu] at h4
  cases h4
  have same : ∀ y, owner y = some i ∨ owner y = none → w'.tagged (.user y) = u.tagged (.user y) := fun y hy => h5.same _ hy
  have holds : ∀ y, owner y = some i ∨ owner y = none → w'.alive y → ∃ k v, w'.holds y k v ∧ u.holds y k v := by
    intro y hy ha
    obtain ⟨s, hs'⟩ := Option.isSome_iff_exists.mp ha
    obtain ⟨id, k, v, hr, ho⟩ := h2.wf.rep _ s hs'
    have hh : w'.holds y k v := by
      cases hr <;> simp_all [World.holds, World.content, VarSt.contentId]
    refine ⟨k, v, hh, ?_⟩
    unfold World.holds
    rw [← content_of_tagged (same y hy)]
    exact hh
  refine ⟨?_, fun ha => ?_⟩
  · have key : ∀ {v : World V}, Good C v → (v.alive x ↔ v.tagged (.user x) ≠ none) := by
      intro v hv
      constructor
      · intro ha hn
        have := hv.wf.inv.vars_none hn
        simp [World.alive, this] at ha
      · intro hn
        cases hv' : v.vars (.user x) with
        | none => exact absurd (tagged_none hv') hn
        | some s => simp [World.alive, hv']
    rw [key h2, key h5.good, same x hx]
  · obtain ⟨k, v, h6, h7⟩ := holds x hx ha
    obtain ⟨q1, q2, -⟩ := C43_queries h2 h5.good h6 h7
    refine ⟨fun f hf => C43_visitation f hf h2 h5.good h6 h7, q1, q2,
      fun h combine => (C43_hash_and_stream h combine (fun _ _ (s : Unit) => s) () h2 h5.good h6 h7).1,
      fun pr out => (C43_hash_and_stream (fun _ _ => ()) (fun _ _ => ()) pr out h2 h5.good h6 h7).2, fun r y hy hay => ?_⟩
    obtain ⟨k', v', h8, h9⟩ := holds y hy hay
    exact C43_comparison r h2 h5.good h6 h7 h8 h9

end

/-! ### Non-vacuity -/

/-- After the first thread has put a variant into the heap backup, which is shared from then on: variable 0. -/
def exShared : List (Cmd Nat) := exProg.take 3

/-- Two threads copy the shared variant 0 into variants of their own (2 and 3), give these values of the other type, and change, swap and destroy them; their
statements take turns. -/
def exThreads : List (Nat × Cmd Nat) :=
  [(0, .copyConstruct 2 0), (1, .copyConstruct 3 0), (1, .assignC 3 1 8), (0, .assignC 2 1 3), (0, .constructGet false 4 0), (1, .mutate 3 2),
   (0, .swap 2 4), (1, .copyConstruct 5 3), (0, .destroy 4), (1, .moveAssign 3 5)]

/-- Variables 0 and 1 are shared; 2 and 4 belong to thread 0, and the others to thread 1. -/
def exOwner (x : Nat) : Option Nat := if x < 2 then none else if x = 2 ∨ x = 4 then some 0 else some 1

/-- In thread 0 the operation number 2 throws; in thread 1 no operation does. -/
def exThrows (i t : Nat) : Bool := decide (i = 0 ∧ t = 2)

def exSharedWorld : World Nat := stateAfter exTwo exShared

theorem exShared_good : Good exTwo exSharedWorld := by
  obtain ⟨w, h, hg⟩ := run_good exTwo_sane exShared (World.init Nat) good_init (by decide +kernel)
  unfold exSharedWorld stateAfter
  rw [h]
  exact hg

theorem exThreads_disciplined : Disciplined exOwner exThreads := by
  unfold Disciplined exThreads; decide

/-- Neither thread, alone, reads from a heap backup in the way of F1. -/
theorem exThreads_avoids (i : Nat) : avoidsBackupReads (exTwo.inThread exThrows i) (partOf i exThreads) (exSharedWorld.at ⟨0, 0⟩) = true := by
  match i with
  | 0 => decide +kernel
  | 1 => decide +kernel
  | i + 2 => rfl

/-- The shared variant is in the heap backup. Thread 0 meets an exception at its operation 2, in its second statement, and keeps the value of its variant. Thread 1
meets none. -/
example : (exSharedWorld.tagged (.user 0)).map (fun g => (g.ty, g.val, g.backed)) = some (0, 5, true) ∧
    ((runThreads exTwo exThrows exThreads exSharedWorld fun _ => ⟨0, 0⟩).map fun r => r.2.2.map fun e => (e.1, e.2.map (·.tick))) =
      some [(0, none), (1, none), (1, none), (0, some 2), (0, none), (1, none), (0, none), (1, none), (0, none), (1, none)] ∧
    ((runThreads exTwo exThrows exThreads exSharedWorld fun _ => ⟨0, 0⟩).map fun r => (r.2.1 0, r.2.1 1)) = some (⟨5, 0⟩, ⟨8, 1⟩) ∧
    ((runThreads exTwo exThrows exThreads exSharedWorld fun _ => ⟨0, 0⟩).map fun r =>
      (List.range 6).map fun x => (r.1.tagged (.user x)).map fun g => (g.ty, g.val, g.backed)) =
      some [some (0, 5, true), some (1, 7, false), some (0, 5, false), some (1, 2, false), none, some (1, 0, false)] := by
  refine ⟨?_, ?_, ?_, ?_⟩ <;> decide +kernel

/-- C86 for these threads. -/
example : ∃ w' t' es, runThreads exTwo exThrows exThreads exSharedWorld (fun _ => ⟨0, 0⟩) = some (w', t', es) ∧ Good exTwo w' ∧
    (∀ i, ∃ u, run (exTwo.inThread exThrows i) (partOf i exThreads) (exSharedWorld.at ⟨0, 0⟩) = some u ∧
      (∀ x, exOwner x = some i → w'.tagged (.user x) = u.tagged (.user x)) ∧ t' i = u.counts ∧
      partOf i es = thrown (exTwo.inThread exThrows i) (partOf i exThreads) (exSharedWorld.at ⟨0, 0⟩)) ∧
    ∀ x, exOwner x = none → w'.tagged (.user x) = exSharedWorld.tagged (.user x) :=
  C86_threads exTwo_sane exThreads_disciplined exShared_good _ exThreads_avoids

/-- C86 for what thread 1 sees of the shared variant and of a variant of its own. -/
example {w' : World Nat} {t' : Nat → Counts} {es : List (Nat × Option Exc)} {u : World Nat}
    (hw : runThreads exTwo exThrows exThreads exSharedWorld (fun _ => ⟨0, 0⟩) = some (w', t', es))
    (hu : run (exTwo.inThread exThrows 1) (partOf 1 exThreads) (exSharedWorld.at ⟨0, 0⟩) = some u) (h0 : w'.alive 0) (h3 : w'.alive 3) :
    (opLt exTwo (elemCmp fun _ a b => decide (a < b)) (.user 0) (.user 3) w').res =
      (opLt exTwo (elemCmp fun _ a b => decide (a < b)) (.user 0) (.user 3) u).res :=
  (((C86_reads exTwo_sane exThreads_disciplined exShared_good _ exThreads_avoids hw hu (.inr rfl)).2 h0).2.2.2.2.2 _ 3 (.inl rfl) h3).2

/-- The same statements, first all of thread 1, then all of thread 0. -/
def exOneByOne : List (Nat × Cmd Nat) := exThreads.filter (fun a => decide (a.1 = 1)) ++ exThreads.filter fun a => decide (a.1 = 0)

/-- C86 for the two orders. -/
example : ∃ w1 w2 t' es1 es2, runThreads exTwo exThrows exThreads exSharedWorld (fun _ => ⟨0, 0⟩) = some (w1, t', es1) ∧
    runThreads exTwo exThrows exOneByOne exSharedWorld (fun _ => ⟨0, 0⟩) = some (w2, t', es2) ∧
    (∀ x, w1.tagged (.user x) = w2.tagged (.user x)) ∧ ∀ i, partOf i es1 = partOf i es2 :=
  C86_order exTwo_sane exThreads_disciplined (by unfold Disciplined exOneByOne; decide) (fun i => by
    match i with
    | 0 => rfl
    | 1 => rfl
    | i + 2 => rfl) exShared_good _ exThreads_avoids

/-- The discipline is needed: if thread 1 assigns to the variant 1 that thread 0 copies, what thread 0 gets depends on the order. -/
example : (¬ Disciplined exOwner [(1, Cmd.assignC 1 0 9), (0, .copyConstruct 2 1)]) ∧
    ((runThreads exTwo exThrows [(1, .assignC 1 0 9), (0, .copyConstruct 2 1)] exSharedWorld fun _ => ⟨0, 0⟩).map fun r =>
      (r.1.tagged (.user 2)).map (·.val)) = some (some 9) ∧
    ((runThreads exTwo exThrows [(0, .copyConstruct 2 1), (1, .assignC 1 0 9)] exSharedWorld fun _ => ⟨0, 0⟩).map fun r =>
      (r.1.tagged (.user 2)).map (·.val)) = some (some 7) := by
  refine ⟨?_, ?_, ?_⟩
  · unfold Disciplined; decide
  · decide +kernel
  · decide +kernel

/-- C86: a reference to the content of the shared variant 0, in the heap backup, is good after both threads have copied it. -/
example : ∃ id w' t' es, exSharedWorld.objOf 0 = some id ∧ exSharedWorld.objs id = some (0, 5) ∧
    runThreads exTwo exThrows exThreads exSharedWorld (fun _ => ⟨0, 0⟩) = some (w', t', es) ∧ w'.objOf 0 = some id ∧ w'.objs id = some (0, 5) := by
  have h : (exSharedWorld.objOf 0).bind exSharedWorld.objs = some (0, 5) := by decide +kernel
  obtain ⟨id, h1, h2⟩ := Option.bind_eq_some_iff.mp h
  obtain ⟨w', t', es, h3, h4, h5⟩ := C86_references exTwo_sane exThreads_disciplined exShared_good (fun _ => ⟨0, 0⟩) exThreads_avoids h1 (by decide)
  exact ⟨id, w', t', es, h1, h2, h3, h4, h5.trans h2⟩

end BVariant
