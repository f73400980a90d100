/-
The machine for programs with control flow and the meaning of such programs; and two machines whose statements and conditions agree.
-/
import Verif.Spec.Control

namespace BVariant

section
variable {A B S T : Type} {M : Actions A B S} {N : Actions A B T} {inp : Nat → Except Exc Bool}

/-- What the machine does after a program has ended in this way. -/
def ctlOf : Option Exc → CCtl A B
  | none => .ret
  | some e => .unwind e

theorem psteps_add {c c' : CConf A B T} : ∀ {a b : Nat}, psteps N inp a c = .conf c' → psteps N inp (a + b) c = psteps N inp b c'
  | 0, b, h => by
    simp only [psteps, CNext.conf.injEq] at h
    rw [h, Nat.zero_add]
  | a + 1, b, h => by
    rw [Nat.succ_add]
    simp only [psteps] at h ⊢
    cases hc : pstep N inp c with
    | conf d => rw [hc] at h; exact psteps_add h
    | done r j t => rw [hc] at h; cases h
    | fault f => rw [hc] at h; cases h

theorem psteps_one {c c' : CConf A B T} (h : pstep N inp c = .conf c') : psteps N inp 1 c = .conf c' := by simp only [psteps, h]

/-- One step, then some more. -/
theorem psteps_then {c c' c'' : CConf A B T} (h : pstep N inp c = .conf c') (h' : ∃ k, psteps N inp k c' = .conf c'') :
    ∃ k, psteps N inp k c = .conf c'' := by
  obtain ⟨k, hk⟩ := h'
  exact ⟨1 + k, by rw [psteps_add (psteps_one h), hk]⟩

theorem psteps_trans {c c' c'' : CConf A B T} (h : ∃ k, psteps N inp k c = .conf c') (h' : ∃ k, psteps N inp k c' = .conf c'') :
    ∃ k, psteps N inp k c = .conf c'' := by
  obtain ⟨a, ha⟩ := h
  obtain ⟨k, hk⟩ := h'
  exact ⟨a + k, by rw [psteps_add ha, hk]⟩

theorem ask_ok {c : Ask B} {i j : Nat} {t u : T} {v : Bool} (h : Answer N inp c i t (.ok v) j u) : ask N inp c i t = .ok v (j, u) := by
  generalize hx : (Except.ok v : Except Exc Bool) = x at h
  cases h with
  | test h => cases hx; simp only [ask, h]
  | test_exc h => cases hx
  | input => simp only [ask, ← hx]

theorem ask_exc {c : Ask B} {i j : Nat} {t u : T} {e : Exc} (h : Answer N inp c i t (.error e) j u) : ask N inp c i t = .exc e (j, u) := by
  generalize hx : (Except.error e : Except Exc Bool) = x at h
  cases h with
  | test h => cases hx
  | test_exc h => cases hx; simp only [ask, h]
  | input => simp only [ask, ← hx]

theorem answer_ok {c : Ask B} {i j : Nat} {t u : T} {v : Bool} (h : ask N inp c i t = .ok v (j, u)) : Answer N inp c i t (.ok v) j u := by
  cases c with
  | test b =>
    simp only [ask] at h
    cases ht : N.test b t with
    | ok v' u' => rw [ht] at h; cases h; exact .test ht
    | exc e u' => rw [ht] at h; cases h
    | fault f => rw [ht] at h; cases h
  | input =>
    simp only [ask] at h
    cases hi : inp i with
    | ok v' => rw [hi] at h; cases h; rw [← hi]; exact .input
    | error e => rw [hi] at h; cases h

theorem answer_exc {c : Ask B} {i j : Nat} {t u : T} {e : Exc} (h : ask N inp c i t = .exc e (j, u)) : Answer N inp c i t (.error e) j u := by
  cases c with
  | test b =>
    simp only [ask] at h
    cases ht : N.test b t with
    | ok v' u' => rw [ht] at h; cases h
    | exc e u' => rw [ht] at h; cases h; exact .test_exc ht
    | fault f => rw [ht] at h; cases h
  | input =>
    simp only [ask] at h
    cases hi : inp i with
    | ok v' => rw [hi] at h; cases h
    | error e => rw [hi] at h; cases h; rw [← hi]; exact .input

/-- What a program does, the machine does. -/
theorem Eval.steps {p : Prog A B} {i j : Nat} {t u : T} {r : Option Exc} (h : Eval N inp p i t r j u) :
    ∀ K : List (CFrame A B), ∃ k, psteps N inp k ⟨.run p, K, i, t⟩ = .conf ⟨ctlOf r, K, j, u⟩ := by
  induction h with
  | act h => exact fun K => ⟨1, psteps_one (by simp only [pstep, h, ctlOf])⟩
  | act_exc h => exact fun K => ⟨1, psteps_one (by simp only [pstep, h, ctlOf])⟩
  | skip => exact fun K => ⟨1, rfl⟩
  | raise => exact fun K => ⟨1, rfl⟩
  | seq _ _ ih1 ih2 => exact fun K => psteps_then rfl (psteps_trans (ih1 _) (psteps_then rfl (ih2 K)))
  | seq_exc _ ih => exact fun K => psteps_then rfl (psteps_trans (ih _) (psteps_then rfl ⟨0, rfl⟩))
  | cond_true h _ ih => exact fun K => psteps_then (by simp only [pstep, ask_ok h]) (ih K)
  | cond_false h _ ih => exact fun K => psteps_then (by simp only [pstep, ask_ok h]) (ih K)
  | cond_exc h => exact fun K => ⟨1, psteps_one (by simp only [pstep, ask_exc h, ctlOf])⟩
  | loop_end h => exact fun K => ⟨1, psteps_one (by simp only [pstep, ask_ok h, ctlOf])⟩
  | @loop_next c p _ _ _ _ _ _ _ _ _ h _ _ ih1 ih2 =>
    exact fun K => psteps_then (c' := ⟨.run p, .next (.loop c p) :: K, _, _⟩) (by simp only [pstep, ask_ok h])
      (psteps_trans (ih1 _) (psteps_then rfl (ih2 K)))
  | @loop_body_exc c p _ _ _ _ _ _ _ h _ ih =>
    exact fun K => psteps_then (c' := ⟨.run p, .next (.loop c p) :: K, _, _⟩) (by simp only [pstep, ask_ok h])
      (psteps_trans (ih _) (psteps_then rfl ⟨0, rfl⟩))
  | loop_exc h => exact fun K => ⟨1, psteps_one (by simp only [pstep, ask_exc h, ctlOf])⟩
  | guarded _ ih => exact fun K => psteps_then rfl (psteps_trans (ih _) (psteps_then rfl ⟨0, rfl⟩))
  | caught _ _ ih1 ih2 => exact fun K => psteps_then rfl (psteps_trans (ih1 _) (psteps_then rfl (ih2 K)))
  | @scope x p i j t u v r _ h ih =>
    refine fun K => psteps_then rfl (psteps_trans (ih _) (psteps_then ?_ ⟨0, rfl⟩))
    cases r <;> simp only [ctlOf, pstep, pEnd, h]

/-- A program that the machine brings to an end does what it does there. -/
theorem psteps_eval : ∀ (k : Nat) {p : Prog A B} {K : List (CFrame A B)} {i j : Nat} {t u : T} {r : Option Exc},
    psteps N inp k ⟨.run p, K, i, t⟩ = .done r j u →
    ∃ k' r' j' u', k' < k ∧ Eval N inp p i t r' j' u' ∧ psteps N inp k' ⟨ctlOf r', K, j', u'⟩ = .done r j u := by
  intro k
  induction k using Nat.strongRecOn with
  | _ k ih =>
    intro p K i j t u r h
    cases k with
    | zero => cases h
    | succ k =>
      cases p with
      | act a =>
        simp only [psteps, pstep] at h
        cases ha : N.act a t with
        | ok _ u' => rw [ha] at h; exact ⟨k, none, i, u', Nat.lt_succ_self _, .act ha, h⟩
        | exc e u' => rw [ha] at h; exact ⟨k, some e, i, u', Nat.lt_succ_self _, .act_exc ha, h⟩
        | fault f => rw [ha] at h; cases h
      | skip => exact ⟨k, none, i, t, Nat.lt_succ_self _, .skip, h⟩
      | raise e => exact ⟨k, some e, i, t, Nat.lt_succ_self _, .raise, h⟩
      | seq p q =>
        obtain ⟨k1, r1, j1, u1, l1, e1, s1⟩ := ih k (by omega) (p := p) (K := .next q :: K) h
        cases k1 with
        | zero => cases s1
        | succ k1 =>
          cases r1 with
          | none =>
            obtain ⟨k2, r2, j2, u2, l2, e2, s2⟩ := ih k1 (by omega) (p := q) (K := K) s1
            exact ⟨k2, r2, j2, u2, by omega, .seq e1 e2, s2⟩
          | some e => exact ⟨k1, some e, j1, u1, by omega, .seq_exc e1, s1⟩
      | cond c p q =>
        simp only [psteps, pstep] at h
        cases hc : ask N inp c i t with
        | ok v w =>
          obtain ⟨j1, u1⟩ := w
          rw [hc] at h
          cases v with
          | true =>
            obtain ⟨k2, r2, j2, u2, l2, e2, s2⟩ := ih k (by omega) (p := p) (K := K) h
            exact ⟨k2, r2, j2, u2, by omega, .cond_true (answer_ok hc) e2, s2⟩
          | false =>
            obtain ⟨k2, r2, j2, u2, l2, e2, s2⟩ := ih k (by omega) (p := q) (K := K) h
            exact ⟨k2, r2, j2, u2, by omega, .cond_false (answer_ok hc) e2, s2⟩
        | exc e w =>
          obtain ⟨j1, u1⟩ := w
          rw [hc] at h
          exact ⟨k, some e, j1, u1, by omega, .cond_exc (answer_exc hc), h⟩
        | fault f => rw [hc] at h; cases h
      | loop c p =>
        simp only [psteps, pstep] at h
        cases hc : ask N inp c i t with
        | ok v w =>
          obtain ⟨j1, u1⟩ := w
          rw [hc] at h
          cases v with
          | true =>
            obtain ⟨k2, r2, j2, u2, l2, e2, s2⟩ := ih k (by omega) (p := p) (K := .next (.loop c p) :: K) h
            cases k2 with
            | zero => cases s2
            | succ k2 =>
              cases r2 with
              | none =>
                obtain ⟨k3, r3, j3, u3, l3, e3, s3⟩ := ih k2 (by omega) (p := .loop c p) (K := K) s2
                exact ⟨k3, r3, j3, u3, by omega, .loop_next (answer_ok hc) e2 e3, s3⟩
              | some e => exact ⟨k2, some e, j2, u2, by omega, .loop_body_exc (answer_ok hc) e2, s2⟩
          | false => exact ⟨k, none, j1, u1, by omega, .loop_end (answer_ok hc), h⟩
        | exc e w =>
          obtain ⟨j1, u1⟩ := w
          rw [hc] at h
          exact ⟨k, some e, j1, u1, by omega, .loop_exc (answer_exc hc), h⟩
        | fault f => rw [hc] at h; cases h
      | guarded p q =>
        obtain ⟨k1, r1, j1, u1, l1, e1, s1⟩ := ih k (by omega) (p := p) (K := .handler q :: K) h
        cases k1 with
        | zero => cases s1
        | succ k1 =>
          cases r1 with
          | none => exact ⟨k1, none, j1, u1, by omega, .guarded e1, s1⟩
          | some e =>
            obtain ⟨k2, r2, j2, u2, l2, e2, s2⟩ := ih k1 (by omega) (p := q) (K := K) s1
            exact ⟨k2, r2, j2, u2, by omega, .caught e1 e2, s2⟩
      | scope x p =>
        obtain ⟨k1, r1, j1, u1, l1, e1, s1⟩ := ih k (by omega) (p := p) (K := .ends x :: K) h
        cases k1 with
        | zero => cases s1
        | succ k1 =>
          have hstep : pstep N inp ⟨ctlOf r1, .ends x :: K, j1, u1⟩ = pEnd N x (ctlOf r1) K j1 u1 := by cases r1 <;> rfl
          simp only [psteps, hstep, pEnd] at s1
          cases ha : N.act (N.close x) u1 with
          | ok _ u' => rw [ha] at s1; exact ⟨k1, r1, j1, u', by omega, .scope e1 ha, s1⟩
          | exc e u' => rw [ha] at s1; cases s1
          | fault f => rw [ha] at s1; cases s1

/-- The machine ends a program exactly as the program ends. -/
theorem eval_iff {p : Prog A B} {t u : T} {r : Option Exc} {j : Nat} :
    Eval N inp p 0 t r j u ↔ ∃ k, psteps N inp k (p.start t) = .done r j u := by
  refine ⟨fun h => ?_, fun ⟨k, h⟩ => ?_⟩
  · obtain ⟨k, hk⟩ := h.steps []
    refine ⟨k + 1, (psteps_add hk).trans ?_⟩
    cases r <;> rfl
  · obtain ⟨k', r', j', u', -, h1, h2⟩ := psteps_eval k h
    cases k' with
    | zero => cases h2
    | succ k' => cases r' <;> cases h2 <;> exact h1

/-! ### Two machines -/

/-- The same result, and states that are related. -/
def Agrees {α : Type} (Q : S → T → Prop) : Res S α → Res T α → Prop
  | .ok a s, .ok b t => a = b ∧ Q s t
  | .exc e s, .exc e' t => e = e' ∧ Q s t
  | _, _ => False

/-- The machines are at the same point of the program, or have ended it in the same way, in states that are related. -/
def PAgrees (Q : S → T → Prop) : CNext A B S → CNext A B T → Prop
  | .conf c, .conf d => c.ctl = d.ctl ∧ c.stack = d.stack ∧ c.asked = d.asked ∧ Q c.st d.st
  | .done r i s, .done r' i' t => r = r' ∧ i = i' ∧ Q s t
  | _, _ => False

/-- The statements and conditions of the machines agree, except for those (`H`) for which the second machine makes no promise. -/
structure Simulates (M : Actions A B S) (N : Actions A B T) (R : Nat → S → T → Prop) (n : Nat) (H : A → S → Bool) : Prop where
  mono : ∀ {m s t}, R m s t → R (2 * m) s t
  act : ∀ {m s t} a, R m s t → m ≤ n → H a s = false → Agrees (R (2 * m)) (M.act a s) (N.act a t)
  bad : ∀ {m s t} a, R m s t → H a s = true → N.act a t = .fault .ub
  test : ∀ {m s t} b, R m s t → m ≤ n → Agrees (R m) (M.test b s) (N.test b t)
  close : ∀ {s} x, H (M.close x) s = false
  same : ∀ x, M.close x = N.close x
  ends : ∀ {m s t} x, R m s t → m ≤ n → ∃ s', M.act (M.close x) s = .ok () s'

variable {R : Nat → S → T → Prop} {n m k : Nat} {H : A → S → Bool} {s : S} {t : T}

theorem Simulates.ask (hS : Simulates M N R n H) (hR : R m s t) (hm : m ≤ n) (c : Ask B) (i : Nat) :
    (∃ v j s' t', BVariant.ask M inp c i s = .ok v (j, s') ∧ BVariant.ask N inp c i t = .ok v (j, t') ∧ R m s' t') ∨
    (∃ e j s' t', BVariant.ask M inp c i s = .exc e (j, s') ∧ BVariant.ask N inp c i t = .exc e (j, t') ∧ R m s' t') := by
  cases c with
  | test b =>
    have h := hS.test b hR hm
    simp only [BVariant.ask]
    cases h1 : M.test b s with
    | ok v s' =>
      cases h2 : N.test b t with
      | ok v' t' => rw [h1, h2] at h; obtain ⟨rfl, h⟩ := h; exact .inl ⟨v, i, s', t', rfl, rfl, h⟩
      | exc e t' => rw [h1, h2] at h; exact h.elim
      | fault f => rw [h1, h2] at h; exact h.elim
    | exc e s' =>
      cases h2 : N.test b t with
      | ok v' t' => rw [h1, h2] at h; exact h.elim
      | exc e t' => rw [h1, h2] at h; obtain ⟨rfl, h⟩ := h; exact .inr ⟨_, i, s', t', rfl, rfl, h⟩
      | fault f => rw [h1, h2] at h; exact h.elim
    | fault f => rw [h1] at h; exact h.elim
  | input =>
    simp only [BVariant.ask]
    cases inp i with
    | ok v => exact .inl ⟨v, _, s, t, rfl, rfl, hR⟩
    | error e => exact .inr ⟨e, _, s, t, rfl, rfl, hR⟩

theorem Simulates.pEnd (hS : Simulates M N R n H) (hR : R m s t) (hm : m ≤ n) (x : Nat) (c : CCtl A B) (K : List (CFrame A B)) (i : Nat) :
    PAgrees (R (2 * m)) (BVariant.pEnd M x c K i s) (BVariant.pEnd N x c K i t) := by
  have h := hS.act (M.close x) hR hm (hS.close x)
  obtain ⟨s', h1⟩ := hS.ends x hR hm
  simp only [BVariant.pEnd, ← hS.same]
  rw [h1] at h ⊢
  cases h2 : N.act (M.close x) t with
  | ok _ t' => rw [h2] at h; exact ⟨rfl, rfl, rfl, h.2⟩
  | exc e t' => rw [h2] at h; exact h.elim
  | fault f => rw [h2] at h; exact h.elim

/-- One step, unless it is a statement without a promise. -/
theorem Simulates.step (hS : Simulates M N R n H) (hR : R m s t) (hm : m ≤ n) (c : CCtl A B) (K : List (CFrame A B)) (i : Nat) :
    (∃ a, c = .run (.act a) ∧ H a s = true) ∨ PAgrees (R (2 * m)) (pstep M inp ⟨c, K, i, s⟩) (pstep N inp ⟨c, K, i, t⟩) := by
  have hR' := hS.mono hR
  cases c with
  | run p =>
    cases p with
    | act a =>
      cases hH : H a s with
      | true => exact .inl ⟨a, rfl, hH⟩
      | false =>
        right
        have h := hS.act a hR hm hH
        simp only [pstep]
        cases h1 : M.act a s with
        | ok u s' =>
          cases h2 : N.act a t with
          | ok v' t' => rw [h1, h2] at h; exact ⟨rfl, rfl, rfl, h.2⟩
          | exc e t' => rw [h1, h2] at h; exact h.elim
          | fault f => rw [h1, h2] at h; exact h.elim
        | exc e s' =>
          cases h2 : N.act a t with
          | ok v' t' => rw [h1, h2] at h; exact h.elim
          | exc e t' => rw [h1, h2] at h; obtain ⟨rfl, h⟩ := h; exact ⟨rfl, rfl, rfl, h⟩
          | fault f => rw [h1, h2] at h; exact h.elim
        | fault f => rw [h1] at h; exact h.elim
    | skip => exact .inr ⟨rfl, rfl, rfl, hR'⟩
    | raise e => exact .inr ⟨rfl, rfl, rfl, hR'⟩
    | seq p q => exact .inr ⟨rfl, rfl, rfl, hR'⟩
    | cond c p q =>
      right
      simp only [pstep]
      rcases hS.ask (inp := inp) hR hm c i with ⟨v, j, s', t', h1, h2, h3⟩ | ⟨e, j, s', t', h1, h2, h3⟩
      · rw [h1, h2]; cases v <;> exact ⟨rfl, rfl, rfl, hS.mono h3⟩
      · rw [h1, h2]; exact ⟨rfl, rfl, rfl, hS.mono h3⟩
    | loop c p =>
      right
      simp only [pstep]
      rcases hS.ask (inp := inp) hR hm c i with ⟨v, j, s', t', h1, h2, h3⟩ | ⟨e, j, s', t', h1, h2, h3⟩
      · rw [h1, h2]; cases v <;> exact ⟨rfl, rfl, rfl, hS.mono h3⟩
      · rw [h1, h2]; exact ⟨rfl, rfl, rfl, hS.mono h3⟩
    | guarded p h => exact .inr ⟨rfl, rfl, rfl, hR'⟩
    | scope x p => exact .inr ⟨rfl, rfl, rfl, hR'⟩
  | ret =>
    right
    cases K with
    | nil => exact ⟨rfl, rfl, hR'⟩
    | cons f K =>
      cases f with
      | next q => exact ⟨rfl, rfl, rfl, hR'⟩
      | handler h => exact ⟨rfl, rfl, rfl, hR'⟩
      | ends x => exact hS.pEnd hR hm x .ret K i
  | unwind e =>
    right
    cases K with
    | nil => exact ⟨rfl, rfl, hR'⟩
    | cons f K =>
      cases f with
      | next q => exact ⟨rfl, rfl, rfl, hR'⟩
      | handler h => exact ⟨rfl, rfl, rfl, hR'⟩
      | ends x => exact hS.pEnd hR hm x (.unwind e) K i

theorem pow_step : m * 2 ^ (k + 1) = 2 * m * 2 ^ k := by rw [Nat.pow_succ, Nat.mul_comm 2 m, Nat.mul_assoc, Nat.mul_comm (2 ^ k)]

theorem Simulates.up (hS : Simulates M N R n H) : ∀ k {m}, R m s t → R (m * 2 ^ k) s t
  | 0, m, h => by rw [Nat.pow_zero, Nat.mul_one]; exact h
  | k + 1, m, h => by rw [pow_step]; exact hS.up k (hS.mono h)

/-- Any number of steps, unless the first machine comes to a statement without a promise: there the second one stops. -/
theorem Simulates.steps (hS : Simulates M N R n H) : ∀ {k m s t} {c : CCtl A B} {K : List (CFrame A B)} {i : Nat}, R m s t → m * 2 ^ k ≤ n →
    ((∃ j a K' i' s', j < k ∧ psteps M inp j ⟨c, K, i, s⟩ = .conf ⟨.run (.act a), K', i', s'⟩ ∧ H a s' = true) ∧
      psteps N inp k ⟨c, K, i, t⟩ = .fault .ub) ∨
    PAgrees (R (m * 2 ^ k)) (psteps M inp k ⟨c, K, i, s⟩) (psteps N inp k ⟨c, K, i, t⟩)
  | 0, m, s, t, c, K, i, hR, hm => .inr ⟨rfl, rfl, rfl, by rw [Nat.pow_zero, Nat.mul_one]; exact hR⟩
  | k + 1, m, s, t, c, K, i, hR, hm => by
    have hm' : m ≤ n := Nat.le_trans (Nat.le_mul_of_pos_right _ (Nat.two_pow_pos _)) hm
    rw [pow_step] at hm ⊢
    rcases hS.step (inp := inp) hR hm' c K i with ⟨a, rfl, hH⟩ | h
    · exact .inl ⟨⟨0, a, K, i, s, by omega, rfl, hH⟩, by simp only [psteps, pstep, hS.bad a hR hH]⟩
    · simp only [psteps]
      cases h1 : pstep M inp ⟨c, K, i, s⟩ with
      | conf c1 =>
        cases h2 : pstep N inp ⟨c, K, i, t⟩ with
        | conf c2 =>
          rw [h1, h2] at h
          obtain ⟨c1, K1, i1, s1⟩ := c1
          obtain ⟨c2, K2, i2, s2⟩ := c2
          obtain ⟨h3, h4, h5, h6⟩ := h
          simp only at h3 h4 h5 h6
          subst h3 h4 h5
          rcases hS.steps h6 hm with ⟨⟨j, a, K', i', s', hj, e1, e2⟩, e3⟩ | h
          · exact .inl ⟨⟨j + 1, a, K', i', s', by omega, by simp only [psteps, h1, e1], e2⟩, e3⟩
          · exact .inr h
        | done r j u => rw [h1, h2] at h; exact h.elim
        | fault f => rw [h1, h2] at h; exact h.elim
      | done r j u =>
        cases h2 : pstep N inp ⟨c, K, i, t⟩ with
        | conf c2 => rw [h1, h2] at h; exact h.elim
        | done r' j' u' => rw [h1, h2] at h; exact .inr ⟨h.1, h.2.1, hS.up k h.2.2⟩
        | fault f => rw [h1, h2] at h; exact h.elim
      | fault f => rw [h1] at h; exact h.elim

theorem psteps_fault {c : CConf A B T} {f : Fault} : ∀ {k l : Nat}, psteps N inp k c = .fault f → k ≤ l → psteps N inp l c = .fault f
  | 0, _, h, _ => by cases h
  | k + 1, 0, _, hl => absurd hl (by omega)
  | k + 1, l + 1, h, hl => by
    simp only [psteps] at h ⊢
    cases hc : pstep N inp c with
    | conf d => rw [hc] at h; exact psteps_fault h (by omega)
    | done r' j' t' => rw [hc] at h; cases h
    | fault f => rw [hc] at h; exact h

/-- Where the second machine comes to an end, so does the first one, and it meets no statement without a promise. -/
theorem Simulates.supported (hS : Simulates M N R n H) {p : Prog A B} {i : Nat} {u : T} {r : Option Exc} (hR : R 1 s t) (hn : 2 ^ k ≤ n)
    (h : psteps N inp k (p.start t) = .done r i u) :
    (∀ j, j < k → ∀ a K i s', psteps M inp j (p.start s) = .conf ⟨.run (.act a), K, i, s'⟩ → H a s' = false) ∧
    ∃ s', psteps M inp k (p.start s) = .done r i s' ∧ R (2 ^ k) s' u := by
  constructor
  · intro j hj a K i s' h1
    cases hH : H a s' with
    | false => rfl
    | true =>
      have hpow : 2 ^ j ≤ 2 ^ k := Nat.pow_le_pow_right (by omega) (by omega)
      rcases hS.steps (inp := inp) (k := j) (c := .run p) (K := []) (i := 0) hR (by omega) with ⟨-, h2⟩ | h2
      · have h2 : psteps N inp j (p.start t) = .fault .ub := h2
        rw [psteps_fault h2 (by omega)] at h
        cases h
      · have h1' : psteps M inp j ⟨.run p, [], 0, s⟩ = _ := h1
        rw [h1'] at h2
        cases h3 : psteps N inp j ⟨.run p, [], 0, t⟩ with
        | conf d =>
          rw [h3] at h2
          obtain ⟨d1, d2, d3, d4⟩ := d
          obtain ⟨rfl, -, -, h4⟩ := h2
          have h5 : psteps N inp (j + 1) (p.start t) = .fault .ub := by
            rw [psteps_add (show psteps N inp j (p.start t) = _ from h3)]
            simp only [psteps, pstep, hS.bad a h4 hH]
          rw [psteps_fault h5 (by omega)] at h
          cases h
        | done r j u => rw [h3] at h2; exact h2.elim
        | fault f => rw [h3] at h2; exact h2.elim
  · rcases hS.steps (inp := inp) (k := k) (c := .run p) (K := []) (i := 0) hR (by omega) with ⟨-, h2⟩ | h2
    · rw [Prog.start, h2] at h; cases h
    · rw [Prog.start] at h ⊢
      rw [h, Nat.one_mul] at h2
      revert h2
      cases psteps M inp k ⟨.run p, [], 0, s⟩ with
      | conf c => exact fun h => h.elim
      | done r' j' s' => rintro ⟨rfl, rfl, hr⟩; exact ⟨s', rfl, hr⟩
      | fault f => exact fun h => h.elim

/-- A program that the second machine brings to an end. -/
theorem Simulates.complete {M : Nat → Actions A B S} (hS : ∀ n, Simulates (M n) N R n H) {p : Prog A B} {j : Nat} {u : T} {r : Option Exc} (hR : R 1 s t)
    (hE : Eval N inp p 0 t r j u) :
    ∃ k, ∀ n, 2 ^ k ≤ n → ∃ s', psteps (M n) inp k (p.start s) = .done r j s' ∧ R (2 ^ k) s' u := by
  obtain ⟨k, hk⟩ := eval_iff.mp hE
  exact ⟨k, fun n hn => ((hS n).supported hR hn hk).2⟩

end

end BVariant
