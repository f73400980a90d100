/-
From weakest preconditions to the vocabulary of Verif.Spec.Outcome.
-/
import Verif.Lemmas.Step
import Verif.Lemmas.NeverOk
import Verif.Spec.Outcome
import Verif.Spec.Examples

namespace BVariant

section
variable {V α : Type} {C : Cfg V} {w w' : World V}

theorem Ends.of_wp {m : M V α} {Q Q' : α → World V → Prop} {E E' : Exc → World V → Prop} (h : wp m Q E w)
    (hq : ∀ a w', Q a w' → Q' a w') (he : ∀ e w', E e w' → E' e w') : Ends m w Q' E' := by
  rcases wp_elim h with ⟨a, w', h1, h2⟩ | ⟨e, w', h1, h2⟩
  · exact Or.inl ⟨a, w', h1, hq _ _ h2⟩
  · exact Or.inr ⟨e, w', h1, he _ _ h2⟩

/-- What a run that returned satisfies. -/
theorem wp_ok {m : M V α} {Q : α → World V → Prop} {E : Exc → World V → Prop} (h : wp m Q E w) {a : α}
    (hm : m w = .ok a w') : Q a w' := by
  unfold wp at h; rw [hm] at h; exact h

/-- What a run that threw satisfies. -/
theorem wp_exc {m : M V α} {Q : α → World V → Prop} {E : Exc → World V → Prop} (h : wp m Q E w) {e : Exc}
    (hm : m w = .exc e w') : E e w' := by
  unfold wp at h; rw [hm] at h; exact h

theorem Good.holds (hg : Good C w) {x : Nat} {k : TyIx} {v : V} (h : w.holds x k v) :
    ∃ s id, Owns C w (.user x) s id k v := by
  unfold World.holds World.content at h
  cases hs : w.vars (.user x) with
  | none => rw [hs] at h; cases h
  | some s =>
    obtain ⟨id, k', v', ho⟩ := hg.wf.owns hs
    have hc := ho.content
    rw [World.content] at hc
    rw [h] at hc
    cases hc
    exact ⟨s, id, ho⟩

theorem Owns.holds {x : Nat} {s : VarSt} {id : ObjId} {k : TyIx} {v : V} (h : Owns C w (.user x) s id k v) :
    w.holds x k v := h.content

theorem Owns.objOf {x : Nat} {s : VarSt} {id : ObjId} {k : TyIx} {v : V} (h : Owns C w (.user x) s id k v) :
    w.objOf x = some id := by
  simp [World.objOf, h.var, h.rep.contentId]

theorem Owns.whichIs {x : Nat} {s : VarSt} {id : ObjId} {k : TyIx} {v : V} (h : Owns C w (.user x) s id k v) :
    WhichIs w x k := by
  simp only [WhichIs, which, bind, M.bind, getVar, h.var, h.rep.which]
  rfl

theorem Owns.backedUp {x : Nat} {s : VarSt} {id : ObjId} {k : TyIx} {v : V} (h : Owns C w (.user x) s id k v) :
    w.backedUp x = decide (s.which_ < 0) := by
  simp [World.backedUp, h.var]

theorem SameObjects.of_types {o : ObjId → Option (TyIx × V)} (h : SameTypes w.objs o) (ho : w'.objs = o) :
    SameObjects w w' := by
  intro i
  rw [ho]
  refine ⟨fun hn => ?_, h.none_of⟩
  cases hi : w.objs i with
  | none => rfl
  | some p => obtain ⟨v', hv⟩ := h.some_of (k := p.1) (v := p.2) hi; rw [hn] at hv; cases hv

theorem of_endsOk {m : M V Unit} (h : endsOk m w = true) : ∃ w', m w = .ok () w' := by
  unfold endsOk at h
  split at h
  · rename_i w' he; exact ⟨w', he⟩
  · cases h

theorem of_endsExc {m : M V Unit} (h : endsExc m w = true) : ∃ e w', m w = .exc e w' := by
  unfold endsExc at h
  split at h
  · rename_i e w' he; exact ⟨e, w', he⟩
  · cases h

theorem user_ne {x z : Nat} {l : List Nat} (h : z ∉ x :: l) : VarId.user z ≠ VarId.user x := by
  intro he; injection he with he; exact h (by simp [he])

theorem user_ne2 {x y z : Nat} (h : z ∉ [x, y]) : VarId.user z ≠ VarId.user y := by
  intro he; injection he with he; exact h (by simp [he])

theorem stateAfter_good {C : Cfg Nat} (hs : Sane C) {cs : List (Cmd Nat)}
    (ha : avoidsBackupReads C cs (World.init Nat) = true) : Good C (stateAfter C cs) := by
  obtain ⟨w, hw, hg⟩ := run_good hs cs (World.init Nat) good_init ha
  simpa [stateAfter, hw] using hg

end

end BVariant
