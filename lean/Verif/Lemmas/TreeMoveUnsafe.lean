/-
Move assignment of a recursive variant to a part of itself, between types.
-/
import Verif.Lemmas.TreeUnsafe

namespace BVariant

section
variable {V : Type} {C : TreeCfg V} {s s' : TreeSt V}

open ATree AStore

variable {α : AStore V} {σ : TStore V} {G : List (ATree V)} {n m : Nat} {x t : TPlace}

/-- Not an object of a plain type, in place. -/
def TVar.fixed : TVar V → Bool
  | .plain _ (.leaf _) => false
  | _ => true

/-- What move constructors do to the heap when they move members one by one: nodes keep their members, but for the values of plain
types. -/
structure Keeps (s s' : TreeSt V) : Prop where
  node : ∀ p a cs, s.heap p = some (.node a cs) → ∃ a' cs', s'.heap p = some (.node a' cs') ∧
    ∀ (i : Nat) (v : TVar V), cs[i]? = some v → ∃ v', cs'[i]? = some v' ∧ v'.which = v.which ∧ (v.fixed = true → v' = v)
  box : ∀ q c, s.heap q = some (.box c) → (∀ v, c ≠ .leaf v) → s'.heap q = some (.box c)
  fresh : s'.Fresh

theorem Keeps.refl (h : s.Fresh) : Keeps s s := ⟨fun _ a cs h => ⟨a, cs, h, fun _ v h => ⟨v, h, rfl, fun _ => rfl⟩⟩, fun _ _ h _ => h, h⟩

theorem Keeps.trans {s1 s2 s3 : TreeSt V} (h : Keeps s1 s2) (h' : Keeps s2 s3) : Keeps s1 s3 := by
  refine ⟨fun p a cs h0 => ?_, fun q c h0 h1 => h'.box q c (h.box q c h0 h1) h1, h'.fresh⟩
  obtain ⟨a1, cs1, h1, h2⟩ := h.node p a cs h0
  obtain ⟨a2, cs2, h3, h4⟩ := h'.node p a1 cs1 h1
  refine ⟨a2, cs2, h3, fun i v hi => ?_⟩
  obtain ⟨v1, h5, h6, h7⟩ := h2 i v hi
  obtain ⟨v2, h8, h9, h10⟩ := h4 i v1 h5
  refine ⟨v2, h8, h9.trans h6, fun hv => ?_⟩
  have e := h7 hv
  subst e
  exact h10 hv

theorem Grows.keeps (h : Grows s s') : Keeps s s' :=
  ⟨fun p a cs h0 => ⟨a, cs, (h.heap p (by rw [h0]; nofun)).trans h0, fun _ v h => ⟨v, h, rfl, fun _ => rfl⟩⟩,
    fun q c h0 _ => (h.heap q (by rw [h0]; nofun)).trans h0, h.fresh⟩

theorem Keeps.tick (h : Keeps s s') {k : Nat} : Keeps s { s' with tick := k } := ⟨h.node, h.box, h.fresh⟩

theorem TLoc.read_ok {l : TLoc} {v : TVar V} (h : l.read s = .ok v s') : s' = s := by
  cases l with
  | var x =>
    simp only [TLoc.read, tVar] at h
    cases hx : s.vars x with
    | none => rw [hx] at h; cases h
    | some w => rw [hx] at h; cases h; rfl
  | child p i =>
    unfold TLoc.read at h
    obtain ⟨nd, s1, h1, h2⟩ := bind_ok.mp h
    have e : s1 = s := by
      unfold tReadNode at h1
      split at h1
      · cases h1; rfl
      · cases h1
    cases hi : nd.2[i]? with
    | none => rw [hi] at h2; cases h2
    | some w => rw [hi] at h2; cases h2; exact e

theorem tReadNode_ok {p : ObjId} {a : V} {cs : List (TVar V)} (h : tReadNode p s = .ok (a, cs) s') :
    s' = s ∧ s.heap p = some (.node a cs) := by
  unfold tReadNode at h
  split at h
  · next h1 => cases h; exact ⟨rfl, h1⟩
  · cases h

theorem tReadBox_ok {q : ObjId} {c : TContent V} (h : tReadBox q s = .ok c s') : s' = s ∧ s.heap q = some (.box c) := by
  unfold tReadBox at h
  split at h
  · next h1 => cases h; exact ⟨rfl, h1⟩
  · cases h

theorem TLoc.read_child {p : ObjId} {i : Nat} {v : TVar V} (h : (TLoc.child p i).read s = .ok v s') :
    ∃ a cs, s.heap p = some (.node a cs) ∧ cs[i]? = some v := by
  unfold TLoc.read at h
  obtain ⟨nd, s1, h1, h3⟩ := bind_ok.mp h
  obtain ⟨e, h2⟩ := tReadNode_ok h1
  cases hi : nd.2[i]? with
  | none => rw [hi] at h3; cases h3
  | some w => rw [hi] at h3; cases h3; exact ⟨nd.1, nd.2, h2, hi⟩

theorem TRef.read_ok {r : TRef} {c : TContent V} (h : r.read s = .ok c s') : s' = s := by
  cases r with
  | inPlace l =>
    unfold TRef.read at h
    obtain ⟨v, s1, h1, h⟩ := bind_ok.mp h
    have := TLoc.read_ok h1
    subst this
    cases v with
    | plain => cases h; rfl
    | backup => cases h
  | inBox q => exact (tReadBox_ok h).1

theorem fresh_set (hf : s.Fresh) {p : ObjId} {c : TCell V} (h : s.heap p ≠ none) :
    TreeSt.Fresh { s with heap := upd s.heap p (some c) } := by
  intro p' hp'
  have : p' ≠ p := fun e => h (by rw [← e]; exact hf p' hp')
  simp only [upd, this, if_false]
  exact hf p' hp'

theorem keeps_setNode (hf : s.Fresh) {p : ObjId} {a a' : V} {cs cs' : List (TVar V)} (h : s.heap p = some (.node a cs))
    (hc : ∀ (i : Nat) (v : TVar V), cs[i]? = some v → ∃ v', cs'[i]? = some v' ∧ v'.which = v.which ∧ (v.fixed = true → v' = v)) :
    Keeps s { s with heap := upd s.heap p (some (.node a' cs')) } := by
  refine ⟨fun p' b ds h' => ?_, fun q c h' _ => ?_, fresh_set hf (by rw [h]; nofun)⟩
  · by_cases hp : p' = p
    · subst hp
      rw [h] at h'; cases h'
      exact ⟨a', cs', by simp [upd], hc⟩
    · exact ⟨b, ds, by simp only [upd, hp, if_false]; exact h', fun _ v h => ⟨v, h, rfl, fun _ => rfl⟩⟩
  · have hp : q ≠ p := fun e => by rw [e, h] at h'; cases h'
    simp only [upd, hp, if_false]; exact h'

/-- Leaving a plain object moved from. -/
theorem keeps_writeLeaf (hf : s.Fresh) {r : TRef} {k : TyIx} {u v : V} {s1 : TreeSt V} (hr : r.read s = .ok (.leaf u) s)
    (hw : ∀ l w, r = .inPlace l → l.read s = .ok w s → w.which = k) (h : r.write k (.leaf v) s = .ok () s1) : Keeps s s1 := by
  cases r with
  | inPlace l =>
    unfold TRef.read at hr
    obtain ⟨w, s2, h1, hr⟩ := bind_ok.mp hr
    have := TLoc.read_ok h1
    subst this
    cases w with
    | backup => cases hr
    | plain k' c =>
      cases hr
      cases l with
      | var x =>
        simp only [TRef.write, TLoc.write] at h
        obtain ⟨w, s3, h2, h3⟩ := bind_ok.mp h
        have : s3 = s2 := TLoc.read_ok (l := .var x) h2
        subst this
        cases h3
        exact ⟨fun _ a cs h => ⟨a, cs, h, fun _ v h => ⟨v, h, rfl, fun _ => rfl⟩⟩, fun _ _ h _ => h, hf⟩
      | child p i =>
        obtain ⟨a, cs, h3, h4⟩ := TLoc.read_child h1
        simp only [TRef.write, TLoc.write, tReadNode, bind, Eff.bind, h3] at h
        have hlt : i < cs.length := (List.getElem?_eq_some_iff.mp h4).1
        rw [if_pos hlt] at h
        cases h
        refine keeps_setNode hf h3 fun j w hj => ?_
        by_cases e : i = j
        · subst e
          rw [h4] at hj; cases hj
          exact ⟨_, List.getElem?_set_self hlt, (hw _ _ rfl h1).symm, nofun⟩
        · exact ⟨w, by rw [List.getElem?_set_ne e]; exact hj, rfl, fun _ => rfl⟩
  | inBox q =>
    obtain ⟨_, h1⟩ := tReadBox_ok hr
    simp only [TRef.write, bind, Eff.bind, tReadBox, h1, Eff.modify] at h
    cases h
    refine ⟨fun p a cs h' => ⟨a, cs, ?_, fun _ v h => ⟨v, h, rfl, fun _ => rfl⟩⟩, fun q' c h' hc => ?_, fresh_set hf (by rw [h1]; nofun)⟩
    · have hp : p ≠ q := fun e => by rw [e, h1] at h'; cases h'
      simp only [upd, hp, if_false]; exact h'
    · have hp : q' ≠ q := fun e => by rw [e, h1] at h'; cases h'; exact hc _ rfl
      simp only [upd, hp, if_false]; exact h'

theorem tFill_keeps (hf : s.Fresh) {p : ObjId} {c : TCell V} {s1 : TreeSt V} (h : tFill p c s = .ok () s1) : Keeps s s1 := by
  unfold tFill at h
  split at h
  · next h1 =>
    cases h
    refine ⟨fun p' a cs h' => ⟨a, cs, ?_, fun _ v h => ⟨v, h, rfl, fun _ => rfl⟩⟩, fun q c h' _ => ?_, fresh_set hf (by rw [h1]; nofun)⟩
    · have hp : p' ≠ p := fun e => by rw [e, h1] at h'; cases h'
      simp only [upd, hp, if_false]; exact h'
    · have hp : q ≠ p := fun e => by rw [e, h1] at h'; cases h'
      simp only [upd, hp, if_false]; exact h'
  · cases h

theorem tMoveList_keeps {f : TLoc → Eff (TreeSt V) (TVar V)} {d : TVar V → Eff (TreeSt V) Unit} {p : ObjId}
    (hf : ∀ {l s s' v}, s.Fresh → f l s = .ok v s' → Keeps s s') :
    ∀ {r i : Nat} {s s' : TreeSt V} {vs : List (TVar V)}, s.Fresh → tMoveList f d p r i s = .ok vs s' → Keeps s s'
  | 0, _, _, _, _, h0, h => by cases h; exact .refl h0
  | r + 1, i, s, s', vs, h0, h => by
    unfold tMoveList at h
    obtain ⟨x', s1, h1, h⟩ := bind_ok.mp h
    obtain ⟨xs', s2, h2, h⟩ := bind_ok.mp h
    cases h
    rw [onExc_ok] at h2
    have k1 := hf h0 h1
    exact k1.trans (tMoveList_keeps hf k1.fresh h2)

/-- The move of a node: up to its members. -/
theorem tMoveNode_ok {f : TLoc → Eff (TreeSt V) (TVar V)} {d : TVar V → Eff (TreeSt V) Unit} {k : TyIx} {p : ObjId} {a : V}
    {cs : List (TVar V)} {c : TCell V} (hst : C.steals k = false) (hf : s.Fresh) (hp : s.heap p = some (.node a cs))
    (h : tMoveNode C f d k p s = .ok c s') :
    ∃ s1 vs, Keeps s s1 ∧ s1.heap p = some (.node (C.ops.movedFrom k a) cs) ∧ tMoveList f d p cs.length 0 s1 = .ok vs s' := by
  unfold tMoveNode at h
  obtain ⟨nd, s1, h1, h⟩ := bind_ok.mp h
  simp only [tReadNode, hp] at h1
  cases h1
  obtain ⟨_, s2, h2, h⟩ := bind_ok.mp h
  rw [onExc_ok] at h2
  have e2 := tMayThrow_ok h2
  subst e2
  obtain ⟨_, s3, h3, h⟩ := bind_ok.mp h
  simp only [tSetNode, tReadNode, bind, Eff.bind, hp, Eff.modify] at h3
  cases h3
  rw [hst] at h
  simp only [Bool.false_eq_true, if_false] at h
  obtain ⟨vs, s4, h4, h⟩ := bind_ok.mp h
  cases h
  refine ⟨_, vs, ?_, ?_, h4⟩
  · exact (keeps_setNode hf hp (fun _ v h => ⟨v, h, rfl, fun _ => rfl⟩)).tick
  · simp [upd]

theorem tMoveVar_keeps (hst : ∀ k, C.steals k = false) :
    ∀ {n : Nat} {l : TLoc} {s s' : TreeSt V} {v : TVar V}, s.Fresh → tMoveVar C n l s = .ok v s' → Keeps s s'
  | 0, _, _, _, _, _, h => by cases h
  | n + 1, l, s, s', v, hf, h => by
    unfold tMoveVar at h
    obtain ⟨w, s1, h1, h0⟩ := bind_ok.mp h
    have := TLoc.read_ok h1
    subst this
    obtain ⟨c, s2, hm, hz⟩ := bind_ok.mp h0
    cases hz
    unfold tMoveRef at hm
    obtain ⟨c0, s3, h3, h2⟩ := bind_ok.mp hm
    have := TRef.read_ok h3
    subst this
    cases c0 with
    | dead => cases h2
    | leaf u =>
      simp only at h2
      obtain ⟨_, s4, h4, h2⟩ := bind_ok.mp h2
      rw [onExc_ok] at h4
      have e4 := tMayThrow_ok h4
      subst e4
      obtain ⟨_, s5, h5, h2⟩ := bind_ok.mp h2
      cases h2
      have hr : (w.ref l).read { s3 with tick := s3.tick + 1 } = .ok (.leaf u) { s3 with tick := s3.tick + 1 } := by
        revert h3
        cases w.ref l with
        | inPlace l =>
          cases l with
          | var x =>
            simp only [TRef.read, TLoc.read, tVar, bind, Eff.bind]
            cases s3.vars x with
            | none => nofun
            | some z => cases z with
              | plain k c => simp only [pure, Eff.pure]; intro h; cases h; rfl
              | backup => nofun
          | child p i =>
            simp only [TRef.read, TLoc.read, tReadNode, bind, Eff.bind]
            cases s3.heap p with
            | none => nofun
            | some z => cases z with
              | raw => nofun
              | box => nofun
              | node a cs =>
                simp only
                cases cs[i]? with
                | none => nofun
                | some z => cases z with
                  | plain k c => simp only [pure, Eff.pure]; intro h; cases h; rfl
                  | backup => nofun
        | inBox q =>
          simp only [TRef.read, tReadBox]
          cases s3.heap q with
          | none => nofun
          | some z => cases z with
            | raw => nofun
            | node => nofun
            | box c => simp only; intro h; cases h; rfl
      have hw : ∀ l' w', w.ref l = .inPlace l' → l'.read { s3 with tick := s3.tick + 1 } = .ok w' { s3 with tick := s3.tick + 1 } →
          w'.which = w.which := by
        intro l' w' e hr'
        cases w with
        | backup => cases e
        | plain k c =>
          cases e
          have : l.read { s3 with tick := s3.tick + 1 } = .ok (.plain k c) { s3 with tick := s3.tick + 1 } := by
            revert h1
            cases l with
            | var x =>
              simp only [TLoc.read, tVar]
              cases s3.vars x with
              | none => nofun
              | some z => simp only; intro h; cases h; rfl
            | child p i =>
              simp only [TLoc.read, tReadNode, bind, Eff.bind]
              cases s3.heap p with
              | none => nofun
              | some z => cases z with
                | raw => nofun
                | box => nofun
                | node a cs =>
                  simp only
                  cases cs[i]? with
                  | none => nofun
                  | some z => simp only [pure, Eff.pure]; intro h; cases h; rfl
          rw [this] at hr'
          cases hr'
          rfl
      have hk := keeps_writeLeaf (s := { s3 with tick := s3.tick + 1 }) hf hr hw h5
      exact ⟨hk.node, hk.box, hk.fresh⟩
    | wrap p =>
      simp only at h2
      obtain ⟨q, s4, h4, h2⟩ := bind_ok.mp h2
      cases h2
      unfold tNew at h4
      obtain ⟨q', s5, h5, h4⟩ := bind_ok.mp h4
      obtain ⟨cell, s6, h6, h4⟩ := bind_ok.mp h4
      rw [onExc_ok] at h6
      obtain ⟨_, s7, h7, h4⟩ := bind_ok.mp h4
      cases h4
      have g1 := (grows_alloc hf h5).1.keeps
      have : ∃ a cs, s5.heap p = some (.node a cs) := by
        unfold tMoveNode at h6
        obtain ⟨nd, s8, h8, _⟩ := bind_ok.mp h6
        exact ⟨_, _, (tReadNode_ok h8).2⟩
      obtain ⟨a, cs, hp⟩ := this
      obtain ⟨s8, vs, g2, _, h8⟩ := tMoveNode_ok (hst _) g1.fresh hp h6
      have g3 := tMoveList_keeps (fun hf h => tMoveVar_keeps hst (n := n) hf h) g2.fresh h8
      exact ((g1.trans g2).trans g3).trans (tFill_keeps g3.fresh h7)

/-- Somewhere in the variant there is one without content. -/
inductive Leads (h : ObjId → Option (TCell V)) : TVar V → Prop
  | dead (k : TyIx) : Leads h (.plain k .dead)
  | wrap {k : TyIx} {p : ObjId} {a : V} {cs : List (TVar V)} {i : Nat} {v : TVar V} :
      h p = some (.node a cs) → cs[i]? = some v → Leads h v → Leads h (.plain k (.wrap p))
  | box {k : TyIx} {q : ObjId} {c : TContent V} : h q = some (.box c) → Leads h (.plain k c) → Leads h (.backup k q)

theorem Leads.fixed {h : ObjId → Option (TCell V)} {v : TVar V} (hl : Leads h v) : v.fixed = true := by
  cases hl <;> rfl

theorem Leads.keeps {v : TVar V} (hl : Leads s.heap v) (hk : Keeps s s') : Leads s'.heap v := by
  induction hl with
  | dead k => exact .dead k
  | wrap h1 h2 h3 ih =>
    obtain ⟨a', cs', h4, h5⟩ := hk.node _ _ _ h1
    obtain ⟨v', h6, _, h7⟩ := h5 _ _ h2
    have e := h7 h3.fixed
    subst e
    exact .wrap h4 h6 ih
  | box h1 h2 ih => exact .box (hk.box _ _ h1 (fun v e => by subst e; exact absurd h2.fixed (by simp [TVar.fixed]))) ih

/-- A dead part of a tree, as seen in the heap. -/
theorem leads_of_walk : ∀ {is : List Nat} {T : ATree V} {l l' : TLoc} {k : TyIx} {b : Option ObjId} {h : ObjId → Option (TCell V)},
    T.walk l is = some (l', .dead k b) → T.Holds h → Leads h T.var
  | is, T, l, l', k, b, h, hw, hT => by
    have hc : Leads h (.plain T.which T.content) := by
      cases is with
      | nil =>
        rw [walk_nil] at hw
        cases hw
        exact .dead _
      | cons i is =>
        obtain ⟨k', a, p, f, b', u, rfl, hu, hw⟩ := walk_cons hw
        rw [ATree.Holds] at hT
        exact .wrap (v := u.var) hT.2.1 (by rw [List.getElem?_map, hu]; rfl)
          (leads_of_walk hw (holdsL_iff.mp hT.2.2 u (List.mem_of_getElem? hu)))
    unfold var
    cases hb : T.box with
    | none => exact hc
    | some q =>
      refine .box ?_ hc
      cases T with
      | leaf => rw [ATree.Holds] at hT; exact hT q hb
      | node => rw [ATree.Holds] at hT; exact hT.1 q hb
      | dead => rw [ATree.Holds] at hT; exact hT q hb
      | blk => cases hb
  termination_by is => is.length

theorem tMoveList_leads {f : TLoc → Eff (TreeSt V) (TVar V)} {d : TVar V → Eff (TreeSt V) Unit} {p : ObjId}
    (hk : ∀ {l s s' v}, s.Fresh → f l s = .ok v s' → Keeps s s')
    (hd : ∀ {l : TLoc} {s s' : TreeSt V} {v v' : TVar V}, s.Fresh → l.read s = .ok v s → Leads s.heap v → f l s ≠ .ok v' s')
    {j : Nat} {v : TVar V} :
    ∀ {r i : Nat} {s s' : TreeSt V} {a : V} {cs : List (TVar V)} {vs : List (TVar V)}, i ≤ j → j < i + r → s.Fresh →
      s.heap p = some (.node a cs) → cs[j]? = some v → Leads s.heap v → tMoveList f d p r i s ≠ .ok vs s'
  | 0, _, _, _, _, _, _, _, _, _, _, _, _ => by omega
  | r + 1, i, s, s', a, cs, vs, h1, h2, hf, hp, hv, hl => by
    intro h
    unfold tMoveList at h
    obtain ⟨x', s1, h3, h⟩ := bind_ok.mp h
    obtain ⟨xs', s2, h4, h⟩ := bind_ok.mp h
    rw [onExc_ok] at h4
    by_cases hij : i = j
    · subst hij
      refine hd hf ?_ hl h3
      simp only [TLoc.read, tReadNode, bind, Eff.bind, hp, hv, pure, Eff.pure]
    · have k1 := hk hf h3
      obtain ⟨a', cs', h5, h6⟩ := k1.node _ _ _ hp
      obtain ⟨v', h7, _, h8⟩ := h6 _ _ hv
      have e := h8 hl.fixed
      subst e
      exact tMoveList_leads hk hd (by omega) (by omega) k1.fresh h5 h7 (hl.keeps k1) h4

theorem ref_leads {l : TLoc} {v : TVar V} (hr : l.read s = .ok v s) (hl : Leads s.heap v) :
    ∃ c, (v.ref l).read s = .ok c s ∧ Leads s.heap (.plain v.which c) := by
  cases v with
  | plain k c => exact ⟨c, by simp only [TVar.ref, TRef.read, bind, Eff.bind, hr]; rfl, hl⟩
  | backup k q =>
    cases hl with
    | box h1 h2 => exact ⟨_, by simp only [TVar.ref, TRef.read, tReadBox, h1], h2⟩

/-- A reference to an object with a dead part is not moved from. -/
theorem tMoveRef_leads {f : TLoc → Eff (TreeSt V) (TVar V)} {d : TVar V → Eff (TreeSt V) Unit} {k : TyIx} (hst : C.steals k = false)
    (hk : ∀ {l s s' v}, s.Fresh → f l s = .ok v s' → Keeps s s')
    (hd : ∀ {l : TLoc} {s s' : TreeSt V} {v v' : TVar V}, s.Fresh → l.read s = .ok v s → Leads s.heap v → f l s ≠ .ok v' s')
    {r : TRef} {c c' : TContent V} (hf : s.Fresh) (hr : r.read s = .ok c s) (hl : Leads s.heap (.plain k c)) :
    tMoveRef C f d k r s ≠ .ok c' s' := by
  intro h
  unfold tMoveRef at h
  obtain ⟨c0, s1, h1, h⟩ := bind_ok.mp h
  rw [hr] at h1
  cases h1
  cases hl with
  | dead => cases h
  | @wrap _ p a cs i v h2 h3 h4 =>
    simp only at h
    obtain ⟨q, s2, h5, h⟩ := bind_ok.mp h
    unfold tNew at h5
    obtain ⟨q', s3, h6, h5⟩ := bind_ok.mp h5
    obtain ⟨cell, s4, h7, h5⟩ := bind_ok.mp h5
    rw [onExc_ok] at h7
    have g1 := (grows_alloc hf h6).1.keeps
    obtain ⟨a1, cs1, h8, h9⟩ := g1.node _ _ _ h2
    obtain ⟨s5, vs, g2, h10, h11⟩ := tMoveNode_ok hst g1.fresh h8 h7
    obtain ⟨v', hv, _, e⟩ := h9 _ _ h3
    have e := e h4.fixed
    subst e
    exact tMoveList_leads hk hd (Nat.zero_le _) (by rw [Nat.zero_add]; exact (List.getElem?_eq_some_iff.mp hv).1) g2.fresh h10 hv
      ((h4.keeps g1).keeps g2) h11

theorem tMoveVar_leads (hst : ∀ k, C.steals k = false) :
    ∀ {n : Nat} {l : TLoc} {s s' : TreeSt V} {v v' : TVar V}, s.Fresh → l.read s = .ok v s → Leads s.heap v →
      tMoveVar C n l s ≠ .ok v' s'
  | 0, _, _, _, _, _, _, _, _ => nofun
  | n + 1, l, s, s', v, v', hf, hr, hl => by
    intro h
    unfold tMoveVar at h
    obtain ⟨w, s1, h1, h⟩ := bind_ok.mp h
    rw [hr] at h1
    cases h1
    obtain ⟨c, s2, h2, h⟩ := bind_ok.mp h
    obtain ⟨c0, h3, h4⟩ := ref_leads hr hl
    exact tMoveRef_leads (hst _) (fun hf h => tMoveVar_keeps hst (n := n) hf h) (fun hf hr hl => tMoveVar_leads hst (n := n) hf hr hl)
      hf h3 h4 h2

/-- Move assignment to a part of the right side, between types, if nodes move their members one by one or there is no fallback
type. -/
theorem tMoveAssigner_part (hl : C.ops.Lawful) {l r : TLoc} {L R : ATree V} {u0 : VTree V} {is : List Nat} (hM : Mem s α G)
    (hx : At α x l L) (ht : At α t r R) (hL : L.Is u0) (hwr : C.wrapped R.which = true)
    (hn0 : u0.height ≤ n) (hv : x.var = t.var) (hp : x.path = t.path ++ is) (hne : is ≠ [])
    (hw : R.walk r is = some (l, L)) (hb : R.box = none) (hst : C.fallback = none ∨ ∀ k, C.steals k = false) :
    tMoveAssigner C n l L.var R.which (.inPlace r) s ≠ .ok () s' := by
  have hc : C.nothrowCopy R.which = false := by simp only [TreeCfg.nothrowCopy, hwr]; rfl
  have hm : C.nothrowMove R.which = false := by simp only [TreeCfg.nothrowMove, hwr]; rfl
  cases hfb : C.fallback with
  | none =>
    have := tAssigner_part (C := C) (n := n) (s' := s') hl hM hx ht hL hwr hn0 hv hp hne hw hb
    simp only [tAssigner, hc, hm, hfb, Bool.false_eq_true, if_false] at this
    simp only [tMoveAssigner, hc, hm, hfb, Bool.false_eq_true, if_false]
    exact this
  | some fb =>
    have hst : ∀ k, C.steals k = false := by
      rcases hst with h | h
      · rw [hfb] at h; cases h
      · exact h
    obtain ⟨j, js, rfl⟩ : ∃ j js, is = j :: js := by cases is with
      | nil => exact absurd rfl hne
      | cons j js => exact ⟨j, js, rfl⟩
    intro h
    simp only [tMoveAssigner, hc, hm, hfb, Bool.false_eq_true, if_false] at h
    obtain ⟨s1, h1, hM1, _⟩ := hM.destroyAt (n := n) hx hL hn0
    obtain ⟨_, s2, h2, h⟩ := bind_ok.mp h
    rw [h1] at h2; cases h2
    obtain ⟨c, s3, h3, h⟩ := bind_ok.mp h
    rw [onExc_ok] at h3
    obtain ⟨h4, _⟩ := ht.put_inside (U := .dead L.which none) hv hp
    obtain ⟨_, h5, h6⟩ := hM1.at_run h4
    obtain ⟨e1, e2, _⟩ := put_box (T := R) (U := .dead L.which none) (i := j) (is := js)
    have hlead := leads_of_walk (walk_put hw) h6
    rw [var_none (e1.trans hb)] at hlead h5
    rw [e2] at hlead h5
    refine tMoveRef_leads (hst _) (fun hf h => tMoveVar_keeps hst (n := n) hf h) (fun hf hr hl => tMoveVar_leads hst (n := n) hf hr hl)
      hM1.fresh (r := .inPlace r) ?_ hlead h3
    simp only [TRef.read, bind, Eff.bind, h5]; rfl

/-- Memory that no variable owns, and that has been changed. -/
theorem Mem.leaked (hM : Mem s α G) (hS : IsS α σ) (hv : s'.vars = s.vars) (hh : ∀ z, z ∉ blocksL G → s'.heap z = s.heap z)
    {q : ObjId} (hq : q ∈ blocksL G) (hq' : s'.heap q ≠ none) :
    ∃ own' : Nat → List ObjId, s'.Stores σ own' ∧ ∃ p, s'.heap p ≠ none ∧ ∀ y, p ∉ own' y := by
  have hnotin : ∀ y p, p ∈ blocksL G → p ∉ blocksO (α y) := fun y p h1 h2 => by
    have := hM.excl y p
    have h3 := List.count_pos_iff.mpr h1
    have h4 := List.count_pos_iff.mpr h2
    omega
  refine ⟨fun y => blocksO (α y), ⟨fun y w hy => ?_, fun y hy => ?_, fun y => ?_, fun y z p h1 h2 => ?_⟩, q, hq', fun y => hnotin y q hq⟩
  · obtain ⟨v, h1, h2⟩ := hM.hasVal hS hy
    exact ⟨v, by rw [hv]; exact h1, h2.frame fun p hp => hh p fun h => hnotin y p h hp⟩
  · have h := (hS.none_iff).mp hy
    refine ⟨?_, by simp only [h, blocksO]⟩
    have := hM.vars y
    rw [hv, this, h]; rfl
  · exact List.nodup_iff_count.mpr fun p => by have := hM.excl y p; omega
  · by_cases hyz : y = z
    · exact hyz
    · have := hM.disj y z p hyz
      have h3 := List.count_pos_iff.mpr h1
      have h4 := List.count_pos_iff.mpr h2
      omega

/-- The move of a node whose members are taken over. -/
theorem tMoveNode_steals {f : TLoc → Eff (TreeSt V) (TVar V)} {d : TVar V → Eff (TreeSt V) Unit} {k : TyIx} {a : V} {p : ObjId}
    {F : List (ATree V)} {b : Option ObjId} {l : TLoc} {c : TCell V} (hst : C.steals k = true) (hM : Mem s α G)
    (hx : At α x l (.node k a p F b)) (h : tMoveNode C f d k p s = .ok c s') :
    c = .node (C.ops.move k a) (F.map ATree.var) ∧ Mem s' (α.put x (.node k (C.ops.movedFrom k a) p [] b)) (F ++ G) := by
  have hh := (hM.at_run hx).2.2
  rw [ATree.Holds] at hh
  have hrd : tReadNode p s = .ok (a, F.map ATree.var) s := by simp only [tReadNode, hh.2.1]
  rcases tMayThrow_run (C := C) (C.tr k).nothrowMove (.moveCtor k) s with h1 | ⟨h1, _⟩
  · have hM0 : Mem { s with tick := s.tick + 1 } α G := hM.same rfl rfl (Nat.le_refl _)
    obtain ⟨s1, hs1, hM1, _⟩ := hM0.setNode (a' := C.ops.movedFrom k a) hx hh.2.2 hM0.ghosts (fun _ => rfl)
    have hx1 : At (α.put x (.node k (C.ops.movedFrom k a) p F b)) x l (.node k (C.ops.movedFrom k a) p F b) := hx.put
    obtain ⟨s2, hs2, hM2, _⟩ := hM1.setNode (a' := C.ops.movedFrom k a) (f' := []) (G' := F ++ G) hx1 trivial
      (holdsL_append.mpr ⟨by
        have := (hM1.at_run hx1).2.2; rw [ATree.Holds] at this; exact this.2.2, hM1.ghosts⟩)
      (fun q => by rw [count_append]; simp [blocksL])
    rw [AStore.put_put hx] at hM2
    simp only [List.map_nil] at hs2
    simp only [tMoveNode, bind, Eff.bind, hrd, Eff.onExc, h1, hs1, hst, if_true, hs2, pure, Eff.pure] at h
    cases h
    exact ⟨rfl, hM2⟩
  · simp only [tMoveNode, bind, Eff.bind, hrd, Eff.onExc, h1] at h
    cases h2 : tSetNode p (C.ops.moveFailSrc k a) (F.map ATree.var) { s with tick := s.tick + 1 } <;> rw [h2] at h <;> cases h

/-- Move assignment to a part of the right side, between types, if the node on the right side gives its members away and there is
a fallback type. -/
theorem tMoveAssigner_part_steals {l r : TLoc} {L R : ATree V} {u0 u : VTree V} {is : List Nat} (hM : Mem s α []) (hS : IsS α σ)
    (hx : At α x l L) (ht : At α t r R) (hL : L.Is u0) (hR : R.Is u) (htu : u.Typed C.wrapped)
    (hn0 : u0.height ≤ n) (hv : x.var = t.var) (hp : x.path = t.path ++ is) (hne : is ≠ [])
    (hw : R.walk r is = some (l, L)) (hb : R.box = none) {fb : TyIx} (hfb : C.fallback = some fb) (hst : C.steals R.which = true)
    (h : tMoveAssigner C n l L.var R.which (.inPlace r) s = .ok () s') :
    ∃ k a f, u = .node k a f ∧ ∃ own' : Nat → List ObjId, s'.Stores (σ.put t (.node k (C.ops.movedFrom k a) .nil)) own' ∧
      ∃ p, s'.heap p ≠ none ∧ ∀ y, p ∉ own' y := by
  have hwr := node_of_walk hne hw hR htu
  have hc : C.nothrowCopy R.which = false := by simp only [TreeCfg.nothrowCopy, hwr]; rfl
  have hm : C.nothrowMove R.which = false := by simp only [TreeCfg.nothrowMove, hwr]; rfl
  obtain ⟨j, js, rfl⟩ : ∃ j js, is = j :: js := by cases is with
    | nil => exact absurd rfl hne
    | cons j js => exact ⟨j, js, rfl⟩
  simp only [tMoveAssigner, hc, hm, hfb, Bool.false_eq_true, if_false] at h
  obtain ⟨s1, h1, hM1, _⟩ := hM.destroyAt (n := n) hx hL hn0
  obtain ⟨_, s2, h2, h⟩ := bind_ok.mp h
  rw [h1] at h2; cases h2
  obtain ⟨c, s3, h3, h⟩ := bind_ok.mp h
  rw [onExc_ok] at h3
  obtain ⟨h4, hput⟩ := ht.put_inside (U := .dead L.which none) hv hp
  obtain ⟨k, a, p, F, b, w, rfl, hw1, hw2⟩ := walk_cons hw
  simp only [box] at hb
  subst hb
  obtain ⟨f, rfl⟩ : ∃ f, u = .node k a f := by
    cases u with
    | leaf => simp [ATree.Is] at hR
    | node k' a' g => rw [ATree.Is] at hR; obtain ⟨rfl, rfl, _⟩ := hR; exact ⟨g, rfl⟩
  refine ⟨k, a, f, rfl, ?_⟩
  have hR1 : (ATree.node k a p F none).put (j :: js) (.dead L.which none) =
      .node k a p (F.set j (w.put js (.dead L.which none))) none := by simp only [ATree.put, hw1]
  rw [hR1] at h4
  obtain ⟨_, h5, h6⟩ := hM1.at_run h4
  unfold tMoveRef at h3
  obtain ⟨c0, s4, h7, h3⟩ := bind_ok.mp h3
  have hrd : (TRef.inPlace r).read s1 = .ok (.wrap p) s1 := by simp only [TRef.read, bind, Eff.bind, h5]; rfl
  rw [hrd] at h7
  cases h7
  simp only at h3
  obtain ⟨q, s5, h8, h3⟩ := bind_ok.mp h3
  cases h3
  unfold tNew at h8
  obtain ⟨q', s6, h9, h8⟩ := bind_ok.mp h8
  obtain ⟨cell, s7, h10, h8⟩ := bind_ok.mp h8
  rw [onExc_ok] at h10
  obtain ⟨_, s8, h11, h8⟩ := bind_ok.mp h8
  cases h8
  rcases hM1.alloc (C := C) with ⟨q2, s2, g1, hM2, _⟩ | ⟨e, s2, g1, _⟩
  · rw [g1] at h9
    cases h9
    obtain ⟨rfl, hM3⟩ := tMoveNode_steals (C := C) hst hM2 h4 h10
    rw [hput] at hM3
    generalize hF1 : F.set j (w.put js (.dead L.which none)) = F1 at *
    obtain ⟨s9, g2, hM4, _⟩ := Mem.fill (p := q) (F := F1) (G := []) (U := .node k (C.ops.move k a) q F1 none)
      (c := .node (C.ops.move k a) (F1.map ATree.var)) (hM3.perm List.perm_middle)
      (fun h' hq hus' => by rw [ATree.Holds]; exact ⟨nofun, hq, hus'⟩)
      (fun r => by simp only [blocks, Option.toList, List.nil_append, List.count_cons, List.count_nil]; omega)
    simp only [which] at h11 h
    rw [g2] at h11
    cases h11
    have hS' : IsS (α.put t (.node k (C.ops.movedFrom k a) p [] none)) (σ.put t (.node k (C.ops.movedFrom k a) .nil)) :=
      hS.put (by rw [ATree.Is]; exact ⟨rfl, rfl, trivial⟩)
    have hlen : j < F.length := (List.getElem?_eq_some_iff.mp hw1).1
    have hF1j : F1[j]? = some (w.put js (.dead L.which none)) := by rw [← hF1, List.getElem?_set_self hlen]
    cases js with
    | nil =>
      -- the part is a member of the node: it is gone
      rw [walk_nil] at hw2
      cases hw2
      have hhp : s3.heap p = some (.node (C.ops.movedFrom k a) []) := by
        have := (hM4.at_run (ht.put (U := .node k (C.ops.movedFrom k a) p [] none))).2.2
        rw [ATree.Holds] at this
        exact this.2.1
      simp only [TLoc.write, tReadNode, bind, Eff.bind, hhp, List.length_nil, Nat.not_lt_zero, if_false] at h
      cases h
    | cons i js =>
      have hw3 : (ATree.node k (C.ops.move k a) q F1 none).walk (.child q 0) (j :: i :: js) = some (l, .dead L.which none) := by
        have h12 := walk_put (u := .dead L.which none) hw2
        simp only [ATree.walk, hF1j]
        revert h12
        cases w.put (i :: js) (.dead L.which none) <;> simp only [ATree.walk] <;> exact id
      have hU := hM4.ghosts.1
      obtain ⟨p', i', rfl, hp'⟩ := walk_place (by nofun) hw3
      have hU' := hU
      rw [ATree.Holds] at hU'
      have hmem : w.put (i :: js) (.dead L.which none) ∈ F1 := List.mem_of_getElem? hF1j
      have hjr : (TLoc.child q j).read s3 = .ok (w.put (i :: js) (.dead L.which none)).var s3 := by
        simp only [TLoc.read, tReadNode, bind, Eff.bind, hU'.2.1, List.getElem?_map, hF1j, Option.map_some, pure, Eff.pure]
      have hrd2 := ((tWalk_run (i :: js) (holdsL_iff.mp hU'.2.2 _ hmem) hjr).2 _ _ (by
        have := hw3; simp only [ATree.walk, hF1j] at this ⊢; exact this)).1
      rw [write_run hrd2] at h
      cases h
      refine hM4.leaked hS' rfl (fun z hz => ?_) (q := q) (by simp [blocksL, blocks]) ?_
      · have : z ≠ p' := fun e => hz (by rw [e, blocksL]; exact List.mem_append_left _ (mem_blocks.mpr (by omega)))
        simp only [TLoc.set, upd, this, if_false]
      · simp only [TLoc.set, upd]
        split
        · next e =>
          subst e
          rw [hU'.2.1]; nofun
        · rw [hU'.2.1]; nofun
  · rw [g1] at h9; cases h9

theorem tSetNode_ok {p : ObjId} {a : V} {cs : List (TVar V)} (h : tSetNode p a cs s = .ok () s') :
    s' = { s with heap := upd s.heap p (some (.node a cs)) } := by
  unfold tSetNode at h
  obtain ⟨nd, s1, h1, h2⟩ := bind_ok.mp h
  obtain ⟨rfl, _⟩ := tReadNode_ok h1
  cases h2; rfl

/-- The nodes of an outer variant and of an inner one have been swapped. -/
theorem Mem.swapLeak {l r : TLoc} {k : TyIx} {a b c : V} {p q : ObjId} {F D : List (ATree V)} {bL bR : Option ObjId} {g : VForest V}
    {is : List Nat} (hM : Mem s α []) (hS : IsS α σ) (hx : At α x l (.node k a p F bL)) (ht : At α t r (.node k b q D bR)) (hD : IsL D g)
    (hv : t.var = x.var) (hp : t.path = x.path ++ is) (hne : is ≠ [])
    (hw : (ATree.node k a p F bL).walk l is = some (r, .node k b q D bR)) (hsv : s'.vars = s.vars)
    (hsh : ∀ z, z ≠ q → s'.heap z = if z = p then some (.node c (D.map ATree.var)) else s.heap z) (hq : s'.heap q ≠ none) :
    ∃ own' : Nat → List ObjId, s'.Stores (σ.put x (.node k c g)) own' ∧ ∃ p, s'.heap p ≠ none ∧ ∀ y, p ∉ own' y := by
  obtain ⟨j, js, rfl⟩ : ∃ j js, is = j :: js := by cases is with
    | nil => exact absurd rfl hne
    | cons j js => exact ⟨j, js, rfl⟩
  have hR := (hM.at_run ht).2.2
  rw [ATree.Holds] at hR
  -- take the members out of the inner node
  obtain ⟨s1, hs1, hM1, _⟩ := hM.setNode (a' := b) (f' := []) (G' := D) ht trivial hR.2.2 (fun z => by simp [blocksL])
  have e1 := tSetNode_ok hs1
  obtain ⟨hx1, hput⟩ := hx.put_inside (U := .node k b q [] bR) hv hp
  obtain ⟨w, hw1, hw2⟩ : ∃ w, F[j]? = some w ∧ w.walk (.child p j) js = some (r, .node k b q D bR) := by
    obtain ⟨_, _, _, _, _, w, e, h1, h2⟩ := walk_cons hw
    cases e
    exact ⟨w, h1, h2⟩
  have hL1 : (ATree.node k a p F bL).put (j :: js) (.node k b q [] bR) = .node k a p (F.set j (w.put js (.node k b q [] bR))) bL := by
    simp only [ATree.put, hw1]
  rw [hL1] at hx1
  generalize hF1 : F.set j (w.put js (.node k b q [] bR)) = F1 at *
  have hL2 := (hM1.at_run hx1).2.2
  rw [ATree.Holds] at hL2
  -- and put them into the outer one
  obtain ⟨s2, hs2, hM2, _⟩ := hM1.setNode (a' := c) (f' := D) (G' := F1) hx1 hM1.ghosts hL2.2.2 (fun z => by omega)
  have e2 := tSetNode_ok hs2
  rw [hput] at hM2
  have hlen : j < F.length := (List.getElem?_eq_some_iff.mp hw1).1
  have hqF : q ∈ blocksL F1 := by
    have h1 := walk_count q (walk_put (u := .node k b q [] bR) hw2)
    have h2 : 0 < (ATree.node k b q [] bR : ATree V).blocks.count q := by
      simp only [blocks, List.count_append, List.count_cons_self]; omega
    rw [blocksL_eq]
    refine List.mem_flatMap.mpr ⟨w.put js (.node k b q [] bR), ?_, mem_blocks.mpr (by omega)⟩
    rw [← hF1]
    exact List.mem_of_getElem? (List.getElem?_set_self hlen)
  refine hM2.leaked (hS.put (by rw [ATree.Is]; exact ⟨rfl, rfl, hD⟩)) ?_ (fun z hz => ?_) hqF hq
  · rw [hsv, e2, e1]
  · have hzq : z ≠ q := fun e => hz (by rw [e]; exact hqF)
    rw [hsh z hzq, e2, e1]
    simp only [upd, hzq, if_false]

/-- Swap of a variant with a part of it, of the same type. -/
theorem tSwap_part_leaks (hl : C.ops.Lawful) {l r : TLoc} {L R : ATree V} {u0 u : VTree V} {z : Nat} (hM : Mem s α []) (hS : IsS α σ)
    (hx : Side s α σ x l L u0) (ht : Side s α σ t r R u) (h0 : u0.Typed C.wrapped) (h1 : u.Typed C.wrapped) (hk : L.which = R.which)
    (hi : t.inside x = true ∨ x.inside t = true) :
    (∃ s' own', TCmd.code C n (.swap x t z) s = .ok () s' ∧
      s'.Stores (if t.inside x = true then σ.put x u else σ.put t u0) own' ∧ ∃ p, s'.heap p ≠ none ∧ ∀ y, p ∉ own' y) ∨
    (∃ e s', TCmd.code C n (.swap x t z) s = .exc e s' ∧ C.throws e.tick = true) := by
  obtain ⟨hx, _, hL⟩ := hx
  obtain ⟨ht, _, hR⟩ := ht
  obtain ⟨hxe, hlr, hlh⟩ := hM.at_run hx
  obtain ⟨hte, hrr, hrh⟩ := hM.at_run ht
  have hl1 := ref_read hlr hlh
  have hr1 := ref_read hrr hrh
  rcases same_kind (C := C) hL hR h0 h1 hk with ⟨k, v, w, b, b', rfl, rfl, rfl, rfl⟩ | ⟨k, a, p, f, b, a', p', f', b', g, g', rfl, rfl, rfl, rfl, hg, hg'⟩
  · rcases hi with hi | hi
    · rw [hx.leaf_inside ht] at hi; cases hi
    · rw [ht.leaf_inside hx] at hi; cases hi
  · have hpq : p ≠ p' := by
      have key : ∀ {x t : TPlace} {l r : TLoc} {a a' : V} {p p' : ObjId} {f f' : List (ATree V)} {b b' : Option ObjId},
          At α x l (.node k a p f b) → At α t r (.node k a' p' f' b') → t.inside x = true → p ≠ p' := by
        intro x t l r a a' p p' f f' b b' hx ht hi
        obtain ⟨is, hne, hv, hpath, hw⟩ := hx.inside ht hi
        intro e
        subst e
        obtain ⟨j, js, rfl⟩ : ∃ j js, is = j :: js := by cases is with
          | nil => exact absurd rfl hne
          | cons j js => exact ⟨j, js, rfl⟩
        obtain ⟨_, _, _, _, _, w, e, h1, h2⟩ := walk_cons hw
        cases e
        have h3 := walk_count p h2
        have h4 := count_le p h1
        have h5 : 0 < (ATree.node k a' p f' b' : ATree V).blocks.count p := by
          simp only [blocks, List.count_append, List.count_cons_self]; omega
        obtain ⟨T, h6, h7⟩ := hx
        have h8 := walk_count p h7
        have h9 := hM.excl x.var p
        rw [h6] at h9
        simp only [blocksO, blocks, List.count_append, List.count_cons_self] at h8 h9
        omega
      rcases hi with hi | hi
      · exact key hx ht hi
      · exact (key ht hx hi).symm
    have hlh' := hlh
    have hrh' := hrh
    rw [ATree.Holds] at hlh' hrh'
    have hrp : tReadNode p s = .ok (a, f.map ATree.var) s := by simp only [tReadNode, hlh'.2.1]
    have hrq : tReadNode p' s = .ok (a', f'.map ATree.var) s := by simp only [tReadNode, hrh'.2.1]
    have hcode : TCmd.code C n (.swap x t z) s = tSwapNode C k p p' s := by
      simp only [TCmd.code, bind, Eff.bind, hxe, hte, tSwap, hlr, hrr, var_which, which, if_true, tSwapContent, hl1, hr1, content]
    rw [hcode]
    simp only [tSwapNode, bind, Eff.bind, hrp, hrq, hpq, if_false]
    rcases tMayThrow_run (C := C) false (.swap k) s with h | ⟨h, hth⟩
    · simp only [Eff.onExc, h, tSetNode, tReadNode, bind, Eff.bind, hlh'.2.1, Eff.modify, upd, hpq.symm, if_false, hrh'.2.1]
      refine .inl ?_
      rcases hi with hi | hi
      · rw [if_pos hi]
        obtain ⟨is, hne, hv, hpath, hw⟩ := hx.inside ht hi
        refine (fun ⟨own', h2, h3⟩ => ⟨_, own', rfl, h2, h3⟩) (hM.swapLeak (c := a')
          (s' := {
            s with tick := s.tick + 1, heap := upd (upd s.heap p (some (.node (C.ops.swapL k a a') (f'.map ATree.var)))) p' (some (.node (C.ops.swapR k a a') (f.map ATree.var))) })
          hS hx ht hg' hv hpath hne hw rfl ?_ ?_)
        · intro z hz
          simp only [upd, hz, if_false, hl.swapL_eq]
        · simp [upd]
      · rw [if_neg (by rw [TPlace.inside_asymm hi]; nofun)]
        obtain ⟨is, hne, hv, hpath, hw⟩ := ht.inside hx hi
        refine (fun ⟨own', h2, h3⟩ => ⟨_, own', rfl, h2, h3⟩) (hM.swapLeak (c := a)
          (s' := {
            s with tick := s.tick + 1, heap := upd (upd s.heap p (some (.node (C.ops.swapL k a a') (f'.map ATree.var)))) p' (some (.node (C.ops.swapR k a a') (f.map ATree.var))) })
          hS ht hx hg hv hpath hne hw rfl ?_ ?_)
        · intro z hz
          simp only [upd, hz, if_false, hl.swapR_eq]
        · simp [upd, hpq]
    · simp only [Eff.onExc, h, tSetNode, tReadNode, bind, Eff.bind, hlh'.2.1, Eff.modify, upd, hpq.symm, if_false, hrh'.2.1]
      exact .inr ⟨_, _, rfl, hth⟩

/-! ### Swap between types -/

/-- Places are where they were. -/
theorem Keeps.walk (hk : Keeps s s') : ∀ {is : List Nat} {T U : ATree V} {l l' : TLoc}, T.Holds s.heap → l.read s' = .ok T.var s' →
    T.walk l is = some (l', U) → tWalk l is s' = .ok l' s' ∧ ∃ v, l'.read s' = .ok v s' ∧ v.which = U.which ∧ (U.var.fixed = true → v = U.var)
  | [], T, _, _, _, _, h, hw => by rw [walk_nil] at hw; cases hw; exact ⟨rfl, _, h, var_which T, fun _ => rfl⟩
  | i :: is, T, U, l, l', hT, hl, hw => by
    obtain ⟨k, a, p, f, b, u, rfl, hu, hw1⟩ := walk_cons hw
    rw [ATree.Holds] at hT
    have hc : tContent (ATree.node k a p f b).var s' = .ok (.wrap p) s' := by
      cases b with
      | none => rfl
      | some q =>
        have := hk.box q _ (hT.1 q rfl) nofun
        show tReadBox q s' = _
        simp only [tReadBox, this]
    obtain ⟨a', cs', h1, h3⟩ := hk.node p _ _ hT.2.1
    obtain ⟨v, hv, hvw, hvf⟩ := h3 i u.var (by rw [List.getElem?_map, hu]; rfl)
    have hr : (TLoc.child p i).read s' = .ok v s' := by
      simp only [TLoc.read, tReadNode, bind, Eff.bind, h1, hv, pure, Eff.pure]
    simp only [tWalk, bind, Eff.bind, hl, hc, hr]
    by_cases hn : is = []
    · subst hn
      rw [walk_nil] at hw1; cases hw1
      exact ⟨rfl, v, hr, hvw.trans (var_which _), hvf⟩
    · refine hk.walk (holdsL_iff.mp hT.2.2 u (List.mem_of_getElem? hu)) ?_ hw1
      have huf : u.var.fixed = true := by
        cases is with
        | nil => exact absurd rfl hn
        | cons j js =>
          obtain ⟨_, _, _, _, b', _, rfl, _⟩ := walk_cons hw1
          cases b' <;> rfl
      rw [← hvf huf]
      exact hr

theorem tMoveList_vars {f : TLoc → Eff (TreeSt V) (TVar V)} {d : TVar V → Eff (TreeSt V) Unit} {p : ObjId}
    (hf : ∀ {i s s' v}, f (.child p i) s = .ok v s' → s'.vars = s.vars) :
    ∀ {r i : Nat} {s s' : TreeSt V} {vs : List (TVar V)}, tMoveList f d p r i s = .ok vs s' → s'.vars = s.vars
  | 0, _, _, _, _, h => by cases h; rfl
  | r + 1, i, s, s', vs, h => by
    unfold tMoveList at h
    obtain ⟨x', s1, h1, h⟩ := bind_ok.mp h
    obtain ⟨xs', s2, h2, h⟩ := bind_ok.mp h
    cases h
    rw [onExc_ok] at h2
    rw [tMoveList_vars hf h2, hf h1]

/-- Moving from a node does not change variables. -/
theorem tMoveRef_vars {f : TLoc → Eff (TreeSt V) (TVar V)} {d : TVar V → Eff (TreeSt V) Unit} {k : TyIx} {r : TRef} {p : ObjId}
    {c : TContent V} (hf : ∀ {i s s' v}, f (.child p i) s = .ok v s' → s'.vars = s.vars) (hr : r.read s = .ok (.wrap p) s)
    (h : tMoveRef C f d k r s = .ok c s') : s'.vars = s.vars := by
  unfold tMoveRef at h
  obtain ⟨c0, s3, h3, h2⟩ := bind_ok.mp h
  rw [hr] at h3
  cases h3
  simp only at h2
  obtain ⟨q, s4, h4, h2⟩ := bind_ok.mp h2
  cases h2
  unfold tNew at h4
  obtain ⟨q', s5, h5, h4⟩ := bind_ok.mp h4
  obtain ⟨cell, s6, h6, h4⟩ := bind_ok.mp h4
  rw [onExc_ok] at h6
  obtain ⟨_, s7, h7, h4⟩ := bind_ok.mp h4
  cases h4
  have e5 : s5.vars = s.vars := by rw [(tAlloc_ok h5).2]
  have e7 : s'.vars = s6.vars := by
    unfold tFill at h7
    split at h7
    · cases h7; rfl
    · cases h7
  rw [e7, ← e5]
  unfold tMoveNode at h6
  obtain ⟨nd, s8, h8, g1⟩ := bind_ok.mp h6
  obtain ⟨e8, _⟩ := tReadNode_ok h8
  obtain ⟨_, s9, h9, g2⟩ := bind_ok.mp g1
  rw [onExc_ok] at h9
  obtain ⟨_, s10, h10, g3⟩ := bind_ok.mp g2
  have e9 := tMayThrow_ok h9
  have e10 := tSetNode_ok h10
  split at g3
  · obtain ⟨_, s11, h11, g4⟩ := bind_ok.mp g3
    have e11 := tSetNode_ok h11
    cases g4
    rw [e11, e10, e9, e8]
  · obtain ⟨vs, s11, h11, g4⟩ := bind_ok.mp g3
    cases g4
    rw [tMoveList_vars hf h11, e10, e9, e8]

theorem TRef.write_vars {r : TRef} {k : TyIx} {c : TContent V} (hr : ∀ x, r ≠ .inPlace (.var x)) (h : r.write k c s = .ok () s') :
    s'.vars = s.vars := by
  cases r with
  | inPlace l =>
    cases l with
    | var x => exact absurd rfl (hr x)
    | child p i =>
      simp only [TRef.write, TLoc.write] at h
      obtain ⟨nd, s1, h1, h2⟩ := bind_ok.mp h
      obtain ⟨e, _⟩ := tReadNode_ok h1
      split at h2
      · cases h2; rw [e]
      · cases h2
  | inBox q =>
    simp only [TRef.write] at h
    obtain ⟨_, s1, h1, h2⟩ := bind_ok.mp h
    obtain ⟨e, _⟩ := tReadBox_ok h1
    cases h2; rw [e]

theorem tMoveVar_vars : ∀ {n : Nat} {p : ObjId} {i : Nat} {s s' : TreeSt V} {v : TVar V}, tMoveVar C n (.child p i) s = .ok v s' →
    s'.vars = s.vars
  | 0, _, _, _, _, _, h => by cases h
  | n + 1, p, i, s, s', v, h => by
    unfold tMoveVar at h
    obtain ⟨w, s1, h1, h0⟩ := bind_ok.mp h
    have := TLoc.read_ok h1
    subst this
    obtain ⟨c, s2, hm, hz⟩ := bind_ok.mp h0
    cases hz
    cases hc : (w.ref (.child p i)).read s1 with
    | exc => simp only [tMoveRef, bind, Eff.bind, hc] at hm; cases hm
    | fault => simp only [tMoveRef, bind, Eff.bind, hc] at hm; cases hm
    | ok c0 s3 =>
      have := TRef.read_ok hc
      subst this
      cases c0 with
      | dead => simp only [tMoveRef, bind, Eff.bind, hc] at hm; cases hm
      | wrap p' => exact tMoveRef_vars (fun h => tMoveVar_vars (n := n) h) hc hm
      | leaf u =>
        unfold tMoveRef at hm
        obtain ⟨c1, s4, h4, g1⟩ := bind_ok.mp hm
        rw [hc] at h4
        cases h4
        simp only at g1
        obtain ⟨_, s5, h5, g2⟩ := bind_ok.mp g1
        rw [onExc_ok] at h5
        have e5 := tMayThrow_ok h5
        obtain ⟨_, s6, h6, g3⟩ := bind_ok.mp g2
        cases g3
        rw [TRef.write_vars (fun x => by cases w <;> nofun) h6, e5]

/-- Moving from a variant with a node does not change variables. -/
theorem tMoveVar_vars_node {l : TLoc} {w v : TVar V} {p : ObjId} (hw : l.read s = .ok w s) (hr : (w.ref l).read s = .ok (.wrap p) s)
    (h : tMoveVar C n l s = .ok v s') : s'.vars = s.vars := by
  cases n with
  | zero => cases h
  | succ n =>
    unfold tMoveVar at h
    obtain ⟨w', s1, h1, h0⟩ := bind_ok.mp h
    rw [hw] at h1
    cases h1
    obtain ⟨c, s2, hm, hz⟩ := bind_ok.mp h0
    cases hz
    exact tMoveRef_vars (fun h => tMoveVar_vars h) hr hm

/-- A variant of another type than that of a variant in a backup is not assigned it. -/
theorem tVariantMoveAssign_backup {l r : TLoc} {L R : ATree V} (hl : l.read s = .ok L.var s) (hr : r.read s = .ok R.var s)
    (hk : L.which ≠ R.which) (hb : R.box ≠ none) : tVariantMoveAssign C n l r s = .fault .assertFailed := by
  obtain ⟨q, hq⟩ := Option.ne_none_iff_exists'.mp hb
  have hv : R.var = .backup R.which q := by unfold var; rw [hq]
  rw [hv] at hr
  simp only [tVariantMoveAssign, bind, Eff.bind, hl, hr]
  cases hbL : L.box with
  | none => rw [var_none hbL]; rfl
  | some q' =>
    have hv' : L.var = .backup L.which q' := by unfold var; rw [hbL]
    rw [hv']
    simp only [hk, if_false]; rfl

/-- Swap of a variant with a part of it, of another type, if nodes move their members one by one. -/
theorem tSwap_part_other (hl : C.ops.Lawful) (hst : ∀ k, C.steals k = false) {l r : TLoc} {L R : ATree V} {u v : VTree V} {z : Nat}
    (hM : Mem s α []) (hS : IsS α σ) (hx : Side s α σ x l L u) (ht : Side s α σ t r R v) (hty : u.Typed C.wrapped) (htu : v.Typed C.wrapped)
    (hn : v.height ≤ n) (hk : L.which ≠ R.which) (hz : σ z = none)
    (hi : t.inside x = true ∨ (x.inside t = true ∧ tMoveDestroysFirst C R.var L.which = true)) :
    TCmd.code C n (.swap x t z) s ≠ .ok () s' := by
  obtain ⟨hxe, hlr, hlh⟩ := hM.at_run hx.at_
  obtain ⟨hte, hrr, hrh⟩ := hM.at_run ht.at_
  have hta : σ.at t ≠ none := by rw [ht.val]; nofun
  have hxa : σ.at x ≠ none := by rw [hx.val]; nofun
  have hzt := ne_of_at hta hz
  have hzx := ne_of_at hxa hz
  have hzα := hS.none_iff.mp hz
  intro h
  simp only [TCmd.code, bind, Eff.bind, hxe, hte, tSwap, hlr, hrr, var_which, hk, if_false] at h
  have hth : (v.movedFrom C).height ≤ n := Nat.le_trans (VTree.height_movedFrom v) hn
  rcases tMoveVar_run (C := C) hM ht.at_ ht.is hn with ⟨s1, U, R', g1, hUb, hU, hR', hM1, _⟩ | ⟨e, s1, R', v', g1, _⟩
  · rw [g1] at h
    simp only at h
    obtain ⟨s2, g2, hM2, _⟩ := hM1.newVar (x := z) (by rw [put_ne_var hzt]; exact hzα)
    rw [g2] at h
    simp only at h
    have hkR : R'.which = R.which := by rw [hR'.which, VTree.which_movedFrom, ht.is.which]
    have ht2 : At (upd (α.put t R') z (some U)) t r R' := At.upd ht.at_.put hzt
    have hrr2 := (hM2.at_run ht2).2.1
    -- the first assignment does not succeed
    suffices hno : ∀ s3, tVariantMoveAssign C n r l s2 ≠ .ok () s3 by
      cases h3 : tVariantMoveAssign C n r l s2 with
      | ok _ s3 => exact hno s3 h3
      | exc e s3 =>
        simp only [Eff.bind, h3, Eff.onExc] at h
        cases hend : tEndVar n z s3 <;> simp only [hend] at h <;> cases h
      | fault _ => simp only [Eff.bind, h3, Eff.onExc] at h; cases h
    intro s3
    rcases hi with hi | ⟨hi, hd⟩
    · obtain ⟨is, hne, hv, hp, hw⟩ := hx.at_.inside ht.at_ hi
      obtain ⟨j, js, rfl⟩ : ∃ j js, is = j :: js := by cases is with
        | nil => exact absurd rfl hne
        | cons j js => exact ⟨j, js, rfl⟩
      obtain ⟨hx1, _⟩ := hx.at_.put_inside (U := R') hv hp
      have hx2 : At (upd (α.put t R') z (some U)) x l (L.put (j :: js) R') := At.upd hx1 hzx
      obtain ⟨e1, e2, _⟩ := put_box (T := L) (U := R') (i := j) (is := js)
      have hk2 : R'.which ≠ (L.put (j :: js) R').which := by rw [e2, hkR]; exact hk.symm
      cases hb : L.box with
      | some q =>
        rw [tVariantMoveAssign_backup hrr2 (hM2.at_run hx2).2.1 hk2 (by rw [e1, hb]; nofun)]
        nofun
      | none =>
        rw [tVariantMoveAssign_other (C := C) (n := n) hM2 ht2 hx2 hk2 (e1.trans hb)]
        refine tMoveAssigner_part (C := C) (n := n) hl hM2 ht2 hx2 hR' ?_ hth hv hp hne (walk_put hw) (e1.trans hb) (.inr hst)
        rw [e2]
        exact node_of_walk hne hw hx.is hty
    · obtain ⟨is, hne, hv, hp, hw⟩ := ht.at_.inside hx.at_ hi
      have hkeep : Keeps s s2 := by
        have := tMoveVar_keeps hst hM.fresh g1
        simp only [tSetVar, Eff.modify] at g2
        cases g2
        exact ⟨this.node, this.box, this.fresh⟩
      -- the variables are what they were
      obtain ⟨j, js, rfl⟩ : ∃ j js, is = j :: js := by cases is with
        | nil => exact absurd rfl hne
        | cons j js => exact ⟨j, js, rfl⟩
      obtain ⟨k, a, p, f, b, _, rfl, _, _⟩ := walk_cons hw
      have hfix : (ATree.node k a p f b).var.fixed = true := by cases b <;> rfl
      have hvars : s2.vars = upd s.vars z (some U.var) := by
        have hr : ((ATree.node k a p f b).var.ref r).read s = .ok (.wrap p) s := by
          rw [ATree.Holds] at hrh
          cases b with
          | none => simp only [var, box, TVar.ref, TRef.read, bind, Eff.bind, hrr]; rfl
          | some q =>
            have := hrh.1 q rfl
            show tReadBox q s = _
            simp only [tReadBox, this]
        have := tMoveVar_vars_node hrr hr g1
        simp only [tSetVar, Eff.modify] at g2
        cases g2
        rw [← this]
      obtain ⟨T, hT, hTw⟩ := hx.at_
      have hroot : (TLoc.var x.var).read s2 = .ok T.var s2 := by
        simp only [TLoc.read, tVar, hvars, upd, Ne.symm hzx, if_false, hM.vars, hT]
        rfl
      obtain ⟨hxe2, w, hw2, hww, _⟩ := hkeep.walk (hM.holds _ T hT) hroot hTw
      obtain ⟨T', hT', hTw'⟩ := ht.at_
      have hroot' : (TLoc.var t.var).read s2 = .ok T'.var s2 := by
        simp only [TLoc.read, tVar, hvars, upd, Ne.symm hzt, if_false, hM.vars, hT']
        rfl
      obtain ⟨_, w', hw2', _, hwf⟩ := hkeep.walk (hM.holds _ T' hT') hroot' hTw'
      rw [hrr2] at hw2'
      have hRv : R'.var = (ATree.node k a p f b).var := by cases hw2'; exact hwf hfix
      by_cases hat : ∃ l' L', At (upd (α.put t R') z (some U)) x l' L'
      · obtain ⟨l', L', hx2⟩ := hat
        obtain ⟨hxe3, hlr3, _⟩ := hM2.at_run hx2
        have hxe2' : x.eval s2 = .ok l s2 := hxe2
        rw [hxe3] at hxe2'
        cases hxe2'
        rw [hw2] at hlr3
        have hkL : L'.which = L.which := by cases hlr3; rw [← var_which, hww]
        have hk2 : R'.which ≠ L'.which := by rw [hkL, hkR]; exact hk.symm
        cases hb : L'.box with
        | some q =>
          rw [tVariantMoveAssign_backup hrr2 (hM2.at_run hx2).2.1 hk2 (by rw [hb]; nofun)]
          nofun
        | none =>
          rw [tVariantMoveAssign_other (C := C) (n := n) hM2 ht2 hx2 hk2 hb]
          obtain ⟨is', hne', _, _, hw'⟩ := ht2.inside hx2 hi
          rcases tMoveAssigner_unsafe (C := C) (n := n) hl hM2 ht2 hR' (VTree.typed_movedFrom htu) hth hne' hw' L'.which
            (by rw [hRv, hkL]; exact hd) with h | ⟨_, _, h, _⟩ <;> rw [h] <;> nofun
      · rcases hM2.not_at (x := x) (fun l' L' h => hat ⟨l', L', h⟩) with h | ⟨l', h, h'⟩
        · have hxe2' : x.eval s2 = .ok l s2 := hxe2
          rw [h] at hxe2'; cases hxe2'
        · have hxe2' : x.eval s2 = .ok l s2 := hxe2
          rw [h] at hxe2'; cases hxe2'
          rw [hw2] at h'; cases h'
  · rw [g1] at h; cases h

end

end BVariant
