/-
Move assignment of recursive variants.
-/
import Verif.Lemmas.TreeVal

namespace BVariant

section
variable {V : Type} {C : TreeCfg V} {s s' : TreeSt V} {h h' : ObjId → Option (TCell V)}

open ATree AStore

variable {α : AStore V} {σ : TStore V} {G G' : List (ATree V)} {n : Nat} {x t : TPlace}

/-! ### Places -/

/-- Two places are the same, apart, or one is a part of the other. -/
theorem TPlace.cases (x t : TPlace) : x = t ∨ x.Apart t ∨ t.inside x = true ∨ x.inside t = true := by
  obtain ⟨z, is⟩ := x
  obtain ⟨z', js⟩ := t
  by_cases hz : z = z'
  · subst hz
    by_cases he : is = js
    · subst he; exact .inl rfl
    · by_cases h1 : is <+: js
      · refine .inr (.inr (.inl ?_))
        simp only [TPlace.inside, beq_self_eq_true, Bool.true_and, Bool.and_eq_true, bne_iff_ne, ne_eq]
        exact ⟨List.isPrefixOf_iff_prefix.mpr h1, fun h => he h.symm⟩
      · by_cases h2 : js <+: is
        · refine .inr (.inr (.inr ?_))
          simp only [TPlace.inside, beq_self_eq_true, Bool.true_and, Bool.and_eq_true, bne_iff_ne, ne_eq]
          exact ⟨List.isPrefixOf_iff_prefix.mpr h2, he⟩
        · exact .inr (.inl (.inr ⟨h1, h2⟩))
  · exact .inr (.inl (.inl hz))

theorem AStore.At.inside {l r : TLoc} {L R : ATree V} (hx : At α x l L) (ht : At α t r R) (hi : t.inside x = true) :
    ∃ is, is ≠ [] ∧ t.var = x.var ∧ t.path = x.path ++ is ∧ L.walk l is = some (r, R) := by
  simp only [TPlace.inside, Bool.and_eq_true, beq_iff_eq, bne_iff_ne, ne_eq] at hi
  obtain ⟨⟨hv, hp⟩, hne⟩ := hi
  obtain ⟨is, his⟩ := List.isPrefixOf_iff_prefix.mp hp
  refine ⟨is, ?_, hv, his.symm, ?_⟩
  · rintro rfl; rw [List.append_nil] at his; exact hne his.symm
  · obtain ⟨T, h1, h2⟩ := hx
    obtain ⟨T', h3, h4⟩ := ht
    rw [hv, h1] at h3; cases h3
    rw [← his, walk_append, hv, h2] at h4
    exact h4

/-- Plain values have no parts. -/
theorem AStore.At.leaf_inside {l r : TLoc} {R : ATree V} {k : TyIx} {v : V} {b : Option ObjId} (hx : At α x l (.leaf k v b))
    (ht : At α t r R) : t.inside x = false := by
  cases hi : t.inside x with
  | false => rfl
  | true =>
    obtain ⟨is, hne, _, _, hw⟩ := hx.inside ht hi
    cases is with
    | nil => exact absurd rfl hne
    | cons i is => obtain ⟨_, _, _, _, _, _, h, _⟩ := walk_cons hw; cases h

theorem walk_apart : ∀ {is js : List Nat} {T t1 t2 : ATree V} {l l1 l2 : TLoc}, PathsApart is js → T.walk l is = some (l1, t1) →
    T.walk l js = some (l2, t2) → (∀ q, T.blocks.count q ≤ 1) →
    l1 ≠ l2 ∧ ∀ q, t1.blocks.count q + t2.blocks.count q ≤ T.blocks.count q
  | [], js, _, _, _, _, _, _, h, _, _, _ => absurd (List.nil_prefix) h.1
  | _ :: _, [], _, _, _, _, _, _, h, _, _, _ => absurd (List.nil_prefix) h.2
  | i :: is, j :: js, T, t1, t2, l, l1, l2, h, hw, hw', hc => by
    obtain ⟨k, a, p, f, b, u, rfl, hu, hw⟩ := walk_cons hw
    obtain ⟨_, _, _, _, _, u', e, hu', hw'⟩ := walk_cons hw'
    cases e
    have hb : ∀ q, (ATree.node k a p f b).blocks.count q = b.toList.count q + ([p].count q + (blocksL f).count q) := fun q => by
      simp only [ATree.blocks, List.count_append, List.count_cons, List.count_nil]; omega
    rcases h.cons with hij | ⟨rfl, h'⟩
    · have h2 := fun q => count_two q hij hu hu'
      have w1 := fun q => walk_count q hw
      have w2 := fun q => walk_count q hw'
      refine ⟨?_, fun q => by have := h2 q; have := w1 q; have := w2 q; have := hb q; omega⟩
      rintro rfl
      have hp1 : [p].count p = 1 := by simp
      by_cases n1 : is = []
      · subst n1
        rw [walk_nil] at hw; cases hw
        by_cases n2 : js = []
        · subst n2
          rw [walk_nil] at hw'; cases hw'
          exact hij rfl
        · obtain ⟨p', i', e, hp⟩ := walk_place n2 hw'
          cases e
          have := h2 p; have := hb p; have := hc p; omega
      · obtain ⟨p1, i1, rfl, hp⟩ := walk_place n1 hw
        by_cases n2 : js = []
        · subst n2
          rw [walk_nil] at hw'; cases hw'
          have := h2 p; have := hb p; have := hc p; omega
        · obtain ⟨p', i', e, hp'⟩ := walk_place n2 hw'
          cases e
          have := h2 p1; have := hb p1; have := hc p1; omega
    · rw [hu] at hu'; cases hu'
      have hle := fun q => count_le q hu
      obtain ⟨g1, g2⟩ := walk_apart h' hw hw' (fun q => by have := hle q; have := hb q; have := hc q; omega)
      exact ⟨g1, fun q => by have := g2 q; have := hle q; have := hb q; omega⟩

theorem Mem.apart {l r : TLoc} {L R : ATree V} (hM : Mem s α G) (hx : At α x l L) (ht : At α t r R) (ha : x.Apart t) :
    l ≠ r ∧ ∀ q, L.blocks.count q + R.blocks.count q ≤ 1 := by
  obtain ⟨T, h1, h2⟩ := hx
  obtain ⟨T', h3, h4⟩ := ht
  have hc : ∀ z T, α z = some T → ∀ q, T.blocks.count q ≤ 1 := fun z T hz q => by
    have := hM.excl z q; rw [hz] at this; simp only [blocksO] at this; omega
  by_cases hv : x.var = t.var
  · rw [hv] at h1 h2
    rw [h1] at h3; cases h3
    rcases ha with ha | ha
    · exact absurd hv ha
    · obtain ⟨g1, g2⟩ := walk_apart ha h2 h4 (hc _ _ h1)
      exact ⟨g1, fun q => Nat.le_trans (g2 q) (hc _ _ h1 q)⟩
  · have hd := fun q => hM.disj x.var t.var q hv
    rw [h1, h3] at hd
    simp only [blocksO] at hd
    refine ⟨?_, fun q => by have := walk_count q h2; have := walk_count q h4; have := hd q; omega⟩
    rintro rfl
    by_cases n1 : x.path = []
    · rw [n1, walk_nil] at h2; cases h2
      by_cases n2 : t.path = []
      · rw [n2, walk_nil] at h4
        simp only [Option.some.injEq, Prod.mk.injEq, TLoc.var.injEq] at h4
        exact hv h4.1.symm
      · obtain ⟨_, _, e, _⟩ := walk_place n2 h4; cases e
    · obtain ⟨p1, i1, rfl, hp⟩ := walk_place n1 h2
      by_cases n2 : t.path = []
      · rw [n2, walk_nil] at h4; cases h4
      · obtain ⟨_, _, e, hp'⟩ := walk_place n2 h4
        cases e
        have := hd p1; omega

theorem ref_ne {l r : TLoc} {L R : ATree V} (hM : Mem s α G) (hx : At α x l L) (ht : At α t r R) (ha : x.Apart t) :
    L.var.ref l ≠ R.var.ref r := by
  obtain ⟨h1, h2⟩ := hM.apart hx ht ha
  unfold var
  cases hb : L.box with
  | none =>
    cases hb' : R.box with
    | none => intro h; simp only [TVar.ref, TRef.inPlace.injEq] at h; exact h1 h
    | some q => nofun
  | some q =>
    cases hb' : R.box with
    | none => nofun
    | some q' =>
      intro h
      simp only [TVar.ref, TRef.inBox.injEq] at h
      subst h
      have g1 := unBox_blocks (U := L) q
      have g2 := unBox_blocks (U := R) q
      have g3 := h2 q
      rw [hb] at g1; rw [hb'] at g2
      simp at g1 g2; omega

/-! ### Swapping -/

theorem set_mid (cs : List β) (i j : Nat) (c d e : β) : ((cs.set i e).set j d).set i c = (cs.set j d).set i c := by
  by_cases hij : i = j
  · subst hij; simp only [List.set_set]
  · rw [List.set_comm _ _ hij, List.set_set]

/-- Overwriting an object twice, with something in between. -/
theorem set_set_set (k : TyIx) (l r : TRef) (c d e : TContent V) (s : TreeSt V) :
    l.set k c (r.set k d (l.set k e s)) = l.set k c (r.set k d s) := by
  rcases l with (y | ⟨p, i⟩) | q <;> rcases r with (z | ⟨p', j⟩) | q' <;>
    simp only [TRef.set, TLoc.set, TreeSt.mk.injEq, true_and, and_true]
  · funext w; simp only [upd]; split <;> rfl
  · exact upd_upd _ _ _ _
  · exact upd_upd _ _ _ _
  · funext w
    simp only [upd, if_true]
    split
    · cases hp : s.heap p with
      | none => rfl
      | some c => cases c <;> simp [List.set_set]
    · rfl
  · funext w
    by_cases hw : w = p
    · subst hw
      by_cases hp' : w = p'
      · subst hp'
        simp only [upd, if_true]
        cases hp : s.heap w with
        | none => rfl
        | some c => cases c <;> simp [set_mid]
      · simp only [upd, if_true, hp', if_false]
        cases hp : s.heap w with
        | none => rfl
        | some c => cases c <;> simp
    · by_cases hp' : w = p'
      · subst hp'; simp only [upd, if_true, hw, if_false]
      · simp only [upd, hw, hp', if_false]
  · funext w
    by_cases hw : w = p
    · subst hw
      by_cases hp' : w = q'
      · subst hp'
        simp only [upd, if_true]
        cases hp : s.heap w with
        | none => rfl
        | some c => cases c <;> simp
      · simp only [upd, if_true, hp', if_false]
        cases hp : s.heap w with
        | none => rfl
        | some c => cases c <;> simp
    · by_cases hp' : w = q'
      · subst hp'; simp only [upd, if_true, hw, if_false]
      · simp only [upd, hw, hp', if_false]
  · funext w
    simp only [upd, if_true]
    split
    · cases hp : s.heap q with
      | none => rfl
      | some c => cases c <;> rfl
    · rfl
  · funext w
    by_cases hw : w = q
    · subst hw
      by_cases hp' : w = p'
      · subst hp'
        simp only [upd, if_true]
        cases hp : s.heap w with
        | none => rfl
        | some c => cases c <;> simp
      · simp only [upd, if_true, hp', if_false]
        cases hp : s.heap w with
        | none => rfl
        | some c => cases c <;> simp
    · by_cases hp' : w = p'
      · subst hp'; simp only [upd, if_true, hw, if_false]
      · simp only [upd, hw, hp', if_false]
  · funext w
    by_cases hw : w = q
    · subst hw
      by_cases hp' : w = q'
      · subst hp'
        simp only [upd, if_true]
        cases hp : s.heap w with
        | none => rfl
        | some c => cases c <;> simp
      · simp only [upd, if_true, hp', if_false]
        cases hp : s.heap w with
        | none => rfl
        | some c => cases c <;> simp
    · by_cases hp' : w = q'
      · subst hp'; simp only [upd, if_true, hw, if_false]
      · simp only [upd, hw, hp', if_false]

/-- An object that is there stays writable when another is overwritten. -/
theorem write_after {k : TyIx} {l r : TRef} {c d e : TContent V} (hl : l.read s = .ok e s) :
    l.write k c (r.set k d s) = .ok () (l.set k c (r.set k d s)) := by
  have hlr : ∃ e', l.read (r.set k d s) = .ok e' (r.set k d s) := by
    rcases l with (y | ⟨p, i⟩) | q
    · simp only [TRef.read, TLoc.read, tVar, bind, Eff.bind] at hl
      cases hv : s.vars y with
      | none => rw [hv] at hl; cases hl
      | some v =>
        rw [hv] at hl
        rcases r with (z | ⟨p', j⟩) | q' <;> simp only [TRef.read, TLoc.read, tVar, bind, Eff.bind, TRef.set, TLoc.set]
        · by_cases hyz : y = z
          · subst hyz; rw [upd_same]; exact ⟨d, rfl⟩
          · simp only [upd, hyz, if_false, hv]
            cases v with
            | plain k c => exact ⟨c, rfl⟩
            | backup => cases hl
        · rw [hv]
          cases v with
          | plain k c => exact ⟨c, rfl⟩
          | backup => cases hl
        · rw [hv]
          cases v with
          | plain k c => exact ⟨c, rfl⟩
          | backup => cases hl
    · simp only [TRef.read, TLoc.read, tReadNode, bind, Eff.bind] at hl
      cases hp : s.heap p with
      | none => rw [hp] at hl; cases hl
      | some cell =>
        rw [hp] at hl
        cases cell with
        | raw => cases hl
        | box => cases hl
        | node a cs =>
          simp only at hl
          cases hi : cs[i]? with
          | none => rw [hi] at hl; cases hl
          | some v =>
            rw [hi] at hl
            have hv : ∃ k c, v = .plain k c := by
              cases v with
              | plain k c => exact ⟨k, c, rfl⟩
              | backup => cases hl
            obtain ⟨k1, c1, rfl⟩ := hv
            rcases r with (z | ⟨p', j⟩) | q' <;> simp only [TRef.read, TLoc.read, tReadNode, bind, Eff.bind, TRef.set, TLoc.set]
            · rw [hp]; simp only [hi]; exact ⟨c1, rfl⟩
            · by_cases hpp : p = p'
              · subst hpp
                rw [upd_same, hp]
                simp only
                by_cases hij : j = i
                · subst hij
                  rw [List.getElem?_set_self (by
                    rcases Nat.lt_or_ge j cs.length with h | h
                    · exact h
                    · rw [List.getElem?_eq_none h] at hi; cases hi)]
                  exact ⟨d, rfl⟩
                · rw [List.getElem?_set_ne hij, hi]; exact ⟨c1, rfl⟩
              · simp only [upd, hpp, if_false, hp, hi]; exact ⟨c1, rfl⟩
            · by_cases hpp : p = q'
              · subst hpp
                rw [upd_same, hp]
                simp only [hi]; exact ⟨c1, rfl⟩
              · simp only [upd, hpp, if_false, hp, hi]; exact ⟨c1, rfl⟩
    · simp only [TRef.read, tReadBox] at hl
      cases hp : s.heap q with
      | none => rw [hp] at hl; cases hl
      | some cell =>
        rw [hp] at hl
        cases cell with
        | raw => cases hl
        | node => cases hl
        | box c1 =>
          rcases r with (z | ⟨p', j⟩) | q' <;> simp only [TRef.read, tReadBox, TRef.set, TLoc.set]
          · rw [hp]; exact ⟨c1, rfl⟩
          · by_cases hpp : q = p'
            · subst hpp; rw [upd_same, hp]; exact ⟨c1, rfl⟩
            · simp only [upd, hpp, if_false, hp]; exact ⟨c1, rfl⟩
          · by_cases hpp : q = q'
            · subst hpp; rw [upd_same, hp]; exact ⟨d, rfl⟩
            · simp only [upd, hpp, if_false, hp]; exact ⟨c1, rfl⟩
  obtain ⟨e', hlr⟩ := hlr
  exact ref_write hlr

/-- The same reference, whatever is in the box. -/
theorem ref_setBox {L U : ATree V} {l : TLoc} (hb : U.isBlk = false) : (U.setBox L.box).var.ref l = L.var.ref l := by
  unfold var
  rw [setBox_box _ hb]
  cases L.box <;> rfl

theorem set_self {l : TLoc} {L : ATree V} {s : TreeSt V} (hl : l.read s = .ok L.var s) (hh : L.Holds s.heap) :
    (L.var.ref l).set L.which L.content s = s := by
  have hrd := ref_read hl hh
  unfold var at hl hrd ⊢
  cases hb : L.box with
  | none =>
    rw [hb] at hl
    simp only [TVar.ref, TRef.set]
    cases l with
    | var y =>
      simp only [TLoc.read, tVar] at hl
      simp only [TLoc.set]
      cases hv : s.vars y with
      | none => rw [hv] at hl; cases hl
      | some v => rw [hv] at hl; cases hl; rw [upd_eq hv]
    | child p i =>
      simp only [TLoc.read, tReadNode, bind, Eff.bind] at hl
      simp only [TLoc.set]
      cases hp : s.heap p with
      | none => rw [hp] at hl; cases hl
      | some cell =>
        rw [hp] at hl
        cases cell with
        | raw => cases hl
        | box => cases hl
        | node a cs =>
          simp only at hl
          cases hi : cs[i]? with
          | none => rw [hi] at hl; cases hl
          | some v =>
            rw [hi] at hl; cases hl
            have : cs.set i (.plain L.which L.content) = cs := by
              apply List.ext_getElem?
              intro j
              by_cases hij : i = j
              · subst hij
                rw [List.getElem?_set_self (by
                    rcases Nat.lt_or_ge i cs.length with h | h
                    · exact h
                    · rw [List.getElem?_eq_none h] at hi; cases hi), hi]
              · rw [List.getElem?_set_ne hij]
            simp only [this]
            rw [upd_eq hp]
  | some q =>
    have hq := box_cell hh hb
    simp only [TVar.ref, TRef.set, hq]
    rw [upd_eq hq]

/-- The objects at two places that are apart are swapped. -/
theorem Mem.swapRef {l r : TLoc} {L R : ATree V} {u0 u : VTree V} (hM : Mem s α G) (hx : At α x l L) (ht : At α t r R) (hL : L.Is u0)
    (hR : R.Is u) (hk : L.which = R.which) (ha : x.Apart t) :
    (R.var.ref r).write L.which L.content s = .ok () ((R.var.ref r).set L.which L.content s) ∧
    (L.var.ref l).write L.which R.content ((R.var.ref r).set L.which L.content s) =
      .ok () ((L.var.ref l).set L.which R.content ((R.var.ref r).set L.which L.content s)) ∧
    Mem ((L.var.ref l).set L.which R.content ((R.var.ref r).set L.which L.content s))
      ((α.put x (R.setBox L.box)).put t (L.setBox R.box)) G := by
  obtain ⟨_, hl, hh⟩ := hM.at_run hx
  obtain ⟨_, hr, hh'⟩ := hM.at_run ht
  refine ⟨ref_write (ref_read hr hh'), write_after (ref_read hl hh), ?_⟩
  have nL := is_notBlk hL
  have nR := is_notBlk hR
  obtain ⟨_, hM1⟩ := (hM.dead L.which).replaceRef hx rfl rfl rfl
  obtain ⟨_, hM2⟩ := hM1.replaceRef (ht.put_apart ha.symm) (setBox_box none nL) (by rw [setBox_isBlk]; exact nL)
    (by rw [setBox_which]; exact hk)
  have hx2 : At ((α.put x ((ATree.dead L.which none).setBox L.box)).put t ((L.setBox none).setBox R.box)) x l
      ((ATree.dead L.which none).setBox L.box) := hx.put.put_apart ha
  obtain ⟨_, hM3⟩ := hM2.replaceRef hx2 (setBox_box none nR) (by rw [setBox_isBlk]; exact nR)
    (by rw [setBox_which, setBox_which, which, hk])
  have hM3 := hM3.drop (by rfl)
  have e1 : ((ATree.dead (V := V) L.which none).setBox L.box).var.ref l = L.var.ref l := ref_setBox rfl
  have e2 : ((ATree.dead (V := V) L.which none).setBox L.box).box = L.box := rfl
  rw [e1, e2] at hM3
  simp only [setBox_which, setBox_content, setBox_setBox, ← hk] at hM3
  rw [show (ATree.dead (V := V) L.which none).which = L.which from rfl] at hM3
  rw [set_set_set] at hM3
  rw [AStore.put_comm ha, AStore.put_put hx] at hM3
  exact hM3

end

end BVariant
