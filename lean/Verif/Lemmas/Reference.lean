/-
What each statement does to the identity of the content objects of the variants.
-/
import Verif.Spec.Reference
import Verif.Lemmas.InPlace
import Verif.Lemmas.Frame
import Verif.Lemmas.Outcome

set_option linter.unusedSimpArgs false

namespace BVariant

section
variable {V : Type} {C : Cfg V} {w w' : World V}

/-- Between `w` and `w'` variant `z` got no object that existed before; it kept its object if `kp`, and, if the statement
returned, only then. -/
structure Track (w w' : World V) (z : Nat) (kp returned : Bool) : Prop where
  new : ∀ i k' v', w'.objOf z = some i → w'.objs i = some (k', v') →
    (w.objOf z = some i ∧ ∃ v, w.objs i = some (k', v)) ∨ w.next ≤ i
  kept : kp = true → ∀ id k v, w.objOf z = some id → w.objs id = some (k, v) →
    w'.objOf z = some id ∧ ∃ v', w'.objs id = some (k, v')
  lost : kp = false → returned = true → ∀ id, w.objOf z = some id → w'.objOf z ≠ some id
  next : w.next ≤ w'.next

variable {z : Nat} {s s' : VarSt} {id id' : ObjId} {k k' : TyIx} {v v' : V} {kp rt : Bool}

theorem Track.same (h : Owns C w (.user z) s id k v) (h' : Owns C w' (.user z) s' id k v')
    (hk : kp = true ∨ rt = false) (hnx : w.next ≤ w'.next) : Track w w' z kp rt where
  new := fun i k1 v1 hi ho => by
    rw [h'.objOf] at hi; cases hi
    rw [h'.obj] at ho; cases ho
    exact Or.inl ⟨h.objOf, _, h.obj⟩
  kept := fun _ i k' v'' hi ho => by
    rw [h.objOf] at hi; cases hi
    rw [h.obj] at ho; cases ho
    exact ⟨h'.objOf, _, h'.obj⟩
  lost := fun h1 h2 => by rcases hk with hk | hk <;> simp_all
  next := hnx

theorem Track.fresh (h : Owns C w (.user z) s id k v) (hf : Fresh w) (h' : Owns C w' (.user z) s' id' k' v')
    (hn : w.next ≤ id') (hk : kp = false) (hnx : w.next ≤ w'.next) : Track w w' z kp rt where
  new := fun i _ _ hi _ => by rw [h'.objOf] at hi; cases hi; exact Or.inr hn
  kept := fun h1 => by simp_all
  lost := fun _ _ i hi => by
    rw [h.objOf] at hi; cases hi
    rw [h'.objOf]; intro he; cases he
    have := hf.lt h.obj; omega
  next := hnx

theorem Leftover.type {kr : TyIx} (h : Leftover C s id k v kr s' id' k' v') (he : id' = id) : k' = k := by
  cases h with
  | same => rfl
  | restored _ hn => exact absurd he hn
  | backup _ hn => exact absurd he hn
  | fallback _ _ hn => exact absurd he hn

theorem Track.failed (h : Owns C w (.user z) s id k v) (h' : Owns C w' (.user z) s' id' k' v')
    (hn : id' = id ∨ w.next ≤ id') {sl : VarSt} {kr : TyIx} {vl : V} (hlo : Leftover C sl id k vl kr s' id' k' v')
    (hk : kp = false) (hr : rt = false) (hnx : w.next ≤ w'.next) : Track w w' z kp rt where
  new := fun i k1 v1 hi ho => by
    rw [h'.objOf] at hi; cases hi
    rw [h'.obj] at ho; cases ho
    rcases hn with he | hn
    · obtain rfl := hlo.type he
      rw [he]
      exact Or.inl ⟨h.objOf, _, h.obj⟩
    · exact Or.inr hn
  kept := fun h1 => by simp_all
  lost := fun _ h2 => by simp_all
  next := hnx

theorem Track.born (h : w.vars (.user z) = none) (h' : Owns C w' (.user z) s' id' k' v') (hn : w.next ≤ id')
    (hnx : w.next ≤ w'.next) : Track w w' z kp rt where
  new := fun i _ _ hi _ => by rw [h'.objOf] at hi; cases hi; exact Or.inr hn
  kept := fun _ i k' v'' hi => by simp [World.objOf, h] at hi
  lost := fun _ _ i hi => by simp [World.objOf, h] at hi
  next := hnx

theorem Track.dead (h' : w'.vars (.user z) = none) (hk : kp = false) (hnx : w.next ≤ w'.next) : Track w w' z kp rt where
  new := fun i _ _ hi _ => by simp [World.objOf, h'] at hi
  kept := fun h1 => by simp_all
  lost := fun _ _ i _ => by simp [World.objOf, h']
  next := hnx

theorem Track.unchanged (h : Unchanged w w' (.user z)) (hk : kp = true ∨ rt = false) (hnx : w.next ≤ w'.next) :
    Track w w' z kp rt := by
  have key : ∀ i, w.objOf z = some i → w'.objs i = w.objs i := by
    intro i hi
    simp only [World.objOf] at hi
    cases hs : w.vars (.user z) with
    | none => rw [hs] at hi; cases hi
    | some s => rw [hs] at hi; exact h.2 s i hs hi
  have ho : w'.objOf z = w.objOf z := by simp only [World.objOf, h.1]
  refine ⟨fun i k' v' hi h2 => ?_, fun _ i k v hi h2 => ⟨by rw [ho, hi], v, by rw [key i hi, h2]⟩, fun h1 h2 => ?_, hnx⟩
  · rw [ho] at hi
    exact Or.inl ⟨hi, v', by rw [← key i hi, h2]⟩
  · rcases hk with hk | hk <;> simp_all

/-- Statements neither naming nor, therefore, touching `z`. -/
theorem Cmd.keeps_of_names (c : Cmd V) (h : z ∉ c.names) : c.keeps w z = true := by
  cases c <;> simp only [Cmd.names, List.mem_cons, List.not_mem_nil, or_false, not_or] at h <;> simp [Cmd.keeps] <;> grind

theorem holdsType_iff {x : Nat} (h : Owns C w (.user x) s id k v) (j : TyIx) : w.holdsType x j = decide (k = j) := by
  simp only [World.holdsType, h.content]

theorem typesDiffer_iff {x y : Nat} {sx sy : VarSt} {ix iy : ObjId} {kx ky : TyIx} {vx vy : V}
    (hx : Owns C w (.user x) sx ix kx vx) (hy : Owns C w (.user y) sy iy ky vy) : w.typesDiffer x y = decide (kx ≠ ky) := by
  simp only [World.typesDiffer, hx.content, hy.content]

theorem sameShape_iff {x y : Nat} {sx sy : VarSt} {ix iy : ObjId} {kx ky : TyIx} {vx vy : V}
    (hx : Owns C w (.user x) sx ix kx vx) (hy : Owns C w (.user y) sy iy ky vy) :
    w.sameShape x y = decide (sx.which_ = sy.which_) := by
  rw [World.sameShape, typesDiffer_iff hx hy, hx.backedUp, hy.backedUp]
  have h1 := hx.rep
  have h2 := hy.rep
  by_cases h : sx.which_ = sy.which_
  · obtain ⟨rfl, -⟩ := h1.same_which h2 h
    simp [h]
  · simp only [h, decide_false, Bool.and_eq_false_iff]
    by_cases hk : kx = ky
    · right
      subst hk
      cases h1 <;> cases h2 <;> simp_all <;> omega
    · left; simp [hk]

/-- Does `x`, as it stands, keep its object when a value of type `k` is assigned in this way? -/
def Mode.keeps (m : Mode) (k : TyIx) (s : VarSt) (kl : TyIx) : Bool :=
  if m.direct then decide (kl = k) else decide (s.which_ = (k : Int))

theorem holdsInPlace_iff {x : Nat} (h : Owns C w (.user x) s id k v) (j : TyIx) :
    (w.holdsType x j && !w.backedUp x) = decide (s.which_ = (j : Int)) := by
  rw [holdsType_iff h, h.backedUp]
  have h1 := h.rep
  by_cases hk : k = j
  · subst hk
    cases h1 <;> simp <;> omega
  · have := which_ne_of_ty h1 hk
    simp [hk, this]

section
variable {x : Nat} {m : Mode}

theorem ValOk.track (hf : Fresh w) {j : TyIx} {u : V} (hl : Owns C w (.user x) s id k v)
    (h : ValOk C w w' (.user x) s id k v m j u) (hk : kp = m.keeps j s k) : Track w w' x kp rt := by
  rcases h with ⟨hm, he, hr, -⟩ | ⟨hm, he, hr, -⟩ | ⟨hh, hw, ⟨id', hn, hr⟩, -⟩
  · exact .same hl hr.owns (.inl (by rw [hk, Mode.keeps, hm]; simpa using he)) hr.next
  · exact .same hl hr.owns (.inl (by rw [hk, Mode.keeps, hm]; simpa using he)) hr.next
  · refine .fresh hl hf hr.owns hn ?_ hr.next
    rw [hk, Mode.keeps]
    rcases hh with hm | hne
    · simp [hm, hw]
    · cases m.direct <;> simp [hw, hne]

theorem ValExc.track (hs : Sane C) {j : TyIx} {u : V} {e : Exc} (hl : Owns C w (.user x) s id k v)
    (h : ValExc C w w' (.user x) s id k v m j u e) (hk : kp = m.keeps j s k) (hrt : rt = false) : Track w w' x kp rt := by
  rcases h with ⟨hm, he, -, hr, -⟩ | ⟨hh, he, hr, -⟩ | ⟨hm, he, -, hr, -⟩ | ⟨hh, hw, -, -, hr, -⟩
  · exact .same hl hr.owns (.inr hrt) hr.next
  · exact .same hl hr.owns (.inr hrt) hr.next
  · exact .same hl hr.owns (.inr hrt) hr.next
  · obtain ⟨-, s', id', k', v', hr, hlo⟩ := hr hs
    refine .failed hl hr.owns hr.idNew hlo ?_ hrt hr.next
    rw [hk, Mode.keeps]
    rcases hh with hm | hne
    · simp [hm, hw]
    · cases m.direct <;> simp [hw, hne]

end

/-- What a statement does to the content object of each variant it names. -/
theorem wp_step_named (hs : Sane C) (hg : Good C w) (c : Cmd V) (hv : c.valid C w = true) (hz : c.readsBackup w = false) (z : Nat)
    (hmem : z ∈ c.names) :
    wp (c.code C) (fun _ w' => Track w w' z (c.keeps w z) true) (fun _ w' => Track w w' z (c.keeps w z) false) w := by
  have hw := hg.wf
  have hf := hw.toFresh
  -- assignment of a value
  have val : ∀ {x : Nat} {m : Mode} {j : TyIx} {u : V} {cc : M V Unit} {kp : Bool} {s : VarSt} {id : ObjId} {k : TyIx} {v : V},
      z ∈ [x] → Owns C w (.user x) s id k v → kp = m.keeps j s k →
      wp cc (fun _ w' => ValOk C w w' (.user x) s id k v m j u)
        (fun e w' => Thrown C w w' e ∧ ValExc C w w' (.user x) s id k v m j u e) w →
      wp cc (fun _ w' => Track w w' z kp true) (fun _ w' => Track w w' z kp false) w := by
    intro x m j u cc kp s id k v hzx hl hk h
    obtain rfl := List.mem_singleton.mp hzx
    exact wp_mono h (fun _ _ h => h.track hf hl hk) (fun _ _ h => h.2.track hs hl hk rfl)
  cases c with
  | defaultConstruct x =>
    simp only [Cmd.valid, Bool.and_eq_true, Option.isNone_iff_eq_none, decide_eq_true_eq] at hv
    obtain rfl : z = x := by simpa [Cmd.names] using hmem
    refine wp_mono (wp_defaultConstruct hf hv.2) ?_ ?_
    · rintro _ w' ⟨hc, _⟩; exact .born hv.1 hc.owns hc.idNew hc.next
    · rintro e w' ⟨_, _, hth, rfl⟩; exact .unchanged ⟨rfl, fun _ _ _ _ => rfl⟩ (.inr rfl) (Nat.le_refl _)
  | copyConstruct x y =>
    simp only [Cmd.valid, Bool.and_eq_true, Option.isNone_iff_eq_none] at hv
    obtain ⟨s, id, k, v, ho⟩ := hg.owns hv.2
    refine wp_mono (wp_copyConstruct ho hf) ?_ ?_
    · rintro _ w' ⟨hc, _⟩
      by_cases hzx : z = x
      · subst hzx; exact .born hv.1 hc.owns hc.idNew hc.next
      · obtain rfl : z = y := by simpa [Cmd.names, hzx] using hmem
        exact .same ho (hc.owns_other hw ho (by simpa using hzx) ho.obj) (.inl rfl) hc.next
    · rintro e w' ⟨_, _, hth, rfl⟩; exact .unchanged ⟨rfl, fun _ _ _ _ => rfl⟩ (.inr rfl) (Nat.le_refl _)
  | moveConstruct x y =>
    simp only [Cmd.valid, Bool.and_eq_true, Option.isNone_iff_eq_none] at hv
    obtain ⟨s, id, k, v, ho⟩ := hg.owns hv.2
    refine wp_mono (wp_moveConstruct ho hf) ?_ ?_
    · rintro _ w' ⟨hc, _⟩
      by_cases hzx : z = x
      · subst hzx; exact .born hv.1 hc.owns hc.idNew hc.next
      · obtain rfl : z = y := by simpa [Cmd.names, hzx] using hmem
        exact .same ho (hc.owns_other hw ho (by simpa using hzx) (upd_same _ _ _)) (.inl rfl) hc.next
    · rintro e w' ⟨_, _, hth, _, rfl⟩
      by_cases hzx : z = x
      · subst hzx; exact .unchanged ⟨rfl, fun s id h => by rw [hv.1] at h; cases h⟩ (.inr rfl) (Nat.le_refl _)
      · obtain rfl : z = y := by simpa [Cmd.names, hzx] using hmem
        exact .same (C := C) (s' := s) ho ⟨ho.var, ho.rep, upd_same _ _ _⟩ (.inl rfl) (Nat.le_refl _)
  | constructL x k v =>
    simp only [Cmd.valid, Bool.and_eq_true, Option.isNone_iff_eq_none, decide_eq_true_eq] at hv
    obtain rfl : z = x := by simpa [Cmd.names] using hmem
    refine wp_mono (wp_construct_elem .L (by simp) (.user z) k v hf hv.2) ?_ ?_
    · rintro _ w' ⟨id', hc, _⟩; exact .born hv.1 hc.owns hc.idNew hc.next
    · rintro e w' ⟨_, hth, h1, h2, _, _, hnx⟩; exact .unchanged ⟨by rw [h1], fun _ _ _ _ => by rw [h2]⟩ (.inr rfl) hnx
  | constructR x k v =>
    simp only [Cmd.valid, Bool.and_eq_true, Option.isNone_iff_eq_none, decide_eq_true_eq] at hv
    obtain rfl : z = x := by simpa [Cmd.names] using hmem
    refine wp_mono (wp_construct_elem .R (by simp) (.user z) k v hf hv.2) ?_ ?_
    · rintro _ w' ⟨id', hc, _⟩; exact .born hv.1 hc.owns hc.idNew hc.next
    · rintro e w' ⟨_, hth, h1, h2, _, _, hnx⟩; exact .unchanged ⟨by rw [h1], fun _ _ _ _ => by rw [h2]⟩ (.inr rfl) hnx
  | constructC x k v =>
    simp only [Cmd.valid, Bool.and_eq_true, Option.isNone_iff_eq_none, decide_eq_true_eq] at hv
    obtain rfl : z = x := by simpa [Cmd.names] using hmem
    refine wp_mono (wp_convertConstruct (.conv k v) trivial hv.2 hf) ?_ ?_
    · rintro _ w' ⟨id', v', _, _, hc, _⟩; exact .born hv.1 hc.owns hc.idNew hc.next
    · rintro e w' ⟨_, hth, h1, h3, _, h4, h2⟩; exact .unchanged ⟨by rw [h1], fun _ _ _ _ => h2 _⟩ (.inr rfl) h4
  | destroy x =>
    simp only [Cmd.valid] at hv
    obtain ⟨s, id, k, v, ho⟩ := hg.owns hv
    obtain rfl : z = x := by simpa [Cmd.names] using hmem
    refine wp_destroyVar_intro ho hf.flat ?_
    exact .dead (upd_same _ _ _) (by simp [Cmd.keeps]) (Nat.le_refl _)
  | copyAssign x y =>
    simp only [Cmd.valid, Bool.and_eq_true] at hv
    obtain ⟨sx, ix, kx, vx, hx⟩ := hg.owns hv.1
    obtain ⟨sy, iy, ky, vy, hy⟩ := hg.owns hv.2
    have hkp : Cmd.keeps w z (.copyAssign x y) = (decide (x ≠ z) || decide (sx.which_ = sy.which_)) := by
      rw [Cmd.keeps, sameShape_iff hx hy]
    refine wp_mono (wp_copyAssign hs hx hy (hw.distinct hx hy) hf (noHazard_of hx.var hy.var hz)) ?_ ?_
    · rintro _ w' h
      by_cases hzx : z = x
      · subst hzx
        rcases h with ⟨he, _, hr, _⟩ | ⟨hne, ⟨_, hn, hr⟩, _⟩
        · exact .same hx hr.owns (.inl (by rw [hkp]; simp [he])) hr.next
        · exact .fresh hx hf hr.owns hn (by rw [hkp]; simp [hne]) hr.next
      · obtain rfl : z = y := by simpa [Cmd.names, hzx] using hmem
        have hne : VarId.user z ≠ .user x := by simpa using hzx
        have hk : Cmd.keeps w z (.copyAssign x z) = true := by simp [Cmd.keeps, Ne.symm hzx]
        rcases h with ⟨_, _, hr, _⟩ | ⟨_, ⟨_, _, hr⟩, _⟩ <;>
          exact .unchanged (hr.unchanged hw hx hne (fun _ _ _ _ => rfl)) (.inl hk) hr.next
    · rintro e w' h
      by_cases hzx : z = x
      · subst hzx
        rcases h with ⟨he, _, _, _, hr, _⟩ | ⟨hne, _, ⟨_, _, _, _, _, hr, hlo⟩, _⟩
        · exact .same hx hr.owns (.inr rfl) hr.next
        · exact .failed hx hr.owns hr.idNew hlo (by rw [hkp]; simp [hne]) rfl hr.next
      · obtain rfl : z = y := by simpa [Cmd.names, hzx] using hmem
        have hne : VarId.user z ≠ .user x := by simpa using hzx
        rcases h with ⟨_, _, _, _, hr, _⟩ | ⟨_, _, ⟨_, _, _, _, _, hr, hlo⟩, _⟩ <;>
          exact .unchanged (hr.unchanged hw hx hne (fun _ _ _ _ => rfl)) (.inr rfl) hr.next
  | moveAssign x y =>
    simp only [Cmd.valid, Bool.and_eq_true] at hv
    obtain ⟨sx, ix, kx, vx, hx⟩ := hg.owns hv.1
    obtain ⟨sy, iy, ky, vy, hy⟩ := hg.owns hv.2
    have hkp : Cmd.keeps w z (.moveAssign x y) = (decide (x ≠ z) || decide (sx.which_ = sy.which_)) := by
      rw [Cmd.keeps, sameShape_iff hx hy]
    refine wp_mono (wp_moveAssign hs hx hy (hw.distinct hx hy) hf (noHazard_of hx.var hy.var hz)) ?_ ?_
    · rintro _ w' h
      by_cases hzx : z = x
      · subst hzx
        rcases h with ⟨he, hr, _⟩ | ⟨_, he, _, hr, _⟩ | ⟨_, hne, ⟨_, hn, hr⟩, _⟩
        · obtain rfl : z = y := by simpa using he
          have := hx.var; rw [hy.var] at this; cases this
          exact .same hx hr.owns (.inl (by rw [hkp]; simp)) hr.next
        · exact .same hx hr.owns (.inl (by rw [hkp]; simp [he])) hr.next
        · exact .fresh hx hf hr.owns hn (by rw [hkp]; simp [hne]) hr.next
      · obtain rfl : z = y := by simpa [Cmd.names, hzx] using hmem
        have hne : VarId.user z ≠ .user x := by simpa using hzx
        have hk : Cmd.keeps w z (.moveAssign x z) = true := by simp [Cmd.keeps, Ne.symm hzx]
        rcases h with ⟨he, _⟩ | ⟨_, _, _, hr, _⟩ | ⟨_, _, ⟨_, _, hr⟩, _⟩
        · exact absurd he.symm hne
        · exact .same hy (hr.owns_other hw hx hy hne (upd_same _ _ _)) (.inl hk) hr.next
        · exact .same hy (hr.owns_other hw hx hy hne (upd_same _ _ _)) (.inl hk) hr.next
    · rintro e w' ⟨-, h⟩
      by_cases hzx : z = x
      · subst hzx
        rcases h with ⟨_, _, _, _, hr, _⟩ | ⟨_, _, _, _, _, _, hr, _⟩ | ⟨_, hne, _, ⟨_, _, _, _, _, hr, hlo⟩, _⟩
        · exact .same hx hr.owns (.inr rfl) hr.next
        · exact .same hx hr.owns (.inr rfl) hr.next
        · exact .failed hx hr.owns hr.idNew hlo (by rw [hkp]; simp [hne]) rfl hr.next
      · obtain rfl : z = y := by simpa [Cmd.names, hzx] using hmem
        have hne : VarId.user z ≠ .user x := by simpa using hzx
        rcases h with ⟨he, _⟩ | ⟨_, _, _, _, _, _, hr, _⟩ | ⟨_, _, _, ⟨_, _, _, _, _, hr, hlo⟩, _⟩
        · exact absurd he.symm hne
        · exact .same hy (hr.owns_other hw hx hy hne (upd_same _ _ _)) (.inr rfl) hr.next
        · exact .same hy (hr.owns_other hw hx hy hne (upd_same _ _ _)) (.inr rfl) hr.next
  | assignL x j u =>
    simp only [Cmd.valid, Bool.and_eq_true, decide_eq_true_eq] at hv
    obtain ⟨s, id, k, v, hx⟩ := hg.owns hv.1
    refine val (m := .L) hmem hx ?_ (wp_assign_elem hs.blank .L (by simp) j u hx hf hv.2 (by simp) (hg.noTmp 0))
    obtain rfl : z = x := by simpa [Cmd.names] using hmem
    simp [Cmd.keeps, holdsType_iff hx, Mode.keeps, Mode.direct]
  | assignR x j u =>
    simp only [Cmd.valid, Bool.and_eq_true, decide_eq_true_eq] at hv
    obtain ⟨s, id, k, v, hx⟩ := hg.owns hv.1
    refine val (m := .R) hmem hx ?_ (wp_assign_elem hs.blank .R (by simp) j u hx hf hv.2 (by simp) (hg.noTmp 0))
    obtain rfl : z = x := by simpa [Cmd.names] using hmem
    simp [Cmd.keeps, holdsType_iff hx, Mode.keeps, Mode.direct]
  | assignC x j u =>
    simp only [Cmd.valid, Bool.and_eq_true, decide_eq_true_eq] at hv
    obtain ⟨s, id, k, v, hx⟩ := hg.owns hv.1
    refine val (m := .C) hmem hx ?_ (wp_assign_conv hs.blank j u hx hf hv.2 (by simp) (hg.noTmp 0))
    obtain rfl : z = x := by simpa [Cmd.names] using hmem
    simp only [Cmd.keeps, holdsInPlace_iff hx, Mode.keeps, Mode.direct, ne_eq, not_true, decide_false, Bool.false_or,
      Bool.false_eq_true, if_false]
  | assignVL x j u =>
    simp only [Cmd.valid, Bool.and_eq_true, decide_eq_true_eq] at hv
    obtain ⟨s, id, k, v, hx⟩ := hg.owns hv.1
    refine val (m := .VL) hmem hx ?_ (wp_assign_elem hs.blank .VL (by simp) j u hx hf hv.2 (by simp) (hg.noTmp 0))
    obtain rfl : z = x := by simpa [Cmd.names] using hmem
    simp only [Cmd.keeps, holdsInPlace_iff hx, Mode.keeps, Mode.direct, ne_eq, not_true, decide_false, Bool.false_or,
      Bool.false_eq_true, if_false]
  | assignVR x j u =>
    simp only [Cmd.valid, Bool.and_eq_true, decide_eq_true_eq] at hv
    obtain ⟨s, id, k, v, hx⟩ := hg.owns hv.1
    refine val (m := .VR) hmem hx ?_ (wp_assign_elem hs.blank .VR (by simp) j u hx hf hv.2 (by simp) (hg.noTmp 0))
    obtain rfl : z = x := by simpa [Cmd.names] using hmem
    simp only [Cmd.keeps, holdsInPlace_iff hx, Mode.keeps, Mode.direct, ne_eq, not_true, decide_false, Bool.false_or,
      Bool.false_eq_true, if_false]
  | swap x y =>
    simp only [Cmd.valid, Bool.and_eq_true] at hv
    obtain ⟨sx, ix, kx, vx, hx⟩ := hg.owns hv.1
    obtain ⟨sy, iy, ky, vy, hy⟩ := hg.owns hv.2
    have hzz : z = x ∨ z = y := by simpa [Cmd.names] using hmem
    have hkp : Cmd.keeps w z (.swap x y) = decide (kx = ky) := by
      rw [Cmd.keeps, typesDiffer_iff hx hy]
      rcases hzz with rfl | rfl <;> simp
    -- all contents keep their types
    have rev : ∀ {w' : World V} {o : ObjId → Option (TyIx × V)} {b1 b2 : Bool}, SameTypes w.objs o → Revalue w w' o →
        (b1 = true ∨ b2 = false) → Track w w' z b1 b2 := by
      intro w' o b1 b2 hst hr hb
      rcases hzz with rfl | rfl
      · obtain ⟨v', h'⟩ := hst.some_of hx.obj
        exact .same (C := C) (s' := sx) hx ⟨by rw [hr.vars, hx.var], hx.rep, by rw [hr.objs, h']⟩ hb (by rw [hr.next]; exact Nat.le_refl _)
      · obtain ⟨v', h'⟩ := hst.some_of hy.obj
        exact .same (C := C) (s' := sy) hy ⟨by rw [hr.vars, hy.var], hy.rep, by rw [hr.objs, h']⟩ hb (by rw [hr.next]; exact Nat.le_refl _)
    have two : kx = ky → x ≠ y → ∀ a b : V, SameTypes w.objs (upd (upd w.objs ix (some (kx, a))) iy (some (ky, b))) := by
      intro hk hne a b
      have hid : iy ≠ ix := by
        rcases hw.distinct hx hy with ⟨h, _⟩ | ⟨_, h⟩
        · exact absurd (VarId.user.inj h) hne
        · exact h.symm
      exact (SameTypes.upd w.objs a hx.obj).trans (SameTypes.upd _ b (v := vy) (by rw [upd_ne _ _ hid]; exact hy.obj))
    refine wp_mono (wp_swap hs hw hx hy (by simp) (by simp) (hg.noTmp 0) (swapHazard_of hx hy hz)) ?_ ?_
    · rintro _ w' ⟨hw', -, h⟩
      rcases h with ⟨he, hr, -⟩ | ⟨hne, he, hr, -⟩ | ⟨hne, ix', iy', hx', hy', -, hn⟩
      · obtain rfl : x = y := VarId.user.inj he
        have := hx.content; rw [hy.content] at this; cases this
        exact rev (SameTypes.upd _ _ hx.obj) hr (.inl (by rw [hkp]; simp))
      · exact rev (two he (fun h => hne (by rw [h])) _ _) hr (.inl (by rw [hkp]; simp [he]))
      · have hkf : Cmd.keeps w z (.swap x y) = false := by rw [hkp]; simp [hne]
        have hnx : w.next ≤ w'.next := by have := hw'.toFresh.lt hx'.obj; omega
        rcases hzz with rfl | rfl
        · exact .fresh hx hf hx' hn.1 hkf hnx
        · exact .fresh hy hf hy' hn.2 hkf hnx
    · rintro e w' ⟨-, hw', -, h⟩
      rcases h with ⟨he, -, hr, -⟩ | ⟨hne, he, -, hr, -⟩ | ⟨hne, -, hr, -⟩ | ⟨hne, -, sy', iy', ky', vy', hx', hy', hlo, -, hn⟩ |
        ⟨hne, -, sx', ix', kx', vx', iy', hx', hlo, hy', -, hn⟩
      · exact rev (SameTypes.upd _ _ hx.obj) hr (.inr rfl)
      · exact rev (two he (fun h => hne (by rw [h])) _ _) hr (.inr rfl)
      · exact rev (SameTypes.upd _ _ hy.obj) hr (.inr rfl)
      · have hkf : Cmd.keeps w z (.swap x y) = false := by rw [hkp]; simp [hne]
        rcases hzz with rfl | rfl
        · exact .same hx hx' (.inr rfl) hn.2
        · exact .failed hy hy' hn.1 hlo hkf rfl hn.2
      · have hkf : Cmd.keeps w z (.swap x y) = false := by rw [hkp]; simp [hne]
        have hnx : w.next ≤ w'.next := by have := hw'.toFresh.lt hy'.obj; omega
        rcases hzz with rfl | rfl
        · exact .failed hx hx' hn.1 hlo hkf rfl hnx
        · exact .fresh hy hf hy' hn.2 hkf hnx
  | mutate x u =>
    simp only [Cmd.valid] at hv
    obtain ⟨s, id, k, v0, ho⟩ := hg.owns hv
    obtain rfl : z = x := by simpa [Cmd.names] using hmem
    simp only [Cmd.code]
    rw [wp_applyVisitor C ho.var ho.rep ho.obj, wp_modify]
    exact .same (C := C) (s' := s) ho ⟨ho.var, ho.rep, upd_same _ _ _⟩ (.inl rfl) (Nat.le_refl _)
  | constructGet rv x y =>
    simp only [Cmd.valid, Bool.and_eq_true, Option.isNone_iff_eq_none] at hv
    obtain ⟨s, id, k, v, ho⟩ := hg.owns hv.2
    refine wp_mono (wp_constructGet rv (.user x) ho hf) ?_ ?_
    · rintro _ w' ⟨⟨_, _, hc⟩, _⟩
      by_cases hzx : z = x
      · subst hzx; exact .born hv.1 hc.owns hc.idNew hc.next
      · obtain rfl : z = y := by simpa [Cmd.names, hzx] using hmem
        obtain ⟨v', h'⟩ := (sameTypes_getBase rv ho.obj _).some_of ho.obj
        exact .same ho (hc.owns_other hw ho (by simpa using hzx) h') (.inl rfl) hc.next
    · rintro e w' ⟨_, hth, hr, _⟩
      by_cases hzx : z = x
      · subst hzx; exact .unchanged ⟨by rw [hr.vars], fun s id h => by rw [hv.1] at h; cases h⟩ (.inr rfl) hr.next
      · obtain rfl : z = y := by simpa [Cmd.names, hzx] using hmem
        obtain ⟨v', h'⟩ := (sameTypes_getBase rv ho.obj _).some_of ho.obj
        exact .same (C := C) (s' := s) ho ⟨by rw [hr.vars, ho.var], ho.rep, by rw [hr.objs, h']⟩ (.inr rfl) hr.next
  | assignGet rv x y =>
    simp only [Cmd.valid, Bool.and_eq_true] at hv
    obtain ⟨sx, ix, kx, vx, hx⟩ := hg.owns hv.1
    obtain ⟨sy, iy, ky, vy, hy⟩ := hg.owns hv.2
    have hkp : Cmd.keeps w z (.assignGet rv x y) = (decide (x ≠ z) || decide (kx = ky)) := by
      rw [Cmd.keeps, typesDiffer_iff hx hy]; simp
    refine wp_mono (wp_assignGet hs.blank rv hx hy (hw.distinct hx hy) hf (by simp) (hg.noTmp 0)) ?_ ?_
    · intro _ w' h
      by_cases hzx : z = x
      · subst hzx
        rcases h with ⟨he, _, hr, _⟩ | ⟨he, _, hr, _⟩ | ⟨hne, _, ⟨_, hn, hr⟩, _⟩
        · obtain rfl : z = y := by simpa using he
          have := hx.content; rw [hy.content] at this; cases this
          exact .same hx hr.owns (.inl (by rw [hkp]; simp)) hr.next
        · exact .same hx hr.owns (.inl (by rw [hkp]; simp [he])) hr.next
        · exact .fresh hx hf hr.owns hn (by rw [hkp]; simp [hne]) hr.next
      · obtain rfl : z = y := by simpa [Cmd.names, hzx] using hmem
        have hne : VarId.user z ≠ .user x := by simpa using hzx
        have hk : Cmd.keeps w z (.assignGet rv x z) = true := by simp [Cmd.keeps, Ne.symm hzx]
        obtain ⟨base, _, _, _, _, hb, hr, _⟩ := h.replace
        obtain ⟨v', h'⟩ := (hb.sameTypes hy.obj).some_of hy.obj
        exact .same hy (hr.owns_other hw hx hy hne h') (.inl hk) hr.next
    · rintro e w' ⟨hth, h⟩
      by_cases hzx : z = x
      · subst hzx
        rcases h with ⟨_, _, _, hr, _⟩ | ⟨_, _, _, hr, _⟩ | ⟨_, _, _, hr, _⟩ | ⟨hne, _, _, _, hr, _⟩
        · exact .same hx hr.owns (.inr rfl) hr.next
        · exact .same hx hr.owns (.inr rfl) hr.next
        · exact .same hx hr.owns (.inr rfl) hr.next
        · obtain ⟨-, s', id', k', v', hr, hlo⟩ := hr hs
          exact .failed hx hr.owns hr.idNew hlo (by rw [hkp]; simp [hne]) rfl hr.next
      · obtain rfl : z = y := by simpa [Cmd.names, hzx] using hmem
        have hne : VarId.user z ≠ .user x := by simpa using hzx
        obtain ⟨base, _, _, _, _, hb, hr⟩ := h.replace hs
        obtain ⟨v', h'⟩ := (hb.sameTypes hy.obj).some_of hy.obj
        exact .same hy (hr.owns_other hw hx hy hne h') (.inr rfl) hr.next

/-- What a statement does to the content object of each variant. -/
theorem wp_step_track (hs : Sane C) (hg : Good C w) (c : Cmd V) (hv : c.valid C w = true) (hz : c.readsBackup w = false) (z : Nat) :
    wp (c.code C) (fun _ w' => Track w w' z (c.keeps w z) true) (fun _ w' => Track w w' z (c.keeps w z) false) w := by
  by_cases hz' : z ∈ c.names
  · exact wp_step_named hs hg c hv hz z hz'
  obtain ⟨x, hx⟩ : ∃ x, x ∈ c.names := by cases c <;> exact ⟨_, by simp only [Cmd.names]; exact List.mem_cons_self⟩
  exact wp_mono (wp_and (wp_step hs hg c hv hz) (wp_step_named hs hg c hv hz x hx))
    (fun _ _ h => .unchanged (h.1.2 z hz') (.inl (c.keeps_of_names hz')) h.2.next)
    (fun _ _ h => .unchanged (h.1.2.1 z hz') (.inr rfl) h.2.next)

end

end BVariant
