/-
Variables whose trees show those of the specification for C73; copying, in the model and in the specification.
-/
import Verif.Lemmas.ExactTree

namespace BVariant

section
variable {V : Type} {C : TreeCfg V} {s s' : TreeSt V}

open ATree AStore

variable {α : AStore V} {G : List (ATree V)} {n : Nat} {x t : TPlace}

/-- The variables of the specification. -/
abbrev XStore (V : Type) := Nat → Option (XTree V)

def XStore.put (vs : XStore V) (x : TPlace) (u : XTree V) : XStore V := upd vs x.var ((vs x.var).map (·.put x.path u))

def XStore.at (vs : XStore V) (t : TPlace) : Option (XTree V) :=
  match vs t.var with
  | some u => u.sub t.path
  | none => none

variable {vs : XStore V} {c c' : Count}

/-! ### Operations of the specification -/

theorem xtGet_run {u : XTree V} (h : vs.at t = some u) : xtGet t ⟨vs, c⟩ = .ok u ⟨vs, c⟩ := by
  have : XTSt.at ⟨vs, c⟩ t = some u := h
  simp only [xtGet, this]

theorem xtPut_run {u : XTree V} : xtPut t u ⟨vs, c⟩ = .ok () ⟨vs.put t u, c⟩ := rfl

theorem xtSet_run {y : Nat} {u : Option (XTree V)} : xtSet y u ⟨vs, c⟩ = .ok () ⟨upd vs y u, c⟩ := rfl

theorem xtRun_ok {γ : Type} {m : Eff Count γ} {a : γ} (h : m c = .ok a c') : xtRun m ⟨vs, c⟩ = .ok a ⟨vs, c'⟩ := by
  simp only [xtRun, h]

theorem xtRun_exc {γ : Type} {m : Eff Count γ} {e : Exc} (h : m c = .exc e c') : xtRun m ⟨vs, c⟩ = .exc e ⟨vs, c'⟩ := by
  simp only [xtRun, h]

theorem xtMay_true (k : ExcKind) : xtMay C true k c = .ok () { c with tick := c.tick + 1 } := by simp [xtMay]

theorem xtTake_ok {u u' src : XTree V} (h : vs.at t = some u) (hm : xtMove C c u = .ok u' src c') :
    xtTake C t ⟨vs, c⟩ = .ok u' ⟨vs.put t src, c'⟩ := by
  simp only [xtTake, bind, Eff.bind, xtGet_run h, hm, xtPut_run, pure, Eff.pure]

theorem xtTake_exc {u src : XTree V} {e : Exc} (h : vs.at t = some u) (hm : xtMove C c u = .exc e src c') :
    xtTake C t ⟨vs, c⟩ = .exc e ⟨vs.put t src, c'⟩ := by
  simp only [xtTake, bind, Eff.bind, xtGet_run h, hm, xtPut_run]

/-! ### Trees and places -/

theorem XTree.put_same : ∀ {is : List Nat} {t u : XTree V}, t.sub is = some u → t.put is u = t
  | [], t, u, h => by cases t <;> (simp only [XTree.sub, Option.some.injEq] at h; simp only [XTree.put, h])
  | i :: is, .leaf .., u, h => by simp [XTree.sub] at h
  | i :: is, .node b k a f, u, h => by
    simp only [XTree.sub] at h
    cases hf : f[i]? with
    | none => simp only [hf] at h; cases h
    | some t =>
      simp only [hf] at h
      simp only [XTree.put, hf, XTree.put_same h, XTree.node.injEq, true_and]
      obtain ⟨hi, rfl⟩ := List.getElem?_eq_some_iff.mp hf
      exact List.set_getElem_self hi

theorem XStore.put_same {u : XTree V} (h : vs.at x = some u) : vs.put x u = vs := by
  unfold XStore.at at h
  funext z
  unfold XStore.put
  by_cases hz : z = x.var
  · subst hz
    rw [upd_same]
    cases hv : vs x.var with
    | none => rfl
    | some T => rw [hv] at h; simp only [Option.map_some, XTree.put_same h]
  · simp only [upd, hz, if_false]

theorem XTree.put_put_apart : ∀ {is js : List Nat} {t u w : XTree V}, PathsApart is js → (t.put js u).put is w = (t.put is w).put js u
  | [], js, _, _, _, h => absurd (List.nil_prefix) h.1
  | _ :: _, [], _, _, _, h => absurd (List.nil_prefix) h.2
  | i :: is, j :: js, t, u, w, h => by
    cases t with
    | node b k a f =>
      simp only [XTree.put]
      rcases h.cons with hij | ⟨rfl, h'⟩
      · have hji : j ≠ i := Ne.symm hij
        cases hj : f[j]? with
        | none => cases hi : f[i]? with
          | none => simp only [XTree.put, hj, hi]
          | some v => simp only [XTree.put, hj, hi, List.getElem?_set, hij, if_false]
        | some z => cases hi : f[i]? with
          | none => simp only [XTree.put, hj, hi, List.getElem?_set, hji, if_false]
          | some v =>
            simp only [XTree.put, hj, hi, List.getElem?_set, hij, hji, if_false]
            rw [List.set_comm _ _ hji]
      · cases hi : f[i]? with
        | none => simp only [XTree.put, hi]
        | some v =>
          have hl : i < f.length := (List.getElem?_eq_some_iff.mp hi).1
          simp only [XTree.put, List.getElem?_set_self hl, List.set_set]
          rw [XTree.put_put_apart h']
    | leaf => rfl

theorem XStore.put_comm (ha : x.Apart t) (v w : XTree V) : (vs.put t w).put x v = (vs.put x v).put t w := by
  by_cases hv : x.var = t.var
  · rcases ha with ha | ha
    · exact absurd hv ha
    · simp only [XStore.put, hv, upd_same, upd_upd, Option.map_map]
      congr 2
      funext t
      exact XTree.put_put_apart ha
  · funext z
    simp only [XStore.put, upd, hv, Ne.symm hv, if_false]
    by_cases h1 : z = x.var
    · subst h1; simp only [hv, if_true, if_false]
    · simp only [h1, if_false]

/-! ### Annotated trees -/

mutual
theorem ATree.Shows.unique : ∀ {T : ATree V} {t t' : XTree V}, T.Shows t → T.Shows t' → t = t'
  | .leaf k v b, .leaf m k' v', .leaf m' k'' v'', h, h' => by
    rw [Shows] at h h'; obtain ⟨rfl, rfl, rfl⟩ := h; obtain ⟨rfl, rfl, rfl⟩ := h'; rfl
  | .node k a p f b, .node m k' a' f', .node m' k'' a'' f'', h, h' => by
    rw [Shows] at h h'
    obtain ⟨rfl, rfl, rfl, h⟩ := h
    obtain ⟨rfl, rfl, rfl, h'⟩ := h'
    rw [ATree.ShowsL.unique h h']
  | .leaf .., .leaf .., .node .., _, h => by simp [Shows] at h
  | .leaf .., .node .., _, h, _ => by simp [Shows] at h
  | .node .., .leaf .., _, h, _ => by simp [Shows] at h
  | .node .., .node .., .leaf .., _, h => by simp [Shows] at h
  | .dead .., _, _, h, _ => by simp [Shows] at h
  | .blk .., _, _, h, _ => by simp [Shows] at h
theorem ATree.ShowsL.unique : ∀ {F : List (ATree V)} {f f' : List (XTree V)}, ShowsL F f → ShowsL F f' → f = f'
  | [], [], [], _, _ => rfl
  | T :: F, t :: f, t' :: f', h, h' => by
    rw [ShowsL] at h h'
    rw [ATree.Shows.unique h.1 h'.1, ATree.ShowsL.unique h.2 h'.2]
  | [], [], _ :: _, _, h => by simp [ShowsL] at h
  | [], _ :: _, _, h, _ => by simp [ShowsL] at h
  | _ :: _, [], _, h, _ => by simp [ShowsL] at h
  | _ :: _, _ :: _, [], _, h => by simp [ShowsL] at h
end

/-- The annotated trees show these. -/
def ShowsO : Option (ATree V) → Option (XTree V) → Prop
  | none, none => True
  | some T, some u => T.Shows u
  | _, _ => False

def ShowsS (α : AStore V) (vs : XStore V) : Prop := ∀ x, ShowsO (α x) (vs x)

theorem ShowsS.put {U : ATree V} {u : XTree V} (h : ShowsS α vs) (hU : U.Shows u) : ShowsS (α.put x U) (vs.put x u) := by
  intro z
  have hz := h z
  unfold AStore.put XStore.put
  by_cases hzx : z = x.var
  · subst hzx
    rw [upd_same, upd_same]
    revert hz
    cases α x.var <;> cases vs x.var <;> intro hz
    · trivial
    · exact hz.elim
    · exact hz.elim
    · exact put_shows x.path hz hU
  · simp only [upd, hzx, if_false]; exact hz

theorem ShowsS.upd {U : ATree V} {u : XTree V} {x : Nat} (h : ShowsS α vs) (hU : U.Shows u) :
    ShowsS (BVariant.upd α x (some U)) (BVariant.upd vs x (some u)) := by
  intro z
  by_cases hzx : z = x
  · subst hzx; rw [upd_same, upd_same]; exact hU
  · simp only [BVariant.upd, hzx, if_false]; exact h z

theorem ShowsS.del {x : Nat} (h : ShowsS α vs) : ShowsS (BVariant.upd α x none) (BVariant.upd vs x none) := by
  intro z
  by_cases hzx : z = x
  · subst hzx; rw [upd_same, upd_same]; trivial
  · simp only [BVariant.upd, hzx, if_false]; exact h z

theorem ShowsS.at {l : TLoc} {R : ATree V} (h : ShowsS α vs) (ht : At α t l R) : ∃ u, vs.at t = some u ∧ R.Shows u := by
  obtain ⟨T, h1, h2⟩ := ht
  have hz := h t.var
  rw [h1] at hz
  unfold XStore.at
  cases hs : vs t.var with
  | none => rw [hs] at hz; exact hz.elim
  | some u =>
    rw [hs] at hz
    rcases walk_shows t.path (.var t.var) hz with ⟨l', t', u', g1, g2, g3⟩ | ⟨g1, _⟩
    · rw [h2] at g1; cases g1; exact ⟨u', g2, g3⟩
    · rw [h2] at g1; cases g1

theorem ShowsS.isS (h : ShowsS α vs) : IsS α (XTSt.values ⟨vs, c⟩) := by
  intro z
  have hz := h z
  unfold XTSt.values
  revert hz
  show ShowsO (α z) (vs z) → IsO (α z) ((vs z).map XTree.erase)
  cases α z <;> cases vs z <;> intro hz
  · trivial
  · exact hz.elim
  · exact hz.elim
  · exact ATree.Shows.is hz

/-! ### Values -/

theorem eraseL_get : ∀ (f : List (XTree V)) (i : Nat), (XTree.eraseL f).get i = (f[i]?).map XTree.erase
  | [], _ => by simp [XTree.eraseL, VForest.get]
  | t :: f, 0 => by simp [XTree.eraseL, VForest.get]
  | t :: f, i + 1 => by simp only [XTree.eraseL, VForest.get, List.getElem?_cons_succ]; exact eraseL_get f i

theorem eraseL_set : ∀ (f : List (XTree V)) (i : Nat) (t : XTree V), XTree.eraseL (f.set i t) = (XTree.eraseL f).set i t.erase
  | [], i, _ => by cases i <;> simp [XTree.eraseL, VForest.set]
  | t :: f, 0, _ => by simp [XTree.eraseL, VForest.set]
  | t :: f, i + 1, u => by simp only [XTree.eraseL, VForest.set, List.set_cons_succ]; rw [eraseL_set f i u]

theorem XTree.erase_sub : ∀ (is : List Nat) (t : XTree V), t.erase.sub is = (t.sub is).map XTree.erase
  | [], t => by cases t <;> rfl
  | i :: is, .leaf .. => rfl
  | i :: is, .node b k a f => by
    simp only [XTree.erase, VTree.sub, XTree.sub, eraseL_get]
    cases f[i]? with
    | none => rfl
    | some t => exact XTree.erase_sub is t

theorem XTree.erase_put : ∀ (is : List Nat) (t u : XTree V), (t.put is u).erase = t.erase.put is u.erase
  | [], t, u => by cases t <;> simp [XTree.put, VTree.put]
  | i :: is, .leaf .., u => rfl
  | i :: is, .node b k a f, u => by
    simp only [XTree.erase, VTree.put, XTree.put, eraseL_get]
    cases hf : f[i]? with
    | none => rfl
    | some t => simp only [Option.map_some, XTree.erase, eraseL_set, XTree.erase_put is t u]

theorem values_at : (XTSt.values ⟨vs, c⟩ : TStore V).at t = (vs.at t).map XTree.erase := by
  show (match (vs t.var).map XTree.erase with | some u => u.sub t.path | none => none) = _
  unfold XStore.at
  cases vs t.var with
  | none => rfl
  | some T => exact XTree.erase_sub t.path T

theorem values_put {u : XTree V} : (XTSt.values ⟨vs.put x u, c⟩ : TStore V) = (XTSt.values ⟨vs, c⟩ : TStore V).put x u.erase := by
  funext z
  show (XStore.put vs x u z).map XTree.erase = _
  unfold XStore.put TStore.put
  by_cases hz : z = x.var
  · subst hz
    simp only [upd_same]
    show _ = ((vs x.var).map XTree.erase).map _
    cases vs x.var with
    | none => rfl
    | some T => simp only [Option.map_some, XTree.erase_put]
  · simp only [upd, hz, if_false]; rfl

theorem values_upd {y : Nat} {u : Option (XTree V)} :
    (XTSt.values ⟨upd vs y u, c⟩ : TStore V) = upd (XTSt.values ⟨vs, c⟩ : TStore V) y (u.map XTree.erase) := by
  funext z
  show (upd vs y u z).map XTree.erase = _
  by_cases hz : z = y
  · subst hz; simp only [upd_same]
  · simp only [upd, hz, if_false]; rfl

/-- What is at both sides of an assignment, or at the source of another statement. -/
structure XSide (α : AStore V) (vs : XStore V) (x : TPlace) (l : TLoc) (L : ATree V) (u : XTree V) : Prop where
  at_ : At α x l L
  val : vs.at x = some u
  shows : L.Shows u

theorem XTree.erase_height_fill {v : V} {t : XTree V} : (t.fill v t.members).erase = t.erase.store v := by
  cases t <;> rfl

theorem typed_leafX {R : ATree V} {u : XTree V} (hs : R.Shows u) (ht : u.erase.Typed C.wrapped) (hw : C.wrapped R.which = false) :
    ∃ k v b, R = .leaf k v b ∧ u = .leaf b.isSome k v := by
  obtain ⟨k, v, b, rfl, _⟩ := typed_leaf hs.is ht hw
  cases u with
  | leaf m k' v' => rw [Shows] at hs; obtain ⟨rfl, rfl, rfl⟩ := hs; exact ⟨k, v, b, rfl, rfl⟩
  | node => simp [Shows] at hs

theorem same_kindX {L R : ATree V} {u0 u : XTree V} (hL : L.Shows u0) (hR : R.Shows u) (h0 : u0.erase.Typed C.wrapped)
    (h1 : u.erase.Typed C.wrapped) (hk : L.which = R.which) :
    (∃ k v w b b', L = .leaf k v b ∧ R = .leaf k w b' ∧ u0 = .leaf b.isSome k v ∧ u = .leaf b'.isSome k w) ∨
    (∃ k a p f b a' p' f' b' g g', L = .node k a p f b ∧ R = .node k a' p' f' b' ∧ u0 = .node b.isSome k a g ∧
      u = .node b'.isSome k a' g' ∧ ShowsL f g ∧ ShowsL f' g') := by
  rcases same_kind hL.is hR.is h0 h1 hk with ⟨k, v, w, b, b', rfl, rfl, _, _⟩ | ⟨k, a, p, f, b, a', p', f', b', _, _, rfl, rfl, _, _, _, _⟩
  · cases u0 with
    | node => simp [Shows] at hL
    | leaf m k0 v0 =>
      cases u with
      | node => simp [Shows] at hR
      | leaf m' k' v' =>
        rw [Shows] at hL hR
        obtain ⟨rfl, rfl, rfl⟩ := hL
        obtain ⟨rfl, rfl, rfl⟩ := hR
        exact .inl ⟨_, _, _, _, _, rfl, rfl, rfl, rfl⟩
  · cases u0 with
    | leaf => simp [Shows] at hL
    | node m k0 v0 g =>
      cases u with
      | leaf => simp [Shows] at hR
      | node m' k' v' g' =>
        rw [Shows] at hL hR
        obtain ⟨rfl, rfl, rfl, h2⟩ := hL
        obtain ⟨rfl, rfl, rfl, h3⟩ := hR
        exact .inr ⟨_, _, _, _, _, _, _, _, _, g, g', rfl, rfl, rfl, rfl, h2, h3⟩

/-! ### Copying -/

theorem Mem.copyListX {F : List (ATree V)} {f : List (XTree V)} (hM : Mem s α G) (hF : HoldsL s.heap F) (hs : ShowsL F f)
    (hn : (XTree.eraseL f).height ≤ n) :
    (∃ s' us f', tCopyList (tCopyVar C n) (tDestroyVar n) (F.map ATree.var) s = .ok (us.map ATree.var) s' ∧
      xtCopyAll C f s.count = .ok f' s'.count ∧ ShowsL us f' ∧ Mem s' α (us ++ G) ∧ HoldsL s'.heap F) ∨
    (∃ e s', tCopyList (tCopyVar C n) (tDestroyVar n) (F.map ATree.var) s = .exc e s' ∧
      xtCopyAll C f s.count = .exc e s'.count ∧ Mem s' α G) := by
  rcases tCopyList_x (C := C) hF hs hn hM.fresh with ⟨_, s', ns, f', h1, h2, ⟨us, rfl, h3, h4, rfl⟩, hg⟩ | ⟨e, s', h1, h2, hu, _⟩
  · exact .inl ⟨s', us, f', h1, h2, h3, hM.grown hg h4, hg.holdsL hF⟩
  · exact .inr ⟨e, s', h1, h2, hM.undone hu⟩

theorem Mem.copyX {R : ATree V} {u : XTree V} (hM : Mem s α G) (hR : R.Holds s.heap) (hs : R.Shows u) (hn : u.erase.height ≤ n) :
    (∃ s' U u', tCopyVar C n R.var s = .ok U.var s' ∧ xtCopy C u s.count = .ok u' s'.count ∧ U.Shows u' ∧ Mem s' α (U :: G)) ∨
    (∃ e s', tCopyVar C n R.var s = .exc e s' ∧ xtCopy C u s.count = .exc e s'.count ∧ Mem s' α G) := by
  rcases tCopyVar_x (C := C) hR hs hn hM.fresh with ⟨_, s', ns, u', h1, h2, ⟨U, rfl, h3, h4, rfl⟩, hg⟩ | ⟨e, s', h1, h2, hu, _⟩
  · have hb : blocksL [U] = U.blocks := by simp [blocksL]
    exact .inl ⟨s', U, u', h1, h2, h3, hM.grown (F := [U]) (by rw [hb]; exact hg) ⟨h4, trivial⟩⟩
  · exact .inr ⟨e, s', h1, h2, hM.undone hu⟩

theorem Mem.copyContentX {R : ATree V} {u : XTree V} (hM : Mem s α G) (hR : R.Holds s.heap) (hs : R.Shows u)
    (hn : u.erase.height ≤ n + 1) :
    (∃ s' U u', tCopyContent C (tCopyVar C n) (tDestroyVar n) R.which R.content s = .ok U.content s' ∧
      xtCopy C u s.count = .ok u' s'.count ∧ U.box = none ∧ U.Shows u' ∧ R.which = U.which ∧ Mem s' α (U :: G)) ∨
    (∃ e s', tCopyContent C (tCopyVar C n) (tDestroyVar n) R.which R.content s = .exc e s' ∧
      xtCopy C u s.count = .exc e s'.count ∧ Mem s' α G) := by
  rcases tCopyContent_x (C := C) hR hs hn hM.fresh with ⟨_, s', ns, u', h1, h2, ⟨U, rfl, h3, h4, rfl⟩, hg⟩ | ⟨e, s', h1, h2, hu, _⟩
  · have hb : blocksL [U] = U.blocks := by simp [blocksL]
    obtain ⟨h5, h6⟩ := xtCopy_ok h2
    have hk : R.which = U.which := by rw [hs.is.which, h3.is.which, h5, VTree.which_copied]
    exact .inl ⟨s', U, u', h1, h2, h3.unbox h6, h3, hk, hM.grown (F := [U]) (by rw [hb]; exact hg) ⟨h4, trivial⟩⟩
  · exact .inr ⟨e, s', h1, h2, hM.undone hu⟩

theorem Mem.copyRefX {R : ATree V} {u : XTree V} {r : TRef} (hM : Mem s α G) (hr : r.read s = .ok R.content s)
    (hR : R.Holds s.heap) (hs : R.Shows u) (hn : u.erase.height ≤ n + 1) :
    (∃ s' U u', tCopyRef C n R.which r s = .ok U.content s' ∧ xtCopy C u s.count = .ok u' s'.count ∧ U.box = none ∧ U.Shows u' ∧
      R.which = U.which ∧ Mem s' α (U :: G)) ∨
    (∃ e s', tCopyRef C n R.which r s = .exc e s' ∧ xtCopy C u s.count = .exc e s'.count ∧ Mem s' α G) := by
  have : tCopyRef C n R.which r s = tCopyContent C (tCopyVar C n) (tDestroyVar n) R.which R.content s := by
    simp only [tCopyRef, bind, Eff.bind, hr]
  rw [this]
  exact hM.copyContentX hR hs hn

theorem Mem.allocX (hM : Mem s α G) :
    (∃ p s', tAlloc C s = .ok p s' ∧ xtNew C s.count = .ok () s'.count ∧ Mem s' α (.blk p :: G)) ∨
    (∃ e s', tAlloc C s = .exc e s' ∧ xtNew C s.count = .exc e s'.count ∧ Mem s' α G) := by
  rcases tAlloc_x (C := C) s with ⟨h1, h2⟩ | ⟨h1, h2, _⟩
  · rcases hM.alloc (C := C) with ⟨p, s', h3, hM', _⟩ | ⟨e, s', h3, _⟩
    · rw [h1] at h3; cases h3; exact .inl ⟨_, _, h1, h2, hM'⟩
    · rw [h1] at h3; cases h3
  · rcases hM.alloc (C := C) with ⟨p, s', h3, hM', _⟩ | ⟨e, s', h3, hM', _⟩
    · rw [h1] at h3; cases h3
    · rw [h1] at h3; cases h3; exact .inr ⟨_, _, h1, h2, hM'⟩

end

end BVariant
