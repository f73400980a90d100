/-
Lemmas on recursive visitors (C81).
-/
import Verif.Props.TreeMembers
import Verif.Lemmas.TreeMembersRun
import Verif.Spec.TreeVisit

namespace BVariant

section
variable {V A R : Type} {vis : TVisitor V A R} {s s' : TreeSt V} {α : AStore V} {x : TPlace} {n : Nat}

open ATree AStore

/-- What an outcome is in the model. -/
def visitRes (t0 : Nat) (o : Option R) (s : TreeSt V) : Res (TreeSt V) R :=
  match o with
  | some r => .ok r s
  | none => .exc ⟨.visitor, t0⟩ s

/-- The induction hypothesis: visiting a variant at any place. -/
def VisitsAt (vis : TVisitor V A R) (n : Nat) : Prop :=
  ∀ (s : TreeSt V) (α : AStore V) (x : TPlace) (l : TLoc) (T : ATree V) (u : VTree V) (a : A), Mem s α [] → At α x l T → T.Is u → u.height ≤ n →
    ∃ T' u' o s', u.Visited vis a u' o ∧ tVisitAt vis n l a s = visitRes s.tick o s' ∧ Mem s' (α.put x T') [] ∧ T'.Is u' ∧
      u'.height ≤ u.height ∧ T'.blocks = T.blocks ∧ s'.tick = s.tick ∧ s'.allocs = s.allocs

theorem tAct_leaf {f : TLoc → A → Eff (TreeSt V) R} {l : TLoc} {k : TyIx} {b : Option ObjId} : ∀ (act : VAct V A R) {s : TreeSt V} {α : AStore V} {v : V},
    act.Within 0 → Mem s α [] → At α x l (.leaf k v b) →
    ∃ v' o s', (VTree.leaf k v).Acts vis act (.leaf k v') o ∧
      tAct f (.leaf ((ATree.leaf k v b).var.ref l) k) act s = visitRes s.tick o s' ∧ Mem s' (α.put x (.leaf k v' b)) [] ∧ s'.tick = s.tick ∧
      s'.allocs = s.allocs
  | .ret r, s, α, v, _, hM, hx => ⟨v, some r, s, .ret, rfl, by rw [AStore.put_same hx]; exact hM, rfl, rfl⟩
  | .throw, s, α, v, _, hM, hx => ⟨v, none, s, .throw, rfl, by rw [AStore.put_same hx]; exact hM, rfl, rfl⟩
  | .write w next, s, α, v, hw, hM, hx => by
    obtain ⟨s1, h1, hM1, h2, hal⟩ := hM.setLeaf w hx
    obtain ⟨v', o, s', h3, h4, h5, h6, h7⟩ := tAct_leaf (f := f) next (by simpa only [VAct.Within] using hw) hM1 hx.put
    refine ⟨v', o, s', .write h3, ?_, by rw [AStore.put_put hx] at h5; exact h5, h6.trans h2, h7.trans hal⟩
    have hr : (ATree.leaf k w b).var.ref l = (ATree.leaf k v b).var.ref l := by cases b <;> rfl
    rw [hr, h2] at h4
    simp only [tAct, VObj.write, bind, Eff.bind, h1, h4]
  | .visit i a next, _, _, _, hw, _, _ => by simp only [VAct.Within] at hw; omega
  | .tryVisit i a next h, _, _, _, hw, _, _ => by simp only [VAct.Within] at hw; omega

theorem tAct_node (ih : VisitsAt vis n) {l : TLoc} {k : TyIx} {p : ObjId} {b : Option ObjId} {m : Nat} :
    ∀ (act : VAct V A R) {s : TreeSt V} {α : AStore V} {v : V} {F : List (ATree V)} {g : VForest V},
    act.Within m → Mem s α [] → At α x l (.node k v p F b) → IsL F g → g.size = m → g.height ≤ n →
    ∃ v' F' g' o s', (VTree.node k v g).Acts vis act (.node k v' g') o ∧
      tAct (tVisitAt vis n) (.node p) act s = visitRes s.tick o s' ∧ Mem s' (α.put x (.node k v' p F' b)) [] ∧ IsL F' g' ∧
      g'.height ≤ g.height ∧ blocksL F' = blocksL F ∧ s'.tick = s.tick ∧ s'.allocs = s.allocs
  | .ret r, s, α, v, F, g, _, hM, hx, hF, _, _ =>
    ⟨v, F, g, some r, s, .ret, rfl, by rw [AStore.put_same hx]; exact hM, hF, Nat.le_refl _, rfl, rfl, rfl⟩
  | .throw, s, α, v, F, g, _, hM, hx, hF, _, _ =>
    ⟨v, F, g, none, s, .throw, rfl, by rw [AStore.put_same hx]; exact hM, hF, Nat.le_refl _, rfl, rfl, rfl⟩
  | .write w next, s, α, v, F, g, hw, hM, hx, hF, hm, hn => by
    have h5 := (hM.at_run hx).2.2
    rw [ATree.Holds] at h5
    obtain ⟨s1, h1, hM1, h2, hal, _⟩ := hM.setNode (a' := w) (f' := F) (G' := []) hx h5.2.2 trivial fun _ => rfl
    obtain ⟨v', F', g', o, s', g1, g2, g3, g4, g5, gb, g6, ga⟩ := tAct_node ih next (by simpa only [VAct.Within] using hw) hM1 hx.put hF hm hn
    refine ⟨v', F', g', o, s', .write g1, ?_, by rw [AStore.put_put hx] at g3; exact g3, g4, g5, gb, g6.trans h2, ga.trans hal⟩
    rw [h2] at g2
    simp only [tAct, VObj.write, bind, Eff.bind, tReadNode, h5.2.1, h1, g2]
  | .visit i a next, s, α, v, F, g, hw, hM, hx, hF, hm, hn => by
    simp only [VAct.Within] at hw
    rcases isL_get (i := i) hF with ⟨T, u, e1, e2, e3⟩ | ⟨e1, _⟩
    · obtain ⟨T', u', o, s1, g1, g2, g3, g4, g5, gb, g6, ga⟩ :=
        ih _ _ _ _ _ _ a hM (hx.member e1) e3 (Nat.le_trans (VForest.get_height e2) hn)
      rw [put_member hx e1] at g3
      have hb : blocksL (F.set i T') = blocksL F := blocksL_set e1 gb
      have hh : (g.set i u').height ≤ g.height :=
        Nat.le_trans (VForest.set_height g i u') (by have := VForest.get_height e2; omega)
      cases o with
      | none =>
        exact ⟨v, _, _, none, s1, .visitThrows e2 g1, by simp only [tAct, VObj.visit, bind, Eff.bind, g2, visitRes], g3, isL_set hF g4, hh, hb, g6, ga⟩
      | some r =>
        obtain ⟨v', F', g', o, s', k1, k2, k3, k4, k5, kb, k6, ka⟩ := tAct_node ih (next r) (hw.2 r) g3 hx.put (isL_set hF g4)
          (by rw [VForest.size_set]; exact hm) (Nat.le_trans hh hn)
        refine ⟨v', F', g', o, s', .visit e2 g1 k1, ?_, by rw [AStore.put_put hx] at k3; exact k3, k4, Nat.le_trans k5 hh, kb.trans hb,
          k6.trans g6, ka.trans ga⟩
        rw [g6] at k2
        simp only [tAct, VObj.visit, bind, Eff.bind, g2, visitRes]
        exact k2
    · have := isL_length hF
      have := List.getElem?_eq_none_iff.mp e1
      omega
  | .tryVisit i a next handler, s, α, v, F, g, hw, hM, hx, hF, hm, hn => by
    simp only [VAct.Within] at hw
    rcases isL_get (i := i) hF with ⟨T, u, e1, e2, e3⟩ | ⟨e1, _⟩
    · obtain ⟨T', u', o, s1, g1, g2, g3, g4, g5, gb, g6, ga⟩ :=
        ih _ _ _ _ _ _ a hM (hx.member e1) e3 (Nat.le_trans (VForest.get_height e2) hn)
      rw [put_member hx e1] at g3
      have hb : blocksL (F.set i T') = blocksL F := blocksL_set e1 gb
      have hh : (g.set i u').height ≤ g.height :=
        Nat.le_trans (VForest.set_height g i u') (by have := VForest.get_height e2; omega)
      cases o with
      | none =>
        obtain ⟨v', F', g', o, s', k1, k2, k3, k4, k5, kb, k6, ka⟩ := tAct_node ih handler hw.2.2 g3 hx.put (isL_set hF g4)
          (by rw [VForest.size_set]; exact hm) (Nat.le_trans hh hn)
        refine ⟨v', F', g', o, s', .tryHandled e2 g1 k1, ?_, by rw [AStore.put_put hx] at k3; exact k3, k4, Nat.le_trans k5 hh, kb.trans hb,
          k6.trans g6, ka.trans ga⟩
        rw [g6] at k2
        simp only [tAct, VObj.visit, g2, visitRes]
        exact k2
      | some r =>
        obtain ⟨v', F', g', o, s', k1, k2, k3, k4, k5, kb, k6, ka⟩ := tAct_node ih (next r) (hw.2.1 r) g3 hx.put (isL_set hF g4)
          (by rw [VForest.size_set]; exact hm) (Nat.le_trans hh hn)
        refine ⟨v', F', g', o, s', .tryVisit e2 g1 k1, ?_, by rw [AStore.put_put hx] at k3; exact k3, k4, Nat.le_trans k5 hh, kb.trans hb,
          k6.trans g6, ka.trans ga⟩
        rw [g6] at k2
        simp only [tAct, VObj.visit, g2, visitRes]
        exact k2
    · have := isL_length hF
      have := List.getElem?_eq_none_iff.mp e1
      omega

theorem tVisitAt_run (hvis : vis.Within) : ∀ n, VisitsAt vis n
  | 0 => fun _ _ _ _ _ u _ _ _ _ h => by have := u.height_pos; omega
  | n + 1 => by
    intro s α x l T u a hM hx hT hn
    obtain ⟨-, h1, h2⟩ := hM.at_run hx
    have h3 := tContent_run h2
    cases T with
    | leaf k v b =>
      cases u with
      | node => simp [ATree.Is] at hT
      | leaf k' v' =>
        rw [ATree.Is] at hT
        obtain ⟨rfl, rfl⟩ := hT
        obtain ⟨v', o, s', g1, g2, g3, g4, ga⟩ := tAct_leaf (vis := vis) (f := tVisitAt vis n) (vis a k v 0) (hvis a k v 0) hM hx
        refine ⟨_, _, o, s', g1, ?_, g3, by rw [ATree.Is]; exact ⟨rfl, rfl⟩, Nat.le_refl _, by simp only [blocks], g4, ga⟩
        simp only [content] at h3
        simp only [tVisitAt, bind, Eff.bind, h1, h3, var_which]
        exact g2
    | node k v p F b =>
      cases u with
      | leaf => simp [ATree.Is] at hT
      | node k' v' g =>
        rw [ATree.Is] at hT
        obtain ⟨rfl, rfl, hF⟩ := hT
        rw [ATree.Holds] at h2
        rw [VTree.height] at hn
        obtain ⟨v', F', g', o, s', g1, g2, g3, g4, g5, gb, g6, ga⟩ := tAct_node (tVisitAt_run hvis n) (vis a k v g.size) (hvis a k v g.size) hM hx hF rfl
          (by omega : g.height ≤ n)
        refine ⟨_, _, o, s', g1, ?_, g3, by rw [ATree.Is]; exact ⟨rfl, rfl, g4⟩, by simp only [VTree.height]; omega, by simp only [blocks, gb], g6, ga⟩
        simp only [content] at h3
        simp only [tVisitAt, bind, Eff.bind, h1, h3, var_which, tReadNode, h2.2.1, List.length_map, isL_length hF]
        exact g2
    | dead => simp [ATree.Is] at hT
    | blk => simp [ATree.Is] at hT

/-! ### Visitors that only read -/

/-- The state at the end of a run is the one at its start. -/
def Res.SameState {S B : Type} (s : S) : Res S B → Prop
  | .ok _ s' => s' = s
  | .exc _ s' => s' = s
  | .fault _ => True

theorem tContent_same (v : TVar V) (s : TreeSt V) : (tContent v s).SameState s := by
  cases v with
  | plain => rfl
  | backup k q => simp only [tContent, tReadBox]; split <;> trivial

theorem tReadNode_same (p : ObjId) (s : TreeSt V) : (tReadNode p s).SameState s := by
  unfold tReadNode; split <;> trivial

theorem read_same (l : TLoc) (s : TreeSt V) : (l.read s).SameState s := by
  cases l with
  | var x => simp only [TLoc.read, tVar]; split <;> trivial
  | child p i =>
    simp only [TLoc.read, bind, Eff.bind]
    have := tReadNode_same p s
    revert this
    cases tReadNode p s with
    | ok m s1 => rintro rfl; dsimp only; cases m.2[i]? <;> trivial
    | exc e s1 => exact id
    | fault => exact id

theorem SameState.bind {S B D : Type} {m : Eff S B} {k : B → Eff S D} {s : S} (h1 : (m s).SameState s) (h2 : ∀ b, (k b s).SameState s) :
    ((m >>= k) s).SameState s := by
  simp only [Bind.bind, Eff.bind]
  revert h1
  cases m s with
  | ok b s1 => rintro rfl; exact h2 b
  | exc e s1 => exact id
  | fault => exact id

theorem tWalk_same : ∀ (is : List Nat) (l : TLoc) (s : TreeSt V), (tWalk l is s).SameState s
  | [], _, _ => rfl
  | i :: is, l, s => by
    rw [tWalk]
    refine SameState.bind (read_same l s) fun v => SameState.bind (tContent_same v s) fun c => ?_
    cases c with
    | dead => trivial
    | leaf b => trivial
    | wrap p => exact SameState.bind (read_same _ s) fun _ => tWalk_same is _ s

theorem tAct_same {f : TLoc → A → Eff (TreeSt V) R} (hf : ∀ l a s, (f l a s).SameState s) (o : VObj) :
    ∀ (act : VAct V A R) (s : TreeSt V), act.Reads → (tAct f o act s).SameState s
  | .ret r, s, _ => rfl
  | .throw, s, _ => rfl
  | .write _ _, s, h => h.elim
  | .visit i a next, s, h => by
    rw [tAct]
    refine SameState.bind ?_ fun r => tAct_same hf o (next r) s (h r)
    cases o with
    | leaf => trivial
    | node p => exact hf _ a s
  | .tryVisit i a next handler, s, h => by
    have h1 : (o.visit f i a s).SameState s := by
      cases o with
      | leaf => trivial
      | node p => exact hf _ a s
    simp only [tAct]
    revert h1
    cases o.visit f i a s with
    | ok r s1 => rintro rfl; exact tAct_same hf o (next r) s1 (h.1 r)
    | exc e s1 => rintro rfl; exact tAct_same hf o handler s1 h.2
    | fault => exact id

theorem tVisitAt_same (hvis : vis.Reads) : ∀ (n : Nat) (l : TLoc) (a : A) (s : TreeSt V), (tVisitAt vis n l a s).SameState s
  | 0, _, _, _ => trivial
  | n + 1, l, a, s => by
    rw [tVisitAt]
    refine SameState.bind (read_same l s) fun v => SameState.bind (tContent_same v s) fun c => ?_
    cases c with
    | dead => trivial
    | leaf b => exact tAct_same (tVisitAt_same hvis n) _ _ s (hvis a v.which b 0)
    | wrap p => exact SameState.bind (tReadNode_same p s) fun m => tAct_same (tVisitAt_same hvis n) _ _ s (hvis _ _ _ _)

/-! ### On trees -/

theorem VForest.SameShape.set : ∀ {f : VForest V} {i : Nat} {t t' : VTree V}, f.get i = some t → t.SameShape t' → (∀ u : VTree V, VTree.SameShape u u) →
    f.SameShape (f.set i t')
  | .nil, _, _, _, h, _, _ => by simp [VForest.get] at h
  | .cons t f, 0, _, _, h, ht, hr => by
    simp only [VForest.get, Option.some.injEq] at h
    subst h
    simp only [VForest.set, VForest.SameShape]
    refine ⟨ht, ?_⟩
    have := hr (.node 0 t.root f)
    rw [VTree.SameShape] at this
    exact this.2
  | .cons t f, i + 1, _, _, h, ht, hr => by
    simp only [VForest.set, VForest.SameShape]
    exact ⟨hr t, SameShape.set (by simpa only [VForest.get] using h) ht hr⟩

mutual
theorem VTree.SameShape.trans : ∀ {t u w : VTree V}, t.SameShape u → u.SameShape w → t.SameShape w
  | .leaf _ _, .leaf _ _, .leaf _ _, h, h' => by simp only [VTree.SameShape] at *; exact h.trans h'
  | .leaf _ _, .leaf _ _, .node _ _ _, _, h' => by simp [VTree.SameShape] at h'
  | .leaf _ _, .node _ _ _, _, h, _ => by simp [VTree.SameShape] at h
  | .node _ _ _, .leaf _ _, _, h, _ => by simp [VTree.SameShape] at h
  | .node _ _ _, .node _ _ _, .leaf _ _, _, h' => by simp [VTree.SameShape] at h'
  | .node _ _ f, .node _ _ f', .node _ _ f'', h, h' => by
    simp only [VTree.SameShape] at *
    exact ⟨h.1.trans h'.1, VForest.SameShape.trans h.2 h'.2⟩
theorem VForest.SameShape.trans : ∀ {f g h : VForest V}, f.SameShape g → g.SameShape h → f.SameShape h
  | .nil, .nil, .nil, _, _ => by simp only [VForest.SameShape]
  | .nil, .nil, .cons _ _, _, h' => by simp [VForest.SameShape] at h'
  | .nil, .cons _ _, _, h, _ => by simp [VForest.SameShape] at h
  | .cons _ _, .nil, _, h, _ => by simp [VForest.SameShape] at h
  | .cons _ _, .cons _ _, .nil, _, h' => by simp [VForest.SameShape] at h'
  | .cons _ _, .cons _ _, .cons _ _, h, h' => by
    simp only [VForest.SameShape] at *
    exact ⟨VTree.SameShape.trans h.1 h'.1, VForest.SameShape.trans h.2 h'.2⟩
end

mutual
theorem VTree.SameShape.rfl' : ∀ t : VTree V, t.SameShape t
  | .leaf _ _ => by simp only [VTree.SameShape]
  | .node _ _ f => by simp only [VTree.SameShape]; exact ⟨trivial, VForest.SameShape.rfl' f⟩
theorem VForest.SameShape.rfl' : ∀ f : VForest V, f.SameShape f
  | .nil => by simp only [VForest.SameShape]
  | .cons t f => by simp only [VForest.SameShape]; exact ⟨VTree.SameShape.rfl' t, VForest.SameShape.rfl' f⟩
end

theorem VTree.SameShape.store (t : VTree V) (v : V) : t.SameShape (t.store v) := by
  cases t with
  | leaf => simp only [VTree.store, VTree.SameShape]
  | node k b f => simp only [VTree.store, VTree.SameShape]; exact ⟨trivial, VForest.SameShape.rfl' f⟩

theorem VTree.SameShape.member {k : TyIx} {b : V} {f : VForest V} {i : Nat} {t t' : VTree V} (h : f.get i = some t) (ht : t.SameShape t') :
    (VTree.node k b f).SameShape (.node k b (f.set i t')) := by
  simp only [VTree.SameShape]
  exact ⟨trivial, VForest.SameShape.set h ht VTree.SameShape.rfl'⟩

theorem VTree.Acts.sameShape {act : VAct V A R} {t u : VTree V} {o : Option R} (h : t.Acts vis act u o) : t.SameShape u := by
  induction h with
  | ret => exact VTree.SameShape.rfl' _
  | throw => exact VTree.SameShape.rfl' _
  | write _ ih => exact (VTree.SameShape.store _ _).trans ih
  | visit h _ _ ih1 ih2 => exact (VTree.SameShape.member h ih1).trans ih2
  | visitThrows h _ ih1 => exact VTree.SameShape.member h ih1
  | tryVisit h _ _ ih1 ih2 => exact (VTree.SameShape.member h ih1).trans ih2
  | tryHandled h _ _ ih1 ih2 => exact (VTree.SameShape.member h ih1).trans ih2

theorem VTree.Acts.unique {act : VAct V A R} {t u : VTree V} {o : Option R} (h : t.Acts vis act u o) :
    ∀ {u' : VTree V} {o' : Option R}, t.Acts vis act u' o' → u' = u ∧ o' = o := by
  induction h with
  | ret => intro _ _ h'; cases h'; exact ⟨rfl, rfl⟩
  | throw => intro _ _ h'; cases h'; exact ⟨rfl, rfl⟩
  | write _ ih => intro _ _ h'; cases h' with | write h' => exact ih h'
  | visit h _ _ ih1 ih2 =>
    intro _ _ h'
    cases h' with
    | visit e h1 h2 =>
      rw [h] at e; cases e
      obtain ⟨rfl, hr⟩ := ih1 h1
      cases hr
      exact ih2 h2
    | visitThrows e h1 => rw [h] at e; cases e; exact absurd (ih1 h1).2 nofun
  | visitThrows h _ ih1 =>
    intro _ _ h'
    cases h' with
    | visit e h1 h2 => rw [h] at e; cases e; exact absurd (ih1 h1).2 nofun
    | visitThrows e h1 => rw [h] at e; cases e; obtain ⟨rfl, -⟩ := ih1 h1; exact ⟨rfl, rfl⟩
  | tryVisit h _ _ ih1 ih2 =>
    intro _ _ h'
    cases h' with
    | tryVisit e h1 h2 =>
      rw [h] at e; cases e
      obtain ⟨rfl, hr⟩ := ih1 h1
      cases hr
      exact ih2 h2
    | tryHandled e h1 => rw [h] at e; cases e; exact absurd (ih1 h1).2 nofun
  | tryHandled h _ _ ih1 ih2 =>
    intro _ _ h'
    cases h' with
    | tryVisit e h1 h2 => rw [h] at e; cases e; exact absurd (ih1 h1).2 nofun
    | tryHandled e h1 h2 => rw [h] at e; cases e; obtain ⟨rfl, -⟩ := ih1 h1; exact ih2 h2

/-- One list of members after another. -/
def VForest.app : VForest V → VForest V → VForest V
  | .nil, g => g
  | .cons t f, g => .cons t (f.app g)

theorem VForest.get_app : ∀ {f g : VForest V} {t : VTree V}, (f.app (.cons t g)).get f.size = some t
  | .nil, _, _ => rfl
  | .cons _ f, _, _ => get_app (f := f)

theorem VForest.set_app : ∀ {f g : VForest V} {t u : VTree V}, (f.app (.cons t g)).set f.size u = f.app (.cons u g)
  | .nil, _, _, _ => rfl
  | .cons _ f, _, _, _ => congrArg (VForest.cons _) (set_app (f := f))

theorem VForest.app_snoc : ∀ {f g : VForest V} {t : VTree V}, f.app (.cons t g) = (f.app (.cons t .nil)).app g
  | .nil, _, _ => rfl
  | .cons _ f, _, _ => congrArg (VForest.cons _) (app_snoc (f := f))

theorem VForest.size_snoc : ∀ {f : VForest V} {t : VTree V}, (f.app (.cons t .nil)).size = f.size + 1
  | .nil, _ => rfl
  | .cons _ f, _ => by simp only [VForest.app, VForest.size, size_snoc (f := f)]

theorem VForest.app_nil : ∀ {f : VForest V}, f.app .nil = f
  | .nil => rfl
  | .cons _ f => congrArg (VForest.cons _) (app_nil (f := f))

mutual
theorem VTree.fold_visited (F : TyIx → V → List R → R) : ∀ t : VTree V, t.Visited (foldVisitor F) () t (some (t.fold F))
  | .leaf k v => by
    show VTree.Acts _ (visitAll 0 () [] 0 _) _ _ _
    rw [VTree.fold]
    exact .ret
  | .node k v g => by
    show VTree.Acts _ (visitAll g.size () [] 0 _) _ _ _
    rw [VTree.fold]
    exact VForest.fold_acts F g (pre := .nil) .ret
theorem VForest.fold_acts (F : TyIx → V → List R → R) : ∀ (g : VForest V) {pre : VForest V} {k : TyIx} {v : V} {acc : List R}
    {next : List R → VAct V Unit R} {u : VTree V} {o : Option R},
    (VTree.node k v (pre.app g)).Acts (foldVisitor F) (next (acc.reverse ++ g.foldAll F)) u o →
    (VTree.node k v (pre.app g)).Acts (foldVisitor F) (visitAll g.size () acc pre.size next) u o
  | .nil, pre, k, v, acc, next, u, o, h => by
    rw [VForest.foldAll, List.append_nil] at h
    exact h
  | .cons t g, pre, k, v, acc, next, u, o, h => by
    refine VTree.Acts.visit VForest.get_app (VTree.fold_visited F t) ?_
    rw [VForest.set_app]
    have h' := VForest.fold_acts F g (pre := pre.app (.cons t .nil)) (k := k) (v := v) (acc := t.fold F :: acc) (next := next) (u := u) (o := o)
    rw [← VForest.app_snoc, VForest.size_snoc] at h'
    refine h' ?_
    rw [VForest.foldAll] at h
    rw [List.reverse_cons, List.append_assoc]
    exact h
end

mutual
theorem VTree.map_visited (F : TyIx → V → V) : ∀ t : VTree V, t.Visited (mapVisitor F) () (t.mapAll F) (some ())
  | .leaf k v => by
    show VTree.Acts _ (.write _ (visitAll 0 () [] 0 _)) _ _ _
    rw [VTree.mapAll]
    exact .write .ret
  | .node k v g => by
    show VTree.Acts _ (.write _ (visitAll g.size () [] 0 _)) _ _ _
    rw [VTree.mapAll]
    exact .write (VForest.map_acts F g (pre := .nil) .ret)
theorem VForest.map_acts (F : TyIx → V → V) : ∀ (g : VForest V) {pre : VForest V} {k : TyIx} {v : V} {acc : List Unit}
    {u : VTree V} {o : Option Unit},
    (VTree.node k v (pre.app (g.mapAll F))).Acts (mapVisitor F) (.ret ()) u o →
    (VTree.node k v (pre.app g)).Acts (mapVisitor F) (visitAll g.size () acc pre.size fun _ => .ret ()) u o
  | .nil, pre, k, v, acc, u, o, h => by
    rw [VForest.mapAll] at h
    exact h
  | .cons t g, pre, k, v, acc, u, o, h => by
    refine VTree.Acts.visit VForest.get_app (VTree.map_visited F t) ?_
    rw [VForest.set_app]
    have h' := VForest.map_acts F g (pre := pre.app (.cons (t.mapAll F) .nil)) (k := k) (v := v) (acc := () :: acc) (u := u) (o := o)
    rw [← VForest.app_snoc, ← VForest.app_snoc, VForest.size_snoc] at h'
    refine h' ?_
    rw [VForest.mapAll] at h
    exact h
end

theorem visitAll_within {m : Nat} {a : A} {next : List R → VAct V A R} (hn : ∀ rs, (next rs).Within m) : ∀ {r i : Nat} {acc : List R}, i + r = m →
    (visitAll r a acc i next).Within m
  | 0, _, _, _ => hn _
  | r + 1, i, _, h => ⟨by omega, fun _ => visitAll_within hn (by omega)⟩

theorem foldVisitor_within (F : TyIx → V → List R → R) : (foldVisitor F).Within := fun _ _ _ _ => visitAll_within (fun _ => by simp only [VAct.Within]) (by omega)

theorem mapVisitor_within (F : TyIx → V → V) : (mapVisitor F).Within := fun _ _ _ _ => visitAll_within (fun _ => by simp only [VAct.Within]) (by omega)

theorem visitAll_reads {a : A} {next : List R → VAct V A R} (hn : ∀ rs, (next rs).Reads) : ∀ {r i : Nat} {acc : List R}, (visitAll r a acc i next).Reads
  | 0, _, _ => hn _
  | _ + 1, _, _ => fun _ => visitAll_reads hn

theorem foldVisitor_reads (F : TyIx → V → List R → R) : (foldVisitor F).Reads := fun _ _ _ _ => visitAll_reads fun _ => by simp only [VAct.Reads]

end

end BVariant
