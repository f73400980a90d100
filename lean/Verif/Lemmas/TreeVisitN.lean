/-
Lemmas on recursive visitors of several variants (C82).
-/
import Verif.Lemmas.TreeVisit
import Verif.Spec.TreeVisitN

namespace BVariant

section
variable {V A R : Type} {vis : NVisitor V A R} {s s' : TreeSt V} {α β : AStore V} {σ σ' : TStore V} {x y : TPlace} {n : Nat}

open ATree AStore

/-! ### Objects at places -/

/-- What a visitor gets for a variant. -/
def ATree.obj (l : TLoc) : ATree V → Option VObj
  | .leaf k v b => some (.leaf ((ATree.leaf k v b).var.ref l) k)
  | .node _ _ p _ _ => some (.node p)
  | _ => none

/-- Another value at the root. -/
def ATree.store (w : V) : ATree V → ATree V
  | .leaf k _ b => .leaf k w b
  | .node k _ p f b => .node k w p f b
  | t => t

theorem obj_store (l : TLoc) (w : V) (T : ATree V) : (T.store w).obj l = T.obj l := by
  cases T with
  | leaf k v b => cases b <;> rfl
  | _ => rfl

theorem blocks_store (w : V) (T : ATree V) : (T.store w).blocks = T.blocks := by
  cases T <;> simp only [ATree.store, blocks]

theorem is_store {T : ATree V} {t : VTree V} (w : V) (h : T.Is t) : (T.store w).Is (t.store w) := by
  cases T <;> cases t <;> simp_all [ATree.Is, ATree.store, VTree.store]

theorem walk_put_store {w : V} : ∀ {is : List Nat} {T U : ATree V} {l l' : TLoc}, T.walk l is = some (l', U) →
    ∀ {js : List Nat} {l2 : TLoc} {W : ATree V}, T.walk l js = some (l2, W) →
      ∃ W', (T.put is (U.store w)).walk l js = some (l2, W') ∧ W'.obj l2 = W.obj l2
  | [], T, U, l, l', h, [], l2, W, hw => by
    rw [walk_nil] at h hw
    cases h; cases hw
    exact ⟨_, by rw [put_nil, walk_nil], obj_store _ w T⟩
  | [], T, U, l, l', h, j :: js, l2, W, hw => by
    rw [walk_nil] at h
    cases h
    obtain ⟨k, a, p, f, b, u, rfl, hu, hw⟩ := walk_cons hw
    exact ⟨W, by rw [put_nil]; simp only [ATree.store, ATree.walk, hu, hw], rfl⟩
  | i :: is, T, U, l, l', h, [], l2, W, hw => by
    obtain ⟨k, a, p, f, b, u, rfl, hu, h⟩ := walk_cons h
    rw [walk_nil] at hw
    cases hw
    exact ⟨_, walk_nil _ _, by simp only [ATree.put, hu, ATree.obj]⟩
  | i :: is, T, U, l, l', h, j :: js, l2, W, hw => by
    obtain ⟨k, a, p, f, b, u, rfl, hu, h⟩ := walk_cons h
    simp only [ATree.walk] at hw
    simp only [ATree.put, hu, ATree.walk]
    by_cases hij : i = j
    · subst hij
      rw [hu] at hw
      obtain ⟨W', g1, g2⟩ := walk_put_store (w := w) h hw
      have hi : i < f.length := (List.getElem?_eq_some_iff.mp hu).1
      refine ⟨W', ?_, g2⟩
      simp only [List.getElem?_set_self hi, g1]
    · rw [List.getElem?_set_ne hij]
      exact ⟨W, hw, rfl⟩

/-- The visitor has the object `o` for the variant at the place. -/
def ObjAt (α : AStore V) (y : TPlace) (o : VObj) : Prop := ∃ l T, At α y l T ∧ T.obj l = some o

theorem ObjAt.store {l : TLoc} {T : ATree V} {o : VObj} (w : V) (hx : At α x l T) (h : ObjAt α y o) : ObjAt (α.put x (T.store w)) y o := by
  obtain ⟨l2, W, ⟨Y, h1, h2⟩, h3⟩ := h
  obtain ⟨X, h4, h5⟩ := hx
  by_cases hv : y.var = x.var
  · rw [← hv] at h4 h5
    rw [h1] at h4; cases h4
    obtain ⟨W', g1, g2⟩ := walk_put_store (w := w) h5 h2
    exact ⟨l2, W', ⟨_, by simp only [AStore.put, ← hv, h1, upd_same, Option.map_some], g1⟩, g2.trans h3⟩
  · exact ⟨l2, W, ⟨Y, by simp only [AStore.put, upd, hv, if_false]; exact h1, h2⟩, h3⟩

def ObjsAt (α : AStore V) : List TPlace → List VObj → Prop
  | [], [] => True
  | y :: ys, o :: os => ObjAt α y o ∧ ObjsAt α ys os
  | _, _ => False

theorem ObjsAt.get : ∀ {ys : List TPlace} {os : List VObj}, ObjsAt α ys os → ∀ {i : Nat}, ys[i]? = some y → ∃ o, os[i]? = some o ∧ ObjAt α y o
  | [], [], _, i, h => by simp at h
  | [], _ :: _, h, _, _ => h.elim
  | _ :: _, [], h, _, _ => h.elim
  | z :: ys, o :: os, h, 0, hi => by
    simp only [List.getElem?_cons_zero, Option.some.injEq] at hi
    subst hi
    exact ⟨o, rfl, h.1⟩
  | z :: ys, o :: os, h, i + 1, hi => by
    simp only [List.getElem?_cons_succ] at hi ⊢
    exact ObjsAt.get h.2 hi

/-- Objects stay where they are, and variables keep their blocks. -/
def ObjsStay (α β : AStore V) : Prop := (∀ y o, ObjAt α y o → ObjAt β y o) ∧ ∀ z, blocksO (β z) = blocksO (α z)

theorem ObjsStay.rfl' : ObjsStay α α := ⟨fun _ _ h => h, fun _ => rfl⟩

theorem ObjsStay.trans {γ : AStore V} (h : ObjsStay α β) (h' : ObjsStay β γ) : ObjsStay α γ :=
  ⟨fun y o g => h'.1 y o (h.1 y o g), fun z => (h'.2 z).trans (h.2 z)⟩

theorem ObjsStay.objs (h : ObjsStay α β) : ∀ {ys : List TPlace} {os : List VObj}, ObjsAt α ys os → ObjsAt β ys os
  | [], [], _ => trivial
  | [], _ :: _, g => g.elim
  | _ :: _, [], g => g.elim
  | _ :: _, _ :: _, g => ⟨h.1 _ _ g.1, ObjsStay.objs h g.2⟩

theorem ObjsStay.store {l : TLoc} {T : ATree V} (w : V) (hx : At α x l T) : ObjsStay α (α.put x (T.store w)) :=
  ⟨fun _ _ h => h.store w hx, fun z => hx.put_blocks (blocks_store w T) z⟩

/-! ### Reading and writing -/

theorem objGet_run {o : VObj} {t : VTree V} (hM : Mem s α []) (hS : IsS α σ) (ho : ObjAt α y o) (ht : σ.at y = some t) : o.get s = .ok t.root s := by
  obtain ⟨l, T, hx, h1⟩ := ho
  obtain ⟨u, h2, hT⟩ := hS.at hx
  rw [ht] at h2; cases h2
  obtain ⟨-, h3, h4⟩ := hM.at_run hx
  have h5 := ref_read h3 h4
  cases T with
  | leaf k v b =>
    cases t with
    | node => simp [ATree.Is] at hT
    | leaf k' v' =>
      rw [ATree.Is] at hT
      obtain ⟨rfl, rfl⟩ := hT
      simp only [ATree.obj, Option.some.injEq] at h1
      subst h1
      simp only [VObj.get, bind, Eff.bind, h5, content, pure, Eff.pure, VTree.root]
  | node k v p F b =>
    cases t with
    | leaf => simp [ATree.Is] at hT
    | node k' v' g =>
      rw [ATree.Is] at hT
      obtain ⟨rfl, rfl, -⟩ := hT
      simp only [ATree.obj, Option.some.injEq] at h1
      subst h1
      rw [ATree.Holds] at h4
      simp only [VObj.get, bind, Eff.bind, tReadNode, h4.2.1, pure, Eff.pure, VTree.root]
  | dead => simp [ATree.Is] at hT
  | blk => simp [ATree.Is] at hT

theorem objWrite_run {o : VObj} {t : VTree V} (w : V) (hM : Mem s α []) (hS : IsS α σ) (ho : ObjAt α y o) (ht : σ.at y = some t) :
    ∃ s' β, o.write w s = .ok () s' ∧ Mem s' β [] ∧ IsS β (σ.put y (t.store w)) ∧ ObjsStay α β ∧ s'.tick = s.tick ∧ s'.allocs = s.allocs := by
  obtain ⟨l, T, hx, h1⟩ := ho
  obtain ⟨u, h2, hT⟩ := hS.at hx
  rw [ht] at h2; cases h2
  have hk := ObjsStay.store w hx
  have hi : IsS (α.put y (T.store w)) (σ.put y (t.store w)) := hS.put (is_store w hT)
  cases T with
  | leaf k v b =>
    simp only [ATree.obj, Option.some.injEq] at h1
    subst h1
    obtain ⟨s1, g1, g2, g3, g4⟩ := hM.setLeaf w hx
    exact ⟨s1, _, g1, g2, hi, hk, g3, g4⟩
  | node k v p F b =>
    simp only [ATree.obj, Option.some.injEq] at h1
    subst h1
    have h5 := (hM.at_run hx).2.2
    rw [ATree.Holds] at h5
    obtain ⟨s1, g1, g2, g3, g4, _⟩ := hM.setNode (a' := w) (f' := F) (G' := []) hx h5.2.2 trivial fun _ => rfl
    refine ⟨s1, _, ?_, g2, hi, hk, g3, g4⟩
    simp only [VObj.write, bind, Eff.bind, tReadNode, h5.2.1, g1]
  | dead => simp [ATree.Is] at hT
  | blk => simp [ATree.Is] at hT

theorem select_run {ys : List TPlace} {os : List VObj} {z : VSel} {t : VTree V} (hM : Mem s α []) (hS : IsS α σ) (ho : ObjsAt α ys os)
    (hz : z.place ys = some y) (ht : σ.at y = some t) : ∃ l T, tSelect os z s = .ok l s ∧ At α y l T ∧ T.Is t := by
  obtain ⟨l, T, hy⟩ := (hS.at_iff (t := y)).mp (by rw [ht]; nofun)
  obtain ⟨u, h2, hT⟩ := hS.at hy
  rw [ht] at h2; cases h2
  refine ⟨l, T, ?_, hy, hT⟩
  cases z with
  | «at» x =>
    simp only [VSel.place, Option.some.injEq] at hz
    subst hz
    exact (hM.at_run hy).1
  | member o i =>
    simp only [VSel.place] at hz
    obtain ⟨y0, h3, rfl⟩ := Option.map_eq_some_iff.mp hz
    obtain ⟨ob, h4, l0, T0, ⟨Y, h5, h6⟩, h7⟩ := ho.get h3
    obtain ⟨Y', h8, h9⟩ := hy
    simp only [TPlace.member] at h8 h9
    rw [h5] at h8; cases h8
    rw [walk_append, h6] at h9
    simp only [Option.bind_some] at h9
    obtain ⟨k, a, p, f, b, u, rfl, hu, h9⟩ := walk_cons h9
    rw [walk_nil] at h9
    cases h9
    simp only [ATree.obj, Option.some.injEq] at h7
    subst h7
    simp only [tSelect, h4, pure, Eff.pure]

theorem operand_run {l : TLoc} {T : ATree V} {t : VTree V} (hM : Mem s α []) (hy : At α y l T) (hT : T.Is t) :
    ∃ o, tOperand l s = .ok (o, (t.which, t.root, t.arity)) s ∧ ObjAt α y o := by
  obtain ⟨-, h3, h4⟩ := hM.at_run hy
  have h5 := tContent_run h4
  cases T with
  | leaf k v b =>
    cases t with
    | node => simp [ATree.Is] at hT
    | leaf k' v' =>
      rw [ATree.Is] at hT
      obtain ⟨rfl, rfl⟩ := hT
      refine ⟨_, ?_, l, _, hy, rfl⟩
      simp only [content] at h5
      simp only [tOperand, bind, Eff.bind, h3, h5, var_which, pure, Eff.pure, ATree.which, VTree.which, VTree.root, VTree.arity]
  | node k v p F b =>
    cases t with
    | leaf => simp [ATree.Is] at hT
    | node k' v' g =>
      rw [ATree.Is] at hT
      obtain ⟨rfl, rfl, hF⟩ := hT
      refine ⟨_, ?_, l, _, hy, rfl⟩
      rw [ATree.Holds] at h4
      simp only [content] at h5
      simp only [tOperand, bind, Eff.bind, h3, h5, var_which, tReadNode, h4.2.1, List.length_map, isL_length hF, pure, Eff.pure, ATree.which, VTree.which, VTree.root, VTree.arity]
  | dead => simp [ATree.Is] at hT
  | blk => simp [ATree.Is] at hT

theorem operands_run {ys : List TPlace} {os : List VObj} (hM : Mem s α []) (hS : IsS α σ) (ho : ObjsAt α ys os) :
    ∀ {sel : List VSel} {ys' : List TPlace} {rs : List (TyIx × V × Nat)}, selPlaces ys sel = some ys' → σ.operands ys' = some rs →
      ∃ ls cs, tSelects os sel s = .ok ls s ∧ tOperands ls s = .ok cs s ∧ ObjsAt α ys' (cs.map (·.1)) ∧ cs.map (·.2) = rs
  | [], ys', rs, h, h' => by
    simp only [selPlaces, Option.some.injEq] at h
    subst h
    simp only [TStore.operands, Option.some.injEq] at h'
    subst h'
    exact ⟨[], [], rfl, rfl, trivial, rfl⟩
  | z :: zs, ys', rs, h, h' => by
    simp only [selPlaces] at h
    cases h1 : z.place ys with
    | none => rw [h1] at h; cases h
    | some y =>
      cases h2 : selPlaces ys zs with
      | none => rw [h1, h2] at h; cases h
      | some yr =>
        rw [h1, h2] at h; cases h
        simp only [TStore.operands] at h'
        cases h3 : σ.at y with
        | none => rw [h3] at h'; cases h'
        | some t =>
          cases h4 : σ.operands yr with
          | none => rw [h3, h4] at h'; cases h'
          | some rr =>
            rw [h3, h4] at h'; cases h'
            obtain ⟨l, T, g1, g2, g3⟩ := select_run hM hS ho h1 h3
            obtain ⟨o, g4, g5⟩ := operand_run hM g2 g3
            obtain ⟨ls, cs, g6, g7, g8, g9⟩ := operands_run hM hS ho h2 h4
            refine ⟨l :: ls, (o, (t.which, t.root, t.arity)) :: cs, ?_, ?_, ⟨g5, g8⟩, by rw [List.map_cons, g9]⟩
            · simp only [tSelects, bind, Eff.bind, g1, g6, pure, Eff.pure]
            · simp only [tOperands, bind, Eff.bind, g4, g7, pure, Eff.pure]

/-- What the visitor does in memory is what it does with plain trees. -/
theorem ActsN.run {d : Nat} {ys : List TPlace} {act : VActN V A R} {o : Option R} (h : ActsN vis d ys act σ σ' o) :
    ∀ {s : TreeSt V} {α : AStore V} {os : List VObj}, Mem s α [] → IsS α σ → ObjsAt α ys os →
      ∃ s' β, tActN (tVisitN vis d os) os act s = visitRes s.tick o s' ∧ Mem s' β [] ∧ IsS β σ' ∧ ObjsStay α β ∧ s'.tick = s.tick ∧
        s'.allocs = s.allocs := by
  induction h with
  | ret => intro s α os hM hS _; exact ⟨s, α, rfl, hM, hS, ObjsStay.rfl', rfl, rfl⟩
  | throw => intro s α os hM hS _; exact ⟨s, α, rfl, hM, hS, ObjsStay.rfl', rfl, rfl⟩
  | read h1 h2 _ ih =>
    intro s α os hM hS ho
    obtain ⟨ob, g1, g2⟩ := ho.get h1
    obtain ⟨s', β, g3, g4, g5, g6, g7, g8⟩ := ih hM hS ho
    refine ⟨s', β, ?_, g4, g5, g6, g7, g8⟩
    simp only [tActN, tArg, g1, bind, Eff.bind, pure, Eff.pure, objGet_run hM hS g2 h2]
    exact g3
  | write h1 h2 _ ih =>
    intro s α os hM hS ho
    obtain ⟨ob, g1, g2⟩ := ho.get h1
    obtain ⟨s1, γ, k1, k2, k3, k4, k5, k6⟩ := objWrite_run _ hM hS g2 h2
    obtain ⟨s', β, g3, g4, g5, g6, g7, g8⟩ := ih k2 k3 (k4.objs ho)
    refine ⟨s', β, ?_, g4, g5, k4.trans g6, g7.trans k5, g8.trans k6⟩
    rw [k5] at g3
    simp only [tActN, tArg, g1, bind, Eff.bind, pure, Eff.pure, k1]
    exact g3
  | visit h1 h2 _ _ ih1 ih2 =>
    intro s α os hM hS ho
    obtain ⟨ls, cs, k1, k2, k3, k4⟩ := operands_run hM hS ho h1 h2
    obtain ⟨s1, γ, e1, e2, e3, e4, e5, e6⟩ := ih1 hM hS k3
    obtain ⟨s', β, g3, g4, g5, g6, g7, g8⟩ := ih2 e2 e3 (e4.objs ho)
    refine ⟨s', β, ?_, g4, g5, e4.trans g6, g7.trans e5, g8.trans e6⟩
    rw [e5] at g3
    simp only [tActN, bind, Eff.bind, tVisitN, k1, k2, k4, e1, visitRes]
    exact g3
  | visitThrows h1 h2 _ ih1 =>
    intro s α os hM hS ho
    obtain ⟨ls, cs, k1, k2, k3, k4⟩ := operands_run hM hS ho h1 h2
    obtain ⟨s1, γ, e1, e2, e3, e4, e5, e6⟩ := ih1 hM hS k3
    refine ⟨s1, γ, ?_, e2, e3, e4, e5, e6⟩
    simp only [tActN, bind, Eff.bind, tVisitN, k1, k2, k4, e1, visitRes]
  | tryVisit h1 h2 _ _ ih1 ih2 =>
    intro s α os hM hS ho
    obtain ⟨ls, cs, k1, k2, k3, k4⟩ := operands_run hM hS ho h1 h2
    obtain ⟨s1, γ, e1, e2, e3, e4, e5, e6⟩ := ih1 hM hS k3
    obtain ⟨s', β, g3, g4, g5, g6, g7, g8⟩ := ih2 e2 e3 (e4.objs ho)
    refine ⟨s', β, ?_, g4, g5, e4.trans g6, g7.trans e5, g8.trans e6⟩
    rw [e5] at g3
    simp only [tActN, bind, Eff.bind, tVisitN, k1, k2, k4, e1, visitRes]
    exact g3
  | tryHandled h1 h2 _ _ ih1 ih2 =>
    intro s α os hM hS ho
    obtain ⟨ls, cs, k1, k2, k3, k4⟩ := operands_run hM hS ho h1 h2
    obtain ⟨s1, γ, e1, e2, e3, e4, e5, e6⟩ := ih1 hM hS k3
    obtain ⟨s', β, g3, g4, g5, g6, g7, g8⟩ := ih2 e2 e3 (e4.objs ho)
    refine ⟨s', β, ?_, g4, g5, e4.trans g6, g7.trans e5, g8.trans e6⟩
    rw [e5] at g3
    simp only [tActN, bind, Eff.bind, tVisitN, k1, k2, k4, e1, visitRes]
    exact g3

end

end BVariant
