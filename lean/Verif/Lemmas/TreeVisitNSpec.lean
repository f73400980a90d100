/-
Recursive visitors of several variants on plain trees (C82): determinism, recursion that ends, comparison.
-/
import Verif.Lemmas.TreeVisitN
import Verif.Lemmas.TreeExchange

namespace BVariant

section
variable {V A R : Type} {vis : NVisitor V A R} {s s' : TreeSt V} {σ σ' τ : TStore V} {x y : TPlace} {n : Nat}

/-! ### Nested calls -/

theorem ActsN.mono {d : Nat} {ys : List TPlace} {act : VActN V A R} {o : Option R} (h : ActsN vis d ys act σ σ' o) :
    ∀ {d' : Nat}, d ≤ d' → ActsN vis d' ys act σ σ' o := by
  induction h with
  | ret => intro _ _; exact .ret
  | throw => intro _ _; exact .throw
  | read h1 h2 _ ih => intro _ h; exact .read h1 h2 (ih h)
  | write h1 h2 _ ih => intro _ h; exact .write h1 h2 (ih h)
  | visit h1 h2 _ _ ih1 ih2 =>
    intro d' h
    cases d' with
    | zero => omega
    | succ d' => exact .visit h1 h2 (ih1 (by omega)) (ih2 h)
  | visitThrows h1 h2 _ ih1 =>
    intro d' h
    cases d' with
    | zero => omega
    | succ d' => exact .visitThrows h1 h2 (ih1 (by omega))
  | tryVisit h1 h2 _ _ ih1 ih2 =>
    intro d' h
    cases d' with
    | zero => omega
    | succ d' => exact .tryVisit h1 h2 (ih1 (by omega)) (ih2 h)
  | tryHandled h1 h2 _ _ ih1 ih2 =>
    intro d' h
    cases d' with
    | zero => omega
    | succ d' => exact .tryHandled h1 h2 (ih1 (by omega)) (ih2 h)

theorem ActsN.unique {d : Nat} {ys : List TPlace} {act : VActN V A R} {o : Option R} (h : ActsN vis d ys act σ σ' o) :
    ∀ {d' : Nat} {τ : TStore V} {o' : Option R}, ActsN vis d' ys act σ τ o' → τ = σ' ∧ o' = o := by
  induction h with
  | ret => intro _ _ _ h'; cases h'; exact ⟨rfl, rfl⟩
  | throw => intro _ _ _ h'; cases h'; exact ⟨rfl, rfl⟩
  | read h1 h2 _ ih =>
    intro _ _ _ h'
    cases h' with
    | read g1 g2 g3 =>
      rw [h1] at g1; cases g1
      rw [h2] at g2; cases g2
      exact ih g3
  | write h1 h2 _ ih =>
    intro _ _ _ h'
    cases h' with
    | write g1 g2 g3 =>
      rw [h1] at g1; cases g1
      rw [h2] at g2; cases g2
      exact ih g3
  | visit h1 h2 _ _ ih1 ih2 =>
    intro _ _ _ h'
    cases h' with
    | visit g1 g2 g3 g4 =>
      rw [h1] at g1; cases g1
      rw [h2] at g2; cases g2
      obtain ⟨rfl, hr⟩ := ih1 g3
      cases hr
      exact ih2 g4
    | visitThrows g1 g2 g3 =>
      rw [h1] at g1; cases g1
      rw [h2] at g2; cases g2
      exact absurd (ih1 g3).2 nofun
  | visitThrows h1 h2 _ ih1 =>
    intro _ _ _ h'
    cases h' with
    | visit g1 g2 g3 g4 =>
      rw [h1] at g1; cases g1
      rw [h2] at g2; cases g2
      exact absurd (ih1 g3).2 nofun
    | visitThrows g1 g2 g3 =>
      rw [h1] at g1; cases g1
      rw [h2] at g2; cases g2
      exact ⟨(ih1 g3).1, rfl⟩
  | tryVisit h1 h2 _ _ ih1 ih2 =>
    intro _ _ _ h'
    cases h' with
    | tryVisit g1 g2 g3 g4 =>
      rw [h1] at g1; cases g1
      rw [h2] at g2; cases g2
      obtain ⟨rfl, hr⟩ := ih1 g3
      cases hr
      exact ih2 g4
    | tryHandled g1 g2 g3 =>
      rw [h1] at g1; cases g1
      rw [h2] at g2; cases g2
      exact absurd (ih1 g3).2 nofun
  | tryHandled h1 h2 _ _ ih1 ih2 =>
    intro _ _ _ h'
    cases h' with
    | tryVisit g1 g2 g3 g4 =>
      rw [h1] at g1; cases g1
      rw [h2] at g2; cases g2
      exact absurd (ih1 g3).2 nofun
    | tryHandled g1 g2 g3 g4 =>
      rw [h1] at g1; cases g1
      rw [h2] at g2; cases g2
      obtain ⟨rfl, -⟩ := ih1 g3
      exact ih2 g4

/-! ### Types and members stay -/

theorem sub_put_store (w : V) : ∀ {is : List Nat} {t u : VTree V}, t.sub is = some u → ∀ js,
    ((t.put is (u.store w)).sub js).map (fun z => (z.which, z.arity)) = (t.sub js).map (fun z => (z.which, z.arity))
  | [], t, u, h, js => by
    rw [VTree.sub_nil] at h
    cases h
    have hp : t.put [] (t.store w) = t.store w := by cases t <;> rfl
    rw [hp]
    cases js with
    | nil => rw [VTree.sub_nil, VTree.sub_nil]; cases t <;> rfl
    | cons j js => cases t <;> rfl
  | i :: is, .leaf _ _, u, h, js => by simp [VTree.sub] at h
  | i :: is, .node k a f, u, h, js => by
    simp only [VTree.sub] at h
    cases hf : f.get i with
    | none => rw [hf] at h; cases h
    | some t =>
      rw [hf] at h
      simp only [VTree.put, hf]
      cases js with
      | nil => simp only [VTree.sub_nil, Option.map_some, VTree.which, VTree.arity, VForest.size_set]
      | cons j js =>
        simp only [VTree.sub]
        by_cases hij : i = j
        · subst hij
          rw [VForest.get_set_same hf, hf]
          exact sub_put_store w h js
        · rw [VForest.get_set_ne hij]

theorem alike_store {t : VTree V} (w : V) (h : σ.at x = some t) : σ.Alike (σ.put x (t.store w)) := by
  intro y
  unfold TStore.at at h ⊢
  unfold TStore.put
  cases hs : σ x.var with
  | none => rw [hs] at h; cases h
  | some T =>
    rw [hs] at h
    by_cases hv : y.var = x.var
    · rw [hv, upd_same, hs]
      exact sub_put_store w h y.path
    · simp only [upd, hv, if_false]

theorem TStore.Alike.rfl' : σ.Alike σ := fun _ => rfl

theorem TStore.Alike.trans (h : σ.Alike σ') (h' : σ'.Alike τ) : σ.Alike τ := fun y => (h' y).trans (h y)

theorem ActsN.alike {d : Nat} {ys : List TPlace} {act : VActN V A R} {o : Option R} (h : ActsN vis d ys act σ σ' o) : σ.Alike σ' := by
  induction h with
  | ret => exact .rfl'
  | throw => exact .rfl'
  | read _ _ _ ih => exact ih
  | write _ h2 _ ih => exact (alike_store _ h2).trans ih
  | visit _ _ _ _ ih1 ih2 => exact ih1.trans ih2
  | visitThrows _ _ _ ih1 => exact ih1
  | tryVisit _ _ _ _ ih1 ih2 => exact ih1.trans ih2
  | tryHandled _ _ _ _ ih1 ih2 => exact ih1.trans ih2

theorem ActsN.reads {d : Nat} {ys : List TPlace} {act : VActN V A R} {o : Option R} (hv : vis.Reads) (h : ActsN vis d ys act σ σ' o) :
    act.Reads → σ' = σ := by
  induction h with
  | ret => exact fun _ => rfl
  | throw => exact fun _ => rfl
  | read _ _ _ ih => exact fun h => ih (h _)
  | write => exact fun h => h.elim
  | visit _ _ _ _ ih1 ih2 => exact fun h => (ih2 (h _)).trans (ih1 (hv _ _))
  | visitThrows _ _ _ ih1 => exact fun _ => ih1 (hv _ _)
  | tryVisit _ _ _ _ ih1 ih2 => exact fun h => (ih2 (h.1 _)).trans (ih1 (hv _ _))
  | tryHandled _ _ _ _ ih1 ih2 => exact fun h => (ih2 h.2).trans (ih1 (hv _ _))

/-! ### Recursion that ends -/

theorem operands_alike (h : σ.Alike τ) : ∀ {ys : List TPlace}, (∀ y ∈ ys, σ.at y ≠ none) →
    ∃ os os', σ.operands ys = some os ∧ τ.operands ys = some os' ∧ os'.map (fun z => (z.1, z.2.2)) = os.map (fun z => (z.1, z.2.2))
  | [], _ => ⟨[], [], rfl, rfl, rfl⟩
  | y :: ys, hy => by
    obtain ⟨os, os', h1, h2, h3⟩ := operands_alike h (ys := ys) fun z hz => hy z (List.mem_cons_of_mem _ hz)
    have ha := h y
    cases e : σ.at y with
    | none => exact absurd e (hy y List.mem_cons_self)
    | some t =>
      cases e' : τ.at y with
      | none => rw [e, e'] at ha; cases ha
      | some t' =>
        rw [e, e'] at ha
        simp only [Option.map_some, Option.some.injEq, Prod.mk.injEq] at ha
        refine ⟨(t.which, t.root, t.arity) :: os, (t'.which, t'.root, t'.arity) :: os', by simp only [TStore.operands, e, h1],
          by simp only [TStore.operands, e', h2], ?_⟩
        simp only [List.map_cons, h3, ha.1, ha.2]

theorem NVisitor.Ends.acts {μ : A → List TPlace → Nat} (hv : vis.Ends σ μ) : ∀ (m : Nat) (act : VActN V A R) (ys : List TPlace) (τ : TStore V),
    σ.Alike τ → (∀ y ∈ ys, σ.at y ≠ none) → act.Ends σ μ m ys → ∃ τ' o, ActsN vis m ys act τ τ' o := by
  intro m
  induction m using Nat.strongRecOn with
  | ind m ihm =>
    have harg : ∀ {o : Nat} {ys : List TPlace} {τ : TStore V}, σ.Alike τ → (∀ y ∈ ys, σ.at y ≠ none) → o < ys.length →
        ∃ y t, ys[o]? = some y ∧ τ.at y = some t := by
      intro o ys τ ha hy ho
      have h1 : ys[o]? = some ys[o] := List.getElem?_eq_getElem ho
      have h2 := hy _ (List.getElem_mem ho)
      have h3 := ha ys[o]
      cases e : τ.at ys[o] with
      | none =>
        rw [e] at h3
        cases e' : σ.at ys[o] with
        | none => exact absurd e' h2
        | some t => rw [e'] at h3; cases h3
      | some t => exact ⟨_, t, h1, e⟩
    have hcall : ∀ {ys : List TPlace} {τ : TStore V} {sel : List VSel} {a : A}, σ.Alike τ →
        (∃ ys', selPlaces ys sel = some ys' ∧ (∀ y ∈ ys', σ.at y ≠ none) ∧ μ a ys' < m) →
        ∃ d ys' os τ' o, m = d + 1 ∧ selPlaces ys sel = some ys' ∧ τ.operands ys' = some os ∧ ActsN vis d ys' (vis a os) τ τ' o := by
      intro ys τ sel a ha ⟨ys', h1, h2, h3⟩
      obtain ⟨os, os', g1, g2, g3⟩ := operands_alike ha h2
      obtain ⟨τ', o, g4⟩ := ihm _ h3 (vis a os') ys' τ ha h2 (hv a ys' os os' g1 g3)
      exact ⟨m - 1, ys', os', τ', o, by omega, h1, g2, g4.mono (by omega)⟩
    intro act
    induction act with
    | ret r => intro ys τ _ _ _; exact ⟨τ, _, .ret⟩
    | throw => intro ys τ _ _ _; exact ⟨τ, _, .throw⟩
    | read o next ih =>
      intro ys τ ha hy he
      obtain ⟨y, t, h1, h2⟩ := harg ha hy he.1
      obtain ⟨τ', r, h3⟩ := ih t.root ys τ ha hy (he.2 _)
      exact ⟨τ', r, .read h1 h2 h3⟩
    | write o v next ih =>
      intro ys τ ha hy he
      obtain ⟨y, t, h1, h2⟩ := harg ha hy he.1
      obtain ⟨τ', r, h3⟩ := ih ys _ (ha.trans (alike_store v h2)) hy he.2
      exact ⟨τ', r, .write h1 h2 h3⟩
    | visit sel a next ih =>
      intro ys τ ha hy he
      obtain ⟨d, ys', os, τ1, o, rfl, h1, h2, h3⟩ := hcall ha he.1
      cases o with
      | none => exact ⟨_, _, .visitThrows h1 h2 h3⟩
      | some r =>
        obtain ⟨τ', o', h4⟩ := ih r ys τ1 (ha.trans h3.alike) hy (he.2 r)
        exact ⟨τ', o', .visit h1 h2 h3 h4⟩
    | tryVisit sel a next handler ih ih' =>
      intro ys τ ha hy he
      obtain ⟨d, ys', os, τ1, o, rfl, h1, h2, h3⟩ := hcall ha he.1
      cases o with
      | none =>
        obtain ⟨τ', o', h4⟩ := ih' ys τ1 (ha.trans h3.alike) hy he.2.2
        exact ⟨τ', o', .tryHandled h1 h2 h3 h4⟩
      | some r =>
        obtain ⟨τ', o', h4⟩ := ih r ys τ1 (ha.trans h3.alike) hy (he.2.1 r)
        exact ⟨τ', o', .tryVisit h1 h2 h3 h4⟩

/-! ### Visitors that visit members only -/

theorem VTree.sub_snoc {i : Nat} : ∀ {is : List Nat} {t : VTree V}, t.sub (is ++ [i]) = (t.sub is).bind (·.sub [i])
  | [], t => by rw [VTree.sub_nil]; rfl
  | j :: is, .leaf _ _ => by simp only [List.cons_append, VTree.sub, Option.bind_none]
  | j :: is, .node k a f => by
    simp only [List.cons_append, VTree.sub]
    cases f.get j with
    | none => rfl
    | some t => exact VTree.sub_snoc

theorem at_member {i : Nat} {t : VTree V} (h : σ.at y = some t) : σ.at (y.member i) = t.sub [i] := by
  unfold TStore.at at h ⊢
  simp only [TPlace.member]
  cases hs : σ y.var with
  | none => rw [hs] at h; cases h
  | some T =>
    rw [hs] at h
    simp only [VTree.sub_snoc, h, Option.bind_some]

theorem VForest.get_of_lt : ∀ {f : VForest V} {i : Nat}, i < f.size → ∃ t, f.get i = some t
  | .nil, _, h => by simp [VForest.size] at h
  | .cons t f, 0, _ => ⟨t, rfl⟩
  | .cons t f, i + 1, h => get_of_lt (f := f) (by simp only [VForest.size] at h; omega)

theorem member_of_lt {i : Nat} {t : VTree V} (h : σ.at y = some t) (hi : i < t.arity) :
    ∃ u, σ.at (y.member i) = some u ∧ u.height + 1 ≤ t.height := by
  rw [at_member h]
  cases t with
  | leaf => simp [VTree.arity] at hi
  | node k a f =>
    obtain ⟨u, hu⟩ := VForest.get_of_lt hi
    refine ⟨u, by simp only [VTree.sub, hu], ?_⟩
    have := VForest.get_height hu
    simp only [VTree.height]
    omega

theorem heights_get : ∀ {ys : List TPlace} {o : Nat} {t : VTree V}, ys[o]? = some y → σ.at y = some t → t.height ≤ σ.heights ys
  | [], _, _, h, _ => by simp at h
  | z :: ys, 0, t, h, ht => by
    simp only [List.getElem?_cons_zero, Option.some.injEq] at h
    subst h
    simp only [TStore.heights, ht, Option.elim_some]
    omega
  | z :: ys, o + 1, t, h, ht => by
    simp only [List.getElem?_cons_succ] at h
    have := heights_get h ht
    simp only [TStore.heights]
    omega

theorem heights_le : ∀ {ys : List TPlace} {n : Nat}, (∀ y ∈ ys, ∀ t, σ.at y = some t → t.height ≤ n) → σ.heights ys ≤ n
  | [], _, _ => Nat.zero_le _
  | y :: ys, n, h => by
    have h1 := heights_le (ys := ys) fun z hz => h z (List.mem_cons_of_mem _ hz)
    have h2 := h y List.mem_cons_self
    simp only [TStore.heights]
    cases e : σ.at y with
    | none => simp only [Option.elim_none]; omega
    | some t => have := h2 t e; simp only [Option.elim_some]; omega

theorem selPlaces_members {ys : List TPlace} {ms : List Nat} (hm : ∀ (o m : Nat), ms[o]? = some m → ∃ y t, ys[o]? = some y ∧ σ.at y = some t ∧ t.arity = m) :
    ∀ {sel : List VSel}, (∀ z ∈ sel, ∃ o i m, z = .member o i ∧ ms[o]? = some m ∧ i < m) →
      ∃ ys', selPlaces ys sel = some ys' ∧ (∀ y ∈ ys', σ.at y ≠ none) ∧ σ.heights ys' ≤ σ.heights ys - 1 ∧ (sel ≠ [] → 1 ≤ σ.heights ys)
  | [], _ => ⟨[], rfl, by simp, Nat.zero_le _, fun h => absurd rfl h⟩
  | z :: zs, h => by
    obtain ⟨ys', h1, h2, h3, -⟩ := selPlaces_members hm (sel := zs) fun w hw => h w (List.mem_cons_of_mem _ hw)
    obtain ⟨o, i, m, rfl, h4, h5⟩ := h z List.mem_cons_self
    obtain ⟨y, t, h6, h7, rfl⟩ := hm o m h4
    obtain ⟨u, h8, h9⟩ := member_of_lt h7 h5
    have h10 := heights_get h6 h7
    refine ⟨y.member i :: ys', by simp only [selPlaces, VSel.place, h6, Option.map_some, h1], ?_, ?_, fun _ => by omega⟩
    · intro w hw
      rcases List.mem_cons.mp hw with rfl | hw
      · rw [h8]; nofun
      · exact h2 w hw
    · simp only [TStore.heights, h8, Option.elim_some]
      omega

theorem VActN.Within.ends {ys : List TPlace} {ms : List Nat} (hm : ∀ (o m : Nat), ms[o]? = some m → ∃ y t, ys[o]? = some y ∧ σ.at y = some t ∧ t.arity = m)
    (hl : ms.length = ys.length) {act : VActN V A R} (h : act.Within ms) : act.Ends σ (fun _ => σ.heights) (σ.heights ys) ys := by
  have hsel : ∀ {sel : List VSel}, (sel ≠ [] ∧ ∀ z ∈ sel, ∃ o i m, z = .member o i ∧ ms[o]? = some m ∧ i < m) →
      ∃ ys', selPlaces ys sel = some ys' ∧ (∀ y ∈ ys', σ.at y ≠ none) ∧ σ.heights ys' < σ.heights ys := by
    intro sel ⟨h1, h2⟩
    obtain ⟨ys', g1, g2, g3, g4⟩ := selPlaces_members hm h2
    exact ⟨ys', g1, g2, by have := g4 h1; omega⟩
  induction act with
  | ret => trivial
  | throw => trivial
  | read o next ih => exact ⟨hl ▸ h.1, fun v => ih v (h.2 v)⟩
  | write o v next ih => exact ⟨hl ▸ h.1, ih h.2⟩
  | visit sel a next ih => exact ⟨hsel h.1, fun r => ih r (h.2 r)⟩
  | tryVisit sel a next handler ih ih' => exact ⟨hsel h.1, fun r => ih r (h.2.1 r), ih' h.2.2⟩

theorem operands_get : ∀ {ys : List TPlace} {os : List (TyIx × V × Nat)}, σ.operands ys = some os → os.length = ys.length ∧
    ∀ {o : Nat} {z : TyIx × V × Nat}, os[o]? = some z → ∃ y t, ys[o]? = some y ∧ σ.at y = some t ∧ z = (t.which, t.root, t.arity)
  | [], os, h => by
    simp only [TStore.operands, Option.some.injEq] at h
    subst h
    exact ⟨rfl, by simp⟩
  | y :: ys, os, h => by
    simp only [TStore.operands] at h
    cases e : σ.at y with
    | none => rw [e] at h; cases h
    | some t =>
      cases e' : σ.operands ys with
      | none => rw [e, e'] at h; cases h
      | some r =>
        rw [e, e'] at h; cases h
        obtain ⟨g1, g2⟩ := operands_get e'
        refine ⟨by simp only [List.length_cons, g1], ?_⟩
        intro o z hz
        cases o with
        | zero =>
          simp only [List.getElem?_cons_zero, Option.some.injEq] at hz
          exact ⟨y, t, rfl, e, hz.symm⟩
        | succ o =>
          simp only [List.getElem?_cons_succ] at hz ⊢
          exact g2 hz

theorem NVisitor.Within.ends (hv : vis.Within) (σ : TStore V) : vis.Ends σ fun _ => σ.heights := by
  intro a ys os os' h1 h2
  obtain ⟨g1, g2⟩ := operands_get h1
  have hlen : os'.length = os.length := by have := congrArg List.length h2; simpa only [List.length_map] using this
  refine (hv a os').ends (fun o m hm => ?_) (by rw [List.length_map, hlen, g1])
  rw [List.getElem?_map] at hm
  obtain ⟨z', h3, rfl⟩ := Option.map_eq_some_iff.mp hm
  have h4 := congrArg (·[o]?) h2
  simp only [List.getElem?_map, h3, Option.map_some] at h4
  obtain ⟨z, h5, h6⟩ := Option.map_eq_some_iff.mp h4.symm
  obtain ⟨y, t, h7, h8, rfl⟩ := g2 h5
  simp only [Prod.mk.injEq] at h6
  exact ⟨y, t, h7, h8, h6.2⟩

/-! ### Visitors that only read -/

theorem tSelect_same (os : List VObj) (z : VSel) (s : TreeSt V) : (tSelect os z s).SameState s := by
  cases z with
  | «at» x => exact tWalk_same x.path (.var x.var) s
  | member o i =>
    simp only [tSelect]
    cases os[o]? with
    | none => trivial
    | some ob => cases ob <;> trivial

theorem tSelects_same (os : List VObj) : ∀ (sel : List VSel) (s : TreeSt V), (tSelects os sel s).SameState s
  | [], _ => rfl
  | z :: zs, s => SameState.bind (tSelect_same os z s) fun _ => SameState.bind (tSelects_same os zs s) fun _ => rfl

theorem tOperand_same (l : TLoc) (s : TreeSt V) : (tOperand l s).SameState s := by
  refine SameState.bind (read_same l s) fun v => SameState.bind (tContent_same v s) fun c => ?_
  cases c with
  | dead => trivial
  | leaf b => rfl
  | wrap p => exact SameState.bind (tReadNode_same p s) fun _ => rfl

theorem tOperands_same : ∀ (ls : List TLoc) (s : TreeSt V), (tOperands ls s).SameState s
  | [], _ => rfl
  | l :: ls, s => SameState.bind (tOperand_same l s) fun _ => SameState.bind (tOperands_same ls s) fun _ => rfl

theorem tArg_same (os : List VObj) (o : Nat) (s : TreeSt V) : (tArg os o s).SameState s := by
  unfold tArg; cases os[o]? <;> trivial

theorem ref_same (r : TRef) (s : TreeSt V) : (r.read s).SameState s := by
  cases r with
  | inPlace l =>
    refine SameState.bind (read_same l s) fun v => ?_
    cases v with
    | plain => rfl
    | backup => trivial
  | inBox q => simp only [TRef.read, tReadBox]; split <;> trivial

theorem objGet_same (o : VObj) (s : TreeSt V) : (o.get s).SameState s := by
  cases o with
  | leaf r k =>
    refine SameState.bind (ref_same r s) fun c => ?_
    cases c with
    | leaf v => rfl
    | _ => trivial
  | node p => exact SameState.bind (tReadNode_same p s) fun _ => rfl

theorem tActN_same {f : List VSel → A → Eff (TreeSt V) R} (hf : ∀ sel a s, (f sel a s).SameState s) (os : List VObj) :
    ∀ (act : VActN V A R) (s : TreeSt V), act.Reads → (tActN f os act s).SameState s
  | .ret r, s, _ => rfl
  | .throw, s, _ => rfl
  | .read o next, s, h => by
    rw [tActN]
    exact SameState.bind (tArg_same os o s) fun ob => SameState.bind (objGet_same ob s) fun v => tActN_same hf os (next v) s (h v)
  | .write _ _ _, s, h => h.elim
  | .visit sel a next, s, h => by
    rw [tActN]
    exact SameState.bind (hf sel a s) fun r => tActN_same hf os (next r) s (h r)
  | .tryVisit sel a next handler, s, h => by
    have h1 := hf sel a s
    simp only [tActN]
    revert h1
    cases f sel a s with
    | ok r s1 => rintro rfl; exact tActN_same hf os (next r) s1 (h.1 r)
    | exc e s1 => rintro rfl; exact tActN_same hf os handler s1 h.2
    | fault => exact id

theorem tVisitN_same (hv : vis.Reads) : ∀ (n : Nat) (os : List VObj) (sel : List VSel) (a : A) (s : TreeSt V), (tVisitN vis n os sel a s).SameState s
  | 0, _, _, _, _ => trivial
  | n + 1, os, sel, a, s => by
    rw [tVisitN]
    exact SameState.bind (tSelects_same os sel s) fun ls => SameState.bind (tOperands_same ls s) fun cs =>
      tActN_same (tVisitN_same hv n _) _ _ s (hv _ _)

/-! ### Comparison -/

theorem eqPairs_reads : ∀ {r i : Nat}, (eqPairs r i : VActN V Unit Bool).Reads
  | 0, _ => by simp only [eqPairs, VActN.Reads]
  | r + 1, i => fun b => by
    cases b
    · simp [VActN.Reads]
    · exact eqPairs_reads

theorem eqVisitor_reads (eq : TyIx → V → V → Bool) : (eqVisitor eq).Reads := by
  intro a os
  unfold eqVisitor
  split
  · split
    · exact eqPairs_reads
    · simp only [VActN.Reads]
  · simp only [VActN.Reads]

theorem VForest.Same.size_eq {eq : TyIx → V → V → Bool} : ∀ {f g : VForest V}, f.Same eq g → f.size = g.size
  | .nil, .nil, _ => rfl
  | .cons _ _, .cons _ _, h => by
    cases h with
    | cons _ h => simp only [VForest.size, VForest.Same.size_eq h]
  | .nil, .cons _ _, h => nomatch h
  | .cons _ _, .nil, h => nomatch h

theorem eqVisitor_two (eq : TyIx → V → V → Bool) (t u : VTree V) :
    eqVisitor eq () [(t.which, t.root, t.arity), (u.which, u.root, u.arity)] =
      if t.which = u.which ∧ t.arity = u.arity ∧ eq t.which t.root u.root = true then eqPairs t.arity 0 else .ret false := rfl

mutual
theorem eq_visited (eq : TyIx → V → V → Bool) {w : TyIx → Bool} : ∀ (t u : VTree V) {x y : TPlace} {d : Nat}, σ.at x = some t → σ.at y = some u →
    t.Typed w → u.Typed w → t.height ≤ d →
    ∃ b, ActsN (eqVisitor eq) d [x, y] (eqVisitor eq () [(t.which, t.root, t.arity), (u.which, u.root, u.arity)]) σ σ (some b) ∧
      (b = true ↔ t.Same eq u)
  | t, u, x, y, d, hx, hy, ht, hu, hd => by
    rw [eqVisitor_two]
    by_cases hc : t.which = u.which ∧ t.arity = u.arity ∧ eq t.which t.root u.root = true
    · rw [if_pos hc]
      obtain ⟨h1, h2, h3⟩ := hc
      match t, u with
      | .leaf k a, .leaf k' b =>
        cases (show k = k' from h1)
        exact ⟨true, .ret, fun _ => .leaf h3, fun _ => rfl⟩
      | .leaf k a, .node k' b g =>
        cases (show k = k' from h1)
        simp only [VTree.Typed] at ht hu
        rw [ht] at hu
        exact absurd hu.1 nofun
      | .node k a f, .leaf k' b =>
        cases (show k = k' from h1)
        simp only [VTree.Typed] at ht hu
        rw [hu] at ht
        exact absurd ht.1 nofun
      | .node k a f, .node k' b g =>
        cases (show k = k' from h1)
        simp only [VTree.Typed] at ht hu
        simp only [VTree.height] at hd
        cases d with
        | zero => omega
        | succ d =>
          obtain ⟨r, g1, g2⟩ := eqs_visited eq f g (pre := .nil) (pre' := .nil) (d := d) hx hy rfl h2 ht.2 hu.2 (by omega)
          refine ⟨r, g1, g2.trans ⟨fun h => .node h3 h, fun h => ?_⟩⟩
          cases h with
          | node _ h => exact h
    · rw [if_neg hc]
      refine ⟨false, .ret, nofun, fun h => absurd ?_ hc⟩
      cases h with
      | leaf h => exact ⟨rfl, rfl, h⟩
      | node h h' => exact ⟨rfl, h'.size_eq, h⟩
theorem eqs_visited (eq : TyIx → V → V → Bool) {w : TyIx → Bool} : ∀ (f g : VForest V) {x y : TPlace} {d : Nat} {k k' : TyIx} {a b : V} {pre pre' : VForest V},
    σ.at x = some (.node k a (pre.app f)) → σ.at y = some (.node k' b (pre'.app g)) → pre.size = pre'.size → f.size = g.size →
    f.Typed w → g.Typed w → f.height ≤ d →
    ∃ r, ActsN (eqVisitor eq) (d + 1) [x, y] (eqPairs f.size pre.size) σ σ (some r) ∧ (r = true ↔ f.Same eq g)
  | .nil, .nil, _, _, _, _, _, _, _, _, _, _, _, _, _, _, _, _ => ⟨true, .ret, fun _ => .nil, fun _ => rfl⟩
  | .nil, .cons _ _, _, _, _, _, _, _, _, _, _, _, _, _, h, _, _, _ => by simp [VForest.size] at h
  | .cons _ _, .nil, _, _, _, _, _, _, _, _, _, _, _, _, h, _, _, _ => by simp [VForest.size] at h
  | .cons t f, .cons u g, x, y, d, k, k', a, b, pre, pre', hx, hy, hp, hs, hf, hg, hd => by
    simp only [VForest.Typed] at hf hg
    simp only [VForest.height] at hd
    have h1 : σ.at (x.member pre.size) = some t := by rw [at_member hx]; simp only [VTree.sub, VForest.get_app]
    have h2 : σ.at (y.member pre.size) = some u := by rw [at_member hy, hp]; simp only [VTree.sub, VForest.get_app]
    obtain ⟨r, g1, g2⟩ := eq_visited eq t u (d := d) h1 h2 hf.1 hg.1 (by omega)
    have hsel : selPlaces [x, y] [.member 0 pre.size, .member 1 pre.size] = some [x.member pre.size, y.member pre.size] := rfl
    have hops : σ.operands [x.member pre.size, y.member pre.size] = some [(t.which, t.root, t.arity), (u.which, u.root, u.arity)] := by
      simp only [TStore.operands, h1, h2]
    rw [VForest.app_snoc] at hx hy
    obtain ⟨r', k1, k2⟩ := eqs_visited eq f g (d := d) hx hy (by rw [VForest.size_snoc, VForest.size_snoc, hp])
      (by simp only [VForest.size] at hs; omega) hf.2 hg.2 (by omega)
    rw [VForest.size_snoc] at k1
    cases r with
    | false =>
      refine ⟨false, .visit hsel hops g1 .ret, nofun, fun h => ?_⟩
      cases h with
      | cons h _ => exact g2.mpr h
    | true =>
      refine ⟨r', .visit hsel hops g1 k1, k2.trans ⟨fun h => .cons (g2.mp rfl) h, fun h => ?_⟩⟩
      cases h with
      | cons _ h => exact h
end

end

end BVariant
