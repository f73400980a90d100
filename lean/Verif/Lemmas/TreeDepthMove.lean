/-
Stack depth of operations on recursive variants (C58): hashing, streaming, comparing and moving.
-/
import Verif.Lemmas.TreeDepth

namespace BVariant

section
variable {V γ : Type} {C : TreeCfg V} {s s' : TreeSt V} {α : AStore V} {G : List (ATree V)} {x : TPlace} {n m : Nat}

open ATree AStore

/-! ### Hashing, streaming, comparing -/

section
variable {H S : Type} {h : TyIx → V → H} {hn : TyIx → V → List H → H} {combine : H → TyIx → H} {P : Printer V S} {eq : TyIx → V → V → Bool}

mutual
theorem tHashVar_ok : ∀ {t : VTree V} {x : TVar V} {ns : List ObjId} {n : Nat} {s' : TreeSt V} {a : H},
    t.Rep s.heap x ns → tHashVar h hn combine n x s = .ok a s' → t.height ≤ n
  | _, _, _, 0, _, _, _, hr => by cases hr
  | .leaf _ _, _, _, n + 1, _, _, _, _ => by rw [VTree.height]; omega
  | .node k a f, x, ns, n + 1, s', _, hx, hr => by
    obtain ⟨p, cs, ms, h1, h2, h3⟩ := hx.node_read
    rw [VTree.height]
    rw [tHashVar] at hr
    obtain ⟨c, s1, h4, h5⟩ := Eff.bind_ok hr
    rw [h1] at h4; cases h4
    obtain ⟨c, s1, h6, h7⟩ := Eff.bind_ok h5
    rw [h2] at h6; cases h6
    obtain ⟨hs, s1, h8, _⟩ := Eff.bind_ok h7
    have := tHashList_ok h3 h8
    omega
theorem tHashList_ok : ∀ {f : VForest V} {xs : List (TVar V)} {ns : List ObjId} {n : Nat} {s' : TreeSt V} {as : List H},
    f.Rep s.heap xs ns → tHashList (tHashVar h hn combine n) xs s = .ok as s' → f.height ≤ n
  | .nil, _, _, _, _, _, _, _ => by rw [VForest.height]; omega
  | .cons t f, xs, ns, n, s', _, hx, hr => by
    rw [VForest.Rep] at hx
    rw [VForest.height]
    obtain ⟨y, ys, ms, ms', rfl, ht, hfr, rfl⟩ := hx
    rw [tHashList] at hr
    obtain ⟨y', s1, h1, h2⟩ := Eff.bind_ok hr
    have htn := tHashVar_ok ht h1
    have hrun := tHashVar_run (h := h) (hn := hn) (combine := combine) ht htn
    rw [hrun] at h1; cases h1
    obtain ⟨zs, s2, h3, _⟩ := Eff.bind_ok h2
    have := tHashList_ok hfr h3
    omega
end

mutual
theorem tPrintVar_ok : ∀ {t : VTree V} {x : TVar V} {ns : List ObjId} {n : Nat} {s' : TreeSt V} {o o' : S},
    t.Rep s.heap x ns → tPrintVar P n x o s = .ok o' s' → t.height ≤ n
  | _, _, _, 0, _, _, _, _, hr => by cases hr
  | .leaf _ _, _, _, n + 1, _, _, _, _, _ => by rw [VTree.height]; omega
  | .node k a f, x, ns, n + 1, s', _, _, hx, hr => by
    obtain ⟨p, cs, ms, h1, h2, h3⟩ := hx.node_read
    rw [VTree.height]
    rw [tPrintVar] at hr
    obtain ⟨c, s1, h4, h5⟩ := Eff.bind_ok hr
    rw [h1] at h4; cases h4
    obtain ⟨c, s1, h6, h7⟩ := Eff.bind_ok h5
    rw [h2] at h6; cases h6
    obtain ⟨hs, s1, h8, _⟩ := Eff.bind_ok h7
    have := tPrintList_ok h3 h8
    omega
theorem tPrintList_ok : ∀ {f : VForest V} {xs : List (TVar V)} {ns : List ObjId} {n : Nat} {s' : TreeSt V} {o o' : S},
    f.Rep s.heap xs ns → tPrintList (tPrintVar P n) xs o s = .ok o' s' → f.height ≤ n
  | .nil, _, _, _, _, _, _, _, _ => by rw [VForest.height]; omega
  | .cons t f, xs, ns, n, s', o, _, hx, hr => by
    rw [VForest.Rep] at hx
    rw [VForest.height]
    obtain ⟨y, ys, ms, ms', rfl, ht, hfr, rfl⟩ := hx
    rw [tPrintList] at hr
    obtain ⟨y', s1, h1, h2⟩ := Eff.bind_ok hr
    have htn := tPrintVar_ok ht h1
    have hrun := tPrintVar_run (P := P) (out := o) ht htn
    rw [hrun] at h1; cases h1
    have := tPrintList_ok hfr h2
    omega
end

mutual
theorem VTree.Same.height : ∀ {t u : VTree V}, t.Same eq u → t.height = u.height
  | _, _, .leaf _ => rfl
  | _, _, .node _ h => by rw [VTree.height, VTree.height, VForest.Same.height h]
theorem VForest.Same.height : ∀ {f g : VForest V}, f.Same eq g → f.height = g.height
  | _, _, .nil => rfl
  | _, _, .cons h h' => by rw [VForest.height, VForest.height, VTree.Same.height h, VForest.Same.height h']
end

mutual
/-- If the trees are equal then equality goes all the way down. -/
theorem tEqVar_ok : ∀ {t u : VTree V} {x y : TVar V} {ns ms : List ObjId} {n : Nat} {w : TyIx → Bool} {s' : TreeSt V} {b : Bool},
    t.Rep s.heap x ns → u.Rep s.heap y ms → t.Typed w → u.Typed w → t.Same eq u → tEqVar eq n x y s = .ok b s' → t.height ≤ n
  | _, _, _, _, _, _, 0, _, _, _, _, _, _, _, _, hr => by cases hr
  | .leaf _ _, _, _, _, _, _, n + 1, _, _, _, _, _, _, _, _, _ => by rw [VTree.height]; omega
  | .node k a f, u, x, y, ns, ms, n + 1, w, s', b, hx, hy, ht, hu, hsame, hr => by
    cases hsame with
    | @node _ _ a' _ f' hab hff =>
      obtain ⟨p, cs, ms, h1, h2, h3⟩ := hx.node_read
      obtain ⟨q, ds, ms', h1', h2', h3'⟩ := hy.node_read
      rw [VTree.Typed] at ht; rw [VTree.Typed] at hu
      have hk : ¬ x.which ≠ y.which := by rw [hx.which, hy.which]; simp [VTree.which]
      have hlen : cs.length = ds.length := by rw [h3.length, h3'.length, hff.length]
      rw [VTree.height]
      rw [tEqVar, if_neg hk] at hr
      simp only [bind, Eff.bind, h1, h1', h2, h2', tEqNode, hy.which, VTree.which, hab, hlen, if_true] at hr
      have := tEqList_ok h3 h3' ht.2 hu.2 hff hr
      omega
theorem tEqList_ok : ∀ {f g : VForest V} {xs ys : List (TVar V)} {ns ms : List ObjId} {n : Nat} {w : TyIx → Bool} {s' : TreeSt V}
    {b : Bool}, f.Rep s.heap xs ns → g.Rep s.heap ys ms → f.Typed w → g.Typed w → f.Same eq g →
    tEqList (tEqVar eq n) xs ys s = .ok b s' → f.height ≤ n
  | .nil, _, _, _, _, _, _, _, _, _, _, _, _, _, _, _ => by rw [VForest.height]; omega
  | .cons t f, _, xs, ys, ns, ms, n, w, s', b, hx, hy, hf, hg, .cons htu hfg, hr => by
    rw [VForest.Rep] at hx; rw [VForest.Rep] at hy
    rw [VForest.Typed] at hf; rw [VForest.Typed] at hg
    obtain ⟨x, xs, n1, n2, rfl, hx1, hx2, _⟩ := hx
    obtain ⟨y, ys, m1, m2, rfl, hy1, hy2, _⟩ := hy
    rw [VForest.height]
    rw [tEqList] at hr
    obtain ⟨c, s1, h1, h2⟩ := Eff.bind_ok hr
    have htn := tEqVar_ok hx1 hy1 hf.1 hg.1 htu h1
    obtain ⟨c', h3, h4⟩ := tEqVar_run (eq := eq) (n := n) hx1 hy1 hf.1 hg.1 (by omega)
    rw [h3] at h1; cases h1
    rw [h4.mpr htu, if_pos rfl] at h2
    have := tEqList_ok hx2 hy2 hf.2 hg.2 hfg h2
    omega
end

end

/-! ### Moving -/

theorem VTree.moveHeight_pos : ∀ t : VTree V, 1 ≤ t.moveHeight C
  | .leaf _ _ => Nat.le_refl _
  | .node _ _ _ => by rw [VTree.moveHeight]; omega

mutual
theorem VTree.moveHeight_le : ∀ t : VTree V, t.moveHeight C ≤ t.height
  | .leaf _ _ => Nat.le_refl _
  | .node k a f => by have := f.moveHeight_le; rw [VTree.moveHeight, VTree.height]; split <;> omega
theorem VForest.moveHeight_le : ∀ f : VForest V, f.moveHeight C ≤ f.height
  | .nil => Nat.le_refl _
  | .cons t f => by have := t.moveHeight_le; have := f.moveHeight_le; rw [VForest.moveHeight, VForest.height]; omega
end

theorem Eff.pure_ok {S β : Type} {a b : β} {s s' : S} (h : (pure a : Eff S β) s = .ok b s') : a = b ∧ s = s' := by
  cases h; exact ⟨rfl, rfl⟩

theorem tMoveList_depth (ih : ∀ {s s' : TreeSt V} {α : AStore V} {G : List (ATree V)} {x : TPlace} {l : TLoc} {R : ATree V} {u : VTree V}
      {y : TVar V}, Mem s α G → At α x l R → R.Is u → u.height ≤ m → tMoveVar C m l s = .ok y s' →
      (tMoveVar C n l s = .ok y s' ↔ u.moveHeight C ≤ n))
    {l : TLoc} {k : TyIx} {a : V} {p : ObjId} {b : Option ObjId} : ∀ {todo done : List (ATree V)} {g : VForest V} {s s' : TreeSt V}
    {α : AStore V} {G : List (ATree V)} {ys : List (TVar V)}, Mem s α G → At α x l (.node k a p (done ++ todo) b) → IsL todo g → g.height ≤ m →
    tMoveList (tMoveVar C m) (tDestroyVar m) p todo.length done.length s = .ok ys s' →
    (tMoveList (tMoveVar C n) (tDestroyVar n) p todo.length done.length s = .ok ys s' ↔ g.moveHeight C ≤ n)
  | [], done, .nil, s, s', α, G, ys, hM, hx, _, _, hr => by
    rw [VForest.moveHeight]
    exact iff_of_true hr (by omega)
  | [], _, .cons .., _, _, _, _, _, _, _, hi, _, _ => by simp [ATree.IsL] at hi
  | _ :: _, _, .nil, _, _, _, _, _, _, _, hi, _, _ => by simp [ATree.IsL] at hi
  | t :: ts, done, .cons u g, s, s', α, G, ys, hM, hx, hi, hn, hr => by
    rw [ATree.IsL] at hi
    rw [VForest.height] at hn
    have hget : (done ++ t :: ts)[done.length]? = some t := by simp
    have hset : ∀ R' : ATree V, (done ++ t :: ts).set done.length R' = (done ++ [R']) ++ ts := fun R' => by simp
    have hmem := hx.member hget
    simp only [List.length_cons] at hr ⊢
    rw [tMoveList] at hr
    obtain ⟨y, s1, h1, h2⟩ := Eff.bind_ok hr
    obtain ⟨ys', s2, h3, h4⟩ := Eff.bind_ok h2
    replace h3 := Eff.onExc_ok h3
    obtain ⟨rfl, rfl⟩ := Eff.pure_ok h4
    have hy := ih hM hmem hi.1 (by omega) h1
    rcases tMoveVar_run (C := C) (n := m) hM hmem hi.1 (by omega) with ⟨s1', U, R', hr1, hUb, hU, hR', hM1, ht1, hal1⟩ | ⟨e, s1', R', u', hr1, _⟩
    rotate_left
    · rw [hr1] at h1; cases h1
    rw [hr1] at h1; cases h1
    rw [put_member hx hget, hset] at hM1
    have hx1 : At (α.put x (.node k a p ((done ++ [R']) ++ ts) b)) x l (.node k a p ((done ++ [R']) ++ ts) b) := hx.put
    have hlen : done.length + 1 = (done ++ [R']).length := by simp
    rw [hlen] at h3
    have hl := tMoveList_depth ih hM1 hx1 hi.2 (by omega) h3
    rw [VForest.moveHeight, Nat.max_le, ← hy, ← hl, tMoveList]
    constructor
    · intro hr'
      obtain ⟨y', s1', h1', h2'⟩ := Eff.bind_ok hr'
      obtain ⟨ys'', s2', h3', h4'⟩ := Eff.bind_ok h2'
      replace h3' := Eff.onExc_ok h3'
      obtain ⟨he, rfl⟩ := Eff.pure_ok h4'
      cases he
      -- the shorter run is that of the longer one
      rcases Eff.Le.of_ok (n := n) (fun h => tMoveVar_le (C := C) h (.child p done.length)) hr1 with he | ⟨x, he⟩
      · rw [he] at h1'; cases h1'
        exact ⟨he, by rw [hlen] at h3'; exact h3'⟩
      · rw [he] at h1'; cases h1'
    · rintro ⟨hy', hl'⟩
      rw [← hlen] at hl'
      simp only [bind, Eff.bind, hy', Eff.onExc, hl', pure, Eff.pure]

/-- If moving succeeds on a stack as deep as the tree is high, then it does on any as deep as `moveHeight`. -/
theorem tMoveVar_depth : ∀ {n m : Nat} {s s' : TreeSt V} {α : AStore V} {G : List (ATree V)} {x : TPlace} {l : TLoc} {R : ATree V} {u : VTree V}
    {y : TVar V}, Mem s α G → At α x l R → R.Is u → u.height ≤ m → tMoveVar C m l s = .ok y s' →
    (tMoveVar C n l s = .ok y s' ↔ u.moveHeight C ≤ n)
  | 0, _, s, s', α, G, x, l, R, u, y, _, _, _, _, _ =>
    iff_of_false (fun h => by cases h) (by have := u.moveHeight_pos (C := C); omega)
  | _ + 1, 0, s, s', α, G, x, l, R, u, y, _, _, _, hn, _ => by have := u.height_pos; omega
  | n + 1, m + 1, s, s', α, G, x, l, R, u, y, hM, hx, hR, hn, hr => by
    obtain ⟨_, hl, hh⟩ := hM.at_run hx
    have hrd := ref_read hl hh
    rw [tMoveVar] at hr ⊢
    obtain ⟨v, s1, h1, h2⟩ := Eff.bind_ok hr
    rw [hl] at h1; cases h1
    obtain ⟨c, s1, h3, h4⟩ := Eff.bind_ok h2
    cases R with
    | dead => simp [ATree.Is] at hR
    | blk => simp [ATree.Is] at hR
    | leaf k v b =>
      cases u with
      | node => simp [ATree.Is] at hR
      | leaf k' v' =>
        rw [VTree.moveHeight]
        refine iff_of_true ?_ (by omega)
        have he : tMoveRef C (tMoveVar C n) (tDestroyVar n) (ATree.leaf k v b).var.which ((ATree.leaf k v b).var.ref l) s =
            tMoveRef C (tMoveVar C m) (tDestroyVar m) (ATree.leaf k v b).var.which ((ATree.leaf k v b).var.ref l) s := by
          simp only [tMoveRef, bind, Eff.bind, hrd, content]
        simp only [bind, Eff.bind, hl, he, h3]
        exact h4
    | node k a p f b =>
      cases u with
      | leaf => simp [ATree.Is] at hR
      | node k' a' g =>
        rw [ATree.Is] at hR
        obtain ⟨rfl, rfl, hf⟩ := hR
        rw [VTree.height] at hn
        rw [tMoveRef] at h3
        obtain ⟨c', s2, h5, h6⟩ := Eff.bind_ok h3
        rw [hrd] at h5; cases h5
        simp only [content] at h6
        obtain ⟨q, s3, h7, h8⟩ := Eff.bind_ok h6
        rw [tNew] at h7
        obtain ⟨q', s4, h9, h10⟩ := Eff.bind_ok h7
        obtain ⟨cell, s5, h11, h12⟩ := Eff.bind_ok h10
        replace h11 := Eff.onExc_ok h11
        have h11c := h11
        rcases hM.alloc (C := C) with ⟨q2, s42, h91, hM1, ht1, hal1, _⟩ | ⟨e, s42, h91, _⟩
        rotate_left
        · rw [h91] at h9; cases h9
        rw [h91] at h9; cases h9
        have hhh := (hM1.at_run hx).2.2
        rw [ATree.Holds] at hhh
        have hrn : tReadNode p s4 = .ok (a, f.map ATree.var) s4 := by simp only [tReadNode, hhh.2.1]
        rw [tMoveNode] at h11
        obtain ⟨d, s6, h13, h14⟩ := Eff.bind_ok h11
        rw [hrn] at h13; cases h13
        obtain ⟨d, s6, h15, h16⟩ := Eff.bind_ok h14
        have h15' := Eff.onExc_ok h15
        obtain ⟨d', s7, h17, h18⟩ := Eff.bind_ok h16
        simp only [which, var_which] at h15 h15' h17 h18 h11 h11c
        -- the parts that do not depend on the stack
        have hmid : ∀ j : Nat, tMoveNode C (tMoveVar C j) (tDestroyVar j) k p s4 =
            (if C.steals k then (do
                tSetNode p (C.ops.movedFrom k a) []
                pure (.node (C.ops.move k a) (f.map ATree.var)) : Eff (TreeSt V) (TCell V))
              else do
                let cs' ← tMoveList (tMoveVar C j) (tDestroyVar j) p (f.map ATree.var).length 0
                pure (.node (C.ops.move k a) cs')) s7 := fun j => by
          simp only [tMoveNode, bind, Eff.bind, hrn, h15, h17]
        have hback : tMoveNode C (tMoveVar C n) (tDestroyVar n) k p s4 = .ok cell s5 →
            ((TLoc.read l >>= fun x => (tMoveRef C (tMoveVar C n) (tDestroyVar n) x.which (x.ref l) >>= fun c => pure (TVar.plain x.which c) :
              Eff (TreeSt V) (TVar V))) s = .ok y s') := fun hn' => by
          simp only [bind, Eff.bind, hl, var_which, which, tMoveRef, hrd, content, tNew, h91, Eff.onExc, hn']
          simp only [bind, Eff.bind] at h12 h8 h4
          rw [h12]
          simp only [h8]
          simpa only [which, var_which] using h4
        have hfwd : ((TLoc.read l >>= fun x => (tMoveRef C (tMoveVar C n) (tDestroyVar n) x.which (x.ref l) >>= fun c => pure (TVar.plain x.which c) :
              Eff (TreeSt V) (TVar V))) s = .ok y s') → ∃ c' s'', tMoveNode C (tMoveVar C n) (tDestroyVar n) k p s4 = .ok c' s'' := fun hn' => by
          obtain ⟨v, s1, g1, g2⟩ := Eff.bind_ok hn'
          rw [hl] at g1; cases g1
          obtain ⟨c, s1, g3, g4⟩ := Eff.bind_ok g2
          rw [tMoveRef] at g3
          obtain ⟨c', s2, g5, g6⟩ := Eff.bind_ok g3
          rw [hrd] at g5; cases g5
          simp only [content] at g6
          obtain ⟨q, s3, g7, g8⟩ := Eff.bind_ok g6
          rw [tNew] at g7
          obtain ⟨q', s4', g9, g10⟩ := Eff.bind_ok g7
          rw [h91] at g9; cases g9
          obtain ⟨cell, s5, g11, g12⟩ := Eff.bind_ok g10
          exact ⟨_, _, by simpa only [which, var_which] using Eff.onExc_ok g11⟩
        rw [VTree.moveHeight]
        by_cases hst : C.steals k = true
        · rw [if_pos hst]
          refine iff_of_true (hback ?_) (by omega)
          rw [hmid m, if_pos hst] at h11c
          rw [hmid n, if_pos hst]; exact h11c
        · rw [if_neg hst]
          rw [hmid m, if_neg hst] at h11c
          rw [hmid n, if_neg hst] at hback hfwd
          obtain ⟨cs', s8, h19, h20⟩ := Eff.bind_ok h11c
          obtain ⟨rfl, rfl⟩ := Eff.pure_ok h20
          have hM0 : Mem s6 α (.blk q' :: G) := by
            rcases tMayThrow_run (C := C) (C.tr k).nothrowMove (.moveCtor k) s4 with h | ⟨h, _⟩ <;> rw [h] at h15' <;> cases h15'
            exact hM1.same rfl rfl (Nat.le_refl _)
          have hh6 := (hM0.at_run hx).2.2
          rw [ATree.Holds] at hh6
          obtain ⟨s71, hs1, hM7, _⟩ := hM0.setNode (a' := C.ops.movedFrom k a) hx hh6.2.2 hM0.ghosts (fun _ => rfl)
          rw [hs1] at h17; cases h17
          have hx1 : At (α.put x (.node k (C.ops.movedFrom k a) p f b)) x l (.node k (C.ops.movedFrom k a) p ([] ++ f) b) := hx.put
          rw [List.length_map] at h19 hback hfwd
          have hlist := tMoveList_depth (n := n) (m := m) (fun hM hx hR hn hr => tMoveVar_depth hM hx hR hn hr) hM7 hx1 hf (by omega) h19
          simp only [List.length_nil] at hlist
          constructor
          · intro hr'
            obtain ⟨c', s'', hc⟩ := hfwd hr'
            obtain ⟨cs2, s9, h21, _⟩ := Eff.bind_ok hc
            have hle := tMoveList_le (f := tMoveVar C n) (f' := tMoveVar C (max n m)) (d := tDestroyVar n) (d' := tDestroyVar (max n m))
              (fun _ => tMoveVar_le (by omega) _) (fun _ => tDestroyVar_le (by omega) _) p f.length 0
            have hle' := tMoveList_le (f := tMoveVar C m) (f' := tMoveVar C (max n m)) (d := tDestroyVar m) (d' := tDestroyVar (max n m))
              (fun _ => tMoveVar_le (by omega) _) (fun _ => tDestroyVar_le (by omega) _) p f.length 0
            rcases hle.at_ s7 with ⟨x, hx⟩ | h22
            · rw [h21] at hx; cases hx
            · rcases hle'.at_ s7 with ⟨x, hx⟩ | h23
              · rw [h19] at hx; cases hx
              · have := hlist.mp (by rw [← h22, h23, h19])
                omega
          · intro hle
            refine hback ?_
            simp only [bind, Eff.bind, hlist.mpr (by omega), pure, Eff.pure]
end

end BVariant
