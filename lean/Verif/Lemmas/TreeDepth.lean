/-
Stack depth of operations on recursive variants (C58): more stack never changes what an operation does.
-/
import Verif.Lemmas.TreeObserve
import Verif.Lemmas.TreeMove
import Verif.Spec.TreeDepth

namespace BVariant

section
variable {S α β V : Type}

/-- Where `m` ends without a fault, `m'` does the same. -/
structure Eff.Le (m m' : Eff S α) : Prop where
  at_ : ∀ s, (∃ x, m s = .fault x) ∨ m' s = m s

theorem Eff.Le.refl (m : Eff S α) : Eff.Le m m := ⟨fun _ => .inr rfl⟩

theorem Eff.Le.fail {x : Fault} (m : Eff S α) : Eff.Le (Eff.fail x) m := ⟨fun _ => .inl ⟨x, rfl⟩⟩

theorem Eff.Le.andThen {m m' : Eff S α} {f f' : α → Eff S β} (h : Eff.Le m m') (hf : ∀ a, Eff.Le (f a) (f' a)) :
    Eff.Le (m >>= f) (m' >>= f') := by
  refine ⟨fun s => ?_⟩
  show (∃ x, Eff.bind m f s = _) ∨ Eff.bind m' f' s = Eff.bind m f s
  unfold Eff.bind
  rcases h.at_ s with ⟨x, hx⟩ | he
  · left; exact ⟨x, by rw [hx]⟩
  · rw [he]
    cases hm : m s with
    | ok a s' => exact (hf a).at_ s'
    | exc e s' => exact .inr rfl
    | fault x => exact .inr rfl

theorem Eff.Le.onExc {m m' : Eff S α} {h h' : Eff S Unit} (hm : Eff.Le m m') (hh : Eff.Le h h') :
    Eff.Le (Eff.onExc m h) (Eff.onExc m' h') := by
  refine ⟨fun s => ?_⟩
  unfold Eff.onExc
  rcases hm.at_ s with ⟨x, hx⟩ | he
  · left; exact ⟨x, by rw [hx]⟩
  · rw [he]
    cases hm : m s with
    | ok a s' => exact .inr rfl
    | fault x => exact .inr rfl
    | exc e s' =>
      rcases hh.at_ s' with ⟨x, hx⟩ | he'
      · left; exact ⟨x, by simp only [hx]⟩
      · right; simp only [he']

theorem Eff.Le.noexcept {m m' : Eff S α} (hm : Eff.Le m m') : Eff.Le (Eff.noexcept m) (Eff.noexcept m') := by
  refine ⟨fun s => ?_⟩
  unfold Eff.noexcept
  rcases hm.at_ s with ⟨x, hx⟩ | he
  · left; exact ⟨x, by rw [hx]⟩
  · right; rw [he]

/-- Closes goals `Le`, given the facts on the parts. -/
syntax "le_tac" ("[" term,* "]")? : tactic
macro_rules
  | `(tactic| le_tac) => `(tactic| le_tac [])
  | `(tactic| le_tac [$ts,*]) => `(tactic|
      repeat' (first
        | with_reducible exact Eff.Le.refl _
        | with_reducible exact Eff.Le.fail _
        $[| with_reducible apply $ts]*
        | with_reducible apply Eff.Le.andThen
        | with_reducible apply Eff.Le.onExc
        | with_reducible apply Eff.Le.noexcept
        | (intro _)
        | split))

variable {C : TreeCfg V}

theorem tDestroyList_le {d d' : TVar V → Eff (TreeSt V) Unit} (h : ∀ x, Eff.Le (d x) (d' x)) :
    ∀ xs, Eff.Le (tDestroyList d xs) (tDestroyList d' xs)
  | [] => .refl _
  | x :: xs => .andThen (tDestroyList_le h xs) fun _ => h x

theorem tDestroyContent_le {d d' : TVar V → Eff (TreeSt V) Unit} (h : ∀ x, Eff.Le (d x) (d' x)) (c : TContent V) :
    Eff.Le (tDestroyContent d c) (tDestroyContent d' c) := by
  cases c <;> unfold tDestroyContent <;> le_tac [tDestroyList_le h]

theorem tDestroyVar_le : ∀ {n m : Nat}, n ≤ m → ∀ x : TVar V, Eff.Le (tDestroyVar n x) (tDestroyVar m x)
  | 0, _, _, _ => .fail _
  | _ + 1, 0, h, _ => by omega
  | n + 1, m + 1, h, .plain _ c => tDestroyContent_le (tDestroyVar_le (by omega)) c
  | n + 1, m + 1, h, .backup _ q =>
    .andThen (.refl _) fun c => .andThen (tDestroyContent_le (tDestroyVar_le (by omega)) c) fun _ => .refl _

theorem tCopyList_le {f f' : TVar V → Eff (TreeSt V) (TVar V)} {d d' : TVar V → Eff (TreeSt V) Unit}
    (hf : ∀ x, Eff.Le (f x) (f' x)) (hd : ∀ x, Eff.Le (d x) (d' x)) : ∀ xs, Eff.Le (tCopyList f d xs) (tCopyList f' d' xs)
  | [] => .refl _
  | x :: xs => by
    have := tCopyList_le hf hd xs
    unfold tCopyList
    le_tac [this, hf, hd]

theorem tCopyNode_le {f f' : TVar V → Eff (TreeSt V) (TVar V)} {d d' : TVar V → Eff (TreeSt V) Unit}
    (hf : ∀ x, Eff.Le (f x) (f' x)) (hd : ∀ x, Eff.Le (d x) (d' x)) (k : TyIx) (a : V) (cs : List (TVar V)) :
    Eff.Le (tCopyNode C f d k a cs) (tCopyNode C f' d' k a cs) := by
  unfold tCopyNode
  le_tac [tCopyList_le hf hd]

theorem tNew_le {c c' : Eff (TreeSt V) (TCell V)} (h : Eff.Le c c') : Eff.Le (tNew C c) (tNew C c') := by
  unfold tNew
  le_tac [h]

theorem tCopyContent_le {f f' : TVar V → Eff (TreeSt V) (TVar V)} {d d' : TVar V → Eff (TreeSt V) Unit}
    (hf : ∀ x, Eff.Le (f x) (f' x)) (hd : ∀ x, Eff.Le (d x) (d' x)) (k : TyIx) (c : TContent V) :
    Eff.Le (tCopyContent C f d k c) (tCopyContent C f' d' k c) := by
  cases c <;> unfold tCopyContent <;> le_tac [tNew_le, tCopyNode_le hf hd]

theorem tCopyVar_le : ∀ {n m : Nat}, n ≤ m → ∀ x : TVar V, Eff.Le (tCopyVar C n x) (tCopyVar C m x)
  | 0, _, _, _ => .fail _
  | _ + 1, 0, h, _ => by omega
  | n + 1, m + 1, h, x => by
    have h1 := fun x => tCopyVar_le (n := n) (m := m) (by omega) x
    unfold tCopyVar
    le_tac [tCopyContent_le h1 (tDestroyVar_le (by omega))]

theorem tMoveList_le {f f' : TLoc → Eff (TreeSt V) (TVar V)} {d d' : TVar V → Eff (TreeSt V) Unit}
    (hf : ∀ x, Eff.Le (f x) (f' x)) (hd : ∀ x, Eff.Le (d x) (d' x)) (p : ObjId) :
    ∀ r i, Eff.Le (tMoveList f d p r i) (tMoveList f' d' p r i)
  | 0, _ => .refl _
  | r + 1, i => by
    have := tMoveList_le hf hd p r (i + 1)
    unfold tMoveList
    le_tac [this, hf, hd]

theorem tMoveNode_le {f f' : TLoc → Eff (TreeSt V) (TVar V)} {d d' : TVar V → Eff (TreeSt V) Unit}
    (hf : ∀ x, Eff.Le (f x) (f' x)) (hd : ∀ x, Eff.Le (d x) (d' x)) (k : TyIx) (p : ObjId) :
    Eff.Le (tMoveNode C f d k p) (tMoveNode C f' d' k p) := by
  unfold tMoveNode
  le_tac [tMoveList_le hf hd]

theorem tMoveRef_le {f f' : TLoc → Eff (TreeSt V) (TVar V)} {d d' : TVar V → Eff (TreeSt V) Unit}
    (hf : ∀ x, Eff.Le (f x) (f' x)) (hd : ∀ x, Eff.Le (d x) (d' x)) (k : TyIx) (r : TRef) :
    Eff.Le (tMoveRef C f d k r) (tMoveRef C f' d' k r) := by
  unfold tMoveRef
  le_tac [tNew_le, tMoveNode_le hf hd]

theorem tMoveVar_le : ∀ {n m : Nat}, n ≤ m → ∀ l : TLoc, Eff.Le (tMoveVar C n l) (tMoveVar C m l)
  | 0, _, _, _ => .fail _
  | _ + 1, 0, h, _ => by omega
  | n + 1, m + 1, h, x => by
    have h1 := fun x => tMoveVar_le (n := n) (m := m) (by omega) x
    unfold tMoveVar
    le_tac [tMoveRef_le h1 (tDestroyVar_le (by omega))]

variable {n m : Nat}

theorem tAssignNode_le (h : n ≤ m) (k : TyIx) (p q : ObjId) : Eff.Le (tAssignNode C n k p q) (tAssignNode C m k p q) := by
  unfold tAssignNode
  le_tac [tCopyList_le (tCopyVar_le h) (tDestroyVar_le h), tDestroyList_le (tDestroyVar_le h)]

theorem tAssignContent_le (h : n ≤ m) (k : TyIx) (l r : TRef) : Eff.Le (tAssignContent C n k l r) (tAssignContent C m k l r) := by
  unfold tAssignContent
  le_tac [tAssignNode_le h]

theorem tDestroyAt_le (h : n ≤ m) (l : TLoc) : Eff.Le (tDestroyAt (V := V) n l) (tDestroyAt m l) := by
  unfold tDestroyAt
  le_tac [tDestroyVar_le h]

theorem tCopyRef_le (h : n ≤ m) (k : TyIx) (r : TRef) : Eff.Le (tCopyRef C n k r) (tCopyRef C m k r) := by
  unfold tCopyRef
  le_tac [tCopyContent_le (tCopyVar_le h) (tDestroyVar_le h)]

theorem tBackupAssign_le (h : n ≤ m) (l : TLoc) (k : TyIx) (r : TRef) (v : TVar V) :
    Eff.Le (tBackupAssign C n l k r v) (tBackupAssign C m l k r v) := by
  cases v <;> unfold tBackupAssign <;>
    le_tac [tCopyRef_le h, tDestroyVar_le h, tDestroyAt_le h, tNew_le, tCopyContent_le (tCopyVar_le h) (tDestroyVar_le h)]

theorem tAssigner_le (h : n ≤ m) (l : TLoc) (v : TVar V) (k : TyIx) (r : TRef) :
    Eff.Le (tAssigner C n l v k r) (tAssigner C m l v k r) := by
  unfold tAssigner
  le_tac [tCopyRef_le h, tDestroyAt_le h, tBackupAssign_le h]

theorem tMoveAssigner_le (h : n ≤ m) (l : TLoc) (v : TVar V) (k : TyIx) (r : TRef) :
    Eff.Le (tMoveAssigner C n l v k r) (tMoveAssigner C m l v k r) := by
  unfold tMoveAssigner
  le_tac [tCopyRef_le h, tDestroyAt_le h, tBackupAssign_le h, tMoveRef_le (tMoveVar_le h) (tDestroyVar_le h)]

theorem tVariantAssign_le (h : n ≤ m) (l r : TLoc) : Eff.Le (tVariantAssign C n l r) (tVariantAssign C m l r) := by
  unfold tVariantAssign
  le_tac [tAssignContent_le h, tAssigner_le h]

theorem tVariantMoveAssign_le (h : n ≤ m) (l r : TLoc) : Eff.Le (tVariantMoveAssign C n l r) (tVariantMoveAssign C m l r) := by
  unfold tVariantMoveAssign
  le_tac [tMoveAssigner_le h]

theorem tEndVar_le (h : n ≤ m) (x : Nat) : Eff.Le (tEndVar (V := V) n x) (tEndVar m x) := by
  unfold tEndVar
  le_tac [tDestroyVar_le h]

theorem tSwap_le (h : n ≤ m) (l r : TLoc) (z : Nat) : Eff.Le (tSwap C n l r z) (tSwap C m l r z) := by
  unfold tSwap
  le_tac [tMoveVar_le h, tVariantMoveAssign_le h, tEndVar_le h]

theorem tCode_le (h : n ≤ m) (c : TCmd V) : Eff.Le (c.code C n) (c.code C m) := by
  cases c <;> unfold TCmd.code <;>
    le_tac [tNew_le, tCopyNode_le (tCopyVar_le h) (tDestroyVar_le h), tCopyList_le (tCopyVar_le h) (tDestroyVar_le h), tDestroyList_le (tDestroyVar_le h),
      tCopyVar_le h, tMoveVar_le h, tVariantAssign_le h, tVariantMoveAssign_le h, tSwap_le h, tEndVar_le h]

theorem tRun_le (h : n ≤ m) : ∀ (cs : List (TCmd V)) {s s' : TreeSt V}, tRun C n cs s = some s' → tRun C m cs s = some s'
  | [], _, _, hr => hr
  | c :: cs, s, s', hr => by
    unfold tRun at hr ⊢
    split at hr
    · rename_i hv
      rw [if_pos hv]
      rcases (tCode_le h c).at_ s with ⟨x, hx⟩ | he
      · rw [hx] at hr; cases hr
      · rw [he]
        cases hc : c.code C n s with
        | ok a s1 => rw [hc] at hr; exact tRun_le h cs hr
        | exc e s1 => rw [hc] at hr; exact tRun_le h cs hr
        | fault x => rw [hc] at hr; cases hr
    · rename_i hv
      rw [if_neg hv]
      exact tRun_le h cs hr

/-! ### Comparing, hashing, streaming -/

theorem tEqList_le {f f' : TVar V → TVar V → Eff (TreeSt V) Bool} (h : ∀ x y, Eff.Le (f x y) (f' x y)) :
    ∀ xs ys, Eff.Le (tEqList f xs ys) (tEqList f' xs ys)
  | x :: xs, y :: ys => by
    have := tEqList_le h xs ys
    unfold tEqList
    le_tac [this, h]
  | [], _ => by unfold tEqList; exact .refl _
  | _ :: _, [] => by unfold tEqList; exact .refl _

theorem tEqVar_le {eq : TyIx → V → V → Bool} : ∀ {n m : Nat}, n ≤ m → ∀ x y : TVar V, Eff.Le (tEqVar eq n x y) (tEqVar eq m x y)
  | 0, _, _, _, _ => .fail _
  | _ + 1, 0, h, _, _ => by omega
  | n + 1, m + 1, h, x, y => by
    have h1 := fun x y => tEqVar_le (eq := eq) (n := n) (m := m) (by omega) x y
    unfold tEqVar
    unfold tEqNode
    le_tac [tEqList_le h1]

theorem tLtList_le {f f' : TVar V → TVar V → Eff (TreeSt V) Bool} (h : ∀ x y, Eff.Le (f x y) (f' x y)) :
    ∀ xs ys, Eff.Le (tLtList f xs ys) (tLtList f' xs ys)
  | x :: xs, y :: ys => by
    have := tLtList_le h xs ys
    unfold tLtList
    le_tac [this, h]
  | [], [] => by unfold tLtList; exact .refl _
  | [], _ :: _ => by unfold tLtList; exact .refl _
  | _ :: _, [] => by unfold tLtList; exact .refl _

theorem tLtVar_le {lt : TyIx → V → V → Bool} : ∀ {n m : Nat}, n ≤ m → ∀ x y : TVar V, Eff.Le (tLtVar lt n x y) (tLtVar lt m x y)
  | 0, _, _, _, _ => .fail _
  | _ + 1, 0, h, _, _ => by omega
  | n + 1, m + 1, h, x, y => by
    have h1 := fun x y => tLtVar_le (lt := lt) (n := n) (m := m) (by omega) x y
    unfold tLtVar
    unfold tLtNode
    le_tac [tLtList_le h1]

theorem tHashList_le {H : Type} {f f' : TVar V → Eff (TreeSt V) H} (h : ∀ x, Eff.Le (f x) (f' x)) :
    ∀ xs, Eff.Le (tHashList f xs) (tHashList f' xs)
  | [] => .refl _
  | x :: xs => by
    have := tHashList_le h xs
    unfold tHashList
    le_tac [this, h]

theorem tHashVar_le {H : Type} {hl : TyIx → V → H} {hn : TyIx → V → List H → H} {combine : H → TyIx → H} : ∀ {n m : Nat}, n ≤ m →
    ∀ x : TVar V, Eff.Le (tHashVar hl hn combine n x) (tHashVar hl hn combine m x)
  | 0, _, _, _ => .fail _
  | _ + 1, 0, h, _ => by omega
  | n + 1, m + 1, h, x => by
    have h1 := fun x => tHashVar_le (hl := hl) (hn := hn) (combine := combine) (n := n) (m := m) (by omega) x
    unfold tHashVar
    le_tac [tHashList_le h1]

theorem tPrintList_le {S : Type} {f f' : TVar V → S → Eff (TreeSt V) S} (h : ∀ x o, Eff.Le (f x o) (f' x o)) :
    ∀ xs o, Eff.Le (tPrintList f xs o) (tPrintList f' xs o)
  | [], _ => .refl _
  | x :: xs, o => by
    have := tPrintList_le h xs
    unfold tPrintList
    le_tac [this, h]

theorem tPrintVar_le {S : Type} {P : Printer V S} : ∀ {n m : Nat}, n ≤ m →
    ∀ (x : TVar V) (o : S), Eff.Le (tPrintVar P n x o) (tPrintVar P m x o)
  | 0, _, _, _, _ => .fail _
  | _ + 1, 0, h, _, _ => by omega
  | n + 1, m + 1, h, x, o => by
    have h1 := fun x o => tPrintVar_le (P := P) (n := n) (m := m) (by omega) x o
    unfold tPrintVar
    le_tac [tPrintList_le h1]

/-! ### Success needs stack -/

theorem Eff.bind_ok {m : Eff S α} {f : α → Eff S β} {s s' : S} {b : β} (h : (m >>= f) s = .ok b s') :
    ∃ a s1, m s = .ok a s1 ∧ f a s1 = .ok b s' := by
  change Eff.bind m f s = _ at h
  unfold Eff.bind at h
  cases hm : m s with
  | ok a s1 => rw [hm] at h; exact ⟨a, s1, rfl, h⟩
  | exc e s1 => rw [hm] at h; cases h
  | fault x => rw [hm] at h; cases h

theorem Eff.onExc_ok {m : Eff S α} {h : Eff S Unit} {s s' : S} {a : α} (he : Eff.onExc m h s = .ok a s') : m s = .ok a s' := by
  unfold Eff.onExc at he
  cases hm : m s with
  | ok a s1 => rw [hm] at he; exact he
  | exc e s1 => rw [hm] at he; simp only at he; split at he <;> cases he
  | fault x => rw [hm] at he; cases he

/-- With enough stack the result is a success: then with less it is that success or a fault. -/
theorem Eff.Le.of_ok {f : Nat → Eff S α} {s s' : S} {a : α} (hm : ∀ {n m}, n ≤ m → Eff.Le (f n) (f m)) (h : f m s = .ok a s') :
    f n s = .ok a s' ∨ ∃ x, f n s = .fault x := by
  by_cases hnm : n ≤ m
  · rcases (hm hnm).at_ s with hx | he
    · exact .inr hx
    · exact .inl (by rw [← he, h])
  · rcases (hm (Nat.le_of_not_le hnm)).at_ s with ⟨x, hx⟩ | he
    · rw [h] at hx; cases hx
    · exact .inl (by rw [he, h])

theorem VTree.height_pos : ∀ t : VTree V, 1 ≤ t.height
  | .leaf _ _ => Nat.le_refl _
  | .node _ _ _ => by rw [VTree.height]; omega

mutual
theorem tDestroyVar_ok : ∀ {t : VTree V} {x : TVar V} {ns : List ObjId} {n : Nat} {s s' : TreeSt V},
    t.Rep s.heap x ns → ns.Nodup → tDestroyVar n x s = .ok () s' → t.height ≤ n
  | _, _, _, 0, _, _, _, _, h => by cases h
  | .leaf k v, x, ns, n + 1, s, _, _, _, _ => by rw [VTree.height]; omega
  | .node k a f, x, ns, n + 1, s, _, hr, hnd, h => by
    rw [VTree.Rep] at hr
    rw [VTree.height]
    obtain ⟨p, cs, ms, hp, hfr, ⟨rfl, rfl⟩ | ⟨q, rfl, hq, rfl⟩⟩ := hr
    · rw [tDestroyVar, tDestroyContent] at h
      obtain ⟨a1, s1, h1, h2⟩ := Eff.bind_ok h
      simp only [tReadNode, hp] at h1
      cases h1
      obtain ⟨_, s2, h3, _⟩ := Eff.bind_ok h2
      have := tDestroyList_ok hfr (List.nodup_cons.mp hnd).2 h3
      omega
    · rw [tDestroyVar] at h
      obtain ⟨c, s0, h0, h'⟩ := Eff.bind_ok h
      simp only [tReadBox, hq] at h0
      cases h0
      obtain ⟨_, s0, h, _⟩ := Eff.bind_ok h'
      rw [tDestroyContent] at h
      obtain ⟨a1, s1, h1, h2⟩ := Eff.bind_ok h
      simp only [tReadNode, hp] at h1
      cases h1
      obtain ⟨_, s2, h3, _⟩ := Eff.bind_ok h2
      have := tDestroyList_ok hfr (List.nodup_cons.mp (List.nodup_cons.mp hnd).2).2 h3
      omega
theorem tDestroyList_ok : ∀ {f : VForest V} {xs : List (TVar V)} {ns : List ObjId} {n : Nat} {s s' : TreeSt V},
    f.Rep s.heap xs ns → ns.Nodup → tDestroyList (tDestroyVar n) xs s = .ok () s' → f.height ≤ n
  | .nil, _, _, _, _, _, _, _, _ => by rw [VForest.height]; omega
  | .cons t f, xs, ns, n, s, _, hr, hnd, h => by
    rw [VForest.Rep] at hr
    rw [VForest.height]
    obtain ⟨y, ys, ms, ms', rfl, ht, hfr, rfl⟩ := hr
    obtain ⟨h1, h2, h3⟩ := List.nodup_append.mp hnd
    rw [tDestroyList] at h
    obtain ⟨_, s1, h4, h5⟩ := Eff.bind_ok h
    have hf := tDestroyList_ok hfr h2 h4
    rw [tDestroyList_run hfr h2 hf] at h4
    cases h4
    have ht' : t.Rep (s.del ms').heap y ms := ht.frame fun p hp => by
      simp only [TreeSt.del]
      rw [if_neg]; intro hp'; exact h3 p hp p hp' rfl
    have := tDestroyVar_ok ht' h1 h5
    omega
end

mutual
theorem tCopyVar_ok : ∀ {t : VTree V} {x y : TVar V} {ns : List ObjId} {n : Nat} {s s' : TreeSt V},
    t.Rep s.heap x ns → s.Fresh → tCopyVar C n x s = .ok y s' → t.height ≤ n
  | _, _, _, _, 0, _, _, _, _, h => by cases h
  | .leaf k v, x, y, ns, n + 1, s, _, _, _, _ => by rw [VTree.height]; omega
  | .node k a f, x, y, ns, n + 1, s, _, hr, hf, h => by
    obtain ⟨p, cs, ms, h1, h2, h3⟩ := hr.node_read
    rw [VTree.height]
    rw [tCopyVar] at h
    obtain ⟨c, s1, h4, h5⟩ := Eff.bind_ok h
    rw [h1] at h4; cases h4
    obtain ⟨c, s1, h6, _⟩ := Eff.bind_ok h5
    rw [tCopyContent] at h6
    obtain ⟨d, s1, h7, h8⟩ := Eff.bind_ok h6
    rw [h2] at h7; cases h7
    obtain ⟨q, s1, h9, _⟩ := Eff.bind_ok h8
    obtain ⟨q', s2, h10, h11⟩ := Eff.bind_ok h9
    obtain ⟨c, s3, h12, _⟩ := Eff.bind_ok h11
    have h12 := Eff.onExc_ok h12
    obtain ⟨_, s4, h13, h14⟩ := Eff.bind_ok h12
    obtain ⟨ds, s5, h15, _⟩ := Eff.bind_ok h14
    have hs2 : s4.Fresh ∧ ∀ p, p ≠ s.next → s4.heap p = s.heap p := by
      have hal : s2 = { s with heap := upd s.heap s.next (some .raw), next := s.next + 1, tick := s.tick + 1, allocs := s.allocs + 1 } := by
        simp only [tAlloc, bind, Eff.bind, Eff.modify, tMayThrow] at h10
        cases ht : C.throws s.tick <;> simp [ht] at h10
        exact h10.2.symm
      have hs4 : s4 = { s2 with tick := s2.tick + 1 } := by
        rcases tMayThrow_run (C := C) (C.tr x.which).nothrowCopy (.copyCtor x.which) s2 with h | ⟨h, _⟩ <;> rw [h] at h13 <;> cases h13
        rfl
      subst hs4 hal
      refine ⟨fun p hp => ?_, fun p hp => ?_⟩
      · simp only at hp
        simp only [upd]
        rw [if_neg (by omega)]; exact hf p (by omega)
      · simp only [upd, hp, if_false]
    have := tCopyList_ok (h3.frame fun q hq => hs2.2 q fun h => h3.alive q hq (h ▸ hf _ (Nat.le_refl _))) hs2.1 h15
    omega
theorem tCopyList_ok : ∀ {f : VForest V} {xs ys : List (TVar V)} {ns : List ObjId} {n : Nat} {s s' : TreeSt V},
    f.Rep s.heap xs ns → s.Fresh → tCopyList (tCopyVar C n) (tDestroyVar n) xs s = .ok ys s' → f.height ≤ n
  | .nil, _, _, _, _, _, _, _, _, _ => by rw [VForest.height]; omega
  | .cons t f, xs, zs, ns, n, s, _, hr, hf, h => by
    rw [VForest.Rep] at hr
    rw [VForest.height]
    obtain ⟨y, ys, ms, ms', rfl, ht, hfr, rfl⟩ := hr
    rw [tCopyList] at h
    obtain ⟨y', s1, h1, h2⟩ := Eff.bind_ok h
    have htn := tCopyVar_ok ht hf h1
    rcases tCopyVar_run (C := C) (n := n) ht htn hf with ⟨_, _, ns1, hr1, _, hg1, _⟩ | ⟨e, s1, hr1, _⟩ <;> rw [hr1] at h1 <;> cases h1
    obtain ⟨zs, s2, h3, _⟩ := Eff.bind_ok h2
    have := tCopyList_ok (hg1.repF hfr) hg1.fresh (Eff.onExc_ok h3)
    omega
end

end

end BVariant
