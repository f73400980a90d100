/-
Assignments of recursive variants that go wrong: one side is a part of the other.
-/
import Verif.Lemmas.TreeStep

namespace BVariant

section
variable {V : Type} {C : TreeCfg V} {s s' : TreeSt V}

open ATree AStore

variable {α : AStore V} {σ : TStore V} {G : List (ATree V)} {n m : Nat} {x t : TPlace}

/-! ### Places in places -/

theorem TPlace.inside_asymm (h : t.inside x = true) : x.inside t = false := by
  simp only [TPlace.inside, Bool.and_eq_true, beq_iff_eq, bne_iff_ne, ne_eq] at h
  cases hx : x.inside t with
  | false => rfl
  | true =>
    simp only [TPlace.inside, Bool.and_eq_true, beq_iff_eq, bne_iff_ne, ne_eq] at hx
    obtain ⟨is, h1⟩ := List.isPrefixOf_iff_prefix.mp h.1.2
    obtain ⟨js, h2⟩ := List.isPrefixOf_iff_prefix.mp hx.1.2
    have h3 := congrArg List.length h1
    have h4 := congrArg List.length h2
    simp only [List.length_append] at h3 h4
    have : is = [] := List.length_eq_zero_iff.mp (by omega)
    subst this
    rw [List.append_nil] at h1
    exact absurd h1.symm h.2

/-- The outer variant, after a change of the inner one. -/
theorem AStore.At.put_inside {l : TLoc} {L U : ATree V} {is : List Nat} (hx : At α x l L) (hv : t.var = x.var)
    (hp : t.path = x.path ++ is) :
    At (α.put t U) x l (L.put is U) ∧ ∀ W, (α.put t U).put x W = α.put x W := by
  have he : α.put t U = α.put x (L.put is U) := by
    obtain ⟨T, h1, h2⟩ := hx
    simp only [AStore.put, hv, h1, Option.map_some, hp, put_append h2]
  rw [he]
  exact ⟨hx.put, fun W => AStore.put_put hx⟩

theorem put_box {T U : ATree V} {i : Nat} {is : List Nat} : (T.put (i :: is) U).box = T.box ∧ (T.put (i :: is) U).which = T.which ∧
    (T.put (i :: is) U).content = T.content ∧ (T.put (i :: is) U).isBlk = T.isBlk := by
  cases T with
  | node k a p f b =>
    simp only [ATree.put]
    cases f[i]? <;> exact ⟨rfl, rfl, rfl, rfl⟩
  | leaf => exact ⟨rfl, rfl, rfl, rfl⟩
  | dead => exact ⟨rfl, rfl, rfl, rfl⟩
  | blk => exact ⟨rfl, rfl, rfl, rfl⟩

/-! ### The part is destroyed before it is read -/

theorem tCopyRef_dangling {p : ObjId} {i k : Nat} (h : s.heap p = none) :
    tCopyRef C n k (.inPlace (.child p i)) s = .fault .ub := by
  simp only [tCopyRef, bind, Eff.bind, TRef.read, TLoc.read, tReadNode, h]

theorem tMoveRef_dangling {p : ObjId} {i k : Nat} {f : TLoc → Eff (TreeSt V) (TVar V)} {d : TVar V → Eff (TreeSt V) Unit}
    (h : s.heap p = none) : tMoveRef C f d k (.inPlace (.child p i)) s = .fault .ub := by
  simp only [tMoveRef, bind, Eff.bind, TRef.read, TLoc.read, tReadNode, h]

/-- After the destruction of a content there are no parts of it. -/
theorem destroyed_part {l : TLoc} {L R : ATree V} {p : ObjId} {i : Nat} {is : List Nat} (hne : is ≠ [])
    (hw : L.walk l is = some (.child p i, R)) (v : TVar V) : ((l.set v s).del L.blocks).heap p = none := by
  obtain ⟨p', i', e, hp⟩ := walk_place hne hw
  cases e
  simp only [TreeSt.del, mem_blocks.mpr (by omega : 0 < L.blocks.count p), if_true]

theorem node_of_walk {l r : TLoc} {L R : ATree V} {is : List Nat} {u : VTree V} (hne : is ≠ []) (hw : L.walk l is = some (r, R))
    (hL : L.Is u) (hty : u.Typed C.wrapped) : C.wrapped L.which = true := by
  cases is with
  | nil => exact absurd rfl hne
  | cons i is =>
    obtain ⟨k, a, p, f, b, v, rfl, _⟩ := walk_cons hw
    cases u with
    | leaf => simp [ATree.Is] at hL
    | node k' a' g => rw [ATree.Is] at hL; rw [VTree.Typed] at hty; obtain ⟨rfl, _⟩ := hL; exact hty.1

/-- A backup strategy with the content in place: the content is destroyed before the part is read. -/
theorem tBackupAssign_unsafe (hl : C.ops.Lawful) {l r : TLoc} {L R : ATree V} {u0 : VTree V} {is : List Nat} (hM : Mem s α G)
    (hx : At α x l L) (hL : L.Is u0) (hty : u0.Typed C.wrapped) (hn0 : u0.height ≤ n) (hne : is ≠ [])
    (hw : L.walk l is = some (r, R)) (hb : L.box = none) (k' : TyIx) :
    tBackupAssign C n l k' (.inPlace r) L.var s = .fault .ub ∨
    ∃ e s', tBackupAssign C n l k' (.inPlace r) L.var s = .exc e s' ∧ C.throws e.tick = true := by
  obtain ⟨p, i, rfl, _⟩ := walk_place hne hw
  have hwr := node_of_walk hne hw hL hty
  have hnm : C.nothrowMove L.which = false := by simp only [TreeCfg.nothrowMove, hwr]; rfl
  rw [var_none hb]
  simp only [tBackupAssign, hnm, Bool.false_eq_true, if_false]
  rcases hM.alloc (C := C) with ⟨q, s1, h1, hM1, ht1, _⟩ | ⟨e, s1, h1, hM1, t1, t2, t3, _⟩
  · rcases hM1.copyContent (C := C) (n := n) hl (hM1.at_run hx).2.2 hL (by omega) with ⟨s2, U0, h2, hUb0, hU0, hM2, ht2⟩ | ⟨e, s2, h2, hM2, hth⟩
    · have hblk := is_notBlk hU0
      obtain ⟨s3, h3, hM3, ht3, _⟩ := Mem.fill (p := q) (F := [U0]) (G := G) (U := U0.setBox (some q)) (c := .box U0.content)
        (hM2.perm (.swap _ _ _))
        (fun h' hq hus' => box_holds hus'.1 hq)
        (fun p => by rw [setBox_blocks _ hUb0 hblk, count_cons]; simp [blocksL])
      obtain ⟨s4, h4, hM4, ht4, _, hh4⟩ := hM3.destroyAt (n := n) hx hL hn0
      have hgone : s4.heap p = none := by rw [hh4]; exact destroyed_part hne hw _
      left
      simp only [tNew, bind, Eff.bind, h1, Eff.onExc, h2, h3, pure, Eff.pure, h4, tCopyRef_dangling hgone]
    · obtain ⟨s3, h3, hM3, ht3, _⟩ := hM2.free
      right
      refine ⟨e, s3, ?_, hth.throws⟩
      simp only [tNew, bind, Eff.bind, h1, Eff.onExc, h2, h3]
  · right
    refine ⟨e, s1, ?_, t3⟩
    simp only [tNew, bind, Eff.bind, h1]

theorem tAssigner_unsafe (hl : C.ops.Lawful) {l r : TLoc} {L R : ATree V} {u0 : VTree V} {is : List Nat} (hM : Mem s α G)
    (hx : At α x l L) (hL : L.Is u0) (hty : u0.Typed C.wrapped) (hn0 : u0.height ≤ n) (hne : is ≠ [])
    (hw : L.walk l is = some (r, R)) (k' : TyIx) (hd : tDestroysFirst C L.var k' = true) :
    tAssigner C n l L.var k' (.inPlace r) s = .fault .ub ∨
    ∃ e s', tAssigner C n l L.var k' (.inPlace r) s = .exc e s' ∧ C.throws e.tick = true ∧ C.fallback = none ∧ L.box = none := by
  obtain ⟨p, i, rfl, _⟩ := walk_place hne hw
  obtain ⟨s1, h1, hM1, _, _, hh1⟩ := hM.destroyAt (n := n) hx hL hn0
  have hgone : s1.heap p = none := by rw [hh1]; exact destroyed_part hne hw _
  unfold tDestroysFirst at hd
  unfold tAssigner
  by_cases hc : C.nothrowCopy k' = true
  · rw [if_pos hc]
    left
    simp only [Eff.noexcept, bind, Eff.bind, h1, tCopyRef_dangling hgone]
  · rw [if_neg hc] at hd ⊢
    by_cases hm : C.nothrowMove k' = true
    · rw [if_pos hm] at hd; cases hd
    · rw [if_neg hm] at hd ⊢
      cases hfb : C.fallback with
      | some fb =>
        left
        simp only [Eff.onExc, bind, Eff.bind, h1, tCopyRef_dangling hgone]
      | none =>
        have hb : L.box = none := by
          cases hb : L.box with
          | none => rfl
          | some q =>
            have hv : L.var = .backup L.which q := by unfold var; rw [hb]
            rw [hfb, hv] at hd; cases hd
        rcases tBackupAssign_unsafe hl hM hx hL hty hn0 hne hw hb k' with h | ⟨e, s', h, h'⟩
        · exact .inl h
        · exact .inr ⟨e, s', h, h', rfl, hb⟩

theorem tMoveAssigner_unsafe (hl : C.ops.Lawful) {l r : TLoc} {L R : ATree V} {u0 : VTree V} {is : List Nat} (hM : Mem s α G)
    (hx : At α x l L) (hL : L.Is u0) (hty : u0.Typed C.wrapped) (hn0 : u0.height ≤ n) (hne : is ≠ [])
    (hw : L.walk l is = some (r, R)) (k' : TyIx) (hd : tMoveDestroysFirst C L.var k' = true) :
    tMoveAssigner C n l L.var k' (.inPlace r) s = .fault .ub ∨
    ∃ e s', tMoveAssigner C n l L.var k' (.inPlace r) s = .exc e s' ∧ C.throws e.tick = true ∧ C.fallback = none ∧ L.box = none := by
  obtain ⟨p, i, rfl, _⟩ := walk_place hne hw
  obtain ⟨s1, h1, hM1, _, _, hh1⟩ := hM.destroyAt (n := n) hx hL hn0
  have hgone : s1.heap p = none := by rw [hh1]; exact destroyed_part hne hw _
  unfold tMoveDestroysFirst at hd
  unfold tMoveAssigner
  by_cases hm : C.nothrowMove k' = true
  · rw [if_pos hm]
    left
    simp only [Eff.noexcept, bind, Eff.bind, h1, tMoveRef_dangling hgone]
  · rw [if_neg hm]
    by_cases hc : C.nothrowCopy k' = true
    · rw [if_pos hc]
      left
      simp only [Eff.noexcept, bind, Eff.bind, h1, tCopyRef_dangling hgone]
    · rw [if_neg hc]
      cases hfb : C.fallback with
      | some fb =>
        left
        simp only [Eff.onExc, bind, Eff.bind, h1, tMoveRef_dangling hgone]
      | none =>
        have hb : L.box = none := by
          cases hb : L.box with
          | none => rfl
          | some q =>
            have hv : L.var = .backup L.which q := by unfold var; rw [hb]
            rw [hfb, hv] at hd
            simp [hm, hc] at hd
        rcases tBackupAssign_unsafe hl hM hx hL hty hn0 hne hw hb k' with h | ⟨e, s', h, h'⟩
        · exact .inl h
        · exact .inr ⟨e, s', h, h', rfl, hb⟩

/-! ### A dead part is read -/

/-- Memory has only been added. -/
structure Grows (s s' : TreeSt V) : Prop where
  heap : ∀ p, s.heap p ≠ none → s'.heap p = s.heap p
  fresh : s'.Fresh
  next : s.next ≤ s'.next

theorem Grows.refl (h : s.Fresh) : Grows s s := ⟨fun _ _ => rfl, h, Nat.le_refl _⟩

theorem Grows.trans {s1 s2 s3 : TreeSt V} (h : Grows s1 s2) (h' : Grows s2 s3) : Grows s1 s3 :=
  ⟨fun p hp => by rw [h'.heap p (by rw [h.heap p hp]; exact hp), h.heap p hp], h'.fresh, Nat.le_trans h.next h'.next⟩

theorem tMayThrow_ok {b : Bool} {w : ExcKind} (h : tMayThrow C b w s = .ok () s') : s' = { s with tick := s.tick + 1 } := by
  unfold tMayThrow at h
  split at h
  · cases h
  · cases h; rfl

theorem tAlloc_ok {p : ObjId} (h : tAlloc C s = .ok p s') : p = s.next ∧
    s' = { s with heap := upd s.heap s.next (some .raw), next := s.next + 1, tick := s.tick + 1, allocs := s.allocs + 1 } := by
  have hal : tAlloc C s = if C.throws s.tick = true then
      .exc ⟨.badAlloc, s.tick⟩ { s with tick := s.tick + 1, allocs := s.allocs + 1 } else
      .ok s.next { s with heap := upd s.heap s.next (some .raw), next := s.next + 1, tick := s.tick + 1, allocs := s.allocs + 1 } := by
    simp only [tAlloc, bind, Eff.bind, Eff.modify, tMayThrow]
    cases C.throws s.tick <;> rfl
  rw [hal] at h
  split at h
  · cases h
  · cases h; exact ⟨rfl, rfl⟩

theorem onExc_ok {S A : Type} {m : Eff S A} {c : Eff S Unit} {a : A} {s s' : S} : Eff.onExc m c s = .ok a s' ↔ m s = .ok a s' := by
  unfold Eff.onExc
  cases m s with
  | ok => exact Iff.rfl
  | fault => exact Iff.rfl
  | exc e s1 =>
    simp only
    cases c s1 <;> simp

theorem bind_ok {S A B : Type} {m : Eff S A} {f : A → Eff S B} {b : B} {s s' : S} :
    (m >>= f) s = .ok b s' ↔ ∃ a s1, m s = .ok a s1 ∧ f a s1 = .ok b s' := by
  simp only [bind, Eff.bind]
  cases m s with
  | ok a s1 => exact ⟨fun h => ⟨a, s1, rfl, h⟩, fun ⟨_, _, h1, h2⟩ => by cases h1; exact h2⟩
  | exc => exact ⟨nofun, fun ⟨_, _, h1, _⟩ => by cases h1⟩
  | fault => exact ⟨nofun, fun ⟨_, _, h1, _⟩ => by cases h1⟩

theorem grows_alloc {p : ObjId} (hf : s.Fresh) (h : tAlloc C s = .ok p s') : Grows s s' ∧ s.heap p = none ∧ p < s'.next := by
  obtain ⟨rfl, rfl⟩ := tAlloc_ok h
  have hn := hf s.next (Nat.le_refl _)
  refine ⟨⟨fun q hq => ?_, fun q hq => ?_, Nat.le_succ _⟩, hn, Nat.lt_succ_self _⟩
  · have : q ≠ s.next := fun e => hq (e ▸ hn)
    simp only [upd, this, if_false]
  · have : q ≠ s.next := by simp only at hq; omega
    simp only [upd, this, if_false]
    exact hf q (by simp only at hq; omega)

/-- Constructing on the heap adds memory, if the constructor does. -/
theorem tNew_grows {ctor : Eff (TreeSt V) (TCell V)} {p : ObjId}
    (hc : ∀ {s s' : TreeSt V} {c : TCell V}, s.Fresh → ctor s = .ok c s' → Grows s s') (hf : s.Fresh) (h : tNew C ctor s = .ok p s') :
    Grows s s' := by
  unfold tNew at h
  obtain ⟨q, s1, h1, h⟩ := bind_ok.mp h
  obtain ⟨c, s2, h2, h⟩ := bind_ok.mp h
  obtain ⟨_, s3, h3, h⟩ := bind_ok.mp h
  obtain ⟨rfl, rfl⟩ : q = p ∧ s3 = s' := by simpa [pure, Eff.pure] using h
  rw [onExc_ok] at h2
  obtain ⟨g1, g2, g3⟩ := grows_alloc hf h1
  have g4 := g1.trans (hc g1.fresh h2)
  unfold tFill at h3
  cases hq : s2.heap q with
  | none => rw [hq] at h3; cases h3
  | some cell =>
    rw [hq] at h3
    cases cell with
    | node => cases h3
    | box => cases h3
    | raw =>
      cases h3
      refine ⟨fun z hz => ?_, fun z hz => ?_, g4.next⟩
      · have : z ≠ q := fun e => hz (e ▸ g2)
        simp only [upd, this, if_false]; exact g4.heap z hz
      · have : z ≠ q := by have := (hc g1.fresh h2).next; simp only at hz; omega
        simp only [upd, this, if_false]; exact g4.fresh z hz

theorem tCopyList_grows {f : TVar V → Eff (TreeSt V) (TVar V)} {d : TVar V → Eff (TreeSt V) Unit}
    (hc : ∀ {s s' : TreeSt V} {v v' : TVar V}, s.Fresh → f v s = .ok v' s' → Grows s s') :
    ∀ {vs vs' : List (TVar V)} {s s' : TreeSt V}, s.Fresh → tCopyList f d vs s = .ok vs' s' → Grows s s'
  | [], vs', s, s', hf, h => by cases h; exact .refl hf
  | v :: vs, vs', s, s', hf, h => by
    unfold tCopyList at h
    obtain ⟨v1, s1, h1, h⟩ := bind_ok.mp h
    obtain ⟨vs1, s2, h2, h⟩ := bind_ok.mp h
    cases h
    rw [onExc_ok] at h2
    have g1 := hc hf h1
    exact g1.trans (tCopyList_grows hc g1.fresh h2)

theorem tCopyVar_grows : ∀ {n : Nat} {s s' : TreeSt V} {v v' : TVar V}, s.Fresh → tCopyVar C n v s = .ok v' s' → Grows s s'
  | 0, _, _, _, _, _, h => by cases h
  | n + 1, s, s', v, v', hf, h => by
    unfold tCopyVar at h
    obtain ⟨c, s1, h1, h⟩ := bind_ok.mp h
    obtain ⟨c', s2, h2, h⟩ := bind_ok.mp h
    cases h
    have : s1 = s := by
      cases v with
      | plain => cases h1; rfl
      | backup k q =>
        simp only [tContent, tReadBox] at h1
        split at h1 <;> cases h1
        rfl
    subst this
    unfold tCopyContent at h2
    cases c with
    | dead => cases h2
    | leaf w =>
      obtain ⟨_, s2, h3, h2⟩ := bind_ok.mp h2
      cases h2
      rw [tMayThrow_ok h3]
      exact ⟨fun _ _ => rfl, hf, Nat.le_refl _⟩
    | wrap p =>
      obtain ⟨nd, s2, h3, h2⟩ := bind_ok.mp h2
      obtain ⟨q, s3, h4, h2⟩ := bind_ok.mp h2
      cases h2
      have : s2 = s1 := by
        simp only [tReadNode] at h3
        split at h3 <;> cases h3
        rfl
      subst this
      refine tNew_grows (fun hf h => ?_) hf h4
      unfold tCopyNode at h
      obtain ⟨_, s5, h5, h⟩ := bind_ok.mp h
      obtain ⟨vs, s6, h6, h⟩ := bind_ok.mp h
      cases h
      rw [tMayThrow_ok h5] at h6
      have g := tCopyList_grows (fun hf h => tCopyVar_grows (n := n) hf h) (by exact hf) h6
      exact ⟨g.heap, g.fresh, g.next⟩

/-- A list with a member that is not copied is not copied. -/
theorem tCopyList_dead {f : TVar V → Eff (TreeSt V) (TVar V)} {d : TVar V → Eff (TreeSt V) Unit}
    (hc : ∀ {s s' : TreeSt V} {v v' : TVar V}, s.Fresh → f v s = .ok v' s' → Grows s s') {T : ATree V}
    (hT : ∀ {s s' : TreeSt V} {v' : TVar V}, s.Fresh → T.Holds s.heap → f T.var s ≠ .ok v' s') :
    ∀ {F : List (ATree V)} {i : Nat} {s s' : TreeSt V} {vs' : List (TVar V)}, F[i]? = some T → s.Fresh → HoldsL s.heap F →
      tCopyList f d (F.map ATree.var) s ≠ .ok vs' s'
  | [], i, s, s', vs', hi, _, _ => by simp at hi
  | U :: F, i, s, s', vs', hi, hf, hh => by
    intro h
    simp only [List.map_cons] at h
    unfold tCopyList at h
    obtain ⟨v1, s1, h1, h⟩ := bind_ok.mp h
    obtain ⟨vs1, s2, h2, h⟩ := bind_ok.mp h
    rw [onExc_ok] at h2
    cases i with
    | zero =>
      simp only [List.getElem?_cons_zero, Option.some.injEq] at hi
      subst hi
      exact hT hf hh.1 h1
    | succ i =>
      have g := hc hf h1
      refine tCopyList_dead (f := f) (d := d) (T := T) hc hT (i := i) (by simpa using hi) g.fresh ?_ h2
      exact HoldsL.frame hh.2 fun p hp => g.heap p (HoldsL.alive hh.2 p hp)

/-- What has a dead part is not copied. -/
theorem tCopyVar_dead : ∀ {n : Nat} {is : List Nat} {T : ATree V} {l l' : TLoc} {k : TyIx} {b : Option ObjId} {s s' : TreeSt V} {v' : TVar V},
    T.walk l is = some (l', .dead k b) → s.Fresh → T.Holds s.heap → tCopyVar C n T.var s ≠ .ok v' s'
  | 0, _, _, _, _, _, _, _, _, _, _, _, _ => nofun
  | n + 1, is, T, l, l', k, b, s, s', v', hw, hf, hT => by
    intro h
    unfold tCopyVar at h
    obtain ⟨c, s1, h1, h⟩ := bind_ok.mp h
    obtain ⟨c', s2, h2, h⟩ := bind_ok.mp h
    rw [tContent_run hT] at h1
    cases h1
    cases is with
    | nil =>
      rw [walk_nil] at hw
      cases hw
      cases h2
    | cons i is =>
      obtain ⟨k', a, p, f, b', u, rfl, hu, hw⟩ := walk_cons hw
      simp only [content, tCopyContent] at h2
      obtain ⟨nd, s3, h3, h2⟩ := bind_ok.mp h2
      obtain ⟨q, s4, h4, h2⟩ := bind_ok.mp h2
      rw [ATree.Holds] at hT
      simp only [tReadNode, hT.2.1] at h3
      cases h3
      unfold tNew at h4
      obtain ⟨q', s5, h5, h4⟩ := bind_ok.mp h4
      obtain ⟨cell, s6, h6, h4⟩ := bind_ok.mp h4
      rw [onExc_ok] at h6
      unfold tCopyNode at h6
      obtain ⟨_, s7, h7, h6⟩ := bind_ok.mp h6
      obtain ⟨vs, s8, h8, h6⟩ := bind_ok.mp h6
      rw [tMayThrow_ok h7] at h8
      obtain ⟨g, _, _⟩ := grows_alloc hf h5
      refine tCopyList_dead (f := tCopyVar C n) (d := tDestroyVar n) (T := u) (fun hf h => tCopyVar_grows (n := n) hf h) (fun hf hu => tCopyVar_dead (n := n) hw hf hu) hu
        (by exact g.fresh) ?_ h8
      exact HoldsL.frame hT.2.2 fun p hp => g.heap p (HoldsL.alive hT.2.2 p hp)

theorem tCopyRef_dead {is : List Nat} {R : ATree V} {l r : TLoc} {k : TyIx} {b : Option ObjId} {c : TContent V}
    (hb : R.box = none) (hw : R.walk r is = some (l, .dead k b)) (hf : s.Fresh) (hR : R.Holds s.heap)
    (hr : r.read s = .ok R.var s) : tCopyRef C n R.which (.inPlace r) s ≠ .ok c s' := by
  intro h
  refine tCopyVar_dead (C := C) (n := n + 1) (v' := .plain R.which c) (s' := s') hw hf hR ?_
  have hrd := ref_read hr hR
  rw [var_none hb] at hrd
  simp only [TVar.ref] at hrd
  simp only [tCopyRef, bind, Eff.bind, hrd] at h
  simp only [tCopyVar, bind, Eff.bind, tContent_run hR, var_which, h, pure, Eff.pure]

/-- Assignment to a part of the right side, between types: the right side is copied when the part is dead. -/
theorem tAssigner_part (hl : C.ops.Lawful) {l r : TLoc} {L R : ATree V} {u0 : VTree V} {is : List Nat} (hM : Mem s α G)
    (hx : At α x l L) (ht : At α t r R) (hL : L.Is u0) (hwr : C.wrapped R.which = true)
    (hn0 : u0.height ≤ n) (hv : x.var = t.var) (hp : x.path = t.path ++ is) (hne : is ≠ [])
    (hw : R.walk r is = some (l, L)) (hb : R.box = none) : tAssigner C n l L.var R.which (.inPlace r) s ≠ .ok () s' := by
  have hc : C.nothrowCopy R.which = false := by simp only [TreeCfg.nothrowCopy, hwr]; rfl
  have hm : C.nothrowMove R.which = false := by simp only [TreeCfg.nothrowMove, hwr]; rfl
  obtain ⟨j, js, rfl⟩ : ∃ j js, is = j :: js := by cases is with
    | nil => exact absurd rfl hne
    | cons j js => exact ⟨j, js, rfl⟩
  -- in any state in which the part is dead
  have key : ∀ {s1 s2 : TreeSt V} {G' : List (ATree V)} {k : TyIx} {c : TContent V}, Mem s1 (α.put x (.dead k none)) G' →
      tCopyRef C n R.which (.inPlace r) s1 ≠ .ok c s2 := by
    intro s1 s2 G' k c hM1
    obtain ⟨h1, _⟩ := ht.put_inside (U := .dead k none) hv hp
    obtain ⟨_, h2, h3⟩ := hM1.at_run h1
    obtain ⟨e1, e2, _⟩ := put_box (T := R) (U := .dead k none) (i := j) (is := js)
    rw [← e2]
    exact tCopyRef_dead (e1.trans hb) (walk_put hw) hM1.fresh h3 h2
  intro h
  unfold tAssigner at h
  rw [hc, hm] at h
  simp only [Bool.false_eq_true, if_false] at h
  cases hfb : C.fallback with
  | some fb =>
    rw [hfb] at h
    simp only at h
    obtain ⟨s1, h1, hM1, _⟩ := hM.destroyAt (n := n) hx hL hn0
    obtain ⟨_, s2, h2, h⟩ := bind_ok.mp h
    rw [h1] at h2; cases h2
    obtain ⟨c, s3, h3, h⟩ := bind_ok.mp h
    rw [onExc_ok] at h3
    exact key hM1 h3
  | none =>
    rw [hfb] at h
    simp only at h
    cases hbx : L.box with
    | some q =>
      have hv : L.var = .backup L.which q := by unfold var; rw [hbx]
      rw [hv] at h
      simp only [tBackupAssign] at h
      obtain ⟨h1, hM1⟩ := (hM.dead L.which).replace hx
      obtain ⟨_, s2, h2, h⟩ := bind_ok.mp h
      have h1' : l.write (.plain L.which .dead) s = .ok () (l.set (ATree.dead (V := V) L.which none).var s) := h1
      rw [h1'] at h2; cases h2
      obtain ⟨c, s3, h3, h⟩ := bind_ok.mp h
      rw [onExc_ok] at h3
      exact key hM1 h3
    | none =>
      rw [var_none hbx] at h
      simp only [tBackupAssign] at h
      by_cases hnm : C.nothrowMove L.which = true
      · rw [if_pos hnm] at h
        cases hct : L.content with
        | dead => rw [hct] at h; cases h
        | wrap p => rw [hct] at h; cases h
        | leaf v =>
          rw [hct] at h
          simp only at h
          obtain ⟨_, s0, h0, h⟩ := bind_ok.mp h
          rw [tMayThrow_true] at h0; cases h0
          obtain ⟨h1, hM1⟩ := (hM.ticked.dead L.which).replace hx
          obtain ⟨_, s2, h2, h⟩ := bind_ok.mp h
          have h1' : l.write (.plain L.which .dead) { s with tick := s.tick + 1 } = .ok () (l.set (ATree.dead (V := V) L.which none).var { s with tick := s.tick + 1 }) := h1
          rw [h1'] at h2; cases h2
          obtain ⟨c, s3, h3, h⟩ := bind_ok.mp h
          rw [onExc_ok] at h3
          exact key hM1 h3
      · rw [if_neg hnm] at h
        obtain ⟨q, s1, h1, h⟩ := bind_ok.mp h
        -- the backup is made
        have hM1 : ∃ G', Mem s1 α G' := by
          rcases hM.alloc (C := C) with ⟨q', s2, g1, hM2, _⟩ | ⟨e, s2, g1, _⟩
          · rcases hM2.copyContent (C := C) (n := n) hl (hM2.at_run hx).2.2 hL (by omega : u0.height ≤ n + 1) with
              ⟨s3, U0, g2, hUb0, hU0, hM3, _⟩ | ⟨e, s3, g2, hM3, _⟩
            · have hblk := is_notBlk hU0
              obtain ⟨s4, g3, hM4, _⟩ := Mem.fill (p := q') (F := [U0]) (G := G) (U := U0.setBox (some q')) (c := .box U0.content)
                (hM3.perm (.swap _ _ _))
                (fun h' hq hus' => box_holds hus'.1 hq)
                (fun p => by rw [setBox_blocks _ hUb0 hblk, count_cons]; simp [blocksL])
              have : tNew C (do
                  let c' ← tCopyContent C (tCopyVar C n) (tDestroyVar n) L.which L.content
                  pure (.box c')) s = .ok q' s4 := by
                simp only [tNew, bind, Eff.bind, g1, Eff.onExc, g2, g3, pure, Eff.pure]
              rw [this] at h1; cases h1
              exact ⟨_, hM4⟩
            · obtain ⟨s4, g3, _⟩ := hM3.free
              have : tNew C (do
                  let c' ← tCopyContent C (tCopyVar C n) (tDestroyVar n) L.which L.content
                  pure (.box c')) s = .exc e s4 := by
                simp only [tNew, bind, Eff.bind, g1, Eff.onExc, g2, g3]
              rw [this] at h1; cases h1
          · have : tNew C (do
                let c' ← tCopyContent C (tCopyVar C n) (tDestroyVar n) L.which L.content
                pure (.box c')) s = .exc e s2 := by
              simp only [tNew, bind, Eff.bind, g1]
            rw [this] at h1; cases h1
        obtain ⟨G', hM1⟩ := hM1
        obtain ⟨s2, g1, hM2, _⟩ := hM1.destroyAt (n := n) hx hL hn0
        obtain ⟨_, s3, h3, h⟩ := bind_ok.mp h
        rw [g1] at h3; cases h3
        obtain ⟨c, s4, h4, h⟩ := bind_ok.mp h
        rw [onExc_ok] at h4
        exact key hM2 h4

/-! ### Nodes of which one is inside the other are swapped -/

/-- The block in which the object is that a reference refers to. -/
def TRef.home : TRef → Option ObjId
  | .inPlace (.var _) => none
  | .inPlace (.child p _) => some p
  | .inBox q => some q

theorem set_heap_ne {k : TyIx} {r : TRef} {c : TContent V} {z : ObjId} (h : r.home ≠ some z) : (r.set k c s).heap z = s.heap z := by
  rcases r with (y | ⟨p, i⟩) | q
  · rfl
  · have : z ≠ p := fun e => h (by rw [e]; rfl)
    simp only [TRef.set, TLoc.set, upd, this, if_false]
  · have : z ≠ q := fun e => h (by rw [e]; rfl)
    simp only [TRef.set, upd, this, if_false]

theorem set_heap_congr {k : TyIx} {r : TRef} {c : TContent V} {z : ObjId} (h : s.heap z = s'.heap z) :
    (r.set k c s).heap z = (r.set k c s').heap z := by
  by_cases hr : r.home = some z
  · rcases r with (y | ⟨p, i⟩) | q
    · cases hr
    · cases hr
      simp only [TRef.set, TLoc.set, upd, if_true, h]
    · cases hr
      simp only [TRef.set, upd, if_true, h]
  · rw [set_heap_ne hr, set_heap_ne hr, h]

theorem set_alive {k : TyIx} {r : TRef} {c : TContent V} {z : ObjId} : (r.set k c s).heap z = none ↔ s.heap z = none := by
  by_cases hr : r.home = some z
  · rcases r with (y | ⟨p, i⟩) | q
    · cases hr
    · cases hr
      simp only [TRef.set, TLoc.set, upd, if_true]
      cases hz : s.heap z with
      | none => simp
      | some d => cases d <;> simp
    · cases hr
      simp only [TRef.set, upd, if_true]
      cases hz : s.heap z with
      | none => simp
      | some d => cases d <;> simp
  · rw [set_heap_ne hr]

theorem set_vars_congr {k : TyIx} {r : TRef} {c : TContent V} (h : s.vars = s'.vars) : (r.set k c s).vars = (r.set k c s').vars := by
  rcases r with (y | ⟨p, i⟩) | q
  · simp only [TRef.set, TLoc.set, h]
  · exact h
  · exact h

theorem set_vars_home {k : TyIx} {r : TRef} {c : TContent V} (h : r.home ≠ none) : (r.set k c s).vars = s.vars := by
  rcases r with (y | ⟨p, i⟩) | q
  · exact absurd rfl h
  · rfl
  · rfl

/-- A part of a content is in one of its blocks, and still is if the content is taken out of its backup. -/
theorem inside_home {l r : TLoc} {L R : ATree V} {is : List Nat} (hne : is ≠ []) (hw : L.walk l is = some (r, R)) {U : ATree V}
    (hU : U.box = R.box) : ∃ q, (R.var.ref r).home = some q ∧ q ∈ ((L.put is U).setBox none).blocks := by
  obtain ⟨j, js, rfl⟩ : ∃ j js, is = j :: js := by cases is with
    | nil => exact absurd rfl hne
    | cons j js => exact ⟨j, js, rfl⟩
  have hw' : ((L.put (j :: js) U).setBox none).walk l (j :: js) = some (r, U) := by
    have := walk_put (u := U) hw
    cases hL : L.put (j :: js) U <;> rw [hL] at this <;> simpa only [setBox, ATree.walk] using this
  have hc := fun q => walk_count q hw'
  obtain ⟨p, i, rfl, hp⟩ := walk_place hne hw'
  unfold var
  rw [← hU]
  cases hb : U.box with
  | none => exact ⟨p, rfl, mem_blocks.mpr (by omega)⟩
  | some q =>
    refine ⟨q, rfl, mem_blocks.mpr ?_⟩
    have := hc q
    have h2 := unBox_blocks (U := U) q
    rw [hb] at h2
    simp only [Option.toList_some, List.count_cons_self, List.count_nil] at h2
    omega

/-- The value of a variable is in the memory. -/
theorem Mem.hasVal (hM : Mem s α G) (hS : IsS α σ) {y : Nat} {w : VTree V} (hy : σ y = some w) : s.HasVal y w (blocksO (α y)) := by
  have h := hS y
  rw [hy] at h
  cases hT : α y with
  | none => rw [hT] at h; simp [IsO] at h
  | some T =>
    rw [hT] at h
    exact ⟨T.var, by rw [hM.vars, hT]; rfl, ATree.rep (hM.holds y T hT) h⟩

/-- `i` is strictly inside `o`; the nodes are swapped. Then the outer variant has the value of the inner one, the other variables
are as before; the memory of the outer node is still there and belongs to no variable. -/
theorem Mem.leak {x t : TPlace} {l r : TLoc} {L R : ATree V} {u0 u : VTree V} {is : List Nat} (hM : Mem s α []) (hS : IsS α σ)
    (hx : At α x l L) (ht : At α t r R) (hL : L.Is u0) (hR : R.Is u) (hk : L.which = R.which) (hv : t.var = x.var)
    (hp : t.path = x.path ++ is) (hne : is ≠ []) (hw : L.walk l is = some (r, R))
    (hs' : ∀ z, (R.var.ref r).home ≠ some z → s'.heap z = ((L.var.ref l).set L.which R.content s).heap z)
    (hsv : s'.vars = ((L.var.ref l).set L.which R.content s).vars) (hsa : ∀ z, s'.heap z = none ↔ s.heap z = none) :
    ∃ own' : Nat → List ObjId, s'.Stores (σ.put x u) own' ∧ ∃ p, s'.heap p ≠ none ∧ ∀ y, p ∉ own' y := by
  have nL := is_notBlk hL
  have nR := is_notBlk hR
  obtain ⟨j, js, rfl⟩ : ∃ j js, is = j :: js := by cases is with
    | nil => exact absurd rfl hne
    | cons j js => exact ⟨j, js, rfl⟩
  -- take the inner node out, then put it in the place of the outer one
  obtain ⟨_, hM1⟩ := (hM.dead R.which).replaceRef ht rfl rfl rfl
  obtain ⟨hx1, hput⟩ := hx.put_inside (U := (ATree.dead R.which none).setBox R.box) hv hp
  obtain ⟨e1, e2, e3, e4⟩ := put_box (T := L) (U := (ATree.dead R.which none).setBox R.box) (i := j) (is := js)
  obtain ⟨_, hM2⟩ := hM1.replaceRef hx1 (setBox_box none nR) (by rw [setBox_isBlk]; exact nR) (by rw [setBox_which, e2, hk])
  rw [hput, e1, setBox_setBox, setBox_which, setBox_content, put_var_cons] at hM2
  obtain ⟨q, hq1, hq2⟩ := inside_home hne hw (U := (ATree.dead R.which none).setBox R.box) rfl
  generalize hL1 : (L.put (j :: js) ((ATree.dead R.which none).setBox R.box)).setBox none = L1 at hM2 hq2
  have hnotin : ∀ y p, p ∈ L1.blocks → p ∉ blocksO ((α.put x (R.setBox L.box)) y) := fun y p h1 h2 => by
    have := hM2.excl y p
    have h3 := List.count_pos_iff.mpr h1
    have h4 := List.count_pos_iff.mpr h2
    rw [count_cons] at this
    omega
  have hS' : IsS (α.put x (R.setBox L.box)) (σ.put x u) := hS.put (setBox_is _ hR)
  have hvars : s'.vars = ((L.var.ref l).set R.which R.content ((R.var.ref r).set R.which (TContent.dead : TContent V) s)).vars := by
    rw [hsv, hk]
    refine (set_vars_congr ?_)
    exact (set_vars_home (by rw [hq1]; nofun)).symm
  have hheap : ∀ z, z ∉ L1.blocks →
      s'.heap z = ((L.var.ref l).set R.which R.content ((R.var.ref r).set R.which (TContent.dead : TContent V) s)).heap z := fun z hz => by
    have hz' : (R.var.ref r).home ≠ some z := by rw [hq1]; intro h; cases h; exact hz hq2
    rw [hs' z hz', hk]
    exact set_heap_congr (set_heap_ne hz').symm
  refine ⟨fun y => blocksO ((α.put x (R.setBox L.box)) y), ⟨fun y w hy => ?_, fun y hy => ?_, fun y => ?_, fun y z p h1 h2 => ?_⟩, q, ?_, fun y => hnotin y q hq2⟩
  · obtain ⟨v, h1, h2⟩ := hM2.hasVal hS' hy
    refine ⟨v, by rw [hvars]; exact h1, h2.frame fun p hp => ?_⟩
    exact hheap p fun h => hnotin y p h hp
  · have h := (hS'.none_iff).mp hy
    refine ⟨?_, by simp only [h, blocksO]⟩
    rw [hvars]
    have := hM2.vars y
    rw [h] at this
    exact this
  · exact List.nodup_iff_count.mpr fun p => by have := hM2.excl y p; omega
  · by_cases hyz : y = z
    · exact hyz
    · have := hM2.disj y z p hyz
      have h3 := List.count_pos_iff.mpr h1
      have h4 := List.count_pos_iff.mpr h2
      omega
  · intro h
    have h1 := hM2.ghosts.1.alive q hq2
    have h2 := (hsa q).mp h
    apply h1
    show ((L.var.ref l).set R.which R.content ((R.var.ref r).set R.which (TContent.dead : TContent V) s)).heap q = none
    rw [set_alive, set_alive]; exact h2

/-- Move assignment of a content of the same type, both sides in place or both in backups. -/
theorem tVariantMoveAssign_same {l r : TLoc} {L R : ATree V} (hM : Mem s α G) (hx : At α x l L) (ht : At α t r R)
    (hk : L.which = R.which) (hb : L.box = none ↔ R.box = none) :
    tVariantMoveAssign C n l r s = tMoveAssignContent C L.which (L.var.ref l) (R.var.ref r) s := by
  obtain ⟨_, hlr, _⟩ := hM.at_run hx
  obtain ⟨_, hrr, _⟩ := hM.at_run ht
  simp only [tVariantMoveAssign, bind, Eff.bind, hlr, hrr]
  unfold var
  cases h1 : L.box <;> cases h2 : R.box <;> simp [h1, h2] at hb <;> simp [hk, TVar.ref]

/-- Move assignment of a node that is a part of a node of the same type. -/
theorem tMoveAssign_leaks {l r : TLoc} {L R : ATree V} {u0 u : VTree V} (hM : Mem s α []) (hS : IsS α σ)
    (hx : Side s α σ x l L u0) (ht : Side s α σ t r R u) (h0 : u0.Typed C.wrapped) (h1 : u.Typed C.wrapped) (hk : L.which = R.which)
    (hb : L.box = none ↔ R.box = none) (hi : t.inside x = true ∨ x.inside t = true) :
    ∃ s' own', TCmd.code C n (.moveAssign x t) s = .ok () s' ∧
      s'.Stores (if t.inside x = true then σ.put x u else σ.put t u0) own' ∧ ∃ p, s'.heap p ≠ none ∧ ∀ y, p ∉ own' y := by
  obtain ⟨hx, _, hL⟩ := hx
  obtain ⟨ht, _, hR⟩ := ht
  obtain ⟨hxe, hlr, hlh⟩ := hM.at_run hx
  obtain ⟨hte, hrr, hrh⟩ := hM.at_run ht
  have hl1 := ref_read hlr hlh
  have hr1 := ref_read hrr hrh
  have hcode : TCmd.code C n (.moveAssign x t) s = tMoveAssignContent C L.which (L.var.ref l) (R.var.ref r) s := by
    rw [← tVariantMoveAssign_same (n := n) hM hx ht hk hb]
    simp only [TCmd.code, bind, Eff.bind, hxe, hte]
  have hnodes : ∃ p q, L.content = .wrap p ∧ R.content = .wrap q := by
    rcases same_kind (C := C) hL hR h0 h1 hk with ⟨k, v, w, b, b', rfl, rfl, rfl, rfl⟩ | ⟨k, a, p, f, b, a', p', f', b', g, g', rfl, rfl, _⟩
    · rcases hi with hi | hi
      · rw [hx.leaf_inside ht] at hi; cases hi
      · rw [ht.leaf_inside hx] at hi; cases hi
    · exact ⟨p, p', rfl, rfl⟩
  obtain ⟨p, q, hp, hq⟩ := hnodes
  have hrun : tMoveAssignContent C L.which (L.var.ref l) (R.var.ref r) s =
      .ok () ((L.var.ref l).set L.which R.content ((R.var.ref r).set L.which L.content s)) := by
    have h2 := ref_write (k := L.which) (c := L.content) hr1
    have h3 := write_after (r := R.var.ref r) (k := L.which) (c := R.content) (d := L.content) hl1
    rw [hp] at h2 h3 hl1 ⊢
    rw [hq] at h3 hr1 ⊢
    simp only [tMoveAssignContent, bind, Eff.bind, hl1, hr1, h2, h3]
  rw [hcode, hrun]
  rcases hi with hi | hi
  · rw [if_pos hi]
    obtain ⟨is, hne, hv, hpath, hw⟩ := hx.inside ht hi
    obtain ⟨own', h2, h3⟩ := hM.leak (s' := (L.var.ref l).set L.which R.content ((R.var.ref r).set L.which L.content s)) hS hx ht hL hR hk
      hv hpath hne hw (fun z hz => set_heap_congr (set_heap_ne hz)) (set_vars_congr (set_vars_home (by obtain ⟨q, hq, _⟩ := inside_home hne hw (U := R) rfl; rw [hq]; nofun)))
      (fun z => by rw [set_alive, set_alive])
    exact ⟨_, own', rfl, h2, h3⟩
  · rw [if_neg (by rw [TPlace.inside_asymm hi]; nofun)]
    obtain ⟨is, hne, hv, hpath, hw⟩ := ht.inside hx hi
    obtain ⟨own', h2, h3⟩ := hM.leak (s' := (L.var.ref l).set L.which R.content ((R.var.ref r).set L.which L.content s)) hS ht hx hR hL hk.symm
      hv hpath hne hw (fun z hz => by rw [set_heap_ne hz, hk]) (by rw [set_vars_home, hk]; obtain ⟨q, hq, _⟩ := inside_home hne hw (U := L) rfl; rw [hq]; nofun)
      (fun z => by rw [set_alive, set_alive])
    exact ⟨_, own', rfl, h2, h3⟩

end

end BVariant
