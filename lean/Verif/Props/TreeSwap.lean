/-
C56: `swap` of recursive variants and parts of them.
-/
import Verif.Props.TreeParts

namespace BVariant

section
variable {V : Type} {C : TreeCfg V} {s s' : TreeSt V} {σ : TStore V} {own : Nat → List ObjId} {n : Nat} {x t : TPlace} {z : Nat}

open ATree AStore

/-- What a failed `x.swap(t)` may leave of the values `u` and `v`: `a` in `x` and `b` in `t`. Within a type it is what the swap of
the two root values leaves, and no member is exchanged. Between types, the three steps may fail: the move of `v` to the local
variant, the move of `u` to `t`, and the move of `v` to `x`. -/
inductive SwapLeaves (C : TreeCfg V) (x t : TPlace) (u v : VTree V) : VTree V → VTree V → Prop
  | nothing : SwapLeaves C x t u v u v
  | self : x = t → SwapLeaves C x t u v u (u.store (C.ops.selfSwapFail u.which u.root))
  | values : x ≠ t → u.which = v.which →
      SwapLeaves C x t u v (u.store (C.ops.swapFailL u.which u.root v.root)) (v.store (C.ops.swapFailR u.which u.root v.root))
  | first {v' : VTree V} : u.which ≠ v.which → v.Partly C v' → SwapLeaves C x t u v u v'
  | second : u.which ≠ v.which → SwapLeaves C x t u v u (v.movedFrom C)
  | secondFallback {u' : VTree V} {fb : TyIx} : u.which ≠ v.which → C.fallback = some fb → u.Partly C u' →
      SwapLeaves C x t u v u' (.leaf fb (C.ops.defaultInit fb))
  | third : u.which ≠ v.which → SwapLeaves C x t u v (if C.nothrowMove u.which || (!C.nothrowCopy u.which && C.fallback.isSome)
      then u.movedFrom C else u) u
  | thirdFallback {fb : TyIx} : u.which ≠ v.which → C.fallback = some fb →
      SwapLeaves C x t u v (.leaf fb (C.ops.defaultInit fb)) u

theorem moves_iff {k : TyIx} : C.Moves k ↔ (C.nothrowMove k || (!C.nothrowCopy k && C.fallback.isSome)) = true := by
  unfold TreeCfg.Moves
  cases C.nothrowMove k <;> cases C.nothrowCopy k <;> cases C.fallback <;> simp

/-- **C56**: `x.swap(t)` for two recursive variants anywhere in the trees of the program, neither of them a part of the other (they
may be the same one). Their types are the same, or `x` is not in a heap backup. Then the swap succeeds and the values are
exchanged, or an operation has thrown and the variants have values as described by `SwapLeaves`. Either way all other values are
as before, the local variant is gone, nothing is shared, and nothing leaks. -/
theorem C56_swap (hl : C.ops.Lawful) (hr : s.Represents σ own) (hf : s.Fresh) (hB : σ.Bound C.wrapped n) {lv rv : TVar V}
    (hx : x.variant s = some lv) (ht : t.variant s = some rv) (h1 : t.inside x = false) (h2 : x.inside t = false)
    (hb : lv.which = rv.which ∨ ∃ k c, lv = .plain k c) (hz : s.vars z = none) :
    ∃ u v, σ.at x = some u ∧ σ.at t = some v ∧
      ((∃ s' own', TCmd.code C n (.swap x t z) s = .ok () s' ∧ s'.Represents ((σ.put x v).put t u) own' ∧ s'.Fresh) ∨
       (∃ e s' own' a b, TCmd.code C n (.swap x t z) s = .exc e s' ∧ C.throws e.tick = true ∧ SwapLeaves C x t u v a b ∧
          s'.Represents ((σ.put x a).put t b) own' ∧ s'.Fresh)) := by
  obtain ⟨α, hM, hS, _⟩ := hr.mem hf
  obtain ⟨l, L, u, sx, _, _, _⟩ := hM.side hS hB hx
  obtain ⟨r, R, v, st, _, _, _⟩ := hM.side hS hB ht
  refine ⟨u, v, sx.val, st.val, ?_⟩
  have hv : (TCmd.swap (V := V) x t z).valid C s = true := by
    simp only [TCmd.valid, variant_valid hx, variant_valid ht, hz, Option.isNone_none, Bool.and_self]
  have hh : (TCmd.swap (V := V) x t z).hazard C s = false := by
    simp only [TCmd.hazard, hx, ht, h1, h2]
    rcases hb with hb | ⟨k, c, rfl⟩
    · cases lv with
      | plain => rfl
      | backup k q =>
        have hb' : k = rv.which := hb
        simp [hb']
    · rfl
  have hxu := TStore.put_same sx.val
  have htv := TStore.put_same st.val
  rcases C37_statement hl hr hf hB hv hh with ⟨s', σ', own', g1, g2, g3, g4⟩ | ⟨e, s', σ', own', g1, g2, g3, g4, g5⟩
  · left
    cases g2 with
    | swap hu hw =>
      rw [sx.val] at hu; cases hu
      rw [st.val] at hw; cases hw
      exact ⟨s', own', g1, g3, g4⟩
  · right
    cases g2 with
    | same => exact ⟨e, s', own', u, v, g1, g5, .nothing, by rw [hxu, htv]; exact g3, g4⟩
    | swapSelf hu =>
      rw [sx.val] at hu; cases hu
      exact ⟨e, s', own', _, _, g1, g5, .self rfl, by rw [hxu]; exact g3, g4⟩
    | swapValues hne hu hw hk =>
      rw [sx.val] at hu; cases hu
      rw [st.val] at hw; cases hw
      exact ⟨e, s', own', _, _, g1, g5, .values hne hk, g3, g4⟩
    | swapFirst hu hw hk hp =>
      rw [sx.val] at hu; cases hu
      rw [st.val] at hw; cases hw
      exact ⟨e, s', own', _, _, g1, g5, .first hk hp, by rw [hxu]; exact g3, g4⟩
    | swapSecond hu hw hk hp ho =>
      rw [sx.val] at hu; cases hu
      rw [st.val] at hw; cases hw
      rcases ho with ⟨rfl, rfl⟩ | ⟨fb, hfb, rfl⟩
      · exact ⟨e, s', own', _, _, g1, g5, .second hk, g3, g4⟩
      · exact ⟨e, s', own', _, _, g1, g5, .secondFallback hk hfb hp, g3, g4⟩
    | swapThird hu hw hk ho =>
      rw [sx.val] at hu; cases hu
      rw [st.val] at hw; cases hw
      rcases ho with ⟨hm, rfl⟩ | ⟨hm, rfl⟩ | ⟨fb, hfb, rfl⟩
      · refine ⟨e, s', own', _, _, g1, g5, .third hk, ?_, g4⟩
        rw [if_pos (moves_iff.mp hm)]; exact g3
      · refine ⟨e, s', own', _, _, g1, g5, .third hk, ?_, g4⟩
        rw [if_neg (fun h => hm (moves_iff.mpr h))]; exact g3
      · exact ⟨e, s', own', _, _, g1, g5, .thirdFallback hk hfb, g3, g4⟩

/-- **C56**: swapping twice restores all values (if the second swap, too, is one the library supports). -/
theorem C56_swap_twice (hl : C.ops.Lawful) (hr : s.Represents σ own) (hf : s.Fresh) (hB : σ.Bound C.wrapped n) {m : Nat} {s1 s2 : TreeSt V}
    (hv : TCmd.valid C s (.swap x t z) = true) (hh : TCmd.hazard C s (.swap x t z) = false)
    (hh1 : TCmd.hazard C s1 (.swap x t z) = false) (h1 : TCmd.code C n (.swap x t z) s = .ok () s1)
    (hm : 2 * n ≤ m) (h2 : TCmd.code C m (.swap x t z) s1 = .ok () s2) : ∃ own', s2.Represents σ own' := by
  have hv0 : σ.at x ≠ none ∧ σ.at t ≠ none ∧ σ z = none := by
    obtain ⟨α, hM, hS, _⟩ := hr.mem hf
    exact (tValid_iff (c := .swap x t z) hM hS).mp hv
  obtain ⟨hxa, hta, hz⟩ := hv0
  have hap : x = t ∨ x.Apart t := by
    have hx : ∃ lv, x.variant s = some lv := by
      obtain ⟨α, hM, hS, _⟩ := hr.mem hf
      obtain ⟨l, L, h⟩ := hS.at_iff.mp hxa
      exact ⟨_, hM.variant_eq h⟩
    have ht : ∃ rv, t.variant s = some rv := by
      obtain ⟨α, hM, hS, _⟩ := hr.mem hf
      obtain ⟨l, L, h⟩ := hS.at_iff.mp hta
      exact ⟨_, hM.variant_eq h⟩
    obtain ⟨lv, hx⟩ := hx
    obtain ⟨rv, ht⟩ := ht
    have h3 : t.inside x = false ∧ x.inside t = false := by
      simp only [TCmd.hazard, hx, ht] at hh
      cases lv with
      | plain => simpa using hh
      | backup k q => simp only [Bool.or_eq_false_iff] at hh; exact ⟨hh.1.2, hh.2⟩
    rcases TPlace.cases x t with h | h | h | h
    · exact .inl h
    · exact .inr h
    · rw [h3.1] at h; cases h
    · rw [h3.2] at h; cases h
  rcases C37_statement hl hr hf hB hv hh with ⟨s', σ', own', g1, g2, g3, g4⟩ | ⟨e, s', σ', own', g1, _⟩
  · rw [h1] at g1; cases g1
    have hzx := ne_of_at hxa hz
    have hzt := ne_of_at hta hz
    cases g2 with
    | @swap _ _ _ u v _ hu hw =>
      have hu' : ((σ.put x v).put t u).at x = some v := by
        rcases hap with rfl | ha
        · rw [hu] at hw; cases hw
          rw [TStore.put_put]; exact TStore.at_put hxa
        · rw [TStore.at_put_apart ha]; exact TStore.at_put hxa
      have hw' : ((σ.put x v).put t u).at t = some u := TStore.at_put (by
        rcases hap with rfl | ha
        · rw [TStore.at_put hxa]; nofun
        · rw [TStore.at_put_apart ha.symm]; exact hta)
      have hz' : ((σ.put x v).put t u) z = none := by rw [TStore.put_ne hzt, TStore.put_ne hzx]; exact hz
      have hB' : ((σ.put x v).put t u).Bound C.wrapped m := by
        by_cases hn : 1 ≤ n
        · have hva : σ.Valid C (.swap x t z) := ⟨hxa, hta, hz⟩
          exact ((TOk.swap hu hw).bound hn hB hva).mono hm
        · exfalso
          have := (hB.at hu).1
          have h0 : n = 0 := by omega
          subst h0
          cases u <;> simp [VTree.height] at this
      have hv1 : TCmd.valid C s1 (.swap x t z) = true := by
        obtain ⟨α, hM, hS, _⟩ := g3.mem g4
        exact (tValid_iff (c := .swap x t z) hM hS).mpr ⟨by rw [hu']; nofun, by rw [hw']; nofun, hz'⟩
      rcases C37_statement hl g3 g4 hB' hv1 hh1 with ⟨s', σ', own'', k1, k2, k3, k4⟩ | ⟨e, s', σ', own'', k1, _⟩
      · rw [h2] at k1; cases k1
        cases k2 with
        | swap hu2 hw2 =>
          rw [hu'] at hu2; cases hu2
          rw [hw'] at hw2; cases hw2
          refine ⟨own'', ?_⟩
          have : (((σ.put x v).put t u).put x u).put t v = σ := by
            rcases hap with rfl | ha
            · rw [hu] at hw; cases hw
              rw [TStore.put_put, TStore.put_put, TStore.put_put, TStore.put_same hu]
            · rw [TStore.put_comm ha, TStore.put_put, TStore.put_put, TStore.put_same hu, TStore.put_same hw]
          rw [this] at k3
          exact k3
      · rw [h2] at k1; cases k1
  · rw [h1] at g1; cases g1

/-! ### Within a type -/

/-- What lives in a memory block. -/
def cellKind : Option (TCell V) → Nat
  | none => 0
  | some .raw => 1
  | some (.node _ _) => 2
  | some (.box _) => 3

/-- Nothing is allocated, and no object in dynamic memory ends or begins its life. -/
def Settled (s s' : TreeSt V) : Prop := s'.allocs = s.allocs ∧ ∀ p, cellKind (s'.heap p) = cellKind (s.heap p)

theorem Settled.refl (s : TreeSt V) : Settled s s := ⟨rfl, fun _ => rfl⟩
theorem Settled.trans {s1 s2 s3 : TreeSt V} (h : Settled s1 s2) (h' : Settled s2 s3) : Settled s1 s3 :=
  ⟨h'.1.trans h.1, fun p => (h'.2 p).trans (h.2 p)⟩

/-- However it ends. -/
def Settles {β : Type} (m : Eff (TreeSt V) β) : Prop :=
  ∀ s, (∀ a s', m s = .ok a s' → Settled s s') ∧ (∀ e s', m s = .exc e s' → Settled s s')

theorem Settles.andThen {β γ : Type} {m : Eff (TreeSt V) β} {f : β → Eff (TreeSt V) γ} (hm : Settles m) (hf : ∀ a, Settles (f a)) :
    Settles (m >>= f) := fun s => by
  show (∀ a s', Eff.bind m f s = .ok a s' → _) ∧ (∀ e s', Eff.bind m f s = .exc e s' → _)
  unfold Eff.bind
  have hs := hm s
  cases hr : m s with
  | ok a s1 => exact ⟨fun b s' h => (hs.1 a s1 hr).trans ((hf a s1).1 b s' h), fun e s' h => (hs.1 a s1 hr).trans ((hf a s1).2 e s' h)⟩
  | exc e s1 => exact ⟨nofun, fun e' s' h => by cases h; exact hs.2 e s1 hr⟩
  | fault k => exact ⟨nofun, nofun⟩

theorem Settles.onExc {β : Type} {m : Eff (TreeSt V) β} {c : Eff (TreeSt V) Unit} (hm : Settles m) (hc : Settles c) :
    Settles (Eff.onExc m c) := fun s => by
  unfold Eff.onExc
  have hs := hm s
  cases hr : m s with
  | ok a s1 => exact ⟨fun b s' h => by cases h; exact hs.1 a s1 hr, nofun⟩
  | exc e s1 =>
    have hs1 := hc s1
    cases hr1 : c s1 with
    | ok a s2 => exact ⟨by simp only [hr1]; nofun, fun e' s' h => by
        simp only [hr1] at h
        cases h; exact (hs.2 e s1 hr).trans (hs1.1 a s2 hr1)⟩
    | exc e2 s2 =>  exact ⟨by simp only [hr1]; nofun, by simp only [hr1]; nofun⟩
    | fault k => exact ⟨by simp only [hr1]; nofun, by simp only [hr1]; nofun⟩
  | fault k => exact ⟨nofun, nofun⟩

theorem Settles.fails {β : Type} {k : Fault} : Settles (Eff.fail k : Eff (TreeSt V) β) := fun _ => ⟨nofun, nofun⟩

theorem Settles.gives {β : Type} {a : β} : Settles (Pure.pure a : Eff (TreeSt V) β) := fun s =>
  ⟨fun _ _ h => by cases h; exact .refl s, nofun⟩

theorem Settles.mayThrow {b : Bool} {k : ExcKind} : Settles (tMayThrow C b k) := fun s => by
  unfold tMayThrow
  dsimp only
  split
  · exact ⟨nofun, fun e s' h => by cases h; exact ⟨rfl, fun _ => rfl⟩⟩
  · exact ⟨fun a s' h => by cases h; exact ⟨rfl, fun _ => rfl⟩, nofun⟩

theorem Settles.readNode {p : ObjId} : Settles (V := V) (tReadNode p) := fun s => by
  unfold tReadNode
  split
  · exact ⟨fun a s' h => by cases h; exact .refl s, nofun⟩
  · exact ⟨nofun, nofun⟩

theorem Settles.readBox {p : ObjId} : Settles (V := V) (tReadBox p) := fun s => by
  unfold tReadBox
  split
  · exact ⟨fun a s' h => by cases h; exact .refl s, nofun⟩
  · exact ⟨nofun, nofun⟩

theorem Settles.var {y : Nat} : Settles (V := V) (tVar y) := fun s => by
  unfold tVar
  split
  · exact ⟨fun a s' h => by cases h; exact .refl s, nofun⟩
  · exact ⟨nofun, nofun⟩

theorem Settled.heap {p : ObjId} {c : TCell V} (h : cellKind (some c) = cellKind (s.heap p)) :
    Settled s { s with heap := upd s.heap p (some c) } := by
  refine ⟨rfl, fun q => ?_⟩
  by_cases hq : q = p
  · subst hq; rw [← h]; simp only [upd, if_true]
  · simp only [upd, hq, if_false]

theorem Settles.setNode {p : ObjId} {a : V} {cs : List (TVar V)} : Settles (tSetNode p a cs) := fun s => by
  simp only [tSetNode, bind, Eff.bind, tReadNode, Eff.modify]
  cases h : s.heap p with
  | none => exact ⟨nofun, nofun⟩
  | some c =>
    cases c with
    | node b ds => exact ⟨fun _ s' h' => by cases h'; exact .heap (by rw [h]; rfl), nofun⟩
    | raw => exact ⟨nofun, nofun⟩
    | box _ => exact ⟨nofun, nofun⟩

theorem Settles.locRead {l : TLoc} : Settles (V := V) l.read := by
  cases l with
  | var y => exact .var
  | child p i =>
    refine Settles.andThen .readNode fun nd => ?_
    split
    · exact .gives
    · exact .fails

theorem Settles.locWrite {l : TLoc} {v : TVar V} : Settles (l.write v) := by
  cases l with
  | var y => exact Settles.andThen .var fun _ s => ⟨fun _ s' h => by cases h; exact ⟨rfl, fun _ => rfl⟩, nofun⟩
  | child p i =>
    intro s
    simp only [TLoc.write, bind, Eff.bind, tReadNode]
    cases h : s.heap p with
    | none => exact ⟨nofun, nofun⟩
    | some c =>
      cases c with
      | node b ds =>
        dsimp only
        split
        · exact ⟨fun _ s' h' => by cases h'; exact .heap (by rw [h]; rfl), nofun⟩
        · exact ⟨nofun, nofun⟩
      | raw => exact ⟨nofun, nofun⟩
      | box _ => exact ⟨nofun, nofun⟩

theorem Settles.refRead {r : TRef} : Settles (V := V) r.read := by
  cases r with
  | inBox q => exact .readBox
  | inPlace l =>
    refine Settles.andThen .locRead fun v => ?_
    split
    · exact .gives
    · exact .fails

theorem Settles.refWrite {r : TRef} {k : TyIx} {c : TContent V} : Settles (r.write k c) := by
  cases r with
  | inPlace l => exact .locWrite
  | inBox q =>
    intro s
    simp only [TRef.write, bind, Eff.bind, tReadBox, Eff.modify]
    cases h : s.heap q with
    | none => exact ⟨nofun, nofun⟩
    | some c =>
      cases c with
      | node b ds => exact ⟨nofun, nofun⟩
      | raw => exact ⟨nofun, nofun⟩
      | box _ => exact ⟨fun _ s' h' => by cases h'; exact .heap (by rw [h]; rfl), nofun⟩

theorem Settles.swapContent {k : TyIx} {l r : TRef} : Settles (tSwapContent C k l r) := by
  refine Settles.andThen .refRead fun c => Settles.andThen .refRead fun c' => ?_
  split
  · split
    · exact Settles.andThen (.onExc .mayThrow .refWrite) fun _ => .refWrite
    · exact Settles.andThen (.onExc .mayThrow (Settles.andThen .refWrite fun _ => .refWrite)) fun _ =>
        Settles.andThen .refWrite fun _ => .refWrite
  · refine Settles.andThen .readNode fun a => Settles.andThen .readNode fun b => ?_
    obtain ⟨b, ds⟩ := b
    dsimp only
    split
    · exact Settles.andThen (.onExc .mayThrow .setNode) fun _ => .setNode
    · exact Settles.andThen (.onExc .mayThrow (Settles.andThen .setNode fun _ => .setNode)) fun _ =>
        Settles.andThen .setNode fun _ => .setNode
  · exact .fails

/-- **C56**: between variants of the same type, `swap` allocates nothing and begins or ends no object's life in dynamic memory,
whether it succeeds or fails: references to the nodes stay valid. This also if one is a part of the other. -/
theorem C56_same_type_settled (hr : s.Represents σ own) (hf : s.Fresh) {lv rv : TVar V} (hx : x.variant s = some lv)
    (ht : t.variant s = some rv) (hk : lv.which = rv.which) :
    (∀ s', TCmd.code C n (.swap x t z) s = .ok () s' → Settled s s') ∧
    (∀ e s', TCmd.code C n (.swap x t z) s = .exc e s' → Settled s s') := by
  obtain ⟨α, hM, hS, _⟩ := hr.mem hf
  obtain ⟨l, L, hL⟩ := hM.valid_iff.mp (variant_valid hx)
  obtain ⟨r, R, hR⟩ := hM.valid_iff.mp (variant_valid ht)
  obtain ⟨g1, g2, _⟩ := hM.at_run hL
  obtain ⟨g3, g4, _⟩ := hM.at_run hR
  have h1 := hM.variant_eq hL
  have h2 := hM.variant_eq hR
  rw [hx] at h1; cases h1
  rw [ht] at h2; cases h2
  have hcode : TCmd.code C n (.swap x t z) s = tSwapContent C L.var.which (L.var.ref l) (R.var.ref r) s := by
    simp only [TCmd.code, tSwap, bind, Eff.bind, g1, g2, g3, g4, hk, if_true]
  rw [hcode]
  exact ⟨fun s' h => (Settles.swapContent s).1 () s' h, fun e s' h => (Settles.swapContent s).2 e s' h⟩

/-! ### From a heap backup -/

/-- **C56**, what fails: the variant `x` is in a heap backup and has another type than `t`. Then `x.swap(t)` never succeeds: it
stops at the assertion in the constructor of `backup_holder` (F1), unless the first step, the move from `t`, throws. -/
theorem C56_left_in_backup (hr : s.Represents σ own) (hf : s.Fresh) (hB : σ.Bound C.wrapped n) {k : TyIx} {q : ObjId} {rv : TVar V}
    (hx : x.variant s = some (.backup k q)) (ht : t.variant s = some rv) (hk : k ≠ rv.which) (h1 : t.inside x = false)
    (h2 : x.inside t = false) (hz : s.vars z = none) :
    TCmd.code C n (.swap x t z) s = .fault .assertFailed ∨
    ∃ e s' own' v v', TCmd.code C n (.swap x t z) s = .exc e s' ∧ C.throws e.tick = true ∧ σ.at t = some v ∧ v.Partly C v' ∧
      s'.Represents (σ.put t v') own' := by
  obtain ⟨α, hM, hS, _⟩ := hr.mem hf
  obtain ⟨l, L, u, sx, hLv, _, _⟩ := hM.side hS hB hx
  obtain ⟨r, R, v, st, hRv, hvn, _⟩ := hM.side hS hB ht
  subst hRv
  obtain ⟨g1, g2, _⟩ := hM.at_run sx.at_
  obtain ⟨g3, g4, _⟩ := hM.at_run st.at_
  have hz' := hr.vars_none.mp hz
  have hzx := ne_of_at (by rw [sx.val]; nofun) hz'
  have hzt := ne_of_at (by rw [st.val]; nofun) hz'
  have ha : x.Apart t := by
    rcases TPlace.cases x t with rfl | h | h | h
    · rw [hx] at ht; rw [← Option.some.inj ht] at hk; exact absurd rfl hk
    · exact h
    · rw [h1] at h; cases h
    · rw [h2] at h; cases h
  rw [hLv] at g2
  rcases tMoveVar_run (C := C) hM st.at_ st.is hvn with ⟨s1, U, R', k1, hUb, hU, hR', hM1, _⟩ | ⟨e, s1, R', v', k1, hp, hR', hM1, hthr⟩
  · left
    obtain ⟨s2, k2, hM2, _⟩ := hM1.newVar (x := z) (U := U) (by rw [put_ne_var hzt]; exact hS.none_iff.mp hz')
    have hx2 : At (upd (α.put t R') z (some U)) x l L := At.upd (sx.at_.put_apart ha) hzx
    have ht2 : At (upd (α.put t R') z (some U)) t r R' := At.upd st.at_.put hzt
    obtain ⟨_, k3, _⟩ := hM2.at_run hx2
    obtain ⟨_, k4, _⟩ := hM2.at_run ht2
    rw [hLv] at k3
    have hwh : R'.var.which ≠ k := by
      rw [var_which, hR'.which, VTree.which_movedFrom, ← st.is.which, ← var_which]; exact fun h => hk h.symm
    have hk' : k ≠ R.var.which := hk
    have hstep : tVariantMoveAssign C n r l s2 = .fault .assertFailed := by
      simp only [tVariantMoveAssign, bind, Eff.bind, k3, k4]
      cases hv : R'.var with
      | plain k' c => rfl
      | backup k' q' =>
        rw [hv] at hwh
        exact congrFun (if_neg hwh) s2
    simp only [TCmd.code, tSwap, bind, Eff.bind, g1, g2, g3, g4]
    rw [if_neg (show ¬ (TVar.backup (V := V) k q).which = R.var.which from hk')]
    simp only [Eff.bind, k1, k2, Eff.onExc, hstep]
  · right
    refine ⟨e, s1, _, v, v', ?_, hthr.throws, st.val, hp, hM1.represents (hS.put hR')⟩
    simp only [TCmd.code, tSwap, bind, Eff.bind, g1, g2, g3, g4]
    rw [if_neg (show ¬ (TVar.backup (V := V) k q).which = R.var.which from hk)]
    simp only [Eff.bind, k1]

/-! ### A variant and a part of it -/

/-- **C56** is about variants of which neither is a part of the other. If one is, and the types are equal, then the swap leaks
(finding F20). The members of the two nodes are exchanged, so that the inner node becomes a member of itself: the outer variant has
the value of the inner one, and nothing else has changed, but the memory of the inner node is still there and belongs to no variable. -/
theorem C56_swap_with_part_leaks (hl : C.ops.Lawful) (hr : s.Represents σ own) (hf : s.Fresh) (hB : σ.Bound C.wrapped n)
    (hi : t.inside x = true ∨ x.inside t = true) {lv rv : TVar V} (hlv : x.variant s = some lv) (hrv : t.variant s = some rv)
    (hk : lv.which = rv.which) :
    ∃ u v, σ.at x = some u ∧ σ.at t = some v ∧
      ((∃ s' own', TCmd.code C n (.swap x t z) s = .ok () s' ∧ s'.Stores (if t.inside x = true then σ.put x v else σ.put t u) own' ∧
        ∃ p, s'.heap p ≠ none ∧ ∀ y, p ∉ own' y) ∨
      ∃ e s', TCmd.code C n (.swap x t z) s = .exc e s' ∧ C.throws e.tick = true) := by
  obtain ⟨α, hM, hS, _⟩ := hr.mem hf
  obtain ⟨l, L, u, hx, rfl, _, hut⟩ := hM.side hS hB hlv
  obtain ⟨r, R, v, ht, rfl, _, hvt⟩ := hM.side hS hB hrv
  rw [var_which, var_which] at hk
  exact ⟨u, v, hx.val, ht.val, tSwap_part_leaks (C := C) (n := n) hl hM hS hx ht hut hvt hk hi⟩

/-- Between types, and with nodes that move their members one by one, the swap of a variant with a part of it does not return: it
is undefined, an assertion fails or it throws (finding F20). The exception is a left side in a part of the right one, the
latter in a heap backup, where the first assignment may copy first (`MoveCopiesFirst`). -/
theorem C56_swap_with_part_undefined (hl : C.ops.Lawful) (hr : s.Represents σ own) (hf : s.Fresh) (hB : σ.Bound C.wrapped n)
    (hst : ∀ k, C.steals k = false) {lv rv : TVar V} (hlv : x.variant s = some lv) (hrv : t.variant s = some rv)
    (hi : t.inside x = true ∨ (x.inside t = true ∧ ¬ C.MoveCopiesFirst rv lv.which)) (hz : s.vars z = none)
    (hk : lv.which ≠ rv.which) : TCmd.code C n (.swap x t z) s ≠ .ok () s' := by
  obtain ⟨α, hM, hS, _⟩ := hr.mem hf
  obtain ⟨l, L, u, hx, rfl, _, hut⟩ := hM.side hS hB hlv
  obtain ⟨r, R, v, ht, rfl, hh, hvt⟩ := hM.side hS hB hrv
  rw [var_which, var_which] at hk
  rw [var_which, moveCopiesFirst_iff, Bool.not_eq_false] at hi
  refine tSwap_part_other (C := C) (n := n) hl hst hM hS hx ht hut hvt hh hk ?_ hi
  rw [hM.vars, Option.map_eq_none_iff] at hz
  exact hS.none_iff.mpr hz

end

/-! ### Non-vacuity -/

/-- Two nodes of one type, of different sizes; a node and a plain value; a node with two members. -/
def exSwapProg : List (TCmd Nat) :=
  [.leaf 0 0 5, .leaf 1 2 6, .node 2 1 7 [⟨0, []⟩, ⟨1, []⟩], .node 3 1 8 [⟨2, []⟩, ⟨0, []⟩, ⟨2, [1]⟩], .node 4 1 9 [⟨1, []⟩]]

/-- C56: swapped within a type, the nodes stay where they are; `4` and the first member of `3` have exchanged their values. -/
example : (tAfter none [] (exSwapProg ++ [.swap ⟨4, []⟩ ⟨3, [0]⟩ 9])).vars 4 = (tAfter none [] exSwapProg).vars 4 ∧
    (tAfter none [] exSwapProg).heap 4 = some (.node 9 [.plain 2 (.leaf 6)]) ∧
    (tAfter none [] exSwapProg).heap 3 = some (.node 7 [.plain 0 (.leaf 5), .plain 2 (.leaf 6)]) ∧
    (tAfter none [] (exSwapProg ++ [.swap ⟨4, []⟩ ⟨3, [0]⟩ 9])).heap 4 = some (.node 7 [.plain 0 (.leaf 5), .plain 2 (.leaf 6)]) ∧
    (tAfter none [] (exSwapProg ++ [.swap ⟨4, []⟩ ⟨3, [0]⟩ 9])).heap 3 = some (.node 9 [.plain 2 (.leaf 6)]) ∧
    (tAfter none [] (exSwapProg ++ [.swap ⟨4, []⟩ ⟨3, [0]⟩ 9])).heap 2 = some (.node 8 [.plain 1 (.wrap 3), .plain 0 (.leaf 5), .plain 2 (.leaf 6)]) := by
  decide +kernel

/-- C56: the hypotheses of the first statement, within a type and between types, for a place inside a tree. -/
example : ∃ σ own, (tAfter none [] exSwapProg).Represents σ own ∧ (tAfter none [] exSwapProg).Fresh ∧
    σ.Bound (exTree none []).wrapped 4096 ∧
    TPlace.variant (tAfter none [] exSwapProg) ⟨4, []⟩ = some (.plain 1 (.wrap 4)) ∧
    TPlace.variant (tAfter none [] exSwapProg) ⟨3, [0]⟩ = some (.plain 1 (.wrap 3)) ∧
    TPlace.variant (tAfter none [] exSwapProg) ⟨3, [1]⟩ = some (.plain 0 (.leaf 5)) ∧
    TPlace.inside ⟨3, [0]⟩ ⟨4, []⟩ = false ∧ TPlace.inside ⟨4, []⟩ ⟨3, [0]⟩ = false ∧
    TPlace.inside ⟨3, [1]⟩ ⟨3, [0]⟩ = false ∧ TPlace.inside ⟨3, [0]⟩ ⟨3, [1]⟩ = false ∧ (tAfter none [] exSwapProg).vars 9 = none := by
  obtain ⟨σ, own, _, h1, h2, h3⟩ := tAfter_rep (fb := none) (bad := []) (st := false) (cs := exSwapProg) nofun (by decide)
    (by decide +kernel)
  exact ⟨σ, own, h1, h2, h3, by decide +kernel⟩

/-- C56: swapped between types, two members of one node: the first is then plain and the second a node. -/
example : (tAfter none [] (exSwapProg ++ [.swap ⟨3, [0]⟩ ⟨3, [1]⟩ 9])).heap 2 =
      some (.node 8 [.plain 0 (.leaf 5), .plain 1 (.wrap 6), .plain 2 (.leaf 6)]) ∧
    (tAfter none [] (exSwapProg ++ [.swap ⟨3, [0]⟩ ⟨3, [1]⟩ 9])).heap 6 = some (.node 7 [.plain 0 (.leaf 5), .plain 2 (.leaf 6)]) ∧
    (tAfter none [] (exSwapProg ++ [.swap ⟨3, [0]⟩ ⟨3, [1]⟩ 9])).heap 3 = none ∧
    (tAfter none [] (exSwapProg ++ [.swap ⟨3, [0]⟩ ⟨3, [1]⟩ 9])).vars 9 = none := by
  decide +kernel

/-- C56: the second swap of the two; the values are as before, in another node. -/
example : TCmd.valid (exTree none []) (tAfter none [] exSwapProg) (.swap ⟨3, [0]⟩ ⟨3, [1]⟩ 9) = true ∧
    TCmd.hazard (exTree none []) (tAfter none [] exSwapProg) (.swap ⟨3, [0]⟩ ⟨3, [1]⟩ 9) = false ∧
    (tOkState (exTree none []) (.swap ⟨3, [0]⟩ ⟨3, [1]⟩ 9) (tAfter none [] exSwapProg)).isSome = true ∧
    TCmd.hazard (exTree none []) (tAfter none [] (exSwapProg ++ [.swap ⟨3, [0]⟩ ⟨3, [1]⟩ 9])) (.swap ⟨3, [0]⟩ ⟨3, [1]⟩ 9) = false ∧
    (tOkState (exTree none []) (.swap ⟨3, [0]⟩ ⟨3, [1]⟩ 9) (tAfter none [] (exSwapProg ++ [.swap ⟨3, [0]⟩ ⟨3, [1]⟩ 9]))).isSome = true ∧
    (tAfter none [] (exSwapProg ++ [.swap ⟨3, [0]⟩ ⟨3, [1]⟩ 9, .swap ⟨3, [0]⟩ ⟨3, [1]⟩ 9])).heap 2 =
      some (.node 8 [.plain 1 (.wrap 13), .plain 0 (.leaf 5), .plain 2 (.leaf 6)]) ∧
    (tAfter none [] (exSwapProg ++ [.swap ⟨3, [0]⟩ ⟨3, [1]⟩ 9, .swap ⟨3, [0]⟩ ⟨3, [1]⟩ 9])).heap 13 =
      some (.node 7 [.plain 0 (.leaf 5), .plain 2 (.leaf 6)]) := by
  decide +kernel

/-- The statement throws. -/
def tThrows (fb : Option TyIx) (bad : List Nat) (cs : List (TCmd Nat)) (c : TCmd Nat) : Bool :=
  match c.code (exTree fb bad) 4096 (tAfter fb bad cs) with
  | .exc _ _ => true
  | _ => false

/-- C56: a swap of a node (value 7) and a plain value (5) that fails in the first step, in the second, and in the third, where the
value 5 is nowhere afterwards: `2` has its node, now in a heap backup, and the second member of `3` has an equal one. With a
fallback type it is the fallback content instead. -/
example : tThrows none [22] (exTreeProg.take 4) (.swap ⟨2, []⟩ ⟨3, [1]⟩ 9) = true ∧
    (tAfter none [22] (exTreeProg.take 4 ++ [.swap ⟨2, []⟩ ⟨3, [1]⟩ 9])).heap 2 =
      some (.node 8 [.plain 1 (.wrap 3), .plain 0 (.leaf 5), .plain 2 (.leaf 6)]) ∧
    tThrows none [25] (exTreeProg.take 4) (.swap ⟨2, []⟩ ⟨3, [1]⟩ 9) = true ∧
    (tAfter none [25] (exTreeProg.take 4 ++ [.swap ⟨2, []⟩ ⟨3, [1]⟩ 9])).vars 2 = some (.plain 1 (.wrap 0)) ∧
    (tAfter none [25] (exTreeProg.take 4 ++ [.swap ⟨2, []⟩ ⟨3, [1]⟩ 9])).heap 2 =
      some (.node 8 [.plain 1 (.wrap 3), .backup 0 4, .plain 2 (.leaf 6)]) ∧
    (tAfter none [25] (exTreeProg.take 4 ++ [.swap ⟨2, []⟩ ⟨3, [1]⟩ 9])).heap 4 = some (.box (.leaf 0)) ∧
    tThrows none [34] (exTreeProg.take 4) (.swap ⟨2, []⟩ ⟨3, [1]⟩ 9) = true ∧
    (tAfter none [34] (exTreeProg.take 4 ++ [.swap ⟨2, []⟩ ⟨3, [1]⟩ 9])).vars 2 = some (.backup 1 6) ∧
    (tAfter none [34] (exTreeProg.take 4 ++ [.swap ⟨2, []⟩ ⟨3, [1]⟩ 9])).heap 2 =
      some (.node 8 [.plain 1 (.wrap 3), .plain 1 (.wrap 5), .plain 2 (.leaf 6)]) ∧
    tThrows (some 0) [27] (exTreeProg.take 4) (.swap ⟨2, []⟩ ⟨3, [1]⟩ 9) = true ∧
    (tAfter (some 0) [27] (exTreeProg.take 4 ++ [.swap ⟨2, []⟩ ⟨3, [1]⟩ 9])).vars 2 = some (.plain 0 (.leaf 999)) := by
  decide +kernel

/-- The statement stops at a failed assertion. -/
def tAsserts (fb : Option TyIx) (bad : List Nat) (cs : List (TCmd Nat)) (c : TCmd Nat) : Bool :=
  match c.code (exTree fb bad) 4096 (tAfter fb bad cs) with
  | .fault .assertFailed => true
  | _ => false

/-- C56: `2` is in a heap backup. The hypotheses of the last statement, and the assertion; while a swap with a variant of the
same type, and one with `2` on the right side, succeed. -/
example : ∃ σ own, (tAfter none [35] exTreeProg).Represents σ own ∧ (tAfter none [35] exTreeProg).Fresh ∧
    σ.Bound (exTree none [35]).wrapped 4096 ∧
    TPlace.variant (tAfter none [35] exTreeProg) ⟨2, []⟩ = some (.backup 1 6) ∧
    TPlace.variant (tAfter none [35] exTreeProg) ⟨0, []⟩ = some (.plain 0 (.leaf 5)) ∧
    tAsserts none [35] exTreeProg (.swap ⟨2, []⟩ ⟨0, []⟩ 9) = true ∧
    (tOkState (exTree none [35]) (.swap ⟨2, []⟩ ⟨3, [0]⟩ 9) (tAfter none [35] exTreeProg)).isSome = true ∧
    (tOkState (exTree none [35]) (.swap ⟨0, []⟩ ⟨2, []⟩ 9) (tAfter none [35] exTreeProg)).isSome = true := by
  obtain ⟨σ, own, _, h1, h2, h3⟩ := tAfter_rep (fb := none) (bad := [35]) (st := false) (cs := exTreeProg) nofun (by decide)
    (by decide +kernel)
  exact ⟨σ, own, h1, h2, h3, by decide +kernel⟩

/-- C56: the statements for such swaps. -/
example : ∃ σ own, (tAfter none [] exSwapProg).Represents σ own ∧ ∃ u v, σ.at ⟨3, [0]⟩ = some u ∧ σ.at ⟨3, [1]⟩ = some v ∧
    ∃ s' own', TCmd.code (exTree none []) 4096 (.swap ⟨3, [0]⟩ ⟨3, [1]⟩ 9) (tAfter none [] exSwapProg) = .ok () s' ∧
      s'.Represents ((σ.put ⟨3, [0]⟩ v).put ⟨3, [1]⟩ u) own' := by
  obtain ⟨σ, own, _, h1, h2, h3⟩ := tAfter_rep (fb := none) (bad := []) (st := false) (cs := exSwapProg) nofun (by decide)
    (by decide +kernel)
  obtain ⟨u, v, hu, hv, ⟨s', own', g1, g2, -⟩ | ⟨e, s', own', a, b, -, g, -⟩⟩ := C56_swap (C := exTree none []) (z := 9) (x := ⟨3, [0]⟩)
    (t := ⟨3, [1]⟩) (lv := .plain 1 (.wrap 3)) (rv := .plain 0 (.leaf 5)) natOps_lawful h1 h2 h3 (by decide +kernel)
    (by decide +kernel) (by decide) (by decide) (.inr ⟨_, _, rfl⟩) (by decide +kernel)
  · exact ⟨σ, own, h1, u, v, hu, hv, s', own', g1, g2⟩
  · cases g
example (s1 s2 : TreeSt Nat) (h : tOkState (exTree none []) (.swap ⟨3, [0]⟩ ⟨3, [1]⟩ 9) (tAfter none [] exSwapProg) = some s1)
    (h' : TCmd.hazard (exTree none []) s1 (.swap ⟨3, [0]⟩ ⟨3, [1]⟩ 9) = false)
    (h'' : TCmd.code (exTree none []) 8192 (.swap ⟨3, [0]⟩ ⟨3, [1]⟩ 9) s1 = .ok () s2) :
    ∃ σ own own', (tAfter none [] exSwapProg).Represents σ own ∧ s2.Represents σ own' := by
  obtain ⟨σ, own, _, h1, h2, h3⟩ := tAfter_rep (fb := none) (bad := []) (st := false) (cs := exSwapProg) nofun (by decide)
    (by decide +kernel)
  obtain ⟨own', g⟩ := C56_swap_twice (n := 4096) natOps_lawful h1 h2 h3 (by decide +kernel) (by decide +kernel) h'
    (tOkState_run h) (Nat.le_refl 8192) h''
  exact ⟨σ, own, own', h1, g⟩
example : ∃ s', TCmd.code (exTree none []) 4096 (.swap ⟨4, []⟩ ⟨3, [0]⟩ 9) (tAfter none [] exSwapProg) = .ok () s' ∧
    Settled (tAfter none [] exSwapProg) s' := by
  obtain ⟨σ, own, _, h1, h2, h3⟩ := tAfter_rep (fb := none) (bad := []) (st := false) (cs := exSwapProg) nofun (by decide)
    (by decide +kernel)
  obtain ⟨s', h⟩ : ∃ s', tOkState (exTree none []) (.swap ⟨4, []⟩ ⟨3, [0]⟩ 9) (tAfter none [] exSwapProg) = some s' :=
    Option.isSome_iff_exists.mp (by decide +kernel)
  exact ⟨s', tOkState_run h, (C56_same_type_settled (lv := .plain 1 (.wrap 4)) (rv := .plain 1 (.wrap 3)) h1 h2 (by decide +kernel)
    (by decide +kernel) rfl).1 s' (tOkState_run h)⟩

/-- C56: a node is swapped with its first member, of the same type. The member then is a part of itself. -/
example : (tAfter none [] (exSwapProg ++ [.swap ⟨3, []⟩ ⟨3, [0]⟩ 9])).vars 3 = some (.plain 1 (.wrap 2)) ∧
    (tAfter none [] (exSwapProg ++ [.swap ⟨3, []⟩ ⟨3, [0]⟩ 9])).heap 2 = some (.node 7 [.plain 0 (.leaf 5), .plain 2 (.leaf 6)]) ∧
    (tAfter none [] (exSwapProg ++ [.swap ⟨3, []⟩ ⟨3, [0]⟩ 9])).heap 3 =
      some (.node 8 [.plain 1 (.wrap 3), .plain 0 (.leaf 5), .plain 2 (.leaf 6)]) := by
  decide +kernel
example : ∃ s' own', TCmd.code (exTree none []) 4096 (.swap ⟨3, []⟩ ⟨3, [0]⟩ 9) (tAfter none [] exSwapProg) = .ok () s' ∧
    ∃ σ', s'.Stores σ' own' ∧ ∃ p, s'.heap p ≠ none ∧ ∀ y, p ∉ own' y := by
  obtain ⟨σ, own, _, h1, h2, h3⟩ := tAfter_rep (fb := none) (bad := []) (st := false) (cs := exSwapProg) nofun (by decide)
    (by decide +kernel)
  obtain ⟨u, v, _, _, h | ⟨e, s', _, h⟩⟩ := C56_swap_with_part_leaks (z := 9) (x := ⟨3, []⟩) (t := ⟨3, [0]⟩) (lv := .plain 1 (.wrap 2))
    (rv := .plain 1 (.wrap 3)) natOps_lawful h1 h2 h3 (.inl (by decide)) (by decide +kernel) (by decide +kernel) rfl
  · obtain ⟨s', own', g1, g2, g3⟩ := h
    exact ⟨s', own', g1, _, g2, g3⟩
  · simp [exTree] at h

/-- C56: a node and its members of another type, in both orders. -/
example : tFaults none [] exSwapProg (.swap ⟨3, []⟩ ⟨3, [0, 1]⟩ 9) = true ∧ tFaults none [] exSwapProg (.swap ⟨3, [1]⟩ ⟨3, []⟩ 9) = true := by
  decide +kernel
example (s' : TreeSt Nat) : TCmd.code (exTree none []) 4096 (.swap ⟨3, []⟩ ⟨3, [0, 1]⟩ 9) (tAfter none [] exSwapProg) ≠ .ok () s' ∧
    TCmd.code (exTree none []) 4096 (.swap ⟨3, [1]⟩ ⟨3, []⟩ 9) (tAfter none [] exSwapProg) ≠ .ok () s' := by
  obtain ⟨σ, own, _, h1, h2, h3⟩ := tAfter_rep (fb := none) (bad := []) (st := false) (cs := exSwapProg) nofun (by decide)
    (by decide +kernel)
  exact ⟨C56_swap_with_part_undefined (lv := .plain 1 (.wrap 2)) (rv := .plain 2 (.leaf 6)) natOps_lawful h1 h2 h3 (fun _ => rfl)
      (by decide +kernel) (by decide +kernel) (.inl (by decide)) (by decide +kernel) (by decide),
    C56_swap_with_part_undefined (lv := .plain 0 (.leaf 5)) (rv := .plain 1 (.wrap 2)) natOps_lawful h1 h2 h3 (fun _ => rfl)
      (by decide +kernel) (by decide +kernel) (.inr ⟨by decide, fun h => by obtain ⟨_, _, _, _, _, h⟩ := h; cases h⟩)
      (by decide +kernel) (by decide)⟩

/-! ### Instances -/

/-- C56: the assertion, from the theorem. -/
example : TCmd.code (exTree none [35]) 4096 (.swap ⟨2, []⟩ ⟨0, []⟩ 9) (tAfter none [35] exTreeProg) = .fault .assertFailed := by
  obtain ⟨σ, own, _, h1, h2, h3⟩ := tAfter_rep (fb := none) (bad := [35]) (st := false) (cs := exTreeProg) nofun (by decide)
    (by decide +kernel)
  rcases C56_left_in_backup (z := 9) h1 h2 h3 (x := ⟨2, []⟩) (t := ⟨0, []⟩) (k := 1) (q := 6) (rv := .plain 0 (.leaf 5)) (by decide +kernel)
    (by decide +kernel) (by decide) (by decide) (by decide) (by decide +kernel) with h | ⟨e, s', _, _, _, h, _⟩
  · exact h
  · have : tAsserts none [35] exTreeProg (.swap ⟨2, []⟩ ⟨0, []⟩ 9) = true := by decide +kernel
    rw [tAsserts, h] at this; cases this

end BVariant
