/-
C73: what each statement on recursive variants does, exactly: the trees of all variables afterwards, which exception leaves it, how many
operations of the elements and how many allocations it makes.
-/
import Verif.Lemmas.ExactTreeBound
import Verif.Props.Tree

namespace BVariant

section
variable {V : Type} {C : TreeCfg V} {s s' : TreeSt V} {σ : XTSt V} {own : Nat → List ObjId} {m n : Nat}

open ATree AStore

mutual
theorem ATree.Shows.rep {h : ObjId → Option (TCell V)} : ∀ {T : ATree V} {u : XTree V}, T.Holds h → T.Shows u → u.Rep h T.var T.blocks
  | .leaf k v b, .leaf m k' v', hh, hs => by
    rw [Shows] at hs
    obtain ⟨rfl, rfl, rfl⟩ := hs
    rw [ATree.Holds] at hh
    cases b with
    | none => show XTree.Rep h (.leaf false k v) _ _; rw [XTree.Rep]; exact ⟨rfl, rfl⟩
    | some q => show XTree.Rep h (.leaf true k v) _ _; rw [XTree.Rep]; exact ⟨q, rfl, hh q rfl, rfl⟩
  | .node k a p f b, .node m k' a' f', hh, hs => by
    rw [Shows] at hs
    obtain ⟨rfl, rfl, rfl, hs⟩ := hs
    rw [ATree.Holds] at hh
    cases b with
    | none =>
      show XTree.Rep h (.node false k a f') _ _
      rw [XTree.Rep]
      exact ⟨p, _, _, rfl, hh.2.1, ATree.ShowsL.rep hh.2.2 hs, rfl⟩
    | some q =>
      show XTree.Rep h (.node true k a f') _ _
      rw [XTree.Rep]
      exact ⟨q, p, _, _, rfl, hh.1 q rfl, hh.2.1, ATree.ShowsL.rep hh.2.2 hs, rfl⟩
  | .leaf .., .node .., _, h => by simp [Shows] at h
  | .node .., .leaf .., _, h => by simp [Shows] at h
  | .dead .., _, _, h => by simp [Shows] at h
  | .blk .., _, _, h => by simp [Shows] at h
theorem ATree.ShowsL.rep {h : ObjId → Option (TCell V)} : ∀ {F : List (ATree V)} {f : List (XTree V)}, HoldsL h F → ShowsL F f →
    XTree.RepL h f (F.map ATree.var) (blocksL F)
  | [], [], _, _ => by rw [XTree.RepL]; exact ⟨rfl, rfl⟩
  | T :: F, t :: f, hh, hs => by
    rw [ShowsL] at hs
    rw [HoldsL] at hh
    rw [XTree.RepL]
    exact ⟨_, _, _, _, rfl, ATree.Shows.rep hh.1 hs.1, ATree.ShowsL.rep hh.2 hs.2, rfl⟩
  | [], _ :: _, _, h => by simp [ShowsL] at h
  | _ :: _, [], _, h => by simp [ShowsL] at h
end

mutual
theorem XTree.Rep.annot {h : ObjId → Option (TCell V)} : ∀ {u : XTree V} {v : TVar V} {ns : List ObjId}, u.Rep h v ns →
    ∃ T : ATree V, T.Shows u ∧ T.Holds h ∧ T.var = v ∧ T.blocks = ns
  | .leaf false k a, v, ns, hr => by
    rw [XTree.Rep] at hr
    obtain ⟨rfl, rfl⟩ := hr
    exact ⟨.leaf k a none, by simp [Shows], by rw [ATree.Holds]; nofun, rfl, rfl⟩
  | .leaf true k a, v, ns, hr => by
    rw [XTree.Rep] at hr
    obtain ⟨q, rfl, hq, rfl⟩ := hr
    exact ⟨.leaf k a (some q), by simp [Shows], by rw [ATree.Holds]; rintro _ ⟨⟩; exact hq, rfl, rfl⟩
  | .node false k a f, v, ns, hr => by
    rw [XTree.Rep] at hr
    obtain ⟨p, cs, ms, rfl, hp, hf, rfl⟩ := hr
    obtain ⟨g, h1, h2, rfl, rfl⟩ := XTree.RepL.annot hf
    exact ⟨.node k a p g none, by simp [Shows, h1], by rw [ATree.Holds]; exact ⟨nofun, hp, h2⟩, rfl, rfl⟩
  | .node true k a f, v, ns, hr => by
    rw [XTree.Rep] at hr
    obtain ⟨q, p, cs, ms, rfl, hq, hp, hf, rfl⟩ := hr
    obtain ⟨g, h1, h2, rfl, rfl⟩ := XTree.RepL.annot hf
    exact ⟨.node k a p g (some q), by simp [Shows, h1], by rw [ATree.Holds]; exact ⟨by rintro _ ⟨⟩; exact hq, hp, h2⟩, rfl, rfl⟩
theorem XTree.RepL.annot {h : ObjId → Option (TCell V)} : ∀ {f : List (XTree V)} {vs : List (TVar V)} {ns : List ObjId}, XTree.RepL h f vs ns →
    ∃ g : List (ATree V), ShowsL g f ∧ HoldsL h g ∧ g.map ATree.var = vs ∧ blocksL g = ns
  | [], vs, ns, hr => by
    rw [XTree.RepL] at hr
    obtain ⟨rfl, rfl⟩ := hr
    exact ⟨[], by simp [ShowsL], by simp [HoldsL], rfl, rfl⟩
  | t :: f, vs, ns, hr => by
    rw [XTree.RepL] at hr
    obtain ⟨y, ys, ms, ms', rfl, ht, hf, rfl⟩ := hr
    obtain ⟨t', h1, h2, rfl, rfl⟩ := XTree.Rep.annot ht
    obtain ⟨g, h3, h4, rfl, rfl⟩ := XTree.RepL.annot hf
    exact ⟨t' :: g, by simp [ShowsL, h1, h3], by simp [HoldsL, h2, h4], rfl, rfl⟩
end

theorem XTree.RepL.length {h : ObjId → Option (TCell V)} {f : List (XTree V)} {vs : List (TVar V)} {ns : List ObjId} (hr : XTree.RepL h f vs ns) :
    f.length = vs.length := by
  induction f generalizing vs ns with
  | nil => rw [XTree.RepL] at hr; rw [hr.1]; rfl
  | cons t f ih =>
    rw [XTree.RepL] at hr
    obtain ⟨y, ys, ms, ms', rfl, -, h, -⟩ := hr
    simp only [List.length_cons, ih h]

theorem Mem.shows {α : AStore V} {vs : XStore V} (hM : Mem s α []) (hS : ShowsS α vs) : s.Shows ⟨vs, s.count⟩ fun x => blocksO (α x) := by
  refine ⟨fun y w hy => ?_, fun y hy => ?_, fun y => List.nodup_iff_count.mpr fun p => ?_, fun y z p h1 h2 => ?_, fun p hp => ?_, rfl, rfl⟩
  · have h := hS y
    have hy' : vs y = some w := hy
    rw [hy'] at h
    cases hT : α y with
    | none => rw [hT] at h; exact h.elim
    | some T =>
      rw [hT] at h
      exact ⟨T.var, by rw [hM.vars, hT]; rfl, ATree.Shows.rep (hM.holds y T hT) h⟩
  · have h := hS y
    have hy' : vs y = none := hy
    rw [hy'] at h
    cases hT : α y with
    | none => exact ⟨by rw [hM.vars, hT]; rfl, rfl⟩
    | some T => rw [hT] at h; exact h.elim
  · have := hM.excl y p; omega
  · by_cases hyz : y = z
    · exact hyz
    · have := hM.disj y z p hyz
      have h3 := List.count_pos_iff.mpr h1
      have h4 := List.count_pos_iff.mpr h2
      omega
  · exact (hM.owned p hp).elim (fun h => by simp [blocksL] at h) fun ⟨x, h⟩ => ⟨x, List.count_pos_iff.mp h⟩

theorem TreeSt.Shows.mem (hr : s.Shows σ own) (hf : s.Fresh) : ∃ α : AStore V, Mem s α [] ∧ ShowsS α σ.vars := by
  have h : ∀ x, ∃ T : Option (ATree V), ShowsO T (σ.vars x) ∧ s.vars x = T.map ATree.var ∧ (∀ t, T = some t → t.Holds s.heap) ∧
      blocksO T = own x := fun x => by
    cases hx : σ.vars x with
    | none => obtain ⟨h1, h2⟩ := hr.dead x hx; exact ⟨none, trivial, h1, nofun, h2.symm⟩
    | some u =>
      obtain ⟨v, h1, h2⟩ := hr.val x u hx
      obtain ⟨T, h3, h4, h5, h6⟩ := h2.annot
      exact ⟨some T, h3, by rw [h1, ← h5]; rfl, by rintro _ ⟨⟩; exact h4, h6⟩
  obtain ⟨α, hα⟩ := Classical.skolem.mp h
  refine ⟨α, ⟨fun x => (hα x).2.1, fun x => (hα x).2.2.1, trivial, fun x p => ?_, fun x y p hxy => ?_, fun p hp => ?_, hf⟩,
    fun x => (hα x).1⟩
  · rw [(hα x).2.2.2]
    have := List.nodup_iff_count.mp (hr.nodup x) p
    simp only [blocksL, List.count_nil]; omega
  · rw [(hα x).2.2.2, (hα y).2.2.2]
    have h1 := List.nodup_iff_count.mp (hr.nodup x) p
    have h2 := List.nodup_iff_count.mp (hr.nodup y) p
    by_cases h3 : p ∈ own x
    · have : p ∉ own y := fun h4 => hxy (hr.disj x y p h3 h4)
      rw [List.count_eq_zero.mpr this]; omega
    · rw [List.count_eq_zero.mpr h3]; omega
  · obtain ⟨x, hx⟩ := hr.owned p hp
    exact .inr ⟨x, by rw [(hα x).2.2.2]; exact List.count_pos_iff.mpr hx⟩

theorem TreeSt.Shows.count (hr : s.Shows σ own) : σ = ⟨σ.vars, s.count⟩ := by
  obtain ⟨vs, ⟨t, a⟩⟩ := σ
  have h1 := hr.tick
  have h2 := hr.allocs
  simp only at h1 h2
  simp only [TreeSt.count, h1, h2]

/-- Which statements are valid, and which of these the library does not support, can be told from the trees. -/
theorem C73_valid (hr : s.Shows σ own) (hf : s.Fresh) (c : TCmd V) :
    c.valid C s = c.okay C σ ∧ (c.valid C s = true → c.hazard C s = c.risky C σ) := by
  obtain ⟨α, hM, hS⟩ := hr.mem hf
  rw [hr.count]
  have h1 := okay_eq (C := C) (k := s.count) hM hS c
  exact ⟨h1, fun hv => risky_eq hM hS (okay_iff.mp (h1 ▸ hv))⟩

/-- Each statement the library supports, from any state, does exactly what the specification says. -/
theorem C73_statement (hr : s.Shows σ own) (hf : s.Fresh) (hB : σ.values.Bound C.wrapped n) {c : TCmd V}
    (hv : c.valid C s = true) (hz : c.hazard C s = false) :
    (∃ s' σ' own', c.code C n s = .ok () s' ∧ c.exact C σ = .ok () σ' ∧ s'.Shows σ' own' ∧ s'.Fresh) ∨
    (∃ e s' σ' own', c.code C n s = .exc e s' ∧ c.exact C σ = .exc e σ' ∧ s'.Shows σ' own' ∧ s'.Fresh) := by
  obtain ⟨α, hM, hS⟩ := hr.mem hf
  rw [hr.count] at hB ⊢
  have h1 := okay_eq (C := C) (k := s.count) hM hS c
  rcases tStep_x (n := n) hM hS hB (Nat.le_refl _) (okay_iff.mp (h1 ▸ hv)) hz with
    ⟨s', α', vs', e1, e2, e3, e4, _⟩ | ⟨e, s', α', vs', e1, e2, e3, e4, _⟩
  · exact .inl ⟨s', _, _, e1, e2, e4.shows e3, e4.fresh⟩
  · exact .inr ⟨e, s', _, _, e1, e2, e4.shows e3, e4.fresh⟩

theorem xtRunAll_run (hfb : ∀ fb, C.fallback = some fb → C.wrapped fb = false) (cs : List (TCmd V))
    {α : AStore V} {vs : XStore V} (hM : Mem s α []) (hS : ShowsS α vs) (hB : (XTSt.values ⟨vs, s.count⟩ : TStore V).Bound C.wrapped m) (hm : 1 ≤ m)
    (hn : m * 2 ^ cs.length ≤ n) :
    match xtRunAll C cs ⟨vs, s.count⟩ with
    | some (σ, es) => tClean C n cs s = true ∧ tThrown C n cs s = es ∧ ∃ s' own, tRun C n cs s = some s' ∧ s'.Shows σ own ∧ s'.Fresh
    | none => tClean C n cs s = false := by
  induction cs generalizing s vs α m with
  | nil => exact ⟨rfl, rfl, s, _, rfl, hM.shows hS, hM.fresh⟩
  | cons c cs ih =>
    have hpow : m * 2 ^ (c :: cs).length = 2 * m * 2 ^ cs.length := by
      rw [List.length_cons, Nat.pow_succ, Nat.mul_comm 2 m, Nat.mul_assoc, Nat.mul_comm (2 ^ cs.length)]
    have h2 : 2 * m ≤ 2 * m * 2 ^ cs.length := Nat.le_mul_of_pos_right _ (two_pow_pos _)
    rw [hpow] at hn
    have hok := okay_eq (C := C) (k := s.count) hM hS c
    simp only [xtRunAll, tClean, tThrown, tRun]
    cases hv : c.valid C s with
    | false =>
      rw [hv] at hok
      simp only [← hok, Bool.false_eq_true, if_false]
      have := ih hM hS (hB.mono (by omega : m ≤ 2 * m)) (by omega) hn
      revert this
      cases xtRunAll C cs ⟨vs, s.count⟩ with
      | none => exact fun h => h
      | some q => exact fun ⟨h1, h2, h3⟩ => ⟨h1, by rw [h2], h3⟩
    | true =>
      rw [hv] at hok
      have hv' := okay_iff.mp hok.symm
      have hrk := risky_eq hM hS hv'
      simp only [← hok, if_true]
      cases hz : c.hazard C s with
      | true =>
        rw [hz] at hrk
        simp only [← hrk, if_true, Bool.not_true, Bool.false_and]
      | false =>
        rw [hz] at hrk
        simp only [← hrk, Bool.false_eq_true, if_false, Bool.not_false, Bool.true_and]
        have hb := exact_bound hfb hm hB hv' hrk.symm
        rcases tStep_x (n := n) hM hS hB (by omega) hv' hz with
          ⟨s', α', vs', e1, e2, e3, e4, _⟩ | ⟨e, s', α', vs', e1, e2, e3, e4, _⟩
        · rw [e2] at hb
          simp only [e1, e2]
          have := ih e4 e3 hb (by omega) hn
          revert this
          cases xtRunAll C cs ⟨vs', s'.count⟩ with
          | none => exact fun h => h
          | some q => exact fun ⟨h1, h2, h3⟩ => ⟨h1, by rw [h2], h3⟩
        · rw [e2] at hb
          simp only [e1, e2]
          have := ih e4 e3 hb (by omega) hn
          revert this
          cases xtRunAll C cs ⟨vs', s'.count⟩ with
          | none => exact fun h => h
          | some q => exact fun ⟨h1, h2, h3⟩ => ⟨h1, by rw [h2], h3⟩

/-- Any program on recursive variants does exactly what the specification says, statement by statement, unless it comes to a statement
the library does not support, which the specification predicts too. -/
theorem C73_program (hfb : ∀ fb, C.fallback = some fb → C.wrapped fb = false) (cs : List (TCmd V)) (hn : 2 ^ cs.length ≤ n) :
    match xtRunAll C cs (XTSt.init V) with
    | some (σ, es) => tClean C n cs (TreeSt.init V) = true ∧ tThrown C n cs (TreeSt.init V) = es ∧
        ∃ s own, tRun C n cs (TreeSt.init V) = some s ∧ s.Shows σ own
    | none => tClean C n cs (TreeSt.init V) = false := by
  have hM : Mem (TreeSt.init V) (fun _ => none) [] :=
    ⟨fun _ => rfl, nofun, trivial, fun _ _ => by simp [blocksO, blocksL], fun _ _ _ _ => by simp [blocksO], fun _ h => absurd rfl h, fun _ _ => rfl⟩
  have h := xtRunAll_run (m := 1) (n := n) hfb cs hM (vs := fun _ => none) (fun _ => trivial) nofun (Nat.le_refl _) (by omega)
  rw [show (⟨fun _ => none, (TreeSt.init V).count⟩ : XTSt V) = XTSt.init V from rfl] at h
  revert h
  cases xtRunAll C cs (XTSt.init V) with
  | none => exact fun h => h
  | some q => exact fun ⟨h1, h2, s, own, h3, h4, _⟩ => ⟨h1, h2, s, own, h3, h4⟩

/-- A program that comes to a statement the library does not support. -/
theorem C73_unsupported (hfb : ∀ fb, C.fallback = some fb → C.wrapped fb = false) (cs : List (TCmd V)) (hn : 2 ^ cs.length ≤ n)
    (h : xtRunAll C cs (XTSt.init V) = none) : tClean C n cs (TreeSt.init V) = false := by
  have := C73_program hfb cs hn
  rw [h] at this
  exact this

/-- Programs behave in the same way on every stack that is deep enough. -/
theorem C73_depth (hfb : ∀ fb, C.fallback = some fb → C.wrapped fb = false) (cs : List (TCmd V)) {n n' : Nat} (hn : 2 ^ cs.length ≤ n)
    (hn' : 2 ^ cs.length ≤ n') : tClean C n cs (TreeSt.init V) = tClean C n' cs (TreeSt.init V) ∧
    (tClean C n cs (TreeSt.init V) = true → tThrown C n cs (TreeSt.init V) = tThrown C n' cs (TreeSt.init V) ∧
      ∃ s s' σ own own', tRun C n cs (TreeSt.init V) = some s ∧ tRun C n' cs (TreeSt.init V) = some s' ∧ s.Shows σ own ∧ s'.Shows σ own') := by
  have h1 := C73_program hfb cs hn
  have h2 := C73_program hfb cs hn'
  revert h1 h2
  cases xtRunAll C cs (XTSt.init V) with
  | none => exact fun h1 h2 => ⟨by rw [h1, h2], fun h => by rw [h1] at h; cases h⟩
  | some q =>
    rintro ⟨a1, b1, s, o, c1, d1⟩ ⟨a2, b2, s', o', c2, d2⟩
    exact ⟨by rw [a1, a2], fun _ => ⟨by rw [b1, b2], s, s', q.1, o, o', c1, c2, d1, d2⟩⟩

end

/-! ### Concrete cases -/

/-- A variant in a tree: is it in a backup, its type, its value, how many members it has. -/
structure XRow where
  b : Bool
  k : TyIx
  v : Nat
  size : Nat
  deriving DecidableEq

mutual
/-- A tree as a list, so that trees can be compared. -/
def XTree.list : XTree Nat → List XRow
  | .leaf b k v => [⟨b, k, v, 0⟩]
  | .node b k a f => ⟨b, k, a, f.length⟩ :: XTree.listL f
def XTree.listL : List (XTree Nat) → List XRow
  | [] => []
  | t :: ts => t.list ++ XTree.listL ts
end

def XTSt.see (σ : XTSt Nat) (x : Nat) : List XRow := ((σ.vars x).map XTree.list).getD []

/-- What the specification gives for the program of C37: the trees of some variables, the counters and the exceptions. -/
def xtSee (fb : Option TyIx) (bad : List Nat) (st : Bool) (cs : List (TCmd Nat)) (xs : List Nat) :
    Option (List (List XRow) × Count × List (Option Exc)) :=
  (xtRunAll (exTree fb bad st) cs (XTSt.init Nat)).map fun r => (xs.map r.1.see, r.1.count, r.2)

/-- C73: the program of C37 without failures; and with a failure of the last copy, which leaves the node `2` in a heap backup. -/
example : xtSee none [] false exTreeProg [2, 4] =
      some ([[⟨false, 0, 5, 0⟩], [⟨false, 1, 8, 3⟩, ⟨false, 1, 7, 2⟩, ⟨false, 0, 5, 0⟩, ⟨false, 2, 6, 0⟩, ⟨false, 0, 5, 0⟩, ⟨false, 2, 6, 0⟩]],
        ⟨36, 8⟩, [none, none, none, none, none, none]) ∧
    xtSee none [35] false exTreeProg [2] =
      some ([[⟨true, 1, 7, 2⟩, ⟨false, 0, 5, 0⟩, ⟨false, 2, 6, 0⟩]], ⟨36, 8⟩,
        [none, none, none, none, none, some ⟨.copyCtor 0, 35⟩]) := by
  decide +kernel

/-- C73: swapping a node in a backup with another in place exchanges values and members in one operation, and no backup moves; a move
of a node that fails half way leaves its value moved from and its members where they were. -/
example : xtSee none [35] false (exTreeProg ++ [.swap ⟨2, []⟩ ⟨4, []⟩ 9]) [2, 4] =
      some ([[⟨true, 1, 8, 3⟩, ⟨false, 1, 7, 2⟩, ⟨false, 0, 5, 0⟩, ⟨false, 2, 6, 0⟩, ⟨false, 0, 5, 0⟩, ⟨false, 2, 6, 0⟩],
          [⟨false, 1, 7, 2⟩, ⟨false, 0, 5, 0⟩, ⟨false, 2, 6, 0⟩]],
        ⟨37, 8⟩, [none, none, none, none, none, some ⟨.copyCtor 0, 35⟩, none]) ∧
    xtSee none [35, 38] false (exTreeProg ++ [.move 6 ⟨4, []⟩]) [4, 6] =
      some ([[⟨false, 1, 0, 3⟩, ⟨false, 1, 7, 2⟩, ⟨false, 0, 5, 0⟩, ⟨false, 2, 6, 0⟩, ⟨false, 0, 5, 0⟩, ⟨false, 2, 6, 0⟩], []],
        ⟨39, 10⟩, [none, none, none, none, none, some ⟨.copyCtor 0, 35⟩, some ⟨.badAlloc, 38⟩]) ∧
    xtSee none [35] false (exTreeProg ++ [.assign ⟨0, []⟩ ⟨2, []⟩]) [] = none := by
  decide +kernel

/-- C73 for these programs. -/
theorem xtSee_run {fb : Option TyIx} {bad : List Nat} {st : Bool} {cs : List (TCmd Nat)} {xs : List Nat} {q : List (List XRow)} {k : Count}
    {es : List (Option Exc)} {n : Nat} (hfb : ∀ f, fb = some f → (exTree fb bad st).wrapped f = false) (hn : 2 ^ cs.length ≤ n)
    (h : xtSee fb bad st cs xs = some (q, k, es)) : tThrown (exTree fb bad st) n cs (TreeSt.init Nat) = es ∧
    ∃ s σ own, tRun (exTree fb bad st) n cs (TreeSt.init Nat) = some s ∧ s.Shows σ own ∧ xs.map σ.see = q ∧ s.tick = k.tick ∧ s.allocs = k.allocs := by
  rw [xtSee, Option.map_eq_some_iff] at h
  obtain ⟨⟨σ, es'⟩, e1, e2⟩ := h
  have h := C73_program (C := exTree fb bad st) hfb cs hn
  rw [e1] at h
  obtain ⟨-, h2, s, own, h3, h4⟩ := h
  simp only [Prod.mk.injEq] at e2
  obtain ⟨rfl, rfl, rfl⟩ := e2
  exact ⟨h2, s, σ, own, h3, h4, rfl, h4.tick, h4.allocs⟩

/-- A variable whose tree has a node at the root is such a node. -/
theorem XTSt.see_node {s : TreeSt Nat} {σ : XTSt Nat} {own : Nat → List ObjId} {x : Nat} {k : TyIx} {v m : Nat} {l : List XRow}
    (hr : s.Shows σ own) (h : σ.see x = ⟨false, k, v, m + 1⟩ :: l) :
    ∃ p cs, s.vars x = some (.plain k (.wrap p)) ∧ s.heap p = some (.node v cs) ∧ cs.length = m + 1 := by
  cases hu : σ.vars x with
  | none => simp [XTSt.see, hu] at h
  | some u =>
    obtain ⟨w, h5, h6⟩ := hr.val x u hu
    cases u with
    | leaf b k a => simp [XTSt.see, hu, XTree.list] at h
    | node b k a f =>
      simp only [XTSt.see, hu, Option.map_some, Option.getD_some, XTree.list, List.cons.injEq, XRow.mk.injEq] at h
      obtain ⟨⟨rfl, rfl, rfl, hl⟩, -⟩ := h
      rw [XTree.Rep] at h6
      obtain ⟨p, cs, ms, rfl, h7, h8, -⟩ := h6
      exact ⟨p, cs, h5, h7, by rw [← hl]; exact (XTree.RepL.length h8).symm⟩

/-- C73: so those are the exceptions and the counters of that program in the model, and there the root of variable 4 is moved from. -/
example : tThrown (exTree none [35, 38]) 128 (exTreeProg ++ [.move 6 ⟨4, []⟩]) (TreeSt.init Nat) =
      [none, none, none, none, none, some ⟨.copyCtor 0, 35⟩, some ⟨.badAlloc, 38⟩] ∧
    ∃ s p cs, tRun (exTree none [35, 38]) 128 (exTreeProg ++ [.move 6 ⟨4, []⟩]) (TreeSt.init Nat) = some s ∧ s.tick = 39 ∧ s.allocs = 10 ∧
      s.vars 4 = some (.plain 1 (.wrap p)) ∧ s.heap p = some (.node 0 cs) ∧ cs.length = 3 := by
  have h := xtSee_run (fb := none) (bad := [35, 38]) (st := false) (cs := exTreeProg ++ [.move 6 ⟨4, []⟩]) (xs := [4])
    (q := [[⟨false, 1, 0, 3⟩, ⟨false, 1, 7, 2⟩, ⟨false, 0, 5, 0⟩, ⟨false, 2, 6, 0⟩, ⟨false, 0, 5, 0⟩, ⟨false, 2, 6, 0⟩]]) (k := ⟨39, 10⟩)
    (es := [none, none, none, none, none, some ⟨.copyCtor 0, 35⟩, some ⟨.badAlloc, 38⟩]) (n := 128) nofun (by decide) (by decide +kernel)
  obtain ⟨h1, s, σ, own, h2, h3, h4, h5, h6⟩ := h
  rw [List.map_singleton, List.singleton_inj] at h4
  obtain ⟨p, cs, h7, h8, h9⟩ := XTSt.see_node h3 h4
  exact ⟨h1, s, p, cs, h2, h5, h6, h7, h8, h9⟩

/-- C73: the assignment of a variable in a backup to one that is not is a statement that the library does not support. -/
example : tClean (exTree none [35]) 128 (exTreeProg ++ [.assign ⟨0, []⟩ ⟨2, []⟩]) (TreeSt.init Nat) = false :=
  C73_unsupported (C := exTree none [35]) nofun _ (by decide) (Option.isNone_iff_eq_none.mp (by decide +kernel))

/-- C73: two stacks of different depth. -/
example : tThrown (exTree none [35]) 64 exTreeProg (TreeSt.init Nat) = tThrown (exTree none [35]) 100000 exTreeProg (TreeSt.init Nat) :=
  ((C73_depth (C := exTree none [35]) nofun exTreeProg (by decide) (by decide)).2 (by decide +kernel)).1

/-! ### Instances -/

/-- C73: programs with two failures, with the states they reach. -/
example := C73_program (C := exTree none [35, 38]) nofun (exTreeProg ++ [.move 6 ⟨4, []⟩]) (n := 128) (by decide)

/-- The hypotheses of `C73_valid` hold after every program of statements that the library supports. -/
theorem exTree_shows {bad : List Nat} {cs : List (TCmd Nat)} (hn : 2 ^ cs.length ≤ 128)
    (hc : tClean (exTree none bad) 128 cs (TreeSt.init Nat) = true) :
    ∃ s σ own, tRun (exTree none bad) 128 cs (TreeSt.init Nat) = some s ∧ s.Shows σ own ∧ s.Fresh ∧
      ∀ c : TCmd Nat, c.valid (exTree none bad) s = c.okay (exTree none bad) σ := by
  obtain ⟨s, σ', own', h1, -, -, h4, -⟩ := C37_programs_on_trees (C := exTree none bad) natOps_lawful nofun cs hn hc
  have h := C73_program (C := exTree none bad) nofun cs hn
  rw [hc] at h
  split at h
  · obtain ⟨-, -, s', own, h2, h3⟩ := h
    rw [h1] at h2; cases h2
    exact ⟨s, _, own, h1, h3, h4, fun c => (C73_valid h3 h4 c).1⟩
  · cases h

/-- C73: after the program with two failures. -/
example := exTree_shows (bad := [35, 38]) (cs := exTreeProg ++ [.move 6 ⟨4, []⟩]) (by decide) (by decide +kernel)

end BVariant
