/-
C31 binary visitation, C32 n-ary visitation, C33 n-ary visitation of rvalues.
-/
import Verif.Lemmas.Multi
import Verif.Props.Construction
import Verif.Props.Mixed

namespace BVariant

section
variable {V α : Type} {K : Nat → Cfg V} {ρ : Nat → Nat} {w w' : World V} {x y : Nat} {k : TyIx} {v : V} {id : ObjId}

/-- Every live variable has an argument to offer: its content, of the category it is passed with. -/
theorem C32_every_variable_has_an_argument (hg : GoodMix K ρ w) (h : w.alive x) (c : PassedAs) :
    ∃ a v, w.argOf ρ x c = some a ∧ a.vt = ρ x ∧ a.cat = c ∧ w.objOf x = some a.id ∧ w.holds x a.ty v := by
  obtain ⟨s, hs⟩ := Option.isSome_iff_exists.mp h
  obtain ⟨id, k, v, ho⟩ := hg.owns hs
  refine ⟨⟨ρ x, k, id, c⟩, v, ?_, rfl, rfl, ho.objOf, ho.holds⟩
  simp only [World.argOf, ho.objOf, Option.bind, ho.obj, Option.map]

/-- C31: the visitor is called once, with the content of the first variant first and of the second one second, each as an
rvalue iff the variant was one and const iff the variant was; the result is the visitor's. Visitors are arbitrary code, and
the variants may be the same. -/
theorem C31_binary_visitation (hg : GoodMix K ρ w) (f : Arg → Arg → M V α) {c1 c2 : PassedAs} {a1 a2 : Arg}
    (h1 : w.argOf ρ x c1 = some a1) (h2 : w.argOf ρ y c2 = some a2) :
    applyVisitor2 K f ⟨ρ x, .user x, c1⟩ ⟨ρ y, .user y, c2⟩ w = f a1 a2 w := by
  obtain ⟨s1, v1, ho1, ha1⟩ := argOf_owns hg h1
  obtain ⟨s2, v2, ho2, ha2⟩ := argOf_owns hg h2
  rw [applyVisitor2, applyVisitor1_run ho1, ← ha1]
  have hu : binaryUnwrap K f ⟨ρ y, .user y, c2⟩ a1 = applyVisitor1 K (binaryInvoke f a1) ⟨ρ y, .user y, c2⟩ := by
    obtain ⟨r2, k2⟩ := c2
    cases r2 <;> rfl
  rw [hu, applyVisitor1_run ho2, ← ha2]
  have hi : binaryInvoke f a1 a2 = f a1 a2 := by
    obtain ⟨_, _, _, ⟨r1, k1⟩⟩ := a1
    cases r1 <;> rfl
  rw [hi]

/-- C32: for every number of variants passed as lvalues, const or not, the visitor is called once, with the contents
themselves, in the order of the variants; the result is the visitor's. Variants may be repeated. -/
theorem C32_nary_visitation (hg : GoodMix K ρ w) (order : Nat → List Nat) (f : List Arg → M V α) {xs : List (Nat × PassedAs)}
    (hne : xs ≠ []) (hlv : ∀ p ∈ xs, p.2.rvalue = false) {args : List Arg}
    (hargs : xs.map (fun p => w.argOf ρ p.1 p.2) = args.map some) :
    applyVisitorAny K order f (visitables ρ xs) w = f args w := by
  have hN : ∀ p xs args, (∀ q ∈ p :: xs, q.2.rvalue = false) → (p :: xs).map (fun p => w.argOf ρ p.1 p.2) = args.map some →
      applyVisitorN K order f ⟨ρ p.1, .user p.1, p.2⟩ (visitables ρ xs) w = f args w := by
    intro p xs args hlv hargs
    cases args with
    | nil => cases hargs
    | cons a args =>
      simp only [List.map_cons, List.cons.injEq] at hargs
      obtain ⟨s, v, ho, ha⟩ := argOf_owns hg hargs.1
      rw [applyVisitorN, applyVisitor1_run ho, ← ha,
        oneByOne_lvalues hg order f xs (fun q hq => hlv q (List.mem_cons_of_mem _ hq)) 0 args [] a hargs.2
          (by intro b hb; rw [List.mem_singleton.mp hb, ha]; exact hlv p (List.mem_cons_self ..))]
      rfl
  match xs, hne, hlv, hargs with
  | [p], _, _, hargs =>
    cases args with
    | nil => cases hargs
    | cons a args =>
      cases args with
      | cons b args => simp at hargs
      | nil =>
        simp only [List.map_cons, List.cons.injEq] at hargs
        obtain ⟨s, v, ho, ha⟩ := argOf_owns hg hargs.1
        simp only [visitables, List.map_cons, List.map_nil, applyVisitorAny]
        rw [applyVisitor1_run ho, ← ha]
  | [p, q], _, _, hargs =>
    cases args with
    | nil => cases hargs
    | cons a args =>
      cases args with
      | nil => simp at hargs
      | cons b args =>
        cases args with
        | cons c args => simp at hargs
        | nil =>
          simp only [List.map_cons, List.cons.injEq] at hargs
          simp only [visitables, List.map_cons, List.map_nil, applyVisitorAny]
          exact C31_binary_visitation hg _ hargs.1 hargs.2.1
  | p :: q :: r :: xs, _, hlv, hargs => exact hN p (q :: r :: xs) args hlv hargs

/-- C32: the delayed form `apply_visitor(f)(v1, ..., vn)` does the same. -/
theorem C32_delayed (hg : GoodMix K ρ w) (order : Nat → List Nat) (f : List Arg → M V α) {xs : List (Nat × Bool)}
    (hne : xs ≠ []) {args : List Arg} (hargs : xs.map (fun p => w.argOf ρ p.1 ⟨false, p.2⟩) = args.map some) :
    applyVisitorDelayed K order f (xs.map fun p => (ρ p.1, .user p.1, p.2)) w = f args w := by
  have := C32_nary_visitation hg order f (xs := xs.map fun p => (p.1, ⟨false, p.2⟩)) (by simpa using hne)
    (fun p hp => by obtain ⟨q, _, rfl⟩ := List.mem_map.mp hp; rfl) (args := args) (by rw [List.map_map]; exact hargs)
  rw [← this, applyVisitorDelayed, visitables, List.map_map, List.map_map]
  rfl

/-- C33: with three or more variants, some of them rvalues, in whatever order the compiler evaluates the arguments of the
call: either the construction of a temporary from one of the rvalues throws, and then the visitor is not called, no
temporary is left, and only values of contents passed as rvalues that are not const may have changed; or the visitor is
called once, in a state `w1` in which the content of every rvalue has been moved (of every const rvalue: copied) into a
temporary of its own, which is handed over as an rvalue, and in which nothing else has changed; the outcome is that of the
visitor, normal or by an exception, with the temporaries destroyed. -/
theorem C33_nary_rvalues (hg : GoodMix K ρ w) {order : Nat → List Nat} (hord : ∀ n, (order n).Perm (List.range n))
    {vs : List (Nat × PassedAs)} (h3 : 3 ≤ vs.length) (halive : ∀ p ∈ vs, w.alive p.1) (honce : MovedOnce vs) :
    (∃ e w', (∀ f : List Arg → M V α, applyVisitorAny K order f (visitables ρ vs) w = .exc e w') ∧
      Unwound K w w' (MovesFrom w vs) (TakesFrom ρ w vs) e) ∨
    (∃ args w1, Entered w w1 (MovesFrom w vs) ∧ HandsOver K ρ w w1 vs args ∧
      ∀ f : List Arg → M V α, (f args w1).All (Spares w.next w1) →
        applyVisitorAny K order f (visitables ρ vs) w = (f args w1).mapWorld (World.cleanup w w1)) := by
  -- the contents
  have hitem : ∀ p : Nat × PassedAs, w.alive p.1 → ∃ it : Item V, it.x = p.1 ∧ it.cat = p.2 ∧ it.vt = ρ it.x ∧ ∃ s, Owns (K it.vt) w (.user it.x) s it.id it.k it.v := by
    intro p hp
    obtain ⟨s, hs⟩ := Option.isSome_iff_exists.mp hp
    obtain ⟨id, k, v, ho⟩ := hg.owns hs
    exact ⟨⟨ρ p.1, p.1, p.2, id, k, v⟩, rfl, rfl, rfl, s, ho⟩
  have hitems : ∀ l : List (Nat × PassedAs), (∀ p ∈ l, w.alive p.1) → ∃ L : List (Item V), l = L.map (fun it => (it.x, it.cat)) ∧
      ∀ it ∈ L, it.vt = ρ it.x ∧ ∃ s, Owns (K it.vt) w (.user it.x) s it.id it.k it.v := by
    intro l
    induction l with
    | nil => intro _; exact ⟨[], rfl, by simp⟩
    | cons p l ih =>
      intro hl
      obtain ⟨L, h1, h2⟩ := ih (fun q hq => hl q (List.mem_cons_of_mem _ hq))
      obtain ⟨it, h3, h4, h5⟩ := hitem p (hl p (List.mem_cons_self ..))
      refine ⟨it :: L, ?_, ?_⟩
      · rw [List.map_cons, h1]; rw [h3, h4]
      · intro it' hit
        rcases List.mem_cons.mp hit with rfl | hit
        · exact h5
        · exact h2 it' hit
  obtain ⟨L0, hvs, hown0⟩ := hitems vs halive
  cases L0 with
  | nil => rw [hvs] at h3; simp at h3
  | cons l L =>
    obtain ⟨hvt, st, ho⟩ := hown0 l (List.mem_cons_self ..)
    have hunf : ∀ f : List Arg → M V α, applyVisitorAny K order f (visitables ρ vs) w =
        oneByOne K order f 0 (L.map Item.vis) [] ⟨l.vt, l.k, l.id, l.cat⟩ w := by
      intro f
      have hvis : visitables ρ vs = ⟨l.vt, .user l.x, l.cat⟩ :: L.map Item.vis := by
        have h : visitables ρ vs = (l :: L).map Item.vis := by
          rw [hvs, visitables, List.map_map]
          refine List.map_congr_left fun it hit => ?_
          show Visitable.mk (ρ it.x) (.user it.x) it.cat = ⟨it.vt, .user it.x, it.cat⟩
          rw [(hown0 it hit).1]
        exact h
      have hlen : 2 ≤ (L.map Item.vis).length := by
        rw [hvs] at h3; simp at h3 ⊢; omega
      have hN : ∀ (u : Visitable) (us : List Visitable), 2 ≤ us.length →
          applyVisitorAny K order f (u :: us) = applyVisitorN K order f u us := by
        intro u us hus
        match us, hus with
        | _ :: _ :: _, _ => rfl
      rw [hvis, hN _ _ hlen, applyVisitorN, applyVisitor1_run ho]
    simp only [hunf]
    -- the expected arguments
    have hslot : slots K [((⟨l.vt, l.k, l.id, l.cat⟩ : Arg), l.v)] L = slotR K (⟨l.vt, l.k, l.id, l.cat⟩, l.v) :: L.map (slotL K) := rfl
    have hat : ∀ (j : Nat) it, (l :: L)[j]? = some it → ∃ sl : ArgSlot V,
        (slots K [((⟨l.vt, l.k, l.id, l.cat⟩ : Arg), l.v)] L)[j]? = some sl ∧ sl.vt = it.vt ∧ sl.ty = it.k ∧ sl.cat = it.cat ∧ sl.id = it.id ∧ sl.v = it.v ∧
          (it.rv = true → sl.seen = if j = 0 then taken (K it.vt) it.cat.const it.k it.v
            else taken (K it.vt) it.cat.const it.k (taken (K it.vt) it.cat.const it.k it.v)) := by
      intro j it hj
      rw [hslot]
      cases j with
      | zero =>
        cases hj
        exact ⟨_, rfl, rfl, rfl, rfl, rfl, rfl, fun h => by simp [slotR, Arg.rvalue, show l.cat.rvalue = true from h]⟩
      | succ j =>
        rw [List.getElem?_cons_succ] at hj
        refine ⟨slotL K it, by rw [List.getElem?_cons_succ, List.getElem?_map, hj]; rfl, rfl, rfl, rfl, rfl, rfl, fun h => by simp [slotL, h]⟩
    have hat' : ∀ (j : Nat) sl, (slots K [((⟨l.vt, l.k, l.id, l.cat⟩ : Arg), l.v)] L)[j]? = some sl →
        ∃ it, (l :: L)[j]? = some it ∧ sl.cat = it.cat ∧ sl.id = it.id := by
      intro j sl hj
      rw [hslot] at hj
      cases j with
      | zero => cases hj; exact ⟨l, rfl, rfl, rfl⟩
      | succ j =>
        rw [List.getElem?_cons_succ, List.getElem?_map] at hj
        cases hLj : L[j]? with
        | none => rw [hLj] at hj; cases hj
        | some it => rw [hLj] at hj; cases hj; exact ⟨it, by rw [List.getElem?_cons_succ]; exact hLj, rfl, rfl⟩
    have hvat : ∀ (j : Nat) it, (l :: L)[j]? = some it → vs[j]? = some (it.x, it.cat) := by
      intro j it hj; rw [hvs, List.getElem?_map, hj]; rfl
    have hvat' : ∀ (j x : Nat) c, vs[j]? = some (x, c) → ∃ it, (l :: L)[j]? = some it ∧ it.x = x ∧ it.cat = c := by
      intro j x c hj
      rw [hvs, List.getElem?_map] at hj
      cases hLj : (l :: L)[j]? with
      | none => rw [hLj] at hj; cases hj
      | some it => rw [hLj] at hj; cases hj; exact ⟨it, rfl, rfl, rfl⟩
    have hsame : ∀ a ∈ l :: L, ∀ b ∈ l :: L, a.id = b.id → a.x = b.x := by
      intro a ha b hb hid
      obtain ⟨_, sa, hoa⟩ := hown0 a ha
      obtain ⟨_, sb, hob⟩ := hown0 b hb
      exact hg.inj a.x b.x sa sb a.id hoa.var hob.var hoa.rep.contentId (hid ▸ hob.rep.contentId)
    have hap : Apart (slots K [((⟨l.vt, l.k, l.id, l.cat⟩ : Arg), l.v)] L) := by
      rw [Apart, List.pairwise_iff_getElem]
      intro i j hi hj hij hid
      obtain ⟨a, ha, ha1, ha2⟩ := hat' i _ (List.getElem?_eq_getElem hi)
      obtain ⟨b, hb, hb1, hb2⟩ := hat' j _ (List.getElem?_eq_getElem hj)
      rw [ha2, hb2] at hid
      rw [ha1, hb1]
      have hx := hsame a (List.mem_of_getElem? ha) b (List.mem_of_getElem? hb) hid
      obtain ⟨h1, h2⟩ := List.getElem?_eq_some_iff.mp (hvat i a ha)
      obtain ⟨h3, h4⟩ := List.getElem?_eq_some_iff.mp (hvat j b hb)
      have := List.pairwise_iff_getElem.mp honce i j h1 h3 hij
      rw [h2, h4] at this
      exact this hx
    have hsrc : Srcs (slots K [((⟨l.vt, l.k, l.id, l.cat⟩ : Arg), l.v)] L) = MovesFrom w vs := by
      funext i
      apply propext
      constructor
      · rintro ⟨sl, hsl, h1, h2⟩
        obtain ⟨j, hj⟩ := List.getElem?_of_mem hsl
        obtain ⟨it, hit, h4, h5⟩ := hat' j sl hj
        obtain ⟨hvt, s, hos⟩ := hown0 it (List.mem_of_getElem? hit)
        exact ⟨it.x, it.cat, List.mem_of_getElem? (hvat j it hit), h4 ▸ h1, by rw [hos.objOf, ← h5, h2]⟩
      · rintro ⟨x, c, hx, hm, hi⟩
        obtain ⟨j, hj⟩ := List.getElem?_of_mem hx
        obtain ⟨it, hit, rfl, h4⟩ := hvat' j x c hj
        obtain ⟨hvt, s, hos⟩ := hown0 it (List.mem_of_getElem? hit)
        obtain ⟨sl, hsl, _, _, h6, h7, _⟩ := hat j it hit
        rw [hos.objOf] at hi
        exact ⟨sl, List.mem_of_getElem? hsl, by rw [h6, h4, hm], by rw [h7]; exact Option.some.inj hi⟩
    have hrun := oneByOne_run (K := K) α hord L 0 [((⟨l.vt, l.k, l.id, l.cat⟩ : Arg), l.v)] [] ⟨l.vt, l.k, l.id, l.cat⟩ w rfl hg.toFresh
      (Nat.le_refl _) (by intro r hr; rw [List.mem_singleton.mp hr]; exact ho.obj)
      (fun it hit => (hown0 it (List.mem_cons_of_mem _ hit)).2) hap (fun n _ => hg.noTmp n)
    rw [hsrc] at hrun
    rcases hrun with ⟨e, w', h1, h2⟩ | ⟨args, w1, he, hc, hr⟩
    · refine .inl ⟨e, w', h1, h2.weaken (fun _ h => h) ?_⟩
      rintro vt ty c ⟨sl, hsl, h3, h4, h5⟩
      obtain ⟨j, hj⟩ := List.getElem?_of_mem hsl
      obtain ⟨it, hit, _⟩ := hat' j sl hj
      obtain ⟨sl', hsl', h6, h7, h8, _⟩ := hat j it hit
      obtain rfl : sl = sl' := Option.some.inj (hj.symm.trans hsl')
      obtain ⟨hvt, s, hos⟩ := hown0 it (List.mem_of_getElem? hit)
      have hm := List.mem_of_getElem? (hvat j it hit)
      rw [← h8, h3] at hm
      exact ⟨it.x, it.v, hm, by rw [← h4, h6, hvt], by rw [← h5, h7]; exact hos.holds⟩
    · refine .inr ⟨args, w1, he, ?_, hr⟩
      have hlen : args.length = vs.length := by
        rw [hc.length, hslot, hvs]; simp
      have harg : ∀ (j x : Nat) c, vs[j]? = some (x, c) → ∃ a, args[j]? = some a := by
        intro j x c hj
        obtain ⟨h1, _⟩ := List.getElem?_eq_some_iff.mp hj
        exact ⟨_, List.getElem?_eq_getElem (by rw [hlen]; exact h1)⟩
      refine ⟨hlen, ?_, ?_, hc.inj⟩
      · intro j x c id k v hj hcr hid hh
        obtain ⟨it, hit, rfl, rfl⟩ := hvat' j x c hj
        obtain ⟨hvt, s, hos⟩ := hown0 it (List.mem_of_getElem? hit)
        rw [hos.objOf] at hid
        cases hid
        rw [World.holds, hos.content] at hh
        cases hh
        obtain ⟨a, ha⟩ := harg j it.x it.cat hj
        obtain ⟨sl, hsl, h0, h5, h6, h7, _⟩ := hat j it hit
        obtain ⟨h8', h8, h9, h10, _⟩ := hc.at_ j sl a hsl ha
        have hkeep : w1.objs it.id = w.objs it.id := by
          refine he.keep _ (hg.toFresh.lt hos.obj) ?_
          rintro ⟨x', c', hx', hm', hi'⟩
          obtain ⟨j', hj'⟩ := List.getElem?_of_mem hx'
          obtain ⟨it', hit', rfl, rfl⟩ := hvat' j' x' c' hj'
          obtain ⟨_, s', hos'⟩ := hown0 it' (List.mem_of_getElem? hit')
          rw [hos'.objOf] at hi'
          have hxx := hsame it' (List.mem_of_getElem? hit') it (List.mem_of_getElem? hit) (Option.some.inj hi')
          rw [hxx] at hj'
          have hjj : j ≠ j' := by
            rintro rfl
            rw [hit] at hit'; cases hit'
            rw [PassedAs.moved, hcr] at hm'; cases hm'
          obtain ⟨b1, b2⟩ := List.getElem?_eq_some_iff.mp hj
          obtain ⟨b3, b4⟩ := List.getElem?_eq_some_iff.mp hj'
          rcases Nat.lt_or_gt_of_ne hjj with hlt | hgt
          · have := List.pairwise_iff_getElem.mp honce j j' b1 b3 hlt
            rw [b2, b4] at this
            exact absurd (this rfl).2 (by simp [hm'])
          · have := List.pairwise_iff_getElem.mp honce j' j b3 b1 hgt
            rw [b2, b4] at this
            exact absurd (this rfl).1 (by simp [hm'])
        have ho1 : Owns (K it.vt) w1 (.user it.x) s it.id it.k it.v := ⟨(he.user _).trans hos.var, hos.rep, hkeep.trans hos.obj⟩
        refine ⟨?_, ho1.objOf, ho1.holds⟩
        rw [ha]
        have := h10 (by rw [ArgSlot.rv, h6]; exact hcr)
        cases a
        simp only at h8 h8' h9 this
        rw [h8', h8, h9, this, h0, h5, h6, h7, hvt]
      · intro j x c k v hj hcr hh
        obtain ⟨it, hit, rfl, rfl⟩ := hvat' j x c hj
        obtain ⟨hvt, s, hos⟩ := hown0 it (List.mem_of_getElem? hit)
        rw [World.holds, hos.content] at hh
        cases hh
        obtain ⟨a, ha⟩ := harg j it.x it.cat hj
        obtain ⟨sl, hsl, h0, h5, h6, h7, h7', h7''⟩ := hat j it hit
        obtain ⟨h8', h8, h9, _, h10⟩ := hc.at_ j sl a hsl ha
        obtain ⟨h11, h12, h13, h14⟩ := h10 (by rw [ArgSlot.rv, h6]; exact hcr)
        have ho1 : Owns (K it.vt) w1 (.user it.x) s it.id it.k (leftover (K it.vt) it.cat.const it.k it.v) :=
          ⟨(he.user _).trans hos.var, hos.rep, by rw [h7, h0, h5, h7', h6] at h14; exact h14⟩
        refine ⟨a.id, ?_, h11, h12, ?_, hvt ▸ ho1.holds⟩
        · rw [ha]
          cases a
          simp only at h8 h8' h9
          rw [h8', h8, h9, h0, h5, h6, hvt]
        · rw [h13, h5, h7'' hcr, hvt]

/-- Worlds with the same variants and objects of the same types are well-formed together. -/
theorem goodMix_of_same (hg : GoodMix K ρ w) (hv : w'.vars = w.vars) (hs : w'.sub = w.sub) (hn : w.next ≤ w'.next)
    (ht : ∀ i, (w'.objs i).map Prod.fst = (w.objs i).map Prod.fst) : GoodMix K ρ w' := by
  have hnone : ∀ i, w'.objs i = none ↔ w.objs i = none := by
    intro i
    have := ht i
    cases h1 : w.objs i <;> cases h2 : w'.objs i <;> simp_all
  refine ⟨?_, ?_, ?_, ?_, ?_, ?_⟩
  · intro x s hx
    rw [hv] at hx
    obtain ⟨id, k, v, hr, ho⟩ := hg.rep x s hx
    obtain ⟨v', hv'⟩ := some_of_map_fst (ht id) ho
    exact ⟨id, k, v', hr, hv'⟩
  · rw [hv]; exact hg.inj
  · intro id hid
    rw [hv]
    exact hg.noLeak id (fun h => hid ((hnone id).mpr h))
  · intro id hid
    exact (hnone id).mpr (hg.fresh id (by omega))
  · rw [hs]; exact hg.flat
  · rw [hv]; exact hg.noTmp

/-- C33: a failed construction of a temporary leaves a state as between statements. -/
theorem C33_failure_keeps_invariant (hg : GoodMix K ρ w) {srcs : ObjId → Prop} {fr : Nat → TyIx → Bool → Prop} {e : Exc}
    (h : Unwound K w w' srcs fr e) :
    GoodMix K ρ w' := goodMix_of_same hg h.vars h.sub h.next h.types

/-- C33: a visitor that only looks at its arguments, and returns or throws: afterwards every variable passed as an rvalue
that is not const has nevertheless been moved from, all other variables are unchanged, no temporary is left and nothing
leaks. -/
theorem C33_moves_even_if_not_consumed (hg : GoodMix K ρ w) {order : Nat → List Nat} (hord : ∀ n, (order n).Perm (List.range n))
    {vs : List (Nat × PassedAs)} (h3 : 3 ≤ vs.length) (halive : ∀ p ∈ vs, w.alive p.1) (honce : MovedOnce vs)
    {f : List Arg → M V α} (hlook : ∀ args w1, (∃ a, f args w1 = .ok a w1) ∨ (∃ e, f args w1 = .exc e w1)) :
    (∃ e w', applyVisitorAny K order f (visitables ρ vs) w = .exc e w' ∧ Unwound K w w' (MovesFrom w vs) (TakesFrom ρ w vs) e) ∨
    (∃ w', ((∃ a, applyVisitorAny K order f (visitables ρ vs) w = .ok a w') ∨
        (∃ e, applyVisitorAny K order f (visitables ρ vs) w = .exc e w')) ∧
      GoodMix K ρ w' ∧ w'.vars = w.vars ∧ (∀ x k v, (x, ⟨true, false⟩) ∈ vs → w.holds x k v → w'.holds x k ((K (ρ x)).ops.movedFrom k v)) ∧
      (∀ i, ¬ MovesFrom w vs i → w'.objs i = w.objs i)) := by
  rcases C33_nary_rvalues (α := α) hg hord h3 halive honce with ⟨e, w', hr, hu⟩ | ⟨args, w1, he, hh, hr⟩
  · exact .inl ⟨e, w', hr f, hu⟩
  · have hsp : Spares w.next w1 w1 := ⟨fun _ => rfl, fun _ _ _ => rfl, rfl⟩
    have hvars : (World.cleanup w w1 w1).vars = w.vars := by
      funext x
      cases x with
      | user n => exact he.user n
      | tmp n => rfl
    have hmv : ∀ x k v, (x, ⟨true, false⟩) ∈ vs → w.holds x k v →
        (World.cleanup w w1 w1).holds x k ((K (ρ x)).ops.movedFrom k v) := by
      intro x k v hx hv
      obtain ⟨j, hj⟩ := List.getElem?_of_mem hx
      obtain ⟨o, _, _, _, _, h⟩ := hh.rvalue j x _ k v hj rfl hv
      obtain ⟨s, id, ho⟩ := hg.holds hv
      have hlt := hg.toFresh.lt ho.obj
      simp only [World.holds, World.content, hvars, ho.var, Option.bind, ho.rep.contentId]
      simp only [World.holds, World.content, he.user, ho.var, Option.bind, ho.rep.contentId] at h
      simp only [World.cleanup]
      rw [if_neg (by omega)]
      exact h
    have hkeep : ∀ i, ¬ MovesFrom w vs i → (World.cleanup w w1 w1).objs i = w.objs i := by
      intro i hi
      simp only [World.cleanup]
      by_cases hlt : i < w.next
      · rw [if_neg (by omega), he.keep i hlt hi]
      · rw [hg.fresh i (by omega)]
        split
        · rfl
        · exact he.fresh i (by omega)
    refine .inr ⟨World.cleanup w w1 w1, ?_, ?_, hvars, hmv, hkeep⟩
    · rcases hlook args w1 with ⟨a, ha⟩ | ⟨e, ha⟩
      · exact .inl ⟨a, by rw [hr f (by rw [ha]; exact hsp), ha]; rfl⟩
      · exact .inr ⟨e, by rw [hr f (by rw [ha]; exact hsp), ha]; rfl⟩
    · refine goodMix_of_same hg hvars he.sub he.next (fun i => ?_)
      by_cases hi : MovesFrom w vs i
      · obtain ⟨x, c, hx, hm, hxi⟩ := hi
        obtain rfl : c = ⟨true, false⟩ := by
          obtain ⟨r, k⟩ := c
          cases r <;> cases k <;> simp [PassedAs.moved] at hm ⊢
        obtain ⟨s, hs⟩ := Option.isSome_iff_exists.mp (halive _ hx)
        obtain ⟨id, k, v, ho⟩ := hg.owns hs
        obtain rfl : id = i := by rw [ho.objOf] at hxi; exact Option.some.inj hxi
        have h1 := hmv x k v hx ho.holds
        simp only [World.holds, World.content, hvars, ho.var, Option.bind, ho.rep.contentId] at h1
        rw [h1, ho.obj]; rfl
      · rw [hkeep i hi]

/-- What is passed as const is not moved from. -/
theorem not_movesFrom_of_const (hg : GoodMix K ρ w) {vs : List (Nat × PassedAs)} (honce : MovedOnce vs) {c : PassedAs} {s : VarSt}
    (hx : (x, c) ∈ vs) (hc : c.const = true) (ho : Owns (K (ρ x)) w (.user x) s id k v) : ¬ MovesFrom w vs id := by
  rintro ⟨y, c', hy, hm, hyi⟩
  obtain ⟨sy, hsy⟩ : ∃ sy, w.vars (.user y) = some sy := by
    cases h : w.vars (.user y) with
    | none => simp [World.objOf, h] at hyi
    | some sy => exact ⟨sy, rfl⟩
  obtain ⟨idy, ky, vy, hoy⟩ := hg.owns hsy
  obtain rfl : idy = id := by rw [hoy.objOf] at hyi; exact Option.some.inj hyi
  obtain rfl : x = y := hg.inj x y s sy _ ho.var hsy ho.rep.contentId hoy.rep.contentId
  obtain ⟨i, hi⟩ := List.getElem?_of_mem hx
  obtain ⟨j, hj⟩ := List.getElem?_of_mem hy
  have hij : i ≠ j := by
    rintro rfl
    rw [hi] at hj
    cases hj
    simp [PassedAs.moved, hc] at hm
  obtain ⟨b1, b2⟩ := List.getElem?_eq_some_iff.mp hi
  obtain ⟨b3, b4⟩ := List.getElem?_eq_some_iff.mp hj
  rcases Nat.lt_or_gt_of_ne hij with hlt | hgt
  · have := List.pairwise_iff_getElem.mp honce i j b1 b3 hlt
    rw [b2, b4] at this
    exact absurd (this rfl).2 (by simp [hm])
  · have := List.pairwise_iff_getElem.mp honce j i b3 b1 hgt
    rw [b2, b4] at this
    exact absurd (this rfl).1 (by simp [hm])

/-- C33: what is passed as const, lvalue or rvalue, keeps its content and its value up to the call of the visitor, and also
if the construction of a temporary throws. -/
theorem C33_const_unchanged (hg : GoodMix K ρ w) {vs : List (Nat × PassedAs)} (honce : MovedOnce vs) {c : PassedAs}
    (hx : (x, c) ∈ vs) (hc : c.const = true) (hv : w.holds x k v) :
    (∀ e w', Unwound K w w' (MovesFrom w vs) (TakesFrom ρ w vs) e → w'.holds x k v) ∧
    (∀ w1, Entered w w1 (MovesFrom w vs) → w1.objOf x = w.objOf x ∧ w1.holds x k v) := by
  obtain ⟨s, id, ho⟩ := hg.holds hv
  have hn := not_movesFrom_of_const hg honce hx hc ho
  refine ⟨fun e w' hu => ?_, fun w1 he => ?_⟩
  · have ho' : Owns (K (ρ x)) w' (.user x) s id k v :=
      ⟨by rw [hu.vars]; exact ho.var, ho.rep, (hu.keep _ hn).trans ho.obj⟩
    exact ho'.holds
  · have ho' : Owns (K (ρ x)) w1 (.user x) s id k v :=
      ⟨(he.user _).trans ho.var, ho.rep, (he.keep _ (hg.toFresh.lt ho.obj) hn).trans ho.obj⟩
    exact ⟨ho'.objOf.trans ho.objOf.symm, ho'.holds⟩

end

/-! ### Examples -/

/-- The compiler evaluates arguments from right to left. -/
def rightToLeft (n : Nat) : List Nat := (List.range n).reverse

theorem rightToLeft_perm (n : Nat) : (rightToLeft n).Perm (List.range n) := List.reverse_perm _

/-- C31 on two variants of different types, one in a heap backup and one in place. -/
example (f : Arg → Arg → M Nat Nat) :
    ∃ a1 a2, a1.rvalue = true ∧ a2.rvalue = false ∧ a1.vt = 0 ∧ a2.vt = 1 ∧ a1.ty = 0 ∧ a2.ty = 1 ∧
      applyVisitor2 exMixK f ⟨0, .user 0, ⟨true, false⟩⟩ ⟨1, .user 3, ⟨false, true⟩⟩ exMix = f a1 a2 exMix := by
  obtain ⟨a1, h1⟩ : ∃ a, exMix.argOf exMixR 0 ⟨true, false⟩ = some a := Option.isSome_iff_exists.mp (by decide +kernel)
  obtain ⟨a2, h2⟩ : ∃ a, exMix.argOf exMixR 3 ⟨false, true⟩ = some a := Option.isSome_iff_exists.mp (by decide +kernel)
  refine ⟨a1, a2, ?_, ?_, ?_, ?_, ?_, ?_, C31_binary_visitation exMix_good f h1 h2⟩
  · have : (exMix.argOf exMixR 0 ⟨true, false⟩).map Arg.rvalue = some true := by decide +kernel
    rw [h1] at this; exact Option.some.inj this
  · have : (exMix.argOf exMixR 3 ⟨false, true⟩).map Arg.rvalue = some false := by decide +kernel
    rw [h2] at this; exact Option.some.inj this
  · have : (exMix.argOf exMixR 0 ⟨true, false⟩).map Arg.vt = some 0 := by decide +kernel
    rw [h1] at this; exact Option.some.inj this
  · have : (exMix.argOf exMixR 3 ⟨false, true⟩).map Arg.vt = some 1 := by decide +kernel
    rw [h2] at this; exact Option.some.inj this
  · have : (exMix.argOf exMixR 0 ⟨true, false⟩).map Arg.ty = some 0 := by decide +kernel
    rw [h1] at this; exact Option.some.inj this
  · have : (exMix.argOf exMixR 3 ⟨false, true⟩).map Arg.ty = some 1 := by decide +kernel
    rw [h2] at this; exact Option.some.inj this

/-- C32 on four arguments of two types, one of them repeated. -/
example (f : List Arg → M Nat Nat) :
    ∃ a b, applyVisitorDelayed exMixK rightToLeft f ([(0, false), (3, true), (3, true), (0, false)].map fun p => (exMixR p.1, .user p.1, p.2)) exMix =
      f [a, b, b, a] exMix := by
  obtain ⟨a, h1⟩ : ∃ a, exMix.argOf exMixR 0 ⟨false, false⟩ = some a := Option.isSome_iff_exists.mp (by decide +kernel)
  obtain ⟨b, h2⟩ : ∃ a, exMix.argOf exMixR 3 ⟨false, true⟩ = some a := Option.isSome_iff_exists.mp (by decide +kernel)
  exact ⟨a, b, C32_delayed exMix_good rightToLeft f (by simp) (by simp [h1, h2])⟩

/-- Three variables, the second an lvalue. -/
def exThreeVis : List (Nat × PassedAs) := [(0, ⟨true, false⟩), (1, ⟨false, false⟩), (2, ⟨true, false⟩)]

/-- The values of the objects given to the visitor. -/
def seeAll (args : List Arg) : M Nat (List (Option (TyIx × Nat) × Bool)) := fun w =>
  .ok (args.map fun a => (w.objs a.id, a.rvalue)) w

/-- Two types of variants; variables 0 and 1 are of the first, variable 2 of the second. -/
def exVisitK (bad : List Nat) (vt : Nat) : Cfg Nat := exCfg (if vt = 0 then [tThrowing, tInt] else [tInt, tThrowing]) bad

def exVisitSt (bad : List Nat) : World Nat :=
  (runMix (exVisitK bad) exMixR [(0, .constructC 0 0 5), (0, .constructC 1 0 6), (1, .constructC 2 1 7)]
    (World.init Nat)).getD (World.init Nat)

example : MovedOnce exThreeVis ∧ 3 ≤ exThreeVis.length := by unfold MovedOnce; decide

/-- What the visitor saw, and the contents of the three variables afterwards. -/
def exVisited (bad : List Nat) (vs : List (Nat × PassedAs) := exThreeVis) :
    Option (List (Option (TyIx × Nat) × Bool)) × List (Option (TyIx × Nat)) :=
  match applyVisitorAny (exVisitK bad) rightToLeft seeAll (visitables exMixR vs) (exVisitSt bad) with
  | .ok a w => (some a, [w.content (.user 0), w.content (.user 1), w.content (.user 2)])
  | .exc _ w => (none, [w.content (.user 0), w.content (.user 1), w.content (.user 2)])
  | .fault _ => (none, [])

/-- C33: both cases occur. With no throwing operation the visitor sees the three values; if the move of the last temporary
throws, it sees nothing. -/
example : exVisited [] =
    (some [(some (0, 5), true), (some (0, 6), false), (some (1, 7), true)], [some (0, 0), some (0, 6), some (1, 0)]) := by
  decide +kernel

example : exVisited [8] = (none, [some (0, 5), some (0, 6), some (1, 0)]) := by
  decide +kernel

/-- Three variables, one of them a const rvalue, twice. -/
def exConstVis : List (Nat × PassedAs) := [(2, ⟨true, true⟩), (0, ⟨true, false⟩), (2, ⟨true, true⟩), (1, ⟨false, true⟩)]

example : MovedOnce exConstVis ∧ 3 ≤ exConstVis.length := by unfold MovedOnce; decide

/-- C33 with const rvalues: the visitor sees two copies, and the variable keeps its value. -/
example : exVisited [] exConstVis =
    (some [(some (1, 7), true), (some (0, 5), true), (some (1, 7), true), (some (0, 6), false)],
      [some (0, 0), some (0, 6), some (1, 7)]) := by
  decide +kernel

/-- If the copy into the second temporary variant throws, the const rvalue has kept its value and the other rvalue has not. -/
example : exVisited [7] exConstVis = (none, [some (0, 0), some (0, 6), some (1, 7)]) := by
  decide +kernel

example := C32_every_variable_has_an_argument (x := 3) exMix_good (by unfold World.alive; decide +kernel) ⟨true, false⟩

/-- C32 on four arguments with the overload for references. -/
example (f : List Arg → M Nat Nat) :
    ∃ a b, applyVisitorAny exMixK rightToLeft f (visitables exMixR [(0, ⟨false, false⟩), (3, ⟨false, true⟩), (3, ⟨false, true⟩), (0, ⟨false, false⟩)]) exMix =
      f [a, b, b, a] exMix := by
  obtain ⟨a, h1⟩ : ∃ a, exMix.argOf exMixR 0 ⟨false, false⟩ = some a := Option.isSome_iff_exists.mp (by decide +kernel)
  obtain ⟨b, h2⟩ : ∃ a, exMix.argOf exMixR 3 ⟨false, true⟩ = some a := Option.isSome_iff_exists.mp (by decide +kernel)
  exact ⟨a, b, C32_nary_visitation exMix_good rightToLeft f (by simp) (by simp) (by simp [h1, h2])⟩

theorem exVisitK_sane {bad : List Nat} (vt : Nat) : Sane (exVisitK bad vt) := by
  unfold exVisitK
  split
  · refine ⟨by unfold BlankOk; show ∀ t ∈ [tThrowing, tInt], _; decide, NoCopyOnly.of_fallback rfl, fun k h => ?_⟩
    have : (exCfg [tThrowing, tInt] bad).fallback = some 1 := rfl
    rw [this] at h; cases h
    exact .inr (.inl rfl)
  · refine ⟨by unfold BlankOk; show ∀ t ∈ [tInt, tThrowing], _; decide, NoCopyOnly.of_fallback rfl, fun k h => ?_⟩
    have : (exCfg [tInt, tThrowing] bad).fallback = some 0 := rfl
    rw [this] at h; cases h
    exact .inr (.inl rfl)

theorem exVisitSt_good : GoodMix (exVisitK [8]) exMixR (exVisitSt [8]) := by
  obtain ⟨w, hw, hg⟩ := runMix_good (exVisitK_sane (bad := [8])) [(0, .constructC 0 0 5), (0, .constructC 1 0 6), (1, .constructC 2 1 7)]
    (World.init Nat) (goodMix_init (ρ := exMixR)) (by decide +kernel)
  unfold exVisitSt
  rw [hw]
  exact hg

/-- C33 on three arguments, two of them rvalues. If it throws, the invariant holds. -/
example : ∃ e w',
    applyVisitorAny (exVisitK [8]) rightToLeft seeAll (visitables exMixR exThreeVis) (exVisitSt [8]) = .exc e w' ∧
    GoodMix (exVisitK [8]) exMixR w' := by
  have hg := exVisitSt_good
  rcases C33_nary_rvalues (α := List (Option (TyIx × Nat) × Bool)) hg rightToLeft_perm (vs := exThreeVis) (by decide)
    (by unfold World.alive; decide +kernel) (by unfold MovedOnce; decide) with ⟨e, w', h, hu⟩ | ⟨args, w1, h1, h2, h3⟩
  · exact ⟨e, w', h seeAll, C33_failure_keeps_invariant hg hu⟩
  · have h := h3 seeAll ⟨fun _ => rfl, fun _ _ _ => rfl, rfl⟩
    have hd : (exVisited [8]).1 = none := by decide +kernel
    rw [exVisited, h] at hd
    cases hd

/-- C33 with a const rvalue passed twice: whatever happens, it keeps its value. -/
example :
    (∀ e w', Unwound (exVisitK [8]) (exVisitSt [8]) w' (MovesFrom (exVisitSt [8]) exConstVis)
      (TakesFrom exMixR (exVisitSt [8]) exConstVis) e → w'.holds 2 1 7) ∧
    (∀ w1, Entered (exVisitSt [8]) w1 (MovesFrom (exVisitSt [8]) exConstVis) →
      w1.objOf 2 = (exVisitSt [8]).objOf 2 ∧ w1.holds 2 1 7) :=
  C33_const_unchanged exVisitSt_good (by unfold MovedOnce; decide) (c := ⟨true, true⟩) (by simp [exConstVis]) rfl
    (by unfold World.holds; decide +kernel)

/-! ### Instances -/

/-- C33: a visitor that only looks, with a move that throws. -/
example := C33_moves_even_if_not_consumed exVisitSt_good rightToLeft_perm (vs := exThreeVis) (by decide) (by unfold World.alive; decide +kernel)
  (by unfold MovedOnce; decide) (f := seeAll) (fun _ _ => .inl ⟨_, rfl⟩)

end BVariant
