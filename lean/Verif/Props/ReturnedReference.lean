/-
C78: references that visitors return to one of their arguments. They are good for one and two variants, and for lvalues; for three or more variants a
reference to an argument passed as an rvalue always dangles (finding F30).
-/
import Verif.Props.Multi

namespace BVariant

section
variable {V : Type} {K : Nat → Cfg V} {ρ : Nat → Nat} {w w' : World V} {x y i : Nat} {id : ObjId}

/-- Specification: the visitor is any code that, when it returns, returns (a reference to) its argument number `i`. -/
def ReturnsArg (i : Nat) (f : List Arg → M V ObjId) : Prop :=
  ∀ args w1 id w2, f args w1 = .ok id w2 → (args[i]?).map Arg.id = some id

/-- C78: with one or two variants, of any categories, the reference is to the content of the variant itself. -/
theorem C78_up_to_two (hg : GoodMix K ρ w) (order : Nat → List Nat) {f : List Arg → M V ObjId} (hf : ReturnsArg i f) {vs : List (Nat × PassedAs)}
    (h2 : vs.length ≤ 2) (halive : ∀ p ∈ vs, w.alive p.1) (hr : applyVisitorAny K order f (visitables ρ vs) w = .ok id w') :
    ∃ p, vs[i]? = some p ∧ w.objOf p.1 = some id := by
  match vs, h2, halive, hr with
  | [], _, _, hr => cases hr
  | [(x, r)], _, ha, hr =>
    obtain ⟨a, v, h1, h2, h3, h4, h5⟩ := C32_every_variable_has_an_argument hg (ha _ (.head _)) r
    obtain ⟨s, v', ho, hag⟩ := argOf_owns hg h1
    have : f [a] w = .ok id w' := by
      rw [← hr]
      show f [a] w = applyVisitor1 K (fun a => f [a]) ⟨ρ x, .user x, r⟩ w
      rw [applyVisitor1_run ho, ← hag]
    have := hf _ _ _ _ this
    match i, this with
    | 0, this => simp at this; exact ⟨_, rfl, by rw [h4, this]⟩
  | [(x, r), (y, r')], _, ha, hr =>
    obtain ⟨a, v, h1, -, -, h4, -⟩ := C32_every_variable_has_an_argument hg (ha _ (.head _)) r
    obtain ⟨b, v', g1, -, -, g4, -⟩ := C32_every_variable_has_an_argument hg (ha _ (.tail _ (.head _))) r'
    have : f [a, b] w = .ok id w' := by
      rw [← hr]
      exact (C31_binary_visitation hg (fun a b => f [a, b]) h1 g1).symm
    have := hf _ _ _ _ this
    match i, this with
    | 0, this => simp at this; exact ⟨_, rfl, by rw [h4, this]⟩
    | 1, this => simp at this; exact ⟨_, rfl, by rw [g4, this]⟩

/-- C78: with three or more variants, a reference to an argument passed as an lvalue, const or not, is to the content of the variant itself, whatever the categories
of the others. -/
theorem C78_lvalue (hg : GoodMix K ρ w) {order : Nat → List Nat} (hord : ∀ n, (order n).Perm (List.range n)) {f : List Arg → M V ObjId}
    (hf : ReturnsArg i f) (hsp : ∀ args w1, (f args w1).All (Spares w.next w1)) {vs : List (Nat × PassedAs)} (h3 : 3 ≤ vs.length)
    (halive : ∀ p ∈ vs, w.alive p.1) (honce : MovedOnce vs) {c : PassedAs} (hi : vs[i]? = some (x, c)) (hc : c.rvalue = false)
    (hr : applyVisitorAny K order f (visitables ρ vs) w = .ok id w') : w.objOf x = some id := by
  obtain ⟨a, v, -, -, -, h4, h5⟩ := C32_every_variable_has_an_argument hg (halive _ (List.mem_of_getElem? hi)) c
  rcases C33_nary_rvalues (α := ObjId) hg hord h3 halive honce with ⟨e, w2, he, -⟩ | ⟨args, w1, -, hh, hrun⟩
  · rw [he] at hr; cases hr
  · rw [hrun f (hsp _ _)] at hr
    obtain ⟨ha, -, -⟩ := hh.lvalue i x _ _ _ _ hi hc h4 h5
    cases hfw : f args w1 with
    | ok o w2 =>
      rw [hfw] at hr
      cases hr
      have := hf _ _ _ _ hfw
      rw [ha] at this
      cases this
      exact h4
    | exc e w2 => rw [hfw] at hr; cases hr
    | fault b => rw [hfw] at hr; cases hr

/-- C78, finding F30: with three or more variants, a reference to an argument passed as an rvalue, const or not, always dangles: it is to a temporary that was
destroyed before the call of `apply_visitor` returned. -/
theorem C78_rvalue_dangles (hg : GoodMix K ρ w) {order : Nat → List Nat} (hord : ∀ n, (order n).Perm (List.range n)) {f : List Arg → M V ObjId}
    (hf : ReturnsArg i f) (hsp : ∀ args w1, (f args w1).All (Spares w.next w1)) {vs : List (Nat × PassedAs)} (h3 : 3 ≤ vs.length)
    (halive : ∀ p ∈ vs, w.alive p.1) (honce : MovedOnce vs) {c : PassedAs} (hi : vs[i]? = some (x, c)) (hc : c.rvalue = true)
    (hr : applyVisitorAny K order f (visitables ρ vs) w = .ok id w') : w.objs id = none ∧ w'.objs id = none := by
  obtain ⟨a, v, -, -, -, h4, h5⟩ := C32_every_variable_has_an_argument hg (halive _ (List.mem_of_getElem? hi)) c
  rcases C33_nary_rvalues (α := ObjId) hg hord h3 halive honce with ⟨e, w2, he, -⟩ | ⟨args, w1, -, hh, hrun⟩
  · rw [he] at hr; cases hr
  · rw [hrun f (hsp _ _)] at hr
    obtain ⟨o, ha, ho1, ho2, -⟩ := hh.rvalue i x _ _ _ hi hc h5
    cases hfw : f args w1 with
    | ok o' w2 =>
      rw [hfw] at hr
      cases hr
      have := hf _ _ _ _ hfw
      rw [ha] at this
      cases this
      exact ⟨hg.fresh _ ho1, by simp [World.cleanup, ho1, ho2]⟩
    | exc e w2 => rw [hfw] at hr; cases hr
    | fault b => rw [hfw] at hr; cases hr

/-- C78: the visitor that just returns a reference to its argument number `i` does return, from every state, if no construction of a temporary
throws; so by the previous theorem code that uses the result is undefined. -/
theorem C78_returns (hg : GoodMix K ρ w) {order : Nat → List Nat} (hord : ∀ n, (order n).Perm (List.range n)) {vs : List (Nat × PassedAs)}
    (h3 : 3 ≤ vs.length) (halive : ∀ p ∈ vs, w.alive p.1) (honce : MovedOnce vs)
    (hquiet : ∀ vt n, (K vt).throws n = false) :
    ∃ id w', applyVisitorAny K order (fun args => pure (((args[i]?).map Arg.id).getD 0)) (visitables ρ vs) w = .ok id w' := by
  rcases C33_nary_rvalues (α := ObjId) hg hord h3 halive honce with ⟨e, w2, -, hu⟩ | ⟨args, w1, -, -, hrun⟩
  · obtain ⟨vt, ty, _, _, ht, -⟩ := hu.thrown
    exact absurd ht.2.2 (by rw [hquiet]; nofun)
  · rw [hrun (fun args => pure (((args[i]?).map Arg.id).getD 0)) (show Spares w.next w1 w1 from ⟨fun _ => rfl, fun _ _ _ => rfl, rfl⟩)]
    exact ⟨_, _, rfl⟩

end

/-! The theorems apply: three variables, of which the first is passed as a const rvalue. -/

/-- A visitor that returns a reference to its argument number `i`. -/
def returnArg (i : Nat) : List Arg → M Nat ObjId := fun args => match args[i]? with
  | some a => pure a.id
  | none => M.fail .ub

theorem returnArg_returns (i : Nat) : ReturnsArg i (returnArg i) := by
  intro args w1 id w2 h
  cases ha : args[i]? with
  | none => simp only [returnArg, ha] at h; cases h
  | some a => simp only [returnArg, ha] at h; cases h; rfl

theorem returnArg_spares (i : Nat) (lo : ObjId) (args : List Arg) (w1 : World Nat) : (returnArg i args w1).All (Spares lo w1) := by
  cases ha : args[i]? with
  | none => simp only [returnArg, ha]; trivial
  | some a => simp only [returnArg, ha]; exact (⟨fun _ => rfl, fun _ _ _ => rfl, rfl⟩ : Spares lo w1 w1)

def exRefVis : List (Nat × PassedAs) := [(0, ⟨true, true⟩), (1, ⟨false, true⟩), (2, ⟨false, false⟩)]

/-- The object returned for each of the three positions: is it alive, and is it the content of the variable? -/
def exReturned (i : Nat) : Option (Bool × Bool) :=
  match applyVisitorAny (exVisitK [8]) rightToLeft (returnArg i) (visitables exMixR exRefVis) (exVisitSt [8]) with
  | .ok id w => some ((w.objs id).isSome, w.objOf i = some id)
  | _ => none

example : [exReturned 0, exReturned 1, exReturned 2] = [some (false, false), some (true, true), some (true, true)] := by decide +kernel

example : ∃ id w', applyVisitorAny (exVisitK [8]) rightToLeft (returnArg 0) (visitables exMixR exRefVis) (exVisitSt [8]) = .ok id w' ∧
    w'.objs id = none := by
  have h : (exReturned 0).isSome = true := by decide +kernel
  unfold exReturned at h
  split at h
  · rename_i id w' hr
    exact ⟨id, w', hr, (C78_rvalue_dangles exVisitSt_good rightToLeft_perm (returnArg_returns 0) (returnArg_spares 0 _) (vs := exRefVis) (by decide)
      (by unfold World.alive; decide +kernel) (by unfold MovedOnce; decide) (x := 0) rfl rfl hr).2⟩
  · cases h

example : ∃ id w', applyVisitorAny (exVisitK [8]) rightToLeft (returnArg 1) (visitables exMixR exRefVis) (exVisitSt [8]) = .ok id w' ∧
    (exVisitSt [8]).objOf 1 = some id := by
  have h : (exReturned 1).isSome = true := by decide +kernel
  unfold exReturned at h
  split at h
  · rename_i id w' hr
    exact ⟨id, w', hr, C78_lvalue exVisitSt_good rightToLeft_perm (returnArg_returns 1) (returnArg_spares 1 _) (vs := exRefVis) (by decide)
      (by unfold World.alive; decide +kernel) (by unfold MovedOnce; decide) (x := 1) rfl rfl hr⟩
  · cases h

/-! ### Instances -/

example : (match applyVisitorAny (exVisitK [8]) rightToLeft (returnArg 1) (visitables exMixR [(0, ⟨true, false⟩), (2, ⟨true, false⟩)]) (exVisitSt [8]) with
    | .ok _ _ => true | _ => false) = true := by decide +kernel

/-- Two rvalues: the reference is to the content of the second variant. -/
example (id : ObjId) (w' : World Nat) (h : applyVisitorAny (exVisitK [8]) rightToLeft (returnArg 1)
    (visitables exMixR [(0, ⟨true, false⟩), (2, ⟨true, false⟩)]) (exVisitSt [8]) = .ok id w') :=
  C78_up_to_two exVisitSt_good rightToLeft (returnArg_returns 1) (vs := [(0, ⟨true, false⟩), (2, ⟨true, false⟩)]) (by decide)
    (by unfold World.alive; decide +kernel) h

/-- C78: if no construction throws, the visitor returns. -/
example : ∃ id w', applyVisitorAny (exVisitK []) rightToLeft (fun args => pure (((args[0]?).map Arg.id).getD 0)) (visitables exMixR exRefVis) (exVisitSt []) =
    .ok id w' := by
  obtain ⟨w, hw, hg⟩ := runMix_good (K := exVisitK []) (ρ := exMixR) (exVisitK_sane) [(0, .constructC 0 0 5), (0, .constructC 1 0 6), (1, .constructC 2 1 7)]
    (World.init Nat) goodMix_init (by decide +kernel)
  have h : exVisitSt [] = w := by rw [exVisitSt, hw]; rfl
  exact C78_returns (h ▸ hg) rightToLeft_perm (vs := exRefVis) (by decide) (by unfold World.alive; decide +kernel) (by unfold MovedOnce; decide)
    (fun _ _ => rfl)

end BVariant
