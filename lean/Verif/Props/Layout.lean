/-
C06 the storage is large enough and aligned enough.
-/
import Verif.Meta.Layout
import Verif.Props.NeverEmpty
import Verif.Lemmas.Outcome

namespace BVariant

/-- An object of layout `t` may be constructed at the address of an object of layout `s`: it does not reach beyond it, and
every address that is suitable for `s` is suitable for `t`. -/
def Layout.fitsIn (t s : Layout) : Prop := t.size ≤ s.size ∧ ∀ address, s.align ∣ address → t.align ∣ address

theorem le_maxElement (as : List Nat) (cur : Nat) : cur ≤ maxElement cur as ∧ ∀ a ∈ as, a ≤ maxElement cur as := by
  induction as generalizing cur with
  | nil => simp [maxElement]
  | cons a as ih =>
    have := ih (if cur < a then a else cur)
    simp only [maxElement, List.mem_cons, forall_eq_or_imp]
    refine ⟨?_, ?_, this.2⟩ <;> · have := this.1; split at this <;> split <;> omega

theorem maxElement_mem (as : List Nat) (cur : Nat) : maxElement cur as = cur ∨ maxElement cur as ∈ as := by
  induction as generalizing cur with
  | nil => exact Or.inl rfl
  | cons a as ih =>
    simp only [maxElement, List.mem_cons]
    rcases ih (if cur < a then a else cur) with h | h
    · rw [h]; split <;> simp
    · exact Or.inr (Or.inr h)

theorem le_maxSize (ts : List Layout) : ∀ t ∈ ts, t.size ≤ maxSize ts := by
  cases ts with
  | nil => simp
  | cons a as =>
    have := le_maxElement (as.map (·.size)) a.size
    intro t ht
    rcases List.mem_cons.mp ht with rfl | ht
    · exact this.1
    · exact this.2 _ (List.mem_map_of_mem ht)

theorem maxSize_mem {ts : List Layout} (h : ts ≠ []) : ∃ t ∈ ts, t.size = maxSize ts := by
  cases ts with
  | nil => exact (h rfl).elim
  | cons a as =>
    rcases maxElement_mem (as.map (·.size)) a.size with h | h
    · exact ⟨a, List.mem_cons_self, h.symm⟩
    · obtain ⟨t, ht, h⟩ := List.mem_map.mp h
      exact ⟨t, List.mem_cons_of_mem _ ht, h⟩

theorem foldl_addAlignment (ts : List Layout) (a : Nat) :
    a ∣ ts.foldl addAlignment a ∧ (∀ t ∈ ts, t.align ∣ ts.foldl addAlignment a) ∧
      ∀ m, a ∣ m → (∀ t ∈ ts, t.align ∣ m) → ts.foldl addAlignment a ∣ m := by
  induction ts generalizing a with
  | nil => simp
  | cons t ts ih =>
    have := ih (addAlignment a t)
    simp only [List.foldl, List.mem_cons, forall_eq_or_imp]
    refine ⟨Nat.dvd_trans (Nat.dvd_lcm_left _ _) this.1, ⟨Nat.dvd_trans (Nat.dvd_lcm_right _ _) this.1, this.2.1⟩, ?_⟩
    intro m ha hm
    exact this.2.2 m (Nat.lcm_dvd ha hm.1) hm.2

theorem foldl_addAlignment_pos (ts : List Layout) (a : Nat) (ha : 0 < a) (h : ∀ t ∈ ts, 0 < t.align) :
    0 < ts.foldl addAlignment a := by
  induction ts generalizing a with
  | nil => exact ha
  | cons t ts ih =>
    exact ih _ (Nat.lcm_pos ha (h t List.mem_cons_self)) fun t' ht => h t' (List.mem_cons_of_mem _ ht)

/-- With power-of-two alignments the common multiple is the largest of them. -/
theorem foldl_addAlignment_pow (ts : List Layout) (a : Nat) (ha : ∃ i, a = 2 ^ i) (h : ∀ t ∈ ts, ∃ i, t.align = 2 ^ i) :
    ts.foldl addAlignment a = a ∨ ∃ t ∈ ts, t.align = ts.foldl addAlignment a := by
  induction ts generalizing a with
  | nil => exact Or.inl rfl
  | cons t ts ih =>
    obtain ⟨i, rfl⟩ := ha
    obtain ⟨j, hj⟩ := h t List.mem_cons_self
    have hl : addAlignment (2 ^ i) t = 2 ^ i ∨ addAlignment (2 ^ i) t = t.align := by
      unfold addAlignment
      rw [hj]
      rcases Nat.le_total i j with hij | hij
      · exact Or.inr (Nat.lcm_eq_right (Nat.pow_dvd_pow 2 hij))
      · exact Or.inl (Nat.lcm_eq_left (Nat.pow_dvd_pow 2 hij))
    have := ih (addAlignment (2 ^ i) t) (by
        rcases hl with hl | hl
        · exact ⟨i, hl⟩
        · exact ⟨j, hl.trans hj⟩)
      fun t' ht => h t' (List.mem_cons_of_mem _ ht)
    simp only [List.foldl, List.mem_cons, exists_eq_or_imp]
    rcases this with h1 | ⟨t', ht', h1⟩
    · rcases hl with hl | hl
      · exact Or.inl (h1.trans hl)
      · exact Or.inr (Or.inl (h1.trans hl).symm)
    · exact Or.inr (Or.inr ⟨t', ht', h1⟩)

theorem le_roundUp {size align : Nat} (h : 0 < align) :
    size ≤ (size + align - 1) / align * align ∧ (size + align - 1) / align * align < size + align := by
  have h1 := Nat.div_add_mod (size + align - 1) align
  have h2 := Nat.mod_lt (size + align - 1) h
  rw [Nat.mul_comm] at h1
  constructor <;> omega

/-- C06, any type list: every bounded type fits into the storage. -/
theorem C06_bounded_types_fit (types : List Layout) (never : Bool) (holder : Layout)
    (hp : ∀ t ∈ types, 0 < t.align) (hh : 0 < holder.align) :
    ∀ t ∈ types, t.fitsIn (makeStorage types never holder) := by
  intro t ht
  have hm : t ∈ storageTypes types never holder := by unfold storageTypes; split <;> simp [ht]
  have hpos : 0 < maxAlignment (storageTypes types never holder) :=
    foldl_addAlignment_pos _ _ (by decide) (by unfold storageTypes; split <;> simp_all)
  exact ⟨Nat.le_trans (le_maxSize _ t hm) (le_roundUp hpos).1,
    fun _ ha => Nat.dvd_trans ((foldl_addAlignment _ 1).2.1 t hm) ha⟩

/-- C06: unless the variant type never uses backups, a `backup_holder` fits into the storage. -/
theorem C06_backup_holder_fits (types : List Layout) (holder : Layout)
    (hp : ∀ t ∈ types, 0 < t.align) (hh : 0 < holder.align) : holder.fitsIn (makeStorage types false holder) := by
  have hm : holder ∈ storageTypes types false holder := by simp [storageTypes]
  have hpos : 0 < maxAlignment (storageTypes types false holder) :=
    foldl_addAlignment_pos _ _ (by decide) (by simp [storageTypes, hh]; exact hp)
  exact ⟨Nat.le_trans (le_maxSize _ _ hm) (le_roundUp hpos).1,
    fun _ ha => Nat.dvd_trans ((foldl_addAlignment _ 1).2.1 _ hm) ha⟩

/-- C06, no slack: the storage exceeds the largest object placed into it only by the padding to its own alignment. That
alignment is the least common multiple, and if alignments are powers of two (as C++ prescribes) it is that of one of
the objects, or 1. -/
theorem C06_no_slack (types : List Layout) (never : Bool) (holder : Layout) (hne : types ≠ [])
    (hp : ∀ t ∈ types, 0 < t.align) (hh : 0 < holder.align) :
    (∃ t, (t ∈ types ∨ (never = false ∧ t = holder)) ∧
      (makeStorage types never holder).size < t.size + (makeStorage types never holder).align ∧
      t.size ≤ (makeStorage types never holder).size) ∧
    (∀ m, (∀ t, t ∈ types ∨ (never = false ∧ t = holder) → t.align ∣ m) → (makeStorage types never holder).align ∣ m) ∧
    (makeStorage types never holder).align ∣ (makeStorage types never holder).size ∧
    ((∀ t, t ∈ types ∨ t = holder → ∃ i, t.align = 2 ^ i) → (makeStorage types never holder).align = 1 ∨
      ∃ t, (t ∈ types ∨ (never = false ∧ t = holder)) ∧ t.align = (makeStorage types never holder).align) := by
  have hmem : ∀ t, t ∈ storageTypes types never holder ↔ t ∈ types ∨ (never = false ∧ t = holder) := by
    intro t; unfold storageTypes
    cases never <;> simp [or_comm]
  have hpos : 0 < maxAlignment (storageTypes types never holder) :=
    foldl_addAlignment_pos _ _ (by decide) (by unfold storageTypes; split <;> simp_all)
  obtain ⟨t, ht, hs⟩ := maxSize_mem (ts := storageTypes types never holder)
    (by unfold storageTypes; split <;> simp [hne])
  refine ⟨⟨t, (hmem t).mp ht, ?_, ?_⟩, ?_, ?_, ?_⟩
  · rw [hs]; exact (le_roundUp hpos).2
  · rw [hs]; exact (le_roundUp hpos).1
  · exact fun m hm => (foldl_addAlignment _ 1).2.2 m (Nat.one_dvd m) fun t ht => hm t ((hmem t).mp ht)
  · exact Nat.dvd_mul_left _ _
  · intro h2
    rcases foldl_addAlignment_pow (storageTypes types never holder) 1 ⟨0, rfl⟩
      (fun t ht => h2 t (((hmem t).mp ht).imp id And.right)) with h | ⟨t, ht, h⟩
    · exact Or.inl h
    · exact Or.inr ⟨t, (hmem t).mp ht, h⟩

section
variable {V : Type} {C : Cfg V} {w : World V}

/-- C06 at run time, any configuration and any program: a variant that uses a backup has room for the backup holder in
its storage as computed from the fallback search. -/
theorem C06_backups_have_room (layouts : List Layout) (holder : Layout) (hp : ∀ t ∈ layouts, 0 < t.align)
    (hh : 0 < holder.align) (cs : List (Cmd V)) (h : run C cs (World.init V) = some w) (x : VarId) (s : VarSt)
    (hx : w.vars x = some s) (hb : usingBackup s.which_ = true) :
    holder.fitsIn (makeStorage layouts C.hasFallback holder) := by
  cases hf : C.hasFallback with
  | true =>
    have := (run_quiet hf cs _ _ allInPlace_init h).2 x s hx
    simp only [usingBackup, decide_eq_true_eq] at hb
    omega
  | false => exact C06_backup_holder_fits layouts holder hp hh

/-- C06 at run time: what is in the storage of a live variant, in any state between statements, fits into it. -/
theorem C06_contents_have_room (layouts : List Layout) (holder : Layout) (hl : layouts.length = C.n)
    (hp : ∀ t ∈ layouts, 0 < t.align) (hh : 0 < holder.align) (hg : Good C w) (x : VarId) (s : VarSt)
    (hx : w.vars x = some s) :
    (∃ id k v, s.slot = .obj id ∧ w.objs id = some (k, v) ∧
      ∃ t, layouts[k]? = some t ∧ t.fitsIn (makeStorage layouts C.hasFallback holder)) ∨
    (∃ id k, s.slot = .holder k (some id) ∧ holder.fitsIn (makeStorage layouts C.hasFallback holder)) := by
  obtain ⟨id, k, v, hr, ho⟩ := hg.wf.rep x s hx
  cases hr with
  | inPlace _ _ hk =>
    have hk' : k < layouts.length := by omega
    exact Or.inl ⟨id, k, v, rfl, ho, layouts[k], List.getElem?_eq_getElem hk',
      C06_bounded_types_fit layouts _ holder hp hh _ (List.getElem_mem hk')⟩
  | inBackup _ _ _ hb =>
    refine Or.inr ⟨id, k, rfl, ?_⟩
    rw [hb.1]; exact C06_backup_holder_fits layouts holder hp hh

end

/-! ### Non-vacuity -/

-- variant<char, double, std::string> with a 24-byte string
example : makeStorage [⟨1, 1⟩, ⟨8, 8⟩, ⟨24, 8⟩] true ⟨8, 8⟩ = ⟨24, 8⟩ := by decide

-- without a fallback type the backup pointer determines size and alignment of a variant of small types
example : makeStorage [⟨1, 1⟩, ⟨2, 2⟩] false ⟨8, 8⟩ = ⟨8, 8⟩ ∧ makeStorage [⟨1, 1⟩, ⟨3, 1⟩, ⟨2, 2⟩] true ⟨8, 8⟩ = ⟨4, 2⟩ := by
  decide

example : ∀ t ∈ [(⟨1, 1⟩ : Layout), ⟨8, 8⟩, ⟨24, 8⟩], t.fitsIn (makeStorage [⟨1, 1⟩, ⟨8, 8⟩, ⟨24, 8⟩] true ⟨8, 8⟩) :=
  C06_bounded_types_fit _ _ _ (by decide) (by decide)

/-- A program that leaves variable 0 in the backup state. -/
example : (⟨8, 8⟩ : Layout).fitsIn (makeStorage [⟨4, 4⟩, ⟨2, 2⟩] exTwo.hasFallback ⟨8, 8⟩) := by
  have hb : backedUpAfter exTwo (exProg.take 3) 0 = true := by decide +kernel
  unfold backedUpAfter at hb
  split at hb
  · rename_i w h
    unfold World.backedUp at hb
    cases hs : w.vars (.user 0) with
    | none => rw [hs] at hb; cases hb
    | some s =>
      rw [hs] at hb
      exact C06_backups_have_room (C := exTwo) [⟨4, 4⟩, ⟨2, 2⟩] ⟨8, 8⟩ (by decide) (by decide) _ h _ s hs hb
  · cases hb

/-- `variant<char, short>` without a fallback type, on a machine with 8-byte pointers. -/
example : (⟨8, 8⟩ : Layout).fitsIn (makeStorage [⟨1, 1⟩, ⟨2, 2⟩] false ⟨8, 8⟩) :=
  C06_backup_holder_fits _ _ (by decide) (by decide)

/-- `variant<char[3], short>`: one byte of padding, and the alignment of `short`. -/
example : ∃ t, (t ∈ [(⟨3, 1⟩ : Layout), ⟨2, 2⟩] ∨ (true = false ∧ t = ⟨8, 8⟩)) ∧
    (makeStorage [⟨3, 1⟩, ⟨2, 2⟩] true ⟨8, 8⟩).size < t.size + (makeStorage [⟨3, 1⟩, ⟨2, 2⟩] true ⟨8, 8⟩).align ∧
    t.size ≤ (makeStorage [⟨3, 1⟩, ⟨2, 2⟩] true ⟨8, 8⟩).size :=
  (C06_no_slack [⟨3, 1⟩, ⟨2, 2⟩] true ⟨8, 8⟩ (by decide) (by decide) (by decide)).1

/-! ### Instances -/

/-- What is in the storage of the variable in the backup state. -/
example (s : VarSt) (hs : (stateAfter exTwo (exProg.take 3)).vars (.user 0) = some s) :=
  C06_contents_have_room (C := exTwo) [⟨4, 4⟩, ⟨2, 2⟩] ⟨8, 8⟩ rfl (by decide) (by decide) (stateAfter_good exTwo_sane (by decide +kernel)) _ s hs

end BVariant
