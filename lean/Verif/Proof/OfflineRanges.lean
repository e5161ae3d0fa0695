import Verif.Proof.OfflineStatement
/-! Helper lemmas: ranges of system call numbers. -/
set_option autoImplicit false
set_option linter.unusedSimpArgs false
namespace Minijail.Offline
open Minijail.Spec

/-! ### Sorting -/

theorem insertBy_perm {α : Type} (key : α → Nat) (x : α) (l : List α) : (insertBy key x l).Perm (x :: l) := by
  induction l with
  | nil => exact List.Perm.refl _
  | cons y l ih =>
    simp only [insertBy]
    split
    · exact List.Perm.refl _
    · exact (ih.cons y).trans (List.Perm.swap x y l)

theorem sortBy_perm {α : Type} (key : α → Nat) (l : List α) : (sortBy key l).Perm l := by
  induction l with
  | nil => exact List.Perm.refl _
  | cons x l ih =>
    show (insertBy key x (sortBy key l)).Perm _
    exact (insertBy_perm key x _).trans (ih.cons x)

theorem insertBy_sorted {α : Type} (key : α → Nat) (x : α) {l : List α} (h : l.Pairwise fun a b => key a ≤ key b) : (insertBy key x l).Pairwise fun a b => key a ≤ key b := by
  induction l with
  | nil => exact List.pairwise_singleton _ _
  | cons y l ih =>
    obtain ⟨h1, h2⟩ := List.pairwise_cons.1 h
    simp only [insertBy]
    split
    · next hx =>
      refine List.pairwise_cons.2 ⟨fun z hz => ?_, h⟩
      rcases List.mem_cons.1 hz with rfl | hz
      · exact hx
      · exact Nat.le_trans hx (h1 z hz)
    · next hx =>
      refine List.pairwise_cons.2 ⟨fun z hz => ?_, ih h2⟩
      rcases List.mem_cons.1 ((insertBy_perm key x l).mem_iff.1 hz) with rfl | hz
      · omega
      · exact h1 z hz

theorem sortBy_sorted {α : Type} (key : α → Nat) (l : List α) : (sortBy key l).Pairwise fun a b => key a ≤ key b := by
  induction l with
  | nil => exact .nil
  | cons x l ih => exact insertBy_sorted key x ih

theorem find_unique {α : Type} {p : α → Bool} {l : List α} (hu : ∀ a ∈ l, ∀ b ∈ l, p a = true → p b = true → a = b) {x : α} (hx : x ∈ l) (hp : p x = true) : l.find? p = some x := by
  cases h : l.find? p with
  | none => exact absurd hp (by simpa using List.find?_eq_none.1 h x hx)
  | some y => rw [hu y (List.mem_of_find?_eq_some h) x hx (List.find?_some h) hp]

theorem find_perm {α : Type} {p : α → Bool} {l l' : List α} (hl : l.Perm l') (hu : ∀ a ∈ l, ∀ b ∈ l, p a = true → p b = true → a = b) : l.find? p = l'.find? p := by
  cases h : l.find? p with
  | none =>
    symm
    refine List.find?_eq_none.2 fun x hx => List.find?_eq_none.1 h x (hl.mem_iff.2 hx)
  | some y =>
    symm
    refine find_unique (fun a ha b hb => hu a (hl.mem_iff.2 ha) b (hl.mem_iff.2 hb)) (hl.mem_iff.1 (List.mem_of_find?_eq_some h)) (List.find?_some h)

theorem pairwise_mem {α : Type} {R : α → α → Prop} {l : List α} (h : l.Pairwise R) {a b : α} (ha : a ∈ l) (hb : b ∈ l) : a = b ∨ R a b ∨ R b a := by
  induction l with
  | nil => simp at ha
  | cons x l ih =>
    obtain ⟨h1, h2⟩ := List.pairwise_cons.1 h
    rcases List.mem_cons.1 ha with rfl | ha'
    · rcases List.mem_cons.1 hb with rfl | hb'
      · exact .inl rfl
      · exact .inr (.inl (h1 b hb'))
    · rcases List.mem_cons.1 hb with rfl | hb'
      · exact .inr (.inr (h1 a ha'))
      · exact ih h2 ha' hb'

/-! ### What entries and ranges say -/

/-- The verdict of the instructions of a block. -/
noncomputable def lv (d : SeccompData) (b : Block) : Verdict := execN d b.instructions 0 Regs.init

/-- What an entry or a range says: its filter, or what is done when there is none. -/
noncomputable def fval (d : SeccompData) (accept : Block) (f : Option Block) : Verdict := lv d (f.getD accept)

/-- What the entries say about a number. -/
noncomputable def ev (d : SeccompData) (accept reject : Block) (es : List Entry) (x : Nat) : Verdict :=
  match es.find? (fun e => decide (e.number = x)) with
  | some e => fval d accept e.filter
  | none => lv d reject

/-- What the ranges say about a number. -/
noncomputable def rv (d : SeccompData) (accept reject : Block) (rs : List Range) (x : Nat) : Verdict :=
  match rs.find? (fun e => decide (e.lo ≤ x ∧ x < e.hi)) with
  | some e => fval d accept e.filter
  | none => lv d reject

theorem fval_eq {d : SeccompData} {accept : Block} {f g : Option Block} (h : f.map Block.instructions = g.map Block.instructions) : fval d accept f = fval d accept g := by
  cases f with
  | none =>
    cases g with
    | none => rfl
    | some c => simp at h
  | some b =>
    cases g with
    | none => simp at h
    | some c => simp only [Option.map_some, Option.some.injEq] at h; simp only [fval, lv, Option.getD_some, h]

theorem ev_cons (d : SeccompData) (accept reject : Block) (e : Entry) (es : List Entry) (x : Nat) :
    ev d accept reject (e :: es) x = if e.number = x then fval d accept e.filter else ev d accept reject es x := by
  unfold ev
  rw [List.find?_cons]
  by_cases h : e.number = x
  · simp [h]
  · simp [h]

theorem rv_cons (d : SeccompData) (accept reject : Block) (e : Range) (es : List Range) (x : Nat) :
    rv d accept reject (e :: es) x = if e.lo ≤ x ∧ x < e.hi then fval d accept e.filter else rv d accept reject es x := by
  unfold rv
  rw [List.find?_cons]
  by_cases h : e.lo ≤ x ∧ x < e.hi
  · simp only [h, and_self, decide_true, if_true]
  · simp only [h, decide_false, if_false]

theorem rangesFrom_rv (d : SeccompData) (accept reject : Block) (l : List Entry) (cur : Range) (prev : Entry) (hc : cur.hi = prev.number + 1) (hlo : cur.lo < cur.hi)
    (hf : fval d accept cur.filter = fval d accept prev.filter) (x : Nat) :
    rv d accept reject (rangesFrom cur prev l) x = if cur.lo ≤ x ∧ x < cur.hi then fval d accept cur.filter else ev d accept reject l x := by
  induction l generalizing cur prev with
  | nil => rw [rangesFrom, rv_cons]; rfl
  | cons e l ih =>
    simp only [rangesFrom]
    split
    · rw [rv_cons, ih _ _ rfl (Nat.lt_succ_self _) rfl, ev_cons]
      dsimp only
      congr 1
      by_cases h : e.number = x
      · rw [if_pos (by omega), if_pos h]
      · rw [if_neg (by omega), if_neg h]
    · next hn =>
      have h1 : prev.filter.map Block.instructions = e.filter.map Block.instructions := by
        by_contra h; exact hn (.inl h)
      have h2 : prev.number + 1 = e.number := by
        by_contra h; exact hn (.inr h)
      rw [ih _ _ rfl (by dsimp only; omega) (by dsimp only; rw [hf]; exact fval_eq h1), ev_cons]
      dsimp only
      by_cases h : cur.lo ≤ x ∧ x < cur.hi
      · rw [if_pos h, if_pos (by omega)]
      · rw [if_neg h]
        by_cases h' : e.number = x
        · rw [if_pos h', if_pos (by omega), hf, fval_eq h1]
        · rw [if_neg h', if_neg (by omega)]

/-- Ranges in order, apart, not empty, below `2 ^ 32`, with filters from `F`. -/
structure GoodRanges (F : Option Block → Prop) (rs : List Range) : Prop where
  apart : rs.Pairwise fun a b => a.hi ≤ b.lo
  pos : ∀ a ∈ rs, a.lo < a.hi
  top : ∀ a ∈ rs, a.hi < 2 ^ 32
  filter : ∀ a ∈ rs, F a.filter

theorem rangesFrom_good {F : Option Block → Prop} (l : List Entry) (cur : Range) (prev : Entry) (hc : cur.hi = prev.number + 1) (hlo : cur.lo < cur.hi) (hF : F cur.filter) (hl : ∀ e ∈ l, F e.filter)
    (ht : cur.hi < 2 ^ 32) (hlt : ∀ e ∈ l, e.number < 2 ^ 32 - 1) (hs : (prev :: l).Pairwise fun a b => a.number < b.number) :
    GoodRanges F (rangesFrom cur prev l) ∧ ∀ a ∈ rangesFrom cur prev l, cur.lo ≤ a.lo := by
  induction l generalizing cur prev with
  | nil =>
    simp only [rangesFrom]
    refine ⟨⟨List.pairwise_singleton _ _, ?_, ?_, ?_⟩, ?_⟩ <;> intro a ha <;> rw [List.mem_singleton.1 ha]
    · exact hlo
    · exact ht
    · exact hF
  | cons e l ih =>
    obtain ⟨s1, s2⟩ := List.pairwise_cons.1 hs
    have hpe := s1 e (List.mem_cons_self ..)
    have he := hlt e (List.mem_cons_self ..)
    have hl' := fun x hx => hl x (List.mem_cons_of_mem e hx)
    have hlt' := fun x hx => hlt x (List.mem_cons_of_mem e hx)
    simp only [rangesFrom]
    split
    · obtain ⟨g, g'⟩ := ih ⟨e.number, e.number + 1, e.frequency, 0, e.filter⟩ e rfl (Nat.lt_succ_self _) (hl e (List.mem_cons_self ..)) hl' (by dsimp only; omega) hlt' s2
      dsimp only at g'
      refine ⟨⟨List.pairwise_cons.2 ⟨fun a ha => ?_, g.apart⟩, ?_, ?_, ?_⟩, ?_⟩
      · have := g' a ha; omega
      · intro a ha
        rcases List.mem_cons.1 ha with rfl | ha
        · exact hlo
        · exact g.pos a ha
      · intro a ha
        rcases List.mem_cons.1 ha with rfl | ha
        · exact ht
        · exact g.top a ha
      · intro a ha
        rcases List.mem_cons.1 ha with rfl | ha
        · exact hF
        · exact g.filter a ha
      · intro a ha
        rcases List.mem_cons.1 ha with rfl | ha
        · exact Nat.le_refl _
        · have := g' a ha; omega
    · exact ih { cur with hi := e.number + 1, frequency := cur.frequency + e.frequency } e rfl (by dsimp only; omega) hF hl' (by dsimp only; omega) hlt' s2

theorem sorted_lt {l : List Entry} (h : l.Pairwise fun a b => a.number ≠ b.number) : (sortBy Entry.number l).Pairwise fun a b => a.number < b.number := by
  have h1 := sortBy_sorted Entry.number l
  have h2 : (sortBy Entry.number l).Pairwise fun a b => a.number ≠ b.number :=
    ((sortBy_perm Entry.number l).pairwise_iff (fun h => Ne.symm h)).2 h
  exact (h1.and h2).imp fun h => Nat.lt_of_le_of_ne h.1 h.2

theorem entries_unique {l : List Entry} (h : l.Pairwise fun a b => a.number ≠ b.number) (x : Nat) :
    ∀ a ∈ l, ∀ b ∈ l, decide (a.number = x) = true → decide (b.number = x) = true → a = b := by
  intro a ha b hb h1 h2
  simp at h1 h2
  rcases pairwise_mem h ha hb with h | h | h
  · exact h
  · omega
  · omega

theorem convertToRanges_rv (d : SeccompData) (accept reject : Block) {es : List Entry} (h : es.Pairwise fun a b => a.number ≠ b.number) (x : Nat) :
    rv d accept reject (convertToRanges es) x = ev d accept reject es x := by
  have : ev d accept reject es x = ev d accept reject (sortBy Entry.number es) x := by
    unfold ev
    rw [find_perm (sortBy_perm Entry.number es).symm (entries_unique h x)]
  rw [this]
  unfold convertToRanges
  split
  · next hs => rw [hs]; rfl
  · next e l hs =>
    rw [hs, rangesFrom_rv d accept reject l _ _ rfl (Nat.lt_succ_self _) rfl, ev_cons]
    dsimp only
    by_cases h : e.number = x
    · rw [if_pos (by omega), if_pos h]
    · rw [if_neg (by omega), if_neg h]

theorem convertToRanges_good {F : Option Block → Prop} {es : List Entry} (h : es.Pairwise fun a b => a.number ≠ b.number) (hF : ∀ e ∈ es, F e.filter) (hlt : ∀ e ∈ es, e.number < 2 ^ 32 - 1) :
    GoodRanges F (convertToRanges es) := by
  have hp := sortBy_perm Entry.number es
  have hs := sorted_lt h
  unfold convertToRanges
  split
  · exact ⟨.nil, by simp, by simp, by simp⟩
  · next e l hq =>
    rw [hq] at hs hp
    have he := hp.mem_iff.1 (List.mem_cons_self ..)
    have hl : ∀ x ∈ l, x ∈ es := fun x hx => hp.mem_iff.1 (List.mem_cons_of_mem _ hx)
    have := hlt e he
    exact (rangesFrom_good l _ e rfl (Nat.lt_succ_self _) (hF e he) (fun x hx => hF x (hl x hx)) (by dsimp only; omega) (fun x hx => hlt x (hl x hx)) hs).1

theorem convertToRanges_ne {es : List Entry} (h : es ≠ []) : convertToRanges es ≠ [] := by
  have hp := sortBy_perm Entry.number es
  unfold convertToRanges
  split
  · next hs => rw [hs] at hp; exact absurd (List.nil_perm.1 hp) h
  · next e l hq =>
    have : ∀ (l : List Entry) (cur : Range) (prev : Entry), rangesFrom cur prev l ≠ [] := by
      intro l
      induction l with
      | nil => simp [rangesFrom]
      | cons e l ih =>
        intro cur prev
        simp only [rangesFrom]
        split
        · simp
        · exact ih _ _
    exact this l _ e

theorem accumulate_rv (d : SeccompData) (accept reject : Block) (rs : List Range) (t x : Nat) : rv d accept reject (accumulate t rs) x = rv d accept reject rs x := by
  induction rs generalizing t with
  | nil => rfl
  | cons e l ih => rw [accumulate, rv_cons, rv_cons, ih]

theorem accumulate_mem {t : Nat} {rs : List Range} {a : Range} (h : a ∈ accumulate t rs) : ∃ b ∈ rs, a.lo = b.lo ∧ a.hi = b.hi ∧ a.filter = b.filter := by
  induction rs generalizing t with
  | nil => simp [accumulate] at h
  | cons e l ih =>
    rcases List.mem_cons.1 h with rfl | h
    · exact ⟨e, List.mem_cons_self .., rfl, rfl, rfl⟩
    · obtain ⟨b, hb, q⟩ := ih h
      exact ⟨b, List.mem_cons_of_mem _ hb, q⟩

theorem accumulate_good {F : Option Block → Prop} {rs : List Range} (h : GoodRanges F rs) (t : Nat) : GoodRanges F (accumulate t rs) := by
  refine ⟨?_, ?_, ?_, ?_⟩
  · have := h.apart
    clear h
    induction rs generalizing t with
    | nil => exact .nil
    | cons e l ih =>
      obtain ⟨h1, h2⟩ := List.pairwise_cons.1 this
      refine List.pairwise_cons.2 ⟨fun a ha => ?_, ih _ h2⟩
      obtain ⟨b, hb, q, -⟩ := accumulate_mem ha
      rw [q]
      exact h1 b hb
  · intro a ha
    obtain ⟨b, hb, q1, q2, q3⟩ := accumulate_mem ha
    rw [q1, q2]; exact h.pos b hb
  · intro a ha
    obtain ⟨b, hb, q1, q2, q3⟩ := accumulate_mem ha
    rw [q2]; exact h.top b hb
  · intro a ha
    obtain ⟨b, hb, q1, q2, q3⟩ := accumulate_mem ha
    rw [q3]; exact h.filter b hb

theorem ranges_unique {F : Option Block → Prop} {rs : List Range} (h : GoodRanges F rs) (x : Nat) :
    ∀ a ∈ rs, ∀ b ∈ rs, decide (a.lo ≤ x ∧ x < a.hi) = true → decide (b.lo ≤ x ∧ x < b.hi) = true → a = b := by
  intro a ha b hb h1 h2
  simp at h1 h2
  rcases pairwise_mem h.apart ha hb with h | h | h
  · exact h
  · omega
  · omega

end Minijail.Offline
