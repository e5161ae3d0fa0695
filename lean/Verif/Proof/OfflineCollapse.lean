import Verif.Proof.OfflineMeaning
import Verif.Spec.Offline
/-! `parse_file` of tools/parser.py: the filters of each system call. -/
set_option linter.unusedSimpArgs false
set_option autoImplicit false
namespace Minijail.Offline
open Minijail.Spec

/-- Each system call of each statement with its filters. -/
def pairs (l : List Statement) : List (Syscall × List PFilter) := l.flatMap fun s => s.syscalls.map fun c => (c, s.filters)

/-- The filters of a system call. -/
def gather (c : Syscall) (ps : List (Syscall × List PFilter)) : List PFilter := (ps.filter fun x => x.1 = c).flatMap Prod.snd

/-- What the mapping holds after some pairs. -/
structure Collapsed (ps m : List (Syscall × List PFilter)) : Prop where
  nodup : (m.map Prod.fst).Nodup
  keys : ∀ c, c ∈ m.map Prod.fst ↔ c ∈ ps.map Prod.fst
  values : ∀ x ∈ m, x.2 = gather x.1 ps

theorem gather_snoc (c : Syscall) (ps : List (Syscall × List PFilter)) (x : Syscall × List PFilter) :
    gather c (ps ++ [x]) = gather c ps ++ if x.1 = c then x.2 else [] := by
  unfold gather
  rw [List.filter_append, List.flatMap_append]
  congr 1
  by_cases h : x.1 = c <;> simp [h]

theorem gather_none {c : Syscall} {ps : List (Syscall × List PFilter)} (h : c ∉ ps.map Prod.fst) : gather c ps = [] := by
  unfold gather
  rw [List.filter_eq_nil_iff.2]
  · rfl
  · intro x hx he
    exact h (List.mem_map.2 ⟨x, hx, by simpa using he⟩)

theorem collapsed_add {ps m : List (Syscall × List PFilter)} (h : Collapsed ps m) (c : Syscall) (fs : List PFilter) :
    Collapsed (ps ++ [(c, fs)]) (addFilters m c fs) := by
  unfold addFilters
  split
  · next hc =>
    have hm : (m.map fun x => if x.1 = c then (c, x.2 ++ fs) else x).map Prod.fst = m.map Prod.fst := by
      rw [List.map_map]
      apply List.map_congr_left
      intro x _
      simp only [Function.comp]
      split
      · next e => exact e.symm
      · rfl
    refine ⟨by rw [hm]; exact h.nodup, ?_, ?_⟩
    · intro c'
      rw [hm, h.keys c', List.map_append, List.mem_append]
      constructor
      · exact .inl
      · rintro (h' | h')
        · exact h'
        · simp only [List.map_cons, List.map_nil, List.mem_singleton] at h'
          rw [h']; exact (h.keys c).1 hc
    · intro y hy
      obtain ⟨x, hx, rfl⟩ := List.mem_map.1 hy
      rw [gather_snoc]
      by_cases e : x.1 = c
      · rw [if_pos e]
        simp only [if_true]
        rw [h.values x hx, e]
      · rw [if_neg e]
        simp only [Ne.symm e, if_false, List.append_nil]
        exact h.values x hx
  · next hc =>
    refine ⟨?_, ?_, ?_⟩
    · rw [List.map_append, List.nodup_append]
      refine ⟨h.nodup, by simp, ?_⟩
      intro a ha b hb
      simp only [List.map_cons, List.map_nil, List.mem_singleton] at hb
      rintro rfl
      rw [hb] at ha; exact hc ha
    · intro c'
      rw [List.map_append, List.map_append, List.mem_append, List.mem_append, h.keys c']
    · intro y hy
      rw [gather_snoc]
      rcases List.mem_append.1 hy with hy' | hy
      · have : ¬c = y.1 := by
          rintro rfl
          exact hc (List.mem_map.2 ⟨y, hy', rfl⟩)
        simp only [this, if_false, List.append_nil]
        exact h.values y hy'
      · rw [List.mem_singleton] at hy
        subst hy
        simp only [if_true]
        rw [gather_none (fun hh => hc ((h.keys c).2 hh))]
        rfl

theorem collapse_eq (l : List Statement) : collapse l = (pairs l).foldl (fun m x => addFilters m x.1 x.2) [] := by
  have : ∀ (l : List Statement) m, l.foldl (fun m s => s.syscalls.foldl (fun m c => addFilters m c s.filters) m) m =
      (pairs l).foldl (fun m x => addFilters m x.1 x.2) m := by
    intro l
    induction l with
    | nil => intro m; rfl
    | cons s l ih =>
      intro m
      rw [List.foldl_cons, ih]
      unfold pairs
      rw [List.flatMap_cons, List.foldl_append, List.foldl_map]
  exact this l []

theorem collapse_collapsed (l : List Statement) : Collapsed (pairs l) (collapse l) := by
  rw [collapse_eq]
  have : ∀ (qs ps m : List (Syscall × List PFilter)), Collapsed ps m → Collapsed (ps ++ qs) (qs.foldl (fun m x => addFilters m x.1 x.2) m) := by
    intro qs
    induction qs with
    | nil => intro ps m h; simpa using h
    | cons q qs ih =>
      intro ps m h
      have := ih _ _ (collapsed_add h q.1 q.2)
      rw [List.append_assoc] at this
      exact this
  simpa using this (pairs l) [] [] ⟨by simp, by simp, by simp⟩

/-- What `finishAll` does to each system call. -/
theorem finishAll_some {default : ActObj} {frequency : Syscall → Option Nat} {m : List (Syscall × List PFilter)} {l : List FilterStatement}
    (h : finishAll default frequency m = some l) : All₂ (fun x st => st.number = x.1.number ∧ finish default x.2 = some st.filters) m l := by
  induction m generalizing l with
  | nil => simp [finishAll] at h; subst h; exact .nil
  | cons x m ih =>
    obtain ⟨c, fs⟩ := x
    unfold finishAll at h
    obtain ⟨y, hy, h⟩ := Option.bind_eq_some_iff.1 h
    obtain ⟨z, hz, h⟩ := Option.bind_eq_some_iff.1 h
    simp only [Option.pure_def, Option.some.injEq] at h
    subst h
    exact .cons ⟨rfl, hy⟩ (ih hz)

/-- A list of filters with one unconditional filter, the last. -/
theorem finish_some {default : ActObj} {fs l : List PFilter} (h : finish default fs = some l) :
    ∃ init last, l = init ++ [last] ∧ last.expression = none ∧ (∀ f ∈ init, f.expression.isSome = true) ∧
      ((l = fs) ∨ (init = fs ∧ last = ⟨none, default⟩)) := by
  unfold finish at h
  have hsplit : fs = fs.takeWhile (fun f => f.expression.isSome) ++ fs.dropWhile (fun f => f.expression.isSome) := List.takeWhile_append_dropWhile.symm
  have hall : ∀ f ∈ fs.takeWhile (fun f => f.expression.isSome), f.expression.isSome = true := fun f hf => by simpa using List.mem_takeWhile_imp hf
  split at h
  · next e =>
    simp only [Option.some.injEq] at h
    rw [e, List.append_nil] at hsplit
    rw [← hsplit] at hall
    exact ⟨fs, _, h.symm, rfl, hall, .inr ⟨rfl, rfl⟩⟩
  · next f e =>
    simp only [Option.some.injEq] at h
    have hf : f.expression = none := by
      have := List.head?_dropWhile_not (fun f : PFilter => f.expression.isSome) fs
      rw [e] at this
      simpa using this
    refine ⟨_, f, ?_, hf, hall, .inl h.symm⟩
    rw [← h, ← e]; exact hsplit
  · simp at h

theorem all₂_mem_right {α β : Type} {R : α → β → Prop} {l : List α} {m : List β} (h : All₂ R l m) : ∀ y ∈ m, ∃ x ∈ l, R x y := by
  induction h with
  | nil => simp
  | cons h _ ih =>
    intro y hy
    rcases List.mem_cons.1 hy with rfl | hy
    · exact ⟨_, List.mem_cons_self, h⟩
    · obtain ⟨x, hx, hr⟩ := ih y hy
      exact ⟨x, List.mem_cons_of_mem _ hx, hr⟩

theorem all₂_mem_left {α β : Type} {R : α → β → Prop} {l : List α} {m : List β} (h : All₂ R l m) : ∀ x ∈ l, ∃ y ∈ m, R x y := by
  induction h with
  | nil => simp
  | cons h _ ih =>
    intro x hx
    rcases List.mem_cons.1 hx with rfl | hx
    · exact ⟨_, List.mem_cons_self, h⟩
    · obtain ⟨y, hy, hr⟩ := ih x hx
      exact ⟨y, List.mem_cons_of_mem _ hy, hr⟩

theorem all₂_pairwise {α β : Type} {R : α → β → Prop} {P : α → α → Prop} {Q : β → β → Prop} (hpq : ∀ x x' y y', R x y → R x' y' → P x x' → Q y y')
    {l : List α} {m : List β} (h : All₂ R l m) (hp : l.Pairwise P) : m.Pairwise Q := by
  induction h with
  | nil => exact .nil
  | cons h h' ih =>
    rw [List.pairwise_cons] at hp ⊢
    refine ⟨?_, ih hp.2⟩
    intro y hy
    obtain ⟨x, hx, hr⟩ := all₂_mem_right h' y hy
    exact hpq _ _ _ _ h hr (hp.1 x hx)

/-! ### The first filter that applies -/

theorem firstMatch_view (bits : Nat) (d : SeccompData) (l : List PFilter) : firstMatch bits d l = firstTrue bits d (l.map view) := by
  induction l with
  | nil => rfl
  | cons f l ih => simp only [List.map_cons, firstMatch, firstTrue, ih]; rfl

theorem firstTrue_append (bits : Nat) (d : SeccompData) (l m : List Guarded) : firstTrue bits d (l ++ m) = (firstTrue bits d l).or (firstTrue bits d m) := by
  induction l with
  | nil => simp [firstTrue]
  | cons f l ih =>
    simp only [List.cons_append, firstTrue, ih]
    split <;> simp

theorem firstTrue_uncond (bits : Nat) (d : SeccompData) {l : List Guarded} {f : Guarded} (hf : f ∈ l) (hn : f.1 = none) : ∃ a, firstTrue bits d l = some a := by
  induction l with
  | nil => simp at hf
  | cons g l ih =>
    simp only [firstTrue]
    split
    · exact ⟨_, rfl⟩
    · next hc =>
      rcases List.mem_cons.1 hf with rfl | hf
      · rw [hn] at hc; exact absurd trivial hc
      · exact ih hf

/-- The entries of statements. -/
theorem filtersFor_rules (nr : Nat) (es : List PyEntry) : filtersFor nr es = filtersFor nr (rulesOf es) := by
  induction es with
  | nil => rfl
  | cons e es ih =>
    cases e with
    | rule cs fs => simp only [filtersFor, rulesOf, List.flatMap_cons, List.filter_cons, if_true] at ih ⊢; rw [ih]
    | default a => simp only [filtersFor, rulesOf, List.flatMap_cons, List.filter_cons] at ih ⊢; rw [ih]; simp

theorem mentioned_rules (nr : Nat) (es : List PyEntry) : Mentioned nr es ↔ Mentioned nr (rulesOf es) := by
  unfold Mentioned rulesOf
  simp only [List.mem_filter, and_true]

theorem mentioned_iff (nr : Nat) (l : List Statement) : Mentioned nr (l.map entryOf) ↔ ∃ c ∈ (pairs l).map Prod.fst, c.number = nr := by
  unfold Mentioned pairs
  constructor
  · rintro ⟨cs, fs, h, c, hc, hn⟩
    obtain ⟨s, hs, e⟩ := List.mem_map.1 h
    simp only [entryOf, PyEntry.rule.injEq] at e
    refine ⟨c, List.mem_map.2 ⟨(c, s.filters), List.mem_flatMap.2 ⟨s, hs, List.mem_map.2 ⟨c, ?_, rfl⟩⟩, rfl⟩, hn⟩
    rw [e.1]; exact hc
  · rintro ⟨c, hc, hn⟩
    obtain ⟨x, hx, rfl⟩ := List.mem_map.1 hc
    obtain ⟨s, hs, hx⟩ := List.mem_flatMap.1 hx
    obtain ⟨c, hc', rfl⟩ := List.mem_map.1 hx
    exact ⟨_, _, List.mem_map.2 ⟨s, hs, rfl⟩, c, hc', hn⟩

/-- The first filter of a system call among the pairs is the first one among the entries, if the number determines the system call. -/
theorem firstTrue_gather (bits : Nat) (d : SeccompData) (c : Syscall) (l : List Statement)
    (ha : ∀ s ∈ l, ∀ c' ∈ s.syscalls, c'.number = c.number → c' = c) :
    firstTrue bits d ((gather c (pairs l)).map view) = firstTrue bits d (filtersFor c.number (l.map entryOf)) := by
  induction l with
  | nil => rfl
  | cons s l ih =>
    have e1 : gather c (pairs (s :: l)) = gather c (s.syscalls.map fun c => (c, s.filters)) ++ gather c (pairs l) := by
      simp only [gather, pairs, List.flatMap_cons, List.filter_append, List.flatMap_append]
    have e2 : filtersFor c.number ((s :: l).map entryOf) =
        (if ∃ c' ∈ s.syscalls, c'.number = c.number then s.filters.map view else []) ++ filtersFor c.number (l.map entryOf) := by
      simp only [filtersFor, List.map_cons, List.flatMap_cons, entryOf]
    rw [e1, e2, List.map_append, firstTrue_append, firstTrue_append, ih (fun s' hs' => ha s' (List.mem_cons_of_mem _ hs'))]
    congr 1
    have hs := ha s List.mem_cons_self
    generalize s.syscalls = cs at hs
    induction cs with
    | nil => simp [gather]
    | cons c' cs ih2 =>
      have e3 : gather c ((c' :: cs).map fun c => (c, s.filters)) = (if c' = c then s.filters else []) ++ gather c (cs.map fun c => (c, s.filters)) := by
        simp only [gather, List.map_cons, List.filter_cons]
        by_cases hc : c' = c <;> simp [hc]
      rw [e3, List.map_append, firstTrue_append, ih2 (fun x hx => hs x (List.mem_cons_of_mem _ hx))]
      by_cases hc : c' = c
      · subst hc
        simp only [if_true, List.mem_cons, exists_eq_or_imp, true_or]
        cases hf : firstTrue bits d (s.filters.map view) with
        | some a => simp
        | none =>
          split
          · rw [hf]; rfl
          · simp [firstTrue]
      · have hne : ¬c'.number = c.number := fun e => hc (hs c' List.mem_cons_self e)
        simp only [hc, if_false, List.mem_cons, exists_eq_or_imp, hne, false_or, List.map_nil, firstTrue, Option.none_or]

theorem mem_filtersFor {nr : Nat} {l : List Statement} {f : Guarded} : f ∈ filtersFor nr (l.map entryOf) ↔
    ∃ s ∈ l, (∃ c ∈ s.syscalls, c.number = nr) ∧ ∃ p ∈ s.filters, view p = f := by
  unfold filtersFor
  simp only [List.mem_flatMap, List.mem_map, exists_exists_and_eq_and, entryOf]
  constructor
  · rintro ⟨s, hs, h⟩
    split at h
    · next hc => exact ⟨s, hs, hc, List.mem_map.1 h⟩
    · simp at h
  · rintro ⟨s, hs, hc, h⟩
    refine ⟨s, hs, ?_⟩
    rw [if_pos hc]
    exact List.mem_map.2 h

theorem mem_gather {c : Syscall} {l : List Statement} {p : PFilter} : p ∈ gather c (pairs l) ↔ ∃ s ∈ l, c ∈ s.syscalls ∧ p ∈ s.filters := by
  unfold gather pairs
  simp only [List.mem_flatMap, List.mem_filter, List.mem_map, decide_eq_true_eq]
  constructor
  · rintro ⟨x, ⟨⟨s, hs, c', hc', rfl⟩, rfl⟩, hp⟩
    exact ⟨s, hs, hc', hp⟩
  · rintro ⟨s, hs, hc, hp⟩
    exact ⟨(c, s.filters), ⟨⟨s, hs, c, hc, rfl⟩, rfl⟩, hp⟩

end Minijail.Offline
