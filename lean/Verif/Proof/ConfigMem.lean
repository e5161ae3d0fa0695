import Verif.Spec.ConfigMem
import Mathlib.Data.List.Forall2
import Mathlib.Tactic.SplitIfs
/-! The list of config entries in memory. -/
set_option autoImplicit false
set_option linter.unusedSimpArgs false
namespace Minijail.ConfMem
open Spec

/-- The strings of an entry. -/
def addrs (s : Slot) : List Nat := s.1.toList ++ s.2.toList

/-- All that belongs to a list. -/
def owned (a b : Nat) (slots : List Slot) : List Nat := a :: b :: slots.flatMap addrs

/-- The list at `a` has its array at `b`, the entries `slots` that stand for `es`, and room for `rest`; all else is as in `m0`. -/
structure Inv (m0 m : CMem) (a b : Nat) (slots : List Slot) (es : List ConfigEntry) (rest : List (Option Slot)) : Prop where
  ordinary : Ordinary m0
  le : m0.brk ≤ m.brk
  list : m.cells a = some (.list (some b) es.length (slots.length + rest.length))
  array : m.cells b = some (.array (slots.map some ++ rest))
  stored : List.Forall₂ (Stored m) slots es
  nodup : (owned a b slots).Nodup
  range : ∀ x ∈ owned a b slots, m0.brk ≤ x ∧ x < m.brk
  frame : ∀ x, x ∉ owned a b slots → m.cells x = m0.cells x

theorem Inv.fresh {m0 m : CMem} {a b : Nat} {slots : List Slot} {es : List ConfigEntry} {rest : List (Option Slot)} (h : Inv m0 m a b slots es rest) {x : Nat} (hx : m.brk ≤ x) :
    m.cells x = none := by
  rw [h.frame x fun hm => by have := (h.range x hm).2; omega]
  exact h.ordinary x (by have := h.le; omega)

theorem Inv.a_lt {m0 m : CMem} {a b : Nat} {slots : List Slot} {es : List ConfigEntry} {rest : List (Option Slot)} (h : Inv m0 m a b slots es rest) : a < m.brk :=
  (h.range a (by simp [owned])).2

theorem Inv.b_lt {m0 m : CMem} {a b : Nat} {slots : List Slot} {es : List ConfigEntry} {rest : List (Option Slot)} (h : Inv m0 m a b slots es rest) : b < m.brk :=
  (h.range b (by simp [owned])).2

theorem Inv.ab {m0 m : CMem} {a b : Nat} {slots : List Slot} {es : List ConfigEntry} {rest : List (Option Slot)} (h : Inv m0 m a b slots es rest) : a ≠ b := by
  have := h.nodup
  simp only [owned, List.nodup_cons, List.mem_cons, not_or] at this
  exact this.1.1

theorem Inv.len {m0 m : CMem} {a b : Nat} {slots : List Slot} {es : List ConfigEntry} {rest : List (Option Slot)} (h : Inv m0 m a b slots es rest) : slots.length = es.length :=
  h.stored.length_eq

theorem stored_one {m m' : CMem} {s : Slot} {e : ConfigEntry} (h : Stored m s e) (hc : ∀ x ∈ addrs s, m'.cells x = m.cells x) : Stored m' s e := by
  obtain ⟨⟨k, h1, h2⟩, h3, h4⟩ := h
  refine ⟨⟨k, h1, by rw [hc k (by simp [addrs, h1]), h2]⟩, h3, fun t ht => ?_⟩
  obtain ⟨v, h5, h6⟩ := h4 t ht
  exact ⟨v, h5, by rw [hc v (by simp [addrs, h5]), h6]⟩

theorem stored_congr {m m' : CMem} : ∀ {slots : List Slot} {es : List ConfigEntry}, List.Forall₂ (Stored m) slots es →
    (∀ x ∈ slots.flatMap addrs, m'.cells x = m.cells x) → List.Forall₂ (Stored m') slots es
  | _, _, .nil, _ => .nil
  | _, _, .cons h t, hc => .cons (stored_one h fun x hx => hc x (by simp [hx])) (stored_congr t fun x hx => hc x (by
      rw [List.flatMap_cons]; exact List.mem_append_right _ hx))

/-- Nothing that belongs to the list has changed, but for the room that is left. -/
theorem Inv.keep {m0 m m' : CMem} {a b : Nat} {slots : List Slot} {es : List ConfigEntry} {rest rest' : List (Option Slot)} (h : Inv m0 m a b slots es rest)
    (hle : m.brk ≤ m'.brk) (hr : rest'.length = rest.length) (hb : m'.cells b = some (.array (slots.map some ++ rest'))) (hc : ∀ x, x ≠ b → m'.cells x = m.cells x) :
    Inv m0 m' a b slots es rest' := by
  have hn := h.nodup
  simp only [owned, List.nodup_cons, List.mem_cons, not_or] at hn
  refine ⟨h.ordinary, by have := h.le; omega, by rw [hc a h.ab, h.list, hr], hb, ?_, h.nodup, ?_, ?_⟩
  · exact stored_congr h.stored fun x hx => hc x fun e => hn.2.1 (e ▸ hx)
  · intro x hx
    have := h.range x hx
    omega
  · intro x hx
    rw [hc x fun e => hx (by simp [owned, e]), h.frame x hx]

/-- One more entry has been written (the number of entries is not yet increased). -/
structure Written1 (m0 m : CMem) (a b : Nat) (slots : List Slot) (s : Slot) (es : List ConfigEntry) (e : ConfigEntry) (rest : List (Option Slot)) : Prop where
  list : m.cells a = some (.list (some b) es.length (slots.length + 1 + rest.length))
  next : ∀ m', m' = m.put a (some (.list (some b) (es.length + 1) (slots.length + 1 + rest.length))) → Inv m0 m' a b (slots ++ [s]) (es ++ [e]) rest

theorem put_same (m : CMem) (a : Nat) (o : Option Obj) : (m.put a o).cells a = o := by simp [CMem.put]

theorem put_other (m : CMem) (a : Nat) (o : Option Obj) {x : Nat} (h : x ≠ a) : (m.put a o).cells x = m.cells x := by simp [CMem.put, h]

theorem Inv.append {m0 m m' : CMem} {a b : Nat} {slots : List Slot} {es : List ConfigEntry} {r : Option Slot} {rest : List (Option Slot)} (h : Inv m0 m a b slots es (r :: rest))
    {s : Slot} {e : ConfigEntry} (hle : m.brk ≤ m'.brk) (hb : m'.cells b = some (.array (slots.map some ++ some s :: rest))) (hs : Stored m' s e)
    (hn : (addrs s).Nodup) (hr : ∀ x ∈ addrs s, m.brk ≤ x ∧ x < m'.brk) (hc : ∀ x, x ≠ b → x ∉ addrs s → m'.cells x = m.cells x) :
    Written1 m0 m' a b slots s es e rest := by
  have hna : a ∉ addrs s := fun hx => by have := (hr a hx).1; have := h.a_lt; omega
  have hla : m'.cells a = some (.list (some b) es.length (slots.length + 1 + rest.length)) := by
    rw [hc a h.ab hna, h.list, List.length_cons, show slots.length + (rest.length + 1) = slots.length + 1 + rest.length by omega]
  refine ⟨hla, ?_⟩
  rintro m'' rfl
  have hnd := h.nodup
  simp only [owned, List.nodup_cons, List.mem_cons, not_or] at hnd
  have hold : ∀ x ∈ slots.flatMap addrs, x < m.brk := fun x hx => (h.range x (by simp only [owned, List.mem_cons]; exact .inr (.inr hx))).2
  have hfm : (slots ++ [s]).flatMap addrs = slots.flatMap addrs ++ addrs s := by simp
  refine ⟨h.ordinary, ?_, ?_, ?_, ?_, ?_, ?_, ?_⟩
  · show m0.brk ≤ m'.brk
    have := h.le; omega
  · rw [put_same]; simp
  · rw [put_other _ _ _ h.ab.symm, hb]; simp
  · have hst : Stored (m'.put a (some (.list (some b) (es.length + 1) (slots.length + 1 + rest.length)))) s e :=
      stored_one hs fun x hx => put_other _ _ _ fun e => hna (e ▸ hx)
    refine List.rel_append (stored_congr h.stored fun x hx => ?_) (.cons hst .nil)
    have hxa : x ≠ a := fun e => hnd.1.2 (e ▸ hx)
    rw [put_other _ _ _ hxa]
    refine hc x (fun e => hnd.2.1 (e ▸ hx)) fun hx' => ?_
    have := (hr x hx').1
    have := hold x hx
    omega
  · rw [owned, hfm]
    have : (a :: b :: (slots.flatMap addrs ++ addrs s)) = owned a b slots ++ addrs s := by simp [owned]
    rw [this, List.nodup_append]
    refine ⟨h.nodup, hn, fun x hx y hy e => ?_⟩
    have := (h.range x hx).2
    have := (hr y hy).1
    omega
  · intro x hx
    rw [owned, hfm, show (a :: b :: (slots.flatMap addrs ++ addrs s)) = owned a b slots ++ addrs s by simp [owned], List.mem_append] at hx
    show m0.brk ≤ x ∧ x < m'.brk
    have := h.le
    rcases hx with hx | hx
    · have := h.range x hx; omega
    · have := hr x hx; omega
  · intro x hx
    rw [owned, hfm, show (a :: b :: (slots.flatMap addrs ++ addrs s)) = owned a b slots ++ addrs s by simp [owned], List.mem_append, not_or] at hx
    have h1 : x ≠ a := fun e => hx.1 (by simp [owned, e])
    have h2 : x ≠ b := fun e => hx.1 (by simp [owned, e])
    rw [put_other _ _ _ h1, hc x h2 hx.2, h.frame x hx.1]

theorem alloc_cases (fails : Kind → Nat → Bool) (k : Kind) (o : Obj) (m : CMem) :
    (∃ m', fails k m.tries = true ∧ alloc fails k o m = (none, m') ∧ m'.brk = m.brk ∧ ∀ x, m'.cells x = m.cells x) ∨
    (∃ m', fails k m.tries = false ∧ alloc fails k o m = (some m.brk, m') ∧ m'.brk = m.brk + 1 ∧ m'.cells m.brk = some o ∧ ∀ x, x ≠ m.brk → m'.cells x = m.cells x) := by
  unfold alloc
  cases h : fails k m.tries
  · exact .inr ⟨_, rfl, if_neg (by simp), rfl, by simp, fun x hx => by simp [hx]⟩
  · exact .inl ⟨_, rfl, if_pos rfl, rfl, fun _ => rfl⟩

theorem free_live {m : CMem} {a : Nat} {o : Obj} (h : m.cells a = some o) : free (some a) m = .ok () (m.put a none) := by
  unfold free; dsimp only; rw [h]

theorem write_room {m : CMem} {b : Nat} {slots : List Slot} {r : Option Slot} {rest : List (Option Slot)} (h : m.cells b = some (.array (slots.map some ++ r :: rest))) (s : Slot) :
    writeSlot (some b) slots.length s m = .ok () (m.put b (some (.array (slots.map some ++ some s :: rest)))) := by
  unfold writeSlot
  dsimp only
  rw [h]
  dsimp only
  rw [if_pos (by simp)]
  congr 4
  rw [show slots.length = (slots.map some).length by simp, List.set_append_right _ _ (Nat.le_refl _)]
  simp

/-- What `parse_config_line` does to a list with room. -/
theorem parse_line {fails : Kind → Nat → Bool} {m0 m : CMem} {a b : Nat} {slots : List Slot} {es : List ConfigEntry} {r : Option Slot} {rest : List (Option Slot)}
    (h : Inv m0 m a b slots es (r :: rest)) (line : CStr) :
    (∃ m' s e, parseConfigLineMem fails line (some b) es.length m = .ok true m' ∧ parseConfigLine line = some e ∧ Written1 m0 m' a b slots s es e rest) ∨
    (∃ m' r', parseConfigLineMem fails line (some b) es.length m = .ok false m' ∧ ((∀ n, fails .strdup n = false) → parseConfigLine line = none) ∧
      Inv m0 m' a b slots es (r' :: rest)) := by
  have hblt := h.b_lt
  have hl := h.len
  rcases alloc_cases fails .strdup (.text line) m with ⟨m1, f1, e1, b1, c1⟩ | ⟨m1, f1, e1, b1, c1, d1⟩
  · right
    refine ⟨m1, r, ?_, fun hn => ?_, h.keep (by omega) rfl (by rw [c1]; exact h.array) fun x _ => c1 x⟩
    · rw [parseConfigLineMem, e1]
    · rw [hn] at f1; cases f1
  · cases hp : parseConfigLine line with
    | none =>
      right
      refine ⟨m1.put m.brk none, r, ?_, fun _ => rfl, ?_⟩
      · rw [parseConfigLineMem, e1]
        dsimp only
        rw [hp]
        dsimp only
        rw [free_live c1]
        rfl
      · refine h.keep (by show m.brk ≤ m1.brk; omega) rfl ?_ fun x hx => ?_
        · rw [put_other _ _ _ (by omega), d1 _ (by omega), h.array]
        · by_cases e : x = m.brk
          · rw [e, put_same, h.fresh (Nat.le_refl _)]
          · rw [put_other _ _ _ e, d1 _ e]
    | some e =>
      rcases alloc_cases fails .strdup (.text e.key) m1 with ⟨m2, f2, e2, b2, c2⟩ | ⟨m2, f2, e2, b2, c2, d2⟩
      · -- no memory for the key
        right
        cases hv : e.value with
        | none =>
          refine ⟨(m2.put b (some (.array (slots.map some ++ some (none, none) :: rest)))).put m.brk none, some (none, none), ?_, fun hn => ?_, ?_⟩
          · rw [parseConfigLineMem, e1]
            dsimp only
            rw [hp]
            dsimp only
            rw [e2, hv]
            simp only [dupValue]
            rw [storeEntry, ← hl, write_room (by rw [c2, d1 _ (by omega), h.array])]
            simp only [R.bind]
            rw [if_pos (by simp)]
            simp only [clearConfigEntry, free, R.bind]
            rw [put_other _ _ _ (by omega), c2, c1]
          · rw [hn] at f2; cases f2
          · refine h.keep (by show m.brk ≤ m2.brk; omega) rfl ?_ fun x hx => ?_
            · rw [put_other _ _ _ (by omega), put_same]
            · by_cases e : x = m.brk
              · rw [e, put_same, h.fresh (Nat.le_refl _)]
              · rw [put_other _ _ _ e, put_other _ _ _ hx, c2, d1 _ e]
        | some t =>
          rcases alloc_cases fails .strdup (.text t) m2 with ⟨m3, f3, e3, b3, c3⟩ | ⟨m3, f3, e3, b3, c3, d3⟩
          · refine ⟨(m3.put b (some (.array (slots.map some ++ some (none, none) :: rest)))).put m.brk none, some (none, none), ?_, fun hn => ?_, ?_⟩
            · rw [parseConfigLineMem, e1]
              dsimp only
              rw [hp]
              dsimp only
              rw [e2, hv]
              simp only [dupValue]
              rw [e3]
              simp only []
              rw [storeEntry, ← hl, write_room (by rw [c3, c2, d1 _ (by omega), h.array])]
              simp only [R.bind]
              rw [if_pos (by simp)]
              simp only [clearConfigEntry, free, R.bind]
              rw [put_other _ _ _ (by omega), c3, c2, c1]
            · rw [hn] at f2; cases f2
            · refine h.keep (by show m.brk ≤ m3.brk; omega) rfl ?_ fun x hx => ?_
              · rw [put_other _ _ _ (by omega), put_same]
              · by_cases e : x = m.brk
                · rw [e, put_same, h.fresh (Nat.le_refl _)]
                · rw [put_other _ _ _ e, put_other _ _ _ hx, c3, c2, d1 _ e]
          · refine ⟨((m3.put b (some (.array (slots.map some ++ some (none, some m2.brk) :: rest)))).put m2.brk none).put m.brk none, some (none, some m2.brk), ?_, fun hn => ?_, ?_⟩
            · rw [parseConfigLineMem, e1]
              dsimp only
              rw [hp]
              dsimp only
              rw [e2, hv]
              simp only [dupValue]
              rw [e3]
              simp only []
              rw [storeEntry, ← hl, write_room (by rw [d3 _ (by omega), c2, d1 _ (by omega), h.array])]
              simp only [R.bind]
              rw [if_pos (by simp)]
              simp only [clearConfigEntry, free, R.bind]
              rw [put_other _ _ _ (by omega), c3]
              simp only []
              rw [put_other _ _ _ (by omega), put_other _ _ _ (by omega), d3 _ (by omega), c2, c1]
            · rw [hn] at f2; cases f2
            · refine h.keep (by show m.brk ≤ m3.brk; omega) rfl ?_ fun x hx => ?_
              · rw [put_other _ _ _ (by omega), put_other _ _ _ (by omega), put_same]
              · by_cases e : x = m.brk
                · rw [e, put_same, h.fresh (Nat.le_refl _)]
                · by_cases e' : x = m2.brk
                  · rw [put_other _ _ _ e, e', put_same, h.fresh (by omega)]
                  · rw [put_other _ _ _ e, put_other _ _ _ e', put_other _ _ _ hx, d3 _ e', c2, d1 _ e]
      · cases hv : e.value with
        | none =>
          left
          refine ⟨(m2.put b (some (.array (slots.map some ++ some (some m1.brk, none) :: rest)))).put m.brk none, (some m1.brk, none), e, ?_, rfl, ?_⟩
          · rw [parseConfigLineMem, e1]
            dsimp only
            rw [hp]
            dsimp only
            rw [e2, hv]
            simp only [dupValue]
            rw [storeEntry, ← hl, write_room (by rw [d2 _ (by omega), d1 _ (by omega), h.array])]
            simp only [R.bind]
            rw [if_neg (by simp)]
            simp only [clearConfigEntry, free, R.bind]
            rw [put_other _ _ _ (by omega), d2 _ (by omega), c1]
          · refine h.append (by show m.brk ≤ m2.brk; omega) ?_ ?_ (by simp [addrs]) ?_ fun x hx hx' => ?_
            · rw [put_other _ _ _ (by omega), put_same]
            · refine ⟨⟨m1.brk, rfl, ?_⟩, fun _ => rfl, fun t ht => by rw [hv] at ht; cases ht⟩
              rw [put_other _ _ _ (by omega), put_other _ _ _ (by omega), c2]
            · intro x hx
              simp only [addrs, Option.toList, List.mem_append, List.mem_cons, List.not_mem_nil, or_false] at hx
              show m.brk ≤ x ∧ x < m2.brk
              omega
            · simp only [addrs, Option.toList, List.mem_append, List.mem_cons, List.not_mem_nil, or_false] at hx'
              by_cases e : x = m.brk
              · rw [e, put_same, h.fresh (Nat.le_refl _)]
              · rw [put_other _ _ _ e, put_other _ _ _ hx, d2 _ hx', d1 _ e]
        | some t =>
          rcases alloc_cases fails .strdup (.text t) m2 with ⟨m3, f3, e3, b3, c3⟩ | ⟨m3, f3, e3, b3, c3, d3⟩
          · right
            refine ⟨((m3.put b (some (.array (slots.map some ++ some (some m1.brk, none) :: rest)))).put m1.brk none).put m.brk none, some (some m1.brk, none), ?_, fun hn => ?_, ?_⟩
            · rw [parseConfigLineMem, e1]
              dsimp only
              rw [hp]
              dsimp only
              rw [e2, hv]
              simp only [dupValue]
              rw [e3]
              simp only []
              rw [storeEntry, ← hl, write_room (by rw [c3, d2 _ (by omega), d1 _ (by omega), h.array])]
              simp only [R.bind]
              rw [if_pos (by simp)]
              simp only [clearConfigEntry, free, R.bind]
              rw [put_other _ _ _ (by omega), c3, c2]
              simp only []
              rw [put_other _ _ _ (by omega), put_other _ _ _ (by omega), c3, d2 _ (by omega), c1]
            · rw [hn] at f3; cases f3
            · refine h.keep (by show m.brk ≤ m3.brk; omega) rfl ?_ fun x hx => ?_
              · rw [put_other _ _ _ (by omega), put_other _ _ _ (by omega), put_same]
              · by_cases e : x = m.brk
                · rw [e, put_same, h.fresh (Nat.le_refl _)]
                · by_cases e' : x = m1.brk
                  · rw [put_other _ _ _ e, e', put_same, h.fresh (by omega)]
                  · rw [put_other _ _ _ e, put_other _ _ _ e', put_other _ _ _ hx, c3, d2 _ e', d1 _ e]
          · left
            refine ⟨(m3.put b (some (.array (slots.map some ++ some (some m1.brk, some m2.brk) :: rest)))).put m.brk none, (some m1.brk, some m2.brk), e, ?_, rfl, ?_⟩
            · rw [parseConfigLineMem, e1]
              dsimp only
              rw [hp]
              dsimp only
              rw [e2, hv]
              simp only [dupValue]
              rw [e3]
              simp only []
              rw [storeEntry, ← hl, write_room (by rw [d3 _ (by omega), d2 _ (by omega), d1 _ (by omega), h.array])]
              simp only [R.bind]
              rw [if_neg (by simp)]
              simp only [clearConfigEntry, free, R.bind]
              rw [put_other _ _ _ (by omega), d3 _ (by omega), d2 _ (by omega), c1]
            · refine h.append (by show m.brk ≤ m3.brk; omega) ?_ ?_ (by simp [addrs]; omega) ?_ fun x hx hx' => ?_
              · rw [put_other _ _ _ (by omega), put_same]
              · refine ⟨⟨m1.brk, rfl, ?_⟩, (fun hn => by rw [hv] at hn; cases hn), fun t' ht => ⟨m2.brk, rfl, ?_⟩⟩
                · rw [put_other _ _ _ (by omega), put_other _ _ _ (by omega), d3 _ (by omega), c2]
                · rw [hv] at ht
                  cases ht
                  rw [put_other _ _ _ (by omega), put_other _ _ _ (by omega), c3]
              · intro x hx
                simp only [addrs, Option.toList, List.mem_append, List.mem_cons, List.not_mem_nil, or_false] at hx
                show m.brk ≤ x ∧ x < m3.brk
                omega
              · simp only [addrs, Option.toList, List.mem_append, List.mem_cons, List.not_mem_nil, or_false, not_or] at hx'
                by_cases e : x = m.brk
                · rw [e, put_same, h.fresh (Nat.le_refl _)]
                · rw [put_other _ _ _ e, put_other _ _ _ hx, d3 _ hx'.2, d2 _ hx'.1, d1 _ e]

/-- There is always room after `grow`. -/
theorem grow_ok {fails : Kind → Nat → Bool} (hr : ∀ n, fails .realloc n = false) {m0 m : CMem} {a b : Nat} {slots : List Slot} {es : List ConfigEntry} {rest : List (Option Slot)}
    (h : Inv m0 m a b slots es rest) (hc : 0 < slots.length + rest.length) :
    ∃ m' b' r rest', grow fails a m = .ok true m' ∧ Inv m0 m' a b' slots es (r :: rest') := by
  cases rest with
  | cons r rest =>
    refine ⟨m, b, r, rest, ?_, h⟩
    rw [grow, h.list]
    dsimp only
    rw [if_neg (by rw [h.len]; simp)]
  | nil =>
    have hl := h.len
    rw [List.length_nil, Nat.add_zero] at hc
    have ha := h.array
    rw [List.append_nil] at ha
    rcases alloc_cases fails .realloc (.array ((slots.map some).take (slots.length * 2) ++ List.replicate (slots.length * 2 - (slots.map some).length) none)) m with
      ⟨m1, f1, -⟩ | ⟨m1, f1, e1, b1, c1, d1⟩
    · rw [hr] at f1; cases f1
    · have hnd := h.nodup
      simp only [owned, List.nodup_cons, List.mem_cons, not_or] at hnd
      have halt := h.a_lt
      have hblt := h.b_lt
      have hab := h.ab
      have hold : ∀ x ∈ slots.flatMap addrs, x < m.brk := fun x hx => (h.range x (by simp only [owned, List.mem_cons]; exact .inr (.inr hx))).2
      obtain ⟨n, hn⟩ : ∃ n, slots.length = n + 1 := ⟨slots.length - 1, by omega⟩
      refine ⟨(m1.put b none).put a (some (.list (some m.brk) es.length (slots.length * 2))), m.brk, none, List.replicate n none, ?_, ?_⟩
      · rw [grow, h.list]
        dsimp only
        rw [if_pos (by simp [hl])]
        rw [List.length_nil, Nat.add_zero, realloc]
        dsimp only
        rw [ha]
        dsimp only
        rw [if_neg (by omega), e1]
        rfl
      · refine ⟨h.ordinary, ?_, ?_, ?_, ?_, ?_, ?_, ?_⟩
        · show m0.brk ≤ m1.brk
          have := h.le; omega
        · rw [put_same]
          simp only [List.length_cons, List.length_replicate]
          rw [show slots.length * 2 = slots.length + (n + 1) by omega]
        · rw [put_other _ _ _ (by omega), put_other _ _ _ (by omega), c1]
          congr 3
          · rw [List.take_of_length_le (by rw [List.length_map]; omega)]
          · rw [List.length_map, show slots.length * 2 - slots.length = n + 1 by omega, List.replicate_succ]
        · refine stored_congr h.stored fun x hx => ?_
          have h1 : x ≠ a := fun e => hnd.1.2 (e ▸ hx)
          have h2 : x ≠ b := fun e => hnd.2.1 (e ▸ hx)
          have h3 := hold x hx
          rw [put_other _ _ _ h1, put_other _ _ _ h2, d1 _ (by omega)]
        · simp only [owned, List.nodup_cons, List.mem_cons, not_or]
          refine ⟨⟨by omega, hnd.1.2⟩, fun hx => ?_, hnd.2.2⟩
          have := hold _ hx
          omega
        · intro x hx
          show m0.brk ≤ x ∧ x < m1.brk
          simp only [owned, List.mem_cons] at hx
          have h1 := h.range a (by simp [owned])
          have h2 := h.le
          rcases hx with rfl | rfl | hx
          · omega
          · omega
          · have := h.range x (by simp only [owned, List.mem_cons]; exact .inr (.inr hx))
            omega
        · intro x hx
          simp only [owned, List.mem_cons, not_or] at hx
          rw [put_other _ _ _ hx.1]
          by_cases e : x = b
          · rw [e, put_same]
            exact (h.ordinary b (h.range b (by simp [owned])).1).symm
          · rw [put_other _ _ _ e, d1 _ hx.2.1]
            exact h.frame x (by simp only [owned, List.mem_cons, not_or]; exact ⟨hx.1, e, hx.2.2⟩)

/-- What the loop does: the entries that the lines stand for are added, or some of them. -/
theorem parse_lines {fails : Kind → Nat → Bool} (hr : ∀ n, fails .realloc n = false) {m0 : CMem} {a : Nat} : ∀ (ls : List CStr) {m : CMem} {b : Nat} {slots : List Slot}
    {es : List ConfigEntry} {rest : List (Option Slot)}, Inv m0 m a b slots es rest → 0 < slots.length + rest.length →
    ∃ ok m' b' slots' added rest', parseConfigLinesMem fails a ls m = .ok ok m' ∧ Inv m0 m' a b' slots' (es ++ added) rest' ∧ 0 < slots'.length + rest'.length ∧
      (ok = true → parseConfigLines ls = (true, added)) ∧ (ok = false → added <+: (parseConfigLines ls).2) ∧
      ((∀ n, fails .strdup n = false) → parseConfigLines ls = (ok, added))
  | [], m, b, slots, es, rest, h, hc => ⟨true, m, b, slots, [], rest, rfl, by rwa [List.append_nil], hc, fun _ => rfl, fun hx => (by cases hx), fun _ => rfl⟩
  | l :: ls, m, b, slots, es, rest, h, hc => by
    by_cases hs : strip l = [] ∨ (strip l).head? = some '#'
    · obtain ⟨ok, m', b', slots', added, rest', h1, h2, h3, h4⟩ := parse_lines hr ls h hc
      refine ⟨ok, m', b', slots', added, rest', ?_, h2, h3, ?_⟩
      · rw [parseConfigLinesMem]
        rw [if_pos hs, h1]
      · rw [parseConfigLines]
        dsimp only
        rw [if_pos hs]
        exact h4
    · obtain ⟨m1, b1, r, rest1, g1, g2⟩ := grow_ok hr h hc
      have e1 : parseConfigLinesMem fails a (l :: ls) m = (parseConfigLineMem fails (strip l) (some b1) es.length m1).bind fun b m =>
              if b = false then .ok false m
              else
                match m.cells a with
                | some (.list entries n allocated) => parseConfigLinesMem fails a ls (m.put a (some (.list entries (n + 1) allocated)))
                | _ => .ub := by
        rw [parseConfigLinesMem]
        rw [if_neg hs, g1]
        simp only [R.bind]
        rw [if_neg (by simp), g2.list]
        rfl
      have e2 : parseConfigLines (l :: ls) = match parseConfigLine (strip l) with
          | none => (false, [])
          | some e => ((parseConfigLines ls).1, e :: (parseConfigLines ls).2) := by
        rw [parseConfigLines]
        dsimp only
        rw [if_neg hs]
        cases parseConfigLine (strip l) <;> rfl
      rcases parse_line (fails := fails) g2 (strip l) with ⟨m2, s, e, q1, q2, q3⟩ | ⟨m2, r', q1, q2, q3⟩
      · obtain ⟨ok, m', b', slots', added, rest', h1, h2, h3, h4, h5, h6⟩ := parse_lines hr ls (q3.next _ rfl) (by simp only [List.length_append, List.length_cons]; omega)
        refine ⟨ok, m', b', slots', e :: added, rest', ?_, by simpa using h2, h3, ?_⟩
        · rw [e1, q1]
          simp only [R.bind]
          rw [if_neg (by simp), q3.list]
          exact h1
        · rw [e2, q2]
          dsimp only
          refine ⟨fun hx => by rw [h4 hx], fun hx => ?_, fun hx => by rw [h6 hx]⟩
          exact List.cons_prefix_cons.mpr ⟨rfl, h5 hx⟩
      · refine ⟨false, m2, b1, slots, [], r' :: rest1, ?_, by rwa [List.append_nil], by rw [List.length_cons]; omega, fun hx => (by cases hx), fun _ => List.nil_prefix, fun hn => ?_⟩
        · rw [e1, q1]; rfl
        · rw [e2, q2 hn]

/-- A list that was shrunk to nothing. -/
structure Void (m0 m : CMem) (a : Nat) : Prop where
  ordinary : Ordinary m0
  list : m.cells a = some (.list none 0 0)
  new : m0.brk ≤ a
  frame : ∀ x, x ≠ a → m.cells x = m0.cells x

/-- The list after any file. -/
def Fine (m0 m : CMem) (a : Nat) (es : List ConfigEntry) : Prop :=
  (∃ b slots rest, Inv m0 m a b slots es rest ∧ 0 < slots.length + rest.length) ∨ (es = [] ∧ Void m0 m a)

theorem shrink_ok {fails : Kind → Nat → Bool} (hr : ∀ n, fails .realloc n = false) {m0 m : CMem} {a b : Nat} {slots : List Slot} {es : List ConfigEntry} {rest : List (Option Slot)}
    (h : Inv m0 m a b slots es rest) (hc : 0 < slots.length + rest.length) : ∃ m', shrink fails a m = .ok () m' ∧ Fine m0 m' a es := by
  have hl := h.len
  have halt := h.a_lt
  have hblt := h.b_lt
  have hab := h.ab
  have hnd := h.nodup
  simp only [owned, List.nodup_cons, List.mem_cons, not_or] at hnd
  have hold : ∀ x ∈ slots.flatMap addrs, x < m.brk := fun x hx => (h.range x (by simp only [owned, List.mem_cons]; exact .inr (.inr hx))).2
  cases rest with
  | nil =>
    refine ⟨m, ?_, .inl ⟨b, slots, [], h, hc⟩⟩
    rw [shrink, h.list]
    dsimp only
    rw [if_neg (by simp [hl])]
  | cons r rest =>
    by_cases h0 : es.length = 0
    · refine ⟨(m.put b none).put a (some (.list none es.length es.length)), ?_, .inr ⟨List.length_eq_zero_iff.mp h0, h.ordinary, ?_, (h.range a (by simp [owned])).1, ?_⟩⟩
      · rw [shrink, h.list]
        dsimp only
        rw [if_pos (by simp [hl]), realloc]
        dsimp only
        rw [h.array]
        dsimp only
        rw [if_pos h0]
        rfl
      · rw [put_same, h0]
      · intro x hx
        rw [put_other _ _ _ hx]
        by_cases e : x = b
        · rw [e, put_same]
          exact (h.ordinary b (h.range b (by simp [owned])).1).symm
        · rw [put_other _ _ _ e]
          refine h.frame x ?_
          have : slots = [] := List.length_eq_zero_iff.mp (by omega)
          simp [owned, this, hx, e]
    · rcases alloc_cases fails .realloc (.array ((slots.map some ++ r :: rest).take es.length ++ List.replicate (es.length - (slots.map some ++ r :: rest).length) none)) m with
        ⟨m1, f1, -⟩ | ⟨m1, f1, e1, b1, c1, d1⟩
      · rw [hr] at f1; cases f1
      · refine ⟨(m1.put b none).put a (some (.list (some m.brk) es.length es.length)), ?_, .inl ⟨m.brk, slots, [], ?_, by simp; omega⟩⟩
        · rw [shrink, h.list]
          dsimp only
          rw [if_pos (by simp [hl]), realloc]
          dsimp only
          rw [h.array]
          dsimp only
          rw [if_neg h0, e1]
          rfl
        · refine ⟨h.ordinary, ?_, ?_, ?_, ?_, ?_, ?_, ?_⟩
          · show m0.brk ≤ m1.brk
            have := h.le; omega
          · rw [put_same, List.length_nil, Nat.add_zero, hl]
          · rw [put_other _ _ _ (by omega), put_other _ _ _ (by omega), c1]
            rw [List.take_left' (by simp [hl]), show es.length - (slots.map some ++ r :: rest).length = 0 by simp; omega]
            rfl
          · refine stored_congr h.stored fun x hx => ?_
            have h1 : x ≠ a := fun e => hnd.1.2 (e ▸ hx)
            have h2 : x ≠ b := fun e => hnd.2.1 (e ▸ hx)
            have h3 := hold x hx
            rw [put_other _ _ _ h1, put_other _ _ _ h2, d1 _ (by omega)]
          · simp only [owned, List.nodup_cons, List.mem_cons, not_or]
            refine ⟨⟨by omega, hnd.1.2⟩, fun hx => ?_, hnd.2.2⟩
            have := hold _ hx
            omega
          · intro x hx
            show m0.brk ≤ x ∧ x < m1.brk
            simp only [owned, List.mem_cons] at hx
            have h1 := h.range a (by simp [owned])
            have h2 := h.le
            rcases hx with rfl | rfl | hx
            · omega
            · omega
            · have := h.range x (by simp only [owned, List.mem_cons]; exact .inr (.inr hx))
              omega
          · intro x hx
            simp only [owned, List.mem_cons, not_or] at hx
            rw [put_other _ _ _ hx.1]
            by_cases e : x = b
            · rw [e, put_same]
              exact (h.ordinary b (h.range b (by simp [owned])).1).symm
            · rw [put_other _ _ _ e, d1 _ hx.2.1]
              exact h.frame x (by simp only [owned, List.mem_cons, not_or]; exact ⟨hx.1, e, hx.2.2⟩)

theorem clear_one {s : Slot} {m : CMem} (hn : (addrs s).Nodup) (hl : ∀ x ∈ addrs s, ∃ o, m.cells x = some o) :
    ∃ m', clearConfigEntry (some s) m = .ok () m' ∧ ∀ x, m'.cells x = if x ∈ addrs s then none else m.cells x := by
  obtain ⟨k, v⟩ := s
  cases k with
  | none =>
    cases v with
    | none => exact ⟨m, rfl, fun x => by simp [addrs]⟩
    | some v =>
      obtain ⟨o, ho⟩ := hl v (by simp [addrs])
      refine ⟨m.put v none, ?_, fun x => by simp [addrs, CMem.put]⟩
      show free (some v) m = _
      exact free_live ho
  | some k =>
    obtain ⟨o, ho⟩ := hl k (by simp [addrs])
    cases v with
    | none =>
      refine ⟨m.put k none, ?_, fun x => by simp [addrs, CMem.put]⟩
      simp only [clearConfigEntry]
      rw [free_live ho]
      rfl
    | some v =>
      obtain ⟨o', ho'⟩ := hl v (by simp [addrs])
      have hkv : v ≠ k := by
        simp only [addrs, Option.toList, List.cons_append, List.nil_append, List.nodup_cons, List.mem_cons, List.not_mem_nil, or_false] at hn
        exact fun e => hn.1 e.symm
      refine ⟨(m.put k none).put v none, ?_, fun x => ?_⟩
      · simp only [clearConfigEntry]
        rw [free_live ho]
        simp only [R.bind]
        exact free_live (o := o') (by rw [put_other _ _ _ hkv, ho'])
      · simp only [addrs, Option.toList, List.mem_append, List.mem_cons, List.not_mem_nil, or_false, CMem.put]
        by_cases h1 : x = k <;> by_cases h2 : x = v <;> simp [h1, h2]

theorem clear_entries {b : Nat} {rest : List (Option Slot)} : ∀ (suf pre : List Slot) {m : CMem}, m.cells b = some (.array ((pre ++ suf).map some ++ rest)) →
    (suf.flatMap addrs).Nodup → b ∉ suf.flatMap addrs → (∀ x ∈ suf.flatMap addrs, ∃ o, m.cells x = some o) →
    ∃ m', clearEntries (some b) suf.length pre.length m = .ok () m' ∧ ∀ x, m'.cells x = if x ∈ suf.flatMap addrs then none else m.cells x
  | [], pre, m, _, _, _, _ => ⟨m, rfl, fun x => by simp⟩
  | s :: suf, pre, m, ha, hn, hb, hl => by
    rw [List.flatMap_cons] at hn hb hl
    rw [List.nodup_append] at hn
    rw [List.mem_append, not_or] at hb
    obtain ⟨m1, h1, h2⟩ := clear_one (m := m) hn.1 fun x hx => hl x (List.mem_append_left _ hx)
    have ha1 : m1.cells b = some (.array (((pre ++ [s]) ++ suf).map some ++ rest)) := by
      rw [h2, if_neg hb.1, ha]; simp
    obtain ⟨m2, h3, h4⟩ := clear_entries suf (pre ++ [s]) ha1 hn.2.1 hb.2 fun x hx => by
      rw [h2, if_neg fun hx' => hn.2.2 x hx' x hx rfl]
      exact hl x (List.mem_append_right _ hx)
    refine ⟨m2, ?_, fun x => ?_⟩
    · rw [List.length_cons, clearEntries]
      have hread : readSlot (some b) pre.length m = some (some s) := by
        unfold readSlot
        dsimp only
        rw [ha]
        simp
      rw [hread]
      dsimp only
      rw [h1]
      simp only [R.bind]
      rw [← h3]
      simp
    · rw [h4, h2, List.flatMap_cons]
      by_cases e1 : x ∈ addrs s <;> by_cases e2 : x ∈ suf.flatMap addrs <;> simp only [e1, e2, List.mem_append, or_true, true_or, or_false, if_true, if_false]

theorem stored_live {m : CMem} : ∀ {slots : List Slot} {es : List ConfigEntry}, List.Forall₂ (Stored m) slots es → ∀ x ∈ slots.flatMap addrs, ∃ o, m.cells x = some o
  | _, _, .nil, x, hx => by cases hx
  | s :: slots, e :: es, .cons h t, x, hx => by
    rw [List.flatMap_cons, List.mem_append] at hx
    rcases hx with hx | hx
    · obtain ⟨⟨k, h1, h2⟩, h3, h4⟩ := h
      rw [addrs, List.mem_append, h1] at hx
      rcases hx with hx | hx
      · simp only [Option.toList, List.mem_cons, List.not_mem_nil, or_false] at hx
        exact ⟨_, hx ▸ h2⟩
      · cases hv : e.value with
        | none => rw [h3 hv] at hx; cases hx
        | some t =>
          obtain ⟨v, h5, h6⟩ := h4 t hv
          rw [h5] at hx
          simp only [Option.toList, List.mem_cons, List.not_mem_nil, or_false] at hx
          exact ⟨_, hx ▸ h6⟩
    · exact stored_live t x hx

/-- Freeing a list gives everything back, and nothing else. -/
theorem free_fine {m0 m : CMem} {a : Nat} {es : List ConfigEntry} (h : Fine m0 m a es) : ∃ m', freeConfigEntryList (some a) m = .ok () m' ∧ ∀ x, m'.cells x = m0.cells x := by
  rcases h with ⟨b, slots, rest, h, -⟩ | ⟨-, h⟩
  · have hnd := h.nodup
    simp only [owned, List.nodup_cons, List.mem_cons, not_or] at hnd
    obtain ⟨m1, h1, h2⟩ := clear_entries (rest := rest) slots [] h.array hnd.2.2 hnd.2.1 (stored_live h.stored)
    refine ⟨(m1.put b none).put a none, ?_, fun x => ?_⟩
    · unfold freeConfigEntryList
      dsimp only
      rw [h.list]
      dsimp only
      rw [← h.len, show clearEntries (some b) slots.length 0 m = .ok () m1 from h1]
      simp only [R.bind]
      rw [free_live (o := .array (slots.map some ++ rest)) (by rw [h2, if_neg hnd.2.1, h.array])]
      simp only []
      exact free_live (o := .list (some b) es.length (slots.length + rest.length)) (by rw [put_other _ _ _ h.ab, h2, if_neg hnd.1.2, h.list])
    · by_cases hx : x ∈ owned a b slots
      · rw [h.ordinary x (h.range x hx).1]
        simp only [owned, List.mem_cons] at hx
        by_cases ea : x = a
        · rw [ea, put_same]
        · by_cases eb : x = b
          · rw [put_other _ _ _ ea, eb, put_same]
          · rw [put_other _ _ _ ea, put_other _ _ _ eb, h2, if_pos]
            rcases hx with hx | hx | hx
            · exact absurd hx ea
            · exact absurd hx eb
            · exact hx
      · have hf := h.frame x hx
        simp only [owned, List.mem_cons, not_or] at hx
        rw [put_other _ _ _ hx.1, put_other _ _ _ hx.2.1, h2, if_neg hx.2.2, hf]
  · refine ⟨m.put a none, ?_, fun x => ?_⟩
    · unfold freeConfigEntryList
      dsimp only
      rw [h.list]
      dsimp only
      rw [clearEntries]
      simp only [R.bind, free]
      rw [h.list]
    · by_cases e : x = a
      · rw [e, put_same]; exact (h.ordinary a h.new).symm
      · rw [put_other _ _ _ e, h.frame x e]

theorem fine_holds {m0 m : CMem} {a : Nat} {es : List ConfigEntry} (h : Fine m0 m a es) : ListHolds m a es := by
  rcases h with ⟨b, slots, rest, h, -⟩ | ⟨rfl, h⟩
  · refine ⟨some b, _, h.list, fun i e hi => ?_⟩
    have hlt : i < es.length := (List.getElem?_eq_some_iff.mp hi).1
    have hlt' : i < slots.length := by rw [h.len]; exact hlt
    have hst := (List.forall₂_iff_get.mp h.stored).2 i hlt' hlt
    refine ⟨b, slots.map some ++ rest, slots[i], rfl, h.array, ?_, ?_⟩
    · rw [List.getElem?_append_left (by simpa using hlt')]
      simp [hlt']
    · have : es[i] = e := (List.getElem?_eq_some_iff.mp hi).2
      rw [← this]
      exact hst
  · exact ⟨none, 0, h.list, fun i e hi => by simp at hi⟩

theorem fine_untouched {m0 m : CMem} {a : Nat} {es : List ConfigEntry} (h : Fine m0 m a es) : Untouched m0 m := by
  intro x hx
  rcases h with ⟨b, slots, rest, h, -⟩ | ⟨-, h⟩
  · exact h.frame x fun hm => hx (h.ordinary x (h.range x hm).1)
  · exact h.frame x fun e => hx (e ▸ h.ordinary a h.new)

/-- A file is read into a list that has room. -/
theorem parse_file {fails : Kind → Nat → Bool} (hr : ∀ n, fails .realloc n = false) {m0 m : CMem} {a b : Nat} {slots : List Slot} {es : List ConfigEntry} {rest : List (Option Slot)}
    (h : Inv m0 m a b slots es rest) (hc : 0 < slots.length + rest.length) (content : CStr) :
    ∃ ok m' added, parseConfigFileMem fails content a m = .ok ok m' ∧ Fine m0 m' a (es ++ added) ∧
      (ok = true → parseConfigFile content = (true, added)) ∧ (ok = false → added <+: (parseConfigFile content).2) ∧
      ((∀ n, fails .strdup n = false) → parseConfigFile content = (ok, added)) := by
  unfold parseConfigFileMem parseConfigFile
  cases getline content with
  | none => exact ⟨false, m, [], rfl, .inl ⟨b, slots, rest, by rwa [List.append_nil], hc⟩, fun hx => (by cases hx), fun _ => List.nil_prefix, fun _ => rfl⟩
  | some p =>
    obtain ⟨line, tl⟩ := p
    dsimp only
    cases hd : matchSpecialDirective line with
    | false => exact ⟨false, m, [], rfl, .inl ⟨b, slots, rest, by rwa [List.append_nil], hc⟩, fun hx => (by cases hx), fun _ => List.nil_prefix, fun _ => rfl⟩
    | true =>
      obtain ⟨ok, m', b', slots', added, rest', h1, h2, h3, h4, h5, h6⟩ := parse_lines hr (readLines tl) h hc
      rw [if_neg (by simp), if_neg (by simp), h1]
      simp only [R.bind]
      cases ok with
      | false => exact ⟨false, m', added, rfl, .inl ⟨b', slots', rest', h2, h3⟩, h4, h5, h6⟩
      | true =>
        obtain ⟨m2, g1, g2⟩ := shrink_ok hr h2 h3
        refine ⟨true, m2, added, ?_, g2, h4, h5, h6⟩
        rw [if_neg (by simp), g1]

theorem new_fine {fails : Kind → Nat → Bool} {m : CMem} (hm : Ordinary m) :
    (∃ m', newConfigEntryList fails m = .ok none m' ∧ (∀ x, m'.cells x = m.cells x) ∧ ∃ n, fails .calloc n = true) ∨
    (∃ a b m' rest, newConfigEntryList fails m = .ok (some a) m' ∧ Inv m m' a b [] [] rest ∧ 0 < rest.length) := by
  unfold newConfigEntryList
  rcases alloc_cases fails .calloc (.array (List.replicate listDefaultSize (some (none, none)))) m with ⟨m1, f1, e1, b1, c1⟩ | ⟨m1, f1, e1, b1, c1, d1⟩
  · left
    rw [e1]
    exact ⟨m1, rfl, c1, _, f1⟩
  · rw [e1]
    dsimp only
    rcases alloc_cases fails .calloc (.list (some m.brk) 0 listDefaultSize) m1 with ⟨m2, f2, e2, b2, c2⟩ | ⟨m2, f2, e2, b2, c2, d2⟩
    · left
      rw [e2]
      dsimp only
      rw [free_live (by rw [c2, c1])]
      refine ⟨m2.put m.brk none, rfl, fun x => ?_, _, f2⟩
      by_cases e : x = m.brk
      · rw [e, put_same, hm _ (Nat.le_refl _)]
      · rw [put_other _ _ _ e, c2, d1 _ e]
    · right
      rw [e2]
      refine ⟨m1.brk, m.brk, m2, List.replicate listDefaultSize (some (none, none)), rfl, ⟨hm, by omega, ?_, ?_, .nil, ?_, ?_, ?_⟩, by simp [listDefaultSize]⟩
      · rw [c2]; simp
      · rw [d2 _ (by omega), c1]; rfl
      · simp [owned]; omega
      · intro x hx
        simp only [owned, List.flatMap_nil, List.mem_cons, List.not_mem_nil, or_false] at hx
        omega
      · intro x hx
        simp only [owned, List.flatMap_nil, List.mem_cons, List.not_mem_nil, or_false, not_or] at hx
        rw [d2 _ hx.1, d1 _ hx.2]

theorem Fine.room {m0 m : CMem} {a : Nat} {es : List ConfigEntry} (h : Fine m0 m a es) (he : es ≠ []) :
    ∃ b slots rest, Inv m0 m a b slots es rest ∧ 0 < slots.length + rest.length := by
  rcases h with h | ⟨h, -⟩
  · exact h
  · exact absurd h he

/-- Several files are read into a list that has room. -/
theorem parse_files {fails : Kind → Nat → Bool} (hr : ∀ n, fails .realloc n = false) {m0 : CMem} {a : Nat} : ∀ (contents : List CStr) {m : CMem} {b : Nat} {slots : List Slot}
    {es : List ConfigEntry} {rest : List (Option Slot)}, Inv m0 m a b slots es rest → 0 < slots.length + rest.length →
    (es = [] → ∀ c cs, contents = c :: cs → cs = [] ∨ (parseConfigFile c).2 ≠ []) →
    ∃ ok m' added, parseConfigFilesMem fails a contents m = .ok ok m' ∧ Fine m0 m' a (es ++ added) ∧
      (ok = true → (∀ c ∈ contents, (parseConfigFile c).1 = true) ∧ added = contents.flatMap fun c => (parseConfigFile c).2) ∧
      (ok = false → added <+: contents.flatMap fun c => (parseConfigFile c).2) ∧
      ((∀ n, fails .strdup n = false) → (∀ c ∈ contents, (parseConfigFile c).1 = true) → ok = true)
  | [], m, b, slots, es, rest, h, hc, _ =>
    ⟨true, m, [], rfl, .inl ⟨b, slots, rest, by rwa [List.append_nil], hc⟩, fun _ => ⟨by simp, rfl⟩, fun hx => (by cases hx), fun _ _ => rfl⟩
  | c :: cs, m, b, slots, es, rest, h, hc, hne => by
    obtain ⟨ok, m1, added, h1, h2, h3, h4, h5⟩ := parse_file hr h hc c
    cases ok with
    | false =>
      refine ⟨false, m1, added, by rw [parseConfigFilesMem, h1]; rfl, h2, fun hx => (by cases hx), fun _ => ?_, fun hn hx => ?_⟩
      · rw [List.flatMap_cons]
        exact (h4 rfl).trans (List.prefix_append ..)
      · have := hx c (by simp)
        rw [h5 hn] at this
        cases this
    | true =>
      have hp := h3 rfl
      by_cases hcs : cs = []
      · subst hcs
        refine ⟨true, m1, added, by rw [parseConfigFilesMem, h1]; rfl, h2, fun _ => ⟨?_, ?_⟩, fun hx => (by cases hx), fun _ _ => rfl⟩
        · intro x hx
          rw [List.mem_singleton.mp hx, hp]
        · simp [hp]
      · have hee : es ++ added ≠ [] := by
          by_cases he : es = []
          · rcases hne he c cs rfl with hx | hx
            · exact absurd hx hcs
            · rw [hp] at hx
              simp only [he, List.nil_append]
              exact hx
          · simp [he]
        obtain ⟨b', slots', rest', g1, g2⟩ := h2.room hee
        obtain ⟨ok, m2, added', q1, q2, q3, q4, q5⟩ := parse_files hr cs g1 g2 fun hx => absurd hx hee
        refine ⟨ok, m2, added ++ added', ?_, by rwa [← List.append_assoc], fun hx => ⟨?_, ?_⟩, fun hx => ?_, fun hn hx => q5 hn fun c hc => hx c (by simp [hc])⟩
        · rw [parseConfigFilesMem, h1]
          exact q1
        · intro x hx'
          rcases List.mem_cons.mp hx' with rfl | hx'
          · rw [hp]
          · exact (q3 hx).1 x hx'
        · rw [List.flatMap_cons, hp, (q3 hx).2]
        · rw [List.flatMap_cons, hp]
          exact (List.prefix_append_right_inj _).mpr (q4 hx)

end Minijail.ConfMem
