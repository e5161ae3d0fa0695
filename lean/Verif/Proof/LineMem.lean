import Verif.Spec.LineMem
import Verif.Proof.Text
/-! Lines in memory: what `getline` and `getmultiline` do to buffers. -/
set_option linter.unusedSimpArgs false
set_option autoImplicit false
namespace Minijail.LineMem
open Spec (LineRoom LineFreeable LineHolds LineOrdinary OtherMemory MemoryLasts EndsInNewline)

theorem room_freeable {m : LMem} {line : Option Nat} {n : Nat} (h : LineRoom m line n) : LineFreeable m line := by
  intro a ha
  obtain ⟨o, ho, _⟩ := h a ha
  simp [ho]

theorem put_other (m : LMem) (a : Nat) (o : Option (List (Option Char))) (x : Nat) : OtherMemory (m.put a o) (some a) x = OtherMemory m (some a) x := by
  unfold OtherMemory LMem.put
  by_cases h : a = x
  · simp [h]
  · have h' : ¬ x = a := fun e => h e.symm
    simp [h, h']

theorem put_ordinary {m : LMem} {a : Nat} {o o' : Option (List (Option Char))} (h : LineOrdinary m) (ha : m.cells a = o') (hs : o' ≠ none) : LineOrdinary (m.put a o) := by
  intro x hx
  have hxa : x ≠ a := by
    intro e
    exact hs (by rw [← ha, ← e]; exact h x hx)
  show (if x = a then o else m.cells x) = none
  rw [if_neg hxa]; exact h x hx

theorem put_self (m : LMem) (a : Nat) (o : Option (List (Option Char))) : (m.put a o).cells a = o := by simp [LMem.put]

theorem put_ne (m : LMem) {a x : Nat} (o : Option (List (Option Char))) (h : x ≠ a) : (m.put a o).cells x = m.cells x := by simp [LMem.put, h]

theorem alloc_cases (luck : Luck) (o : List (Option Char)) (m : LMem) (h : LineOrdinary m) :
    ((∃ i, luck.fails i = true) ∧ (alloc luck o m).1 = none ∧ LineOrdinary (alloc luck o m).2 ∧ (alloc luck o m).2.cells = m.cells) ∨
    (∃ b, (alloc luck o m).1 = some b ∧ m.cells b = none ∧ (∀ x, (alloc luck o m).2.cells x = if x = b then some o else m.cells x) ∧ LineOrdinary (alloc luck o m).2) := by
  unfold alloc
  by_cases hf : luck.fails m.tries = true
  · left
    rw [if_pos hf]
    exact ⟨⟨_, hf⟩, rfl, h, rfl⟩
  · right
    rw [if_neg hf]
    refine ⟨m.brk, rfl, h _ (Nat.le_refl _), fun x => rfl, ?_⟩
    intro x hx
    have hx' : m.brk + 1 ≤ x := hx
    show (if x = m.brk then some o else m.cells x) = none
    rw [if_neg (by omega)]
    exact h x (by omega)

/-- `realloc`: the object is elsewhere and of the size; or there was no memory and nothing changed. -/
theorem realloc_cases (luck : Luck) (a size : Nat) (m : LMem) (h : LineOrdinary m) (o : List (Option Char)) (ho : m.cells a = some o) :
    ((∃ i, luck.fails i = true) ∧ ∃ m', realloc luck a size m = .ok none m' ∧ LineOrdinary m' ∧ m'.cells = m.cells) ∨
    (∃ b m', realloc luck a size m = .ok (some b) m' ∧ b ≠ a ∧ LineOrdinary m' ∧ m.cells b = none ∧ m'.cells b = some (o.take size ++ List.replicate (size - o.length) none) ∧
      (∀ x, OtherMemory m' (some b) x = OtherMemory m (some a) x)) := by
  unfold realloc
  rw [ho]
  rcases alloc_cases luck (o.take size ++ List.replicate (size - o.length) none) m h with ⟨hf, h1, h2, h3⟩ | ⟨b, h1, h2, h3, h4⟩
  · left
    refine ⟨hf, (alloc luck (o.take size ++ List.replicate (size - o.length) none) m).2, ?_, h2, h3⟩
    dsimp only
    rw [h1]
  · right
    have hba : b ≠ a := by
      intro e; subst e; rw [h2] at ho; cases ho
    refine ⟨b, ((alloc luck (o.take size ++ List.replicate (size - o.length) none) m).2).put a none, ?_, hba, ?_, h2, ?_, ?_⟩
    · dsimp only
      rw [h1]
    · refine put_ordinary (o' := some o) h4 ?_ (by simp)
      rw [h3, if_neg (fun e => hba e.symm)]; exact ho
    · rw [put_ne _ _ hba, h3, if_pos rfl]
    · intro x
      unfold OtherMemory
      by_cases hx : b = x
      · subst hx
        simp [h2]
      · by_cases hxa : x = a
        · subst hxa
          have : ¬ (some b = some x) := by simpa using hx
          rw [if_neg this, put_self]; simp
        · have e1 : ¬ (some b = some x) := by simpa using hx
          have e2 : ¬ (some a = some x) := by simpa using (fun e : a = x => hxa e.symm)
          rw [if_neg e1, if_neg e2, put_ne _ _ hxa, h3, if_neg (fun e => hx e.symm)]

/-- What `getline` leaves. -/
structure GPost (luck : Luck) (line : Option Nat) (st : Stream) (m : LMem) (r : LRet) (m' : LMem) : Prop where
  ord : LineOrdinary m'
  other : ∀ x, OtherMemory m' r.line x = OtherMemory m line x
  room : LineRoom m' r.line r.n
  got : ∀ k, r.ret = some k → ∃ l rest, getline st.rest = some (l, rest) ∧ k = l.length ∧ LineHolds m' r.line l ∧ r.st = ⟨rest, st.eof || l.getLast? != some '\n'⟩
  gone : r.ret = none → (getline st.rest = none ∧ r.st = { st with eof := true }) ∨ ((∃ i, luck.fails i = true) ∧ r.st.eof = st.eof)

theorem store_ok (luck : Luck) (a n : Nat) (l rest : CStr) (st : Stream) (m : LMem) (h : LineOrdinary m) (o : List (Option Char)) (ho : m.cells a = some o)
    (hn : n ≤ o.length) (hl : l.length + 1 ≤ n) (hg : getline st.rest = some (l, rest)) :
    ∃ r m', store a n l ⟨rest, st.eof || l.getLast? != some '\n'⟩ m = .ok r m' ∧ GPost luck (some a) st m r m' := by
  unfold store
  rw [ho]
  dsimp only
  rw [if_pos (by omega)]
  refine ⟨_, _, rfl, put_ordinary h ho (by simp), fun x => put_other m a _ x, ?_, ?_, ?_⟩
  · intro b hb
    cases hb
    refine ⟨_, put_self _ _ _, ?_⟩
    simp only [List.length_append, List.length_map, List.length_cons, List.length_drop]
    omega
  · intro k hk
    cases hk
    exact ⟨l, rest, hg, rfl, ⟨a, _, rfl, put_self _ _ _⟩, rfl⟩
  · intro hk; cases hk

theorem getlineInto_ok (luck : Luck) (a n : Nat) (st : Stream) (m : LMem) (h : LineOrdinary m) (hr : LineRoom m (some a) n) :
    ∃ r m', getlineInto luck a n st m = .ok r m' ∧ GPost luck (some a) st m r m' := by
  obtain ⟨o, ho, hn⟩ := hr a rfl
  unfold getlineInto
  rw [ho]
  dsimp only
  rw [if_neg (by omega)]
  cases hg : getline st.rest with
  | none =>
    refine ⟨_, _, rfl, h, fun _ => rfl, hr, ?_, ?_⟩
    · intro k hk; cases hk
    · intro _; exact .inl ⟨hg, rfl⟩
  | some p =>
    obtain ⟨l, rest⟩ := p
    dsimp only
    by_cases hl : l.length + 1 ≤ n
    · rw [if_pos hl]
      exact store_ok luck a n l rest st m h o ho hn hl hg
    · rw [if_neg hl]
      rcases realloc_cases luck a (l.length + 1 + luck.slack m.tries) m h o ho with ⟨hf, m', h1, h2, h3⟩ | ⟨b, m', h1, hba, h2, hb, h3, h4⟩
      · rw [h1]
        refine ⟨_, _, rfl, h2, ?_, ?_, ?_, ?_⟩
        · intro x; unfold OtherMemory; rw [h3]
        · intro c hc
          cases hc
          exact ⟨o, by rw [h3]; exact ho, hn⟩
        · intro k hk; cases hk
        · intro _; exact .inr ⟨hf, rfl⟩
      · rw [h1]
        obtain ⟨r, m'', e, p⟩ := store_ok luck b (l.length + 1 + luck.slack m.tries) l rest st m' h2 _ h3
          (by simp only [List.length_append, List.length_take, List.length_replicate]; omega) (by omega) hg
        refine ⟨r, m'', e, p.ord, fun x => (p.other x).trans (h4 x), p.room, p.got, p.gone⟩

theorem getlineMem_ok (luck : Luck) (line : Option Nat) (n : Nat) (st : Stream) (m : LMem) (h : LineOrdinary m) (hr : LineRoom m line n) :
    ∃ r m', getlineMem luck line n st m = .ok r m' ∧ GPost luck line st m r m' := by
  unfold getlineMem
  cases line with
  | some a => exact getlineInto_ok luck a n st m h hr
  | none =>
    dsimp only
    rcases alloc_cases luck (List.replicate (1 + luck.slack m.tries) none) m h with ⟨hf, h1, h2, h3⟩ | ⟨b, h1, h2, h3, h4⟩
    · rw [h1]
      refine ⟨_, _, rfl, h2, ?_, ?_, ?_, ?_⟩
      · intro x; unfold OtherMemory; rw [h3]
      · intro c hc; cases hc
      · intro k hk; cases hk
      · intro _; exact .inr ⟨hf, rfl⟩
    · rw [h1]
      have hroom : LineRoom (alloc luck (List.replicate (1 + luck.slack m.tries) none) m).2 (some b) (1 + luck.slack m.tries) := by
        intro c hc
        cases hc
        refine ⟨_, by rw [h3, if_pos rfl], by simp⟩
      obtain ⟨r, m', e, p⟩ := getlineInto_ok luck b (1 + luck.slack m.tries) st _ h4 hroom
      refine ⟨r, m', e, p.ord, ?_, p.room, p.got, p.gone⟩
      intro x
      rw [p.other x]
      unfold OtherMemory
      by_cases hx : b = x
      · subst hx; simp [h2]
      · have e1 : ¬ (some b = some x) := by simpa using hx
        rw [if_neg e1, h3, if_neg (fun e => hx e.symm)]
        simp

/-! ### The bytes of a line -/

theorem holds_readByte {m : LMem} {a : Nat} {t : CStr} {c : Char} (h : LineHolds m (some a) (t ++ [c])) : readByte a t.length m = some c := by
  obtain ⟨b, junk, hb, hc⟩ := h
  cases hb
  unfold readByte
  rw [hc]
  simp

/-- Ending a line one character earlier. -/
theorem holds_writeByte {m : LMem} {a : Nat} {t : CStr} {c : Char} {n : Nat} (ho : LineOrdinary m) (h : LineHolds m (some a) (t ++ [c])) (hn : LineRoom m (some a) n) :
    ∃ m', writeByte a t.length '\x00' m = .ok () m' ∧ LineOrdinary m' ∧ LineHolds m' (some a) t ∧ LineRoom m' (some a) n ∧ ∀ x, OtherMemory m' (some a) x = OtherMemory m (some a) x := by
  obtain ⟨b, junk, hb, hc⟩ := h
  cases hb
  obtain ⟨o, ho1, ho2⟩ := hn a rfl
  rw [hc] at ho1
  cases ho1
  unfold writeByte
  rw [hc]
  dsimp only
  rw [if_pos (by simp)]
  refine ⟨_, rfl, put_ordinary ho hc (by simp), ⟨a, some '\x00' :: junk, rfl, ?_⟩, ?_, fun x => put_other m a _ x⟩
  · rw [put_self]
    congr 1
    simp only [List.map_append, List.map_cons, List.map_nil, List.append_assoc, List.cons_append, List.nil_append]
    rw [List.set_append_right _ _ (by simp)]
    simp
  · intro b hb
    cases hb
    exact ⟨_, put_self _ _ _, by simpa using ho2⟩

theorem eatNewline_snoc (t : CStr) (c : Char) : eatNewline (t ++ [c]) = if c = '\n' then t else t ++ [c] := by
  unfold eatNewline
  by_cases h : c = '\n' <;> simp [h]

theorem eatNewlineMem_ok {m : LMem} {a n : Nat} {l : CStr} (ho : LineOrdinary m) (h : LineHolds m (some a) l) (hn : LineRoom m (some a) n) (hne : l ≠ []) :
    ∃ m', eatNewlineMem a l.length m = .ok (eatNewline l).length m' ∧ LineOrdinary m' ∧ LineHolds m' (some a) (eatNewline l) ∧ LineRoom m' (some a) n ∧
      ∀ x, OtherMemory m' (some a) x = OtherMemory m (some a) x := by
  obtain ⟨t, c, rfl⟩ : ∃ t c, l = t ++ [c] := ⟨l.dropLast, l.getLast hne, (List.dropLast_concat_getLast hne).symm⟩
  unfold eatNewlineMem
  rw [if_pos (by simp)]
  have hlen : (t ++ [c]).length - 1 = t.length := by simp
  rw [hlen, holds_readByte h, eatNewline_snoc]
  dsimp only
  by_cases hc : c = '\n'
  · obtain ⟨m', h1, h2, h3, h4, h5⟩ := holds_writeByte ho h hn
    rw [if_pos hc, if_pos hc, h1]
    exact ⟨m', rfl, h2, h3, h4, h5⟩
  · rw [if_neg hc, if_neg hc]
    exact ⟨m, rfl, ho, h, hn, fun _ => rfl⟩

theorem continues_ok {m : LMem} {a : Nat} {l : CStr} (h : LineHolds m (some a) l) : continues a l.length m = some (decide (l.getLast? = some '\\')) := by
  unfold continues
  cases hne : l with
  | nil => simp
  | cons d l' =>
    have hne' : l ≠ [] := by rw [hne]; simp
    rw [← hne]
    obtain ⟨t, c, htc⟩ : ∃ t c, l = t ++ [c] := ⟨l.dropLast, l.getLast hne', (List.dropLast_concat_getLast hne').symm⟩
    rw [htc] at h ⊢
    rw [if_neg (by simp)]
    have hlen : (t ++ [c]).length - 1 = t.length := by simp
    rw [hlen, holds_readByte h]
    by_cases hc : c = '\\' <;> simp [hc]

/-! ### Lines that go on -/

theorem other_some {m m' : LMem} {line line' : Option Nat} {x : Nat} {o : List (Option Char)} (h : OtherMemory m' line' x = OtherMemory m line x) (hx : line ≠ some x)
    (ho : m.cells x = some o) : line' ≠ some x ∧ m'.cells x = some o := by
  unfold OtherMemory at h
  rw [if_neg hx, ho] at h
  by_cases hl : line' = some x
  · rw [if_pos hl] at h; cases h
  · rw [if_neg hl] at h; exact ⟨hl, h⟩

theorem merge_ok (luck : Luck) (a src : Nat) (t text : CStr) (next : LRet) (m : LMem) (h : LineOrdinary m) (ha : LineHolds m (some a) t) (hsrc : next.line = some src) (hne : src ≠ a)
    (hs : LineHolds m (some src) text) :
    (∃ m', merge luck a t.length next text.length m = .ok ⟨none, some a, t.length + text.length + 2, next.st⟩ m' ∧ (∃ i, luck.fails i = true) ∧ LineOrdinary m' ∧ m'.cells = m.cells) ∨
    (∃ b m', merge luck a t.length next text.length m = .ok ⟨some (t ++ ' ' :: text).length, some b, t.length + text.length + 2, next.st⟩ m' ∧ LineOrdinary m' ∧
      LineHolds m' (some b) (t ++ ' ' :: text) ∧ LineRoom m' (some b) (t.length + text.length + 2) ∧ ∀ x, OtherMemory m' (some b) x = OtherMemory m (some a) x) := by
  obtain ⟨a', junk, ha', hc⟩ := ha
  cases ha'
  obtain ⟨s', junk', hs', hcs⟩ := hs
  cases hs'
  unfold merge
  dsimp only
  rcases realloc_cases luck a (t.length + text.length + 2) m h _ hc with ⟨hf, m', h1, h2, h3⟩ | ⟨b, m', h1, hba, h2, hb, h3, h4⟩
  · left
    rw [h1]
    exact ⟨m', rfl, hf, h2, h3⟩
  · right
    rw [h1]
    obtain ⟨hbs, hms⟩ := other_some (h4 src) (by simpa using fun e : a = src => hne e.symm) hcs
    have hbs' : src ≠ b := by intro e; exact hbs (by rw [e])
    -- the first bytes are those of the line
    obtain ⟨tail, htail, hlen⟩ : ∃ tail, List.take (t.length + text.length + 2) (List.map some t ++ some '\x00' :: junk) ++
        List.replicate (t.length + text.length + 2 - (List.map some t ++ some '\x00' :: junk).length) none = List.map some t ++ tail ∧ tail.length = text.length + 2 := by
      refine ⟨List.take (text.length + 2) (some '\x00' :: junk) ++
        List.replicate (t.length + text.length + 2 - (List.map some t ++ some '\x00' :: junk).length) none, ?_, ?_⟩
      · rw [← List.append_assoc]
        congr 1
        rw [List.take_append]
        congr 1
        · rw [List.take_of_length_le]; simp; omega
        · congr 1; simp; omega
      · simp only [List.length_append, List.length_take, List.length_replicate, List.length_cons, List.length_map]; omega
    rw [htail] at h3
    obtain ⟨c0, tail', rfl⟩ : ∃ c0 tail', tail = c0 :: tail' := by
      cases tail with
      | nil => simp at hlen
      | cons c0 tail' => exact ⟨c0, tail', rfl⟩
    have hlen' : tail'.length = text.length + 1 := by simpa using hlen
    have hw : writeByte b t.length ' ' m' = .ok () (m'.put b (some (List.map some t ++ some ' ' :: tail'))) := by
      unfold writeByte
      rw [h3]
      dsimp only
      rw [if_pos (by simp), List.set_append_right _ _ (by simp)]
      simp
    have hcp : copyBytes b (t.length + 1) src (text.length + 1) (m'.put b (some (List.map some t ++ some ' ' :: tail'))) =
        .ok () ((m'.put b (some (List.map some t ++ some ' ' :: tail'))).put b (some (List.map some (t ++ ' ' :: text) ++ [some '\x00']))) := by
      unfold copyBytes
      rw [put_self, put_ne _ _ hbs', hms]
      dsimp only
      rw [if_pos (by simp only [List.length_append, List.length_map, List.length_cons]; omega)]
      congr 3
      have e1 : List.take (t.length + 1) (List.map some t ++ some ' ' :: tail') = List.map some t ++ [some ' '] := by
        rw [List.take_append]
        rw [List.take_of_length_le (by simp)]
        simp
      have e2 : List.take (text.length + 1) (List.map some text ++ some '\x00' :: junk') = List.map some text ++ [some '\x00'] := by
        rw [List.take_append]
        rw [List.take_of_length_le (by simp)]
        simp
      have e3 : List.drop (t.length + 1 + (text.length + 1)) (List.map some t ++ some ' ' :: tail') = [] := by
        apply List.drop_of_length_le
        simp only [List.length_append, List.length_map, List.length_cons]; omega
      rw [e1, e2, e3]
      simp
    refine ⟨b, (m'.put b (some (List.map some t ++ some ' ' :: tail'))).put b (some (List.map some (t ++ ' ' :: text) ++ [some '\x00'])), ?_, ?_, ⟨b, [], rfl, put_self _ _ _⟩, ?_, ?_⟩
    · have hl : t.length + text.length + 2 - 1 = (t ++ ' ' :: text).length := by
        simp only [List.length_append, List.length_cons]; omega
      simp only [L.bind, hw, hsrc, hcp, hl]
    · exact put_ordinary (put_ordinary h2 h3 (by simp)) (put_self _ _ _) (by simp)
    · intro c hc'
      cases hc'
      exact ⟨_, put_self _ _ _, by simp; omega⟩
    · intro x
      rw [put_other, put_other]
      exact h4 x

theorem ends_getline {s l rest : CStr} (h : EndsInNewline s) (hg : getline s = some (l, rest)) : l.getLast? = some '\n' ∧ EndsInNewline rest := by
  rcases getline_cases s with rfl | ⟨l', hs, hne, hn, hg', _⟩ | ⟨l', rest', hs, hn, hg', _⟩
  · simp [getline] at hg
  · exfalso
    rcases h with h | h
    · rw [← hs] at hne; exact hne h
    · rw [← hs] at hn; exact hn (List.mem_of_getLast? h)
  · rw [hg'] at hg
    simp only [Option.some.injEq, Prod.mk.injEq] at hg
    obtain ⟨rfl, rfl⟩ := hg
    refine ⟨by simp, ?_⟩
    rcases h with h | h
    · rw [hs] at h; simp at h
    · cases hr : rest' with
      | nil => exact .inl rfl
      | cons c r =>
        right
        rw [hs, hr] at h
        simpa [List.getLast?_append, List.getLast?_cons_cons] using h

theorem getline_ne_nil {s l rest : CStr} (hg : getline s = some (l, rest)) : l ≠ [] := by
  rcases getline_cases s with rfl | ⟨l', hs, hne, hn, hg', _⟩ | ⟨l', rest', hs, hn, hg', _⟩
  · simp [getline] at hg
  · rw [hg'] at hg
    simp only [Option.some.injEq, Prod.mk.injEq] at hg
    rw [← hg.1]; exact hne
  · rw [hg'] at hg
    simp only [Option.some.injEq, Prod.mk.injEq] at hg
    rw [← hg.1]; simp

/-- What `getmultiline` leaves. -/
structure MPost (luck : Luck) (line : Option Nat) (st : Stream) (m : LMem) (r : LRet) (m' : LMem) : Prop where
  ord : LineOrdinary m'
  other : ∀ x, OtherMemory m' r.line x = OtherMemory m line x
  free : LineFreeable m' r.line
  got : ∀ k, r.ret = some k → ∃ text, getmultiline st.rest = some (text, r.st.rest) ∧ k = text.length ∧ LineHolds m' r.line text ∧ LineRoom m' r.line r.n ∧
    (EndsInNewline st.rest → st.eof = false → EndsInNewline r.st.rest ∧ r.st.eof = false)
  gone : r.ret = none → (getmultiline st.rest = none ∧ r.st.eof = true) ∨
    ((∃ i, luck.fails i = true) ∧ (EndsInNewline st.rest → st.eof = false → r.st.eof = false))

theorem free_ok {m : LMem} {p : Option Nat} (h : LineOrdinary m) (hf : LineFreeable m p) :
    ∃ m', free p m = .ok () m' ∧ LineOrdinary m' ∧ ∀ x, m'.cells x = OtherMemory m p x := by
  cases p with
  | none => exact ⟨m, rfl, h, fun x => by simp [OtherMemory]⟩
  | some a =>
    unfold free
    cases ha : m.cells a with
    | none => exact absurd ha (hf a rfl)
    | some o =>
      refine ⟨m.put a none, by simp only [ha], put_ordinary h ha (by simp), ?_⟩
      intro x
      unfold OtherMemory LMem.put
      by_cases hx : a = x
      · simp [hx]
      · have : ¬ x = a := fun e => hx e.symm
        simp [hx, this]

theorem joinNext_ok (luck : Luck) (a n : Nat) (t : CStr) (st : Stream) (next : LRet) (m1 m2 : LMem) (ho1 : LineOrdinary m1) (ha : LineHolds m1 (some a) t)
    (hn : LineRoom m1 (some a) n) (p : MPost luck none st m1 next m2) :
    ∃ r m', joinNext luck a n t.length next m2 = .ok r m' ∧ LineOrdinary m' ∧ (∀ x, OtherMemory m' r.line x = OtherMemory m1 (some a) x) ∧ LineFreeable m' r.line ∧ r.st = next.st ∧
      (∀ k, r.ret = some k → ∃ text, next.ret = some text.length ∧ getmultiline st.rest = some (text, next.st.rest) ∧ k = (t ++ ' ' :: text).length ∧
        LineHolds m' r.line (t ++ ' ' :: text) ∧ LineRoom m' r.line r.n) ∧
      (r.ret = none → next.ret = none ∨ ((∃ i, luck.fails i = true) ∧ ∃ k, next.ret = some k)) := by
  obtain ⟨a', junk, ha', hc⟩ := ha
  cases ha'
  obtain ⟨hna, hma⟩ := other_some (p.other a) (by simp) hc
  have hall : ∀ x, OtherMemory m2 next.line x = m1.cells x := fun x => by rw [p.other x]; simp [OtherMemory]
  unfold joinNext
  cases hr : next.ret with
  | none =>
    obtain ⟨m', h1, h2, h3⟩ := free_ok p.ord p.free
    have hcells : ∀ x, m'.cells x = m1.cells x := fun x => (h3 x).trans (hall x)
    refine ⟨⟨none, some a, n, next.st⟩, m', by simp only [L.bind, h1], h2, ?_, ?_, rfl, ?_, fun _ => .inl rfl⟩
    · intro x; unfold OtherMemory; rw [hcells x]
    · intro b hb; cases hb; rw [hcells]; simp [hc]
    · intro k hk; cases hk
  | some k =>
    obtain ⟨text, hg, hk, hh, hroom, _⟩ := p.got k hr
    subst hk
    obtain ⟨src, junk', hsrc, hcs⟩ := hh
    have hne : src ≠ a := by intro e; subst e; exact hna hsrc
    rcases merge_ok luck a src t text next m2 p.ord ⟨a, junk, rfl, hma⟩ hsrc hne ⟨src, junk', rfl, hcs⟩ with ⟨m3, h1, hf, h2, h3⟩ | ⟨b, m3, h1, h2, hh3, hr3, h3⟩
    · obtain ⟨m', e1, e2, e3⟩ := free_ok (p := next.line) h2 (fun c hc' => by rw [h3]; exact p.free c hc')
      have hcells : ∀ x, m'.cells x = m1.cells x := fun x => by
        rw [e3 x, ← hall x]; unfold OtherMemory; rw [h3]
      refine ⟨⟨none, some a, t.length + text.length + 2, next.st⟩, m', by simp only [L.bind, h1, e1], e2, ?_, ?_, rfl, ?_, fun _ => .inr ⟨hf, _, rfl⟩⟩
      · intro x; unfold OtherMemory; rw [hcells x]
      · intro b hb; cases hb; rw [hcells]; simp [hc]
      · intro k hk; cases hk
    · obtain ⟨hbs, hsm⟩ := other_some (h3 src) (by simpa using fun e : a = src => hne e.symm) hcs
      have hsb : b ≠ src := by simpa using hbs
      obtain ⟨m', e1, e2, e3⟩ := free_ok (p := next.line) h2 (fun c hc' => by
        rw [hsrc] at hc'; cases hc'; rw [hsm]; simp)
      have hb : m'.cells b = m3.cells b := by
        rw [e3 b, hsrc]; unfold OtherMemory; rw [if_neg (by simpa using fun e : src = b => hsb e.symm)]
      refine ⟨⟨some (t ++ ' ' :: text).length, some b, t.length + text.length + 2, next.st⟩, m', by simp only [L.bind, h1, e1], e2, ?_, ?_, rfl, ?_, fun hk => by cases hk⟩
      · intro x
        show OtherMemory m' (some b) x = _
        have h3x := h3 x
        have hallx := hall x
        have e3x := e3 x
        rw [hsrc] at hallx e3x
        unfold OtherMemory at *
        by_cases hxb : b = x
        · subst hxb
          rw [if_pos rfl] at h3x ⊢
          by_cases hab : a = b
          · subst hab; simp
          · have e : ¬ (some a = some b) := by simpa using hab
            have e' : ¬ (some src = some b) := by simpa using fun e : src = b => hsb e.symm
            rw [if_neg e] at h3x ⊢
            rw [if_neg e'] at hallx
            rw [← hallx]; exact h3x
        · have e : ¬ (some b = some x) := by simpa using hxb
          rw [if_neg e] at h3x ⊢
          rw [e3x]
          by_cases hsx : src = x
          · subst hsx
            rw [if_pos rfl] at hallx ⊢
            rw [if_neg (by simpa using fun e : a = src => hne e.symm), ← hallx]
          · have e' : ¬ (some src = some x) := by simpa using hsx
            rw [if_neg e'] at hallx ⊢
            rw [h3x, hallx]
      · intro c hc'
        cases hc'
        rw [hb]
        exact room_freeable hr3 b rfl
      · intro k hk
        cases hk
        refine ⟨text, rfl, hg, rfl, ?_, ?_⟩
        · obtain ⟨b', j, hb', hj⟩ := hh3
          cases hb'
          exact ⟨b, j, rfl, by rw [hb]; exact hj⟩
        · intro c hc'
          cases hc'
          obtain ⟨o, ho, hlo⟩ := hr3 b rfl
          exact ⟨o, by rw [hb]; exact ho, hlo⟩

theorem getmultilineMem_ok (luck : Luck) : ∀ (fuel : Nat) (line : Option Nat) (n : Nat) (st : Stream) (m : LMem), LineOrdinary m → LineRoom m line n → st.rest.length < fuel →
    ∃ r m', getmultilineMem luck fuel line n st m = .ok r m' ∧ MPost luck line st m r m' := by
  intro fuel
  induction fuel with
  | zero => intro line n st m _ _ h; omega
  | succ fuel ih =>
    intro line n st m ho hr hlen
    obtain ⟨r, m1, h1, p⟩ := getlineMem_ok luck line n st m ho hr
    unfold getmultilineMem
    rw [h1]
    simp only [L.bind]
    cases hret : r.ret with
    | none =>
      refine ⟨r, m1, rfl, p.ord, p.other, room_freeable p.room, ?_, ?_⟩
      · intro k hk; rw [hret] at hk; cases hk
      · intro _
        rcases p.gone hret with ⟨hg, hst⟩ | ⟨hf, hst⟩
        · left
          rw [getmultiline_eq, hg, hst]
          exact ⟨rfl, rfl⟩
        · right
          exact ⟨hf, fun _ h => by rw [hst]; exact h⟩
    | some k =>
      obtain ⟨l, rest, hg, hk, hh, hst⟩ := p.got k hret
      subst hk
      have hne := getline_ne_nil hg
      have hshort := getline_length hg
      obtain ⟨a, junk, hline, hcell⟩ := hh
      have hroom : LineRoom m1 (some a) r.n := by rw [← hline]; exact p.room
      have hother : ∀ x, OtherMemory m1 (some a) x = OtherMemory m line x := fun x => by rw [← hline]; exact p.other x
      obtain ⟨m2, e1, o2, hh2, r2, oth2⟩ := eatNewlineMem_ok p.ord ⟨a, junk, rfl, hcell⟩ hroom hne
      simp only [hline, e1, continues_ok hh2]
      have hends : EndsInNewline st.rest → st.eof = false → EndsInNewline r.st.rest ∧ r.st.eof = false := by
        intro he hf
        obtain ⟨hl, hrest⟩ := ends_getline he hg
        rw [hst]
        exact ⟨hrest, by simp [hl, hf]⟩
      by_cases hb : (eatNewline l).getLast? = some '\\'
      · have hd : decide ((eatNewline l).getLast? = some '\\') = true := by simpa using hb
        simp only [hd]
        have hne2 : eatNewline l ≠ [] := by intro e; rw [e] at hb; simp at hb
        obtain ⟨t, c, htc⟩ : ∃ t c, eatNewline l = t ++ [c] := ⟨_, _, (List.dropLast_concat_getLast hne2).symm⟩
        have hlen2 : (eatNewline l).length - 1 = t.length := by rw [htc]; simp
        rw [hlen2]
        rw [htc] at hh2
        obtain ⟨m3, e3, o3, hh3, r3, oth3⟩ := holds_writeByte o2 hh2 r2
        simp only [e3]
        have hrest : r.st.rest = rest := by rw [hst]
        obtain ⟨next, m4, e4, p4⟩ := ih none 0 r.st m3 o3 (fun a h => by cases h) (by rw [hrest]; omega)
        simp only [e4]
        obtain ⟨res, m5, e5, o5, oth5, f5, st5, got5, gone5⟩ := joinNext_ok luck a r.n t r.st next m3 m4 o3 hh3 r3 p4
        have hgm : getmultiline st.rest = match getmultiline r.st.rest with
            | none => none
            | some (next, rest') => some (t ++ ' ' :: next, rest') := by
          rw [getmultiline_eq, hg, hrest]
          dsimp only
          rw [if_pos hb, htc, List.dropLast_concat]
          cases getmultiline rest <;> rfl
        refine ⟨res, m5, e5, o5, ?_, f5, ?_, ?_⟩
        · intro x
          rw [oth5, oth3, oth2, hother]
        · intro k hk
          obtain ⟨text, hnr, hgt, hkl, hho, hro⟩ := got5 k hk
          refine ⟨t ++ ' ' :: text, ?_, hkl, hho, hro, ?_⟩
          · rw [hgm, hgt, st5]
          · intro he hf
            obtain ⟨q1, q2⟩ := hends he hf
            obtain ⟨_, _, _, _, _, q3⟩ := p4.got _ hnr
            rw [st5]
            exact q3 q1 q2
        · intro hk
          rcases gone5 hk with hn | ⟨hf, k, hn⟩
          · rcases p4.gone hn with ⟨g1, g2⟩ | ⟨g1, g2⟩
            · left
              rw [hgm, g1, st5]
              exact ⟨rfl, g2⟩
            · right
              refine ⟨g1, fun he hf => ?_⟩
              rw [st5]
              exact g2 (hends he hf).1 (hends he hf).2
          · right
            refine ⟨hf, fun he hf' => ?_⟩
            obtain ⟨_, _, _, _, _, q3⟩ := p4.got _ hn
            rw [st5]
            exact (q3 (hends he hf').1 (hends he hf').2).2
      · have hd : decide ((eatNewline l).getLast? = some '\\') = false := by simpa using hb
        simp only [hd]
        refine ⟨_, m2, rfl, o2, ?_, ?_, ?_, fun hk => by cases hk⟩
        · intro x
          show OtherMemory m2 (some a) x = _
          rw [oth2, hother]
        · exact room_freeable r2
        · intro k hk
          cases hk
          refine ⟨eatNewline l, ?_, rfl, ?_, ?_, hends⟩
          · rw [getmultiline_eq, hg, hst]
            simp only [hb, if_false]
          · exact hh2
          · exact r2

theorem logical_of_some {s text rest : CStr} (h : getmultiline s = some (text, rest)) : Spec.logicalLines s = text :: Spec.logicalLines rest := by
  rcases getmultiline_spec s.length s (Nat.le_refl _) with ⟨h1, _⟩ | ⟨l, r, h1, h2⟩
  · rw [h] at h1; cases h1
  · rw [h] at h1
    simp only [Option.some.injEq, Prod.mk.injEq] at h1
    obtain ⟨rfl, rfl⟩ := h1
    exact h2

theorem logical_of_none {s : CStr} (h : getmultiline s = none) : Spec.logicalLines s = [] := by
  rcases getmultiline_spec s.length s (Nat.le_refl _) with ⟨_, h2⟩ | ⟨l, r, h1, h2⟩
  · exact h2
  · rw [h] at h1; cases h1

theorem holds_textAt {m : LMem} {a : Nat} {text : CStr} (h : LineHolds m (some a) text) : textAt a text.length m = some text := by
  obtain ⟨b, junk, hb, hc⟩ := h
  cases hb
  unfold textAt
  rw [hc]
  dsimp only
  rw [if_pos (by simp)]
  have e : List.take text.length (List.map some text ++ some '\x00' :: junk) = List.map some text := by
    rw [List.take_append, List.take_of_length_le (by simp)]
    simp
  rw [e]
  clear e hc
  induction text with
  | nil => rfl
  | cons c t ih => simp [List.mapM_cons] at ih ⊢; simp [ih]

/-- What the loop that reads a file leaves. -/
theorem readAll_ok (luck : Luck) (used : List (Option Char) → List (Option Char)) (hu : ∀ o, (used o).length = o.length) :
    ∀ (fuel : Nat) (line : Option Nat) (n : Nat) (st : Stream) (m : LMem), LineOrdinary m → LineRoom m line n → st.rest.length < fuel →
    ∃ ls done m', readAll luck used fuel line n st m = .ok (ls, done) m' ∧ (∀ x, m'.cells x = OtherMemory m line x) ∧ ls <+: Spec.logicalLines st.rest ∧
      (MemoryLasts luck → ls = Spec.logicalLines st.rest ∧ done = true) ∧
      (EndsInNewline st.rest → st.eof = false → done = true → ls = Spec.logicalLines st.rest) := by
  intro fuel
  induction fuel with
  | zero => intro line n st m _ _ h; omega
  | succ fuel ih =>
    intro line n st m ho hr hlen
    obtain ⟨r, m1, h1, p⟩ := getmultilineMem_ok luck (st.rest.length + 1) line n st m ho hr (by omega)
    unfold readAll
    rw [h1]
    simp only [L.bind]
    cases hret : r.ret with
    | none =>
      obtain ⟨m2, e2, o2, c2⟩ := free_ok p.ord p.free
      simp only [e2]
      refine ⟨[], r.st.eof, m2, rfl, fun x => (c2 x).trans (p.other x), List.nil_prefix, ?_, ?_⟩
      · intro hm
        rcases p.gone hret with ⟨g1, g2⟩ | ⟨⟨i, hi⟩, _⟩
        · exact ⟨(logical_of_none g1).symm, g2⟩
        · rw [hm i] at hi; cases hi
      · intro he hf hd
        rcases p.gone hret with ⟨g1, g2⟩ | ⟨_, g2⟩
        · exact (logical_of_none g1).symm
        · rw [g2 he hf] at hd; cases hd
    | some k =>
      obtain ⟨text, hg, hk, hh, hroom, hends⟩ := p.got k hret
      subst hk
      obtain ⟨a, junk, hline, hc⟩ := hh
      have hlog := logical_of_some hg
      have hshort := getmultiline_length st.rest.length (Nat.le_refl _) hg
      simp only [hline, holds_textAt ⟨a, junk, rfl, hc⟩, hc]
      obtain ⟨o, ho', hn⟩ := hroom a hline
      rw [hc] at ho'
      cases ho'
      obtain ⟨ls, done, m2, e2, c2, pre, all, compl⟩ := ih (some a) r.n r.st (m1.put a (some (used (List.map some text ++ some '\x00' :: junk)))) (put_ordinary p.ord hc (by simp))
        (by intro b hb; cases hb; exact ⟨_, put_self _ _ _, by rw [hu]; exact hn⟩) (by omega)
      rw [e2]
      refine ⟨text :: ls, done, m2, rfl, ?_, ?_, ?_, ?_⟩
      · intro x
        rw [c2, put_other, ← p.other x, hline]
      · rw [hlog]; exact List.cons_prefix_cons.2 ⟨rfl, pre⟩
      · intro hm
        rw [hlog, (all hm).1]
        exact ⟨rfl, (all hm).2⟩
      · intro he hf hd
        rw [hlog, compl (hends he hf).1 (hends he hf).2 hd]

end Minijail.LineMem
