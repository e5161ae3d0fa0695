import Verif.Spec.Lex
import Verif.Proof.Text
/-! The tokens of the offline compiler are those of its regular expressions. -/
set_option autoImplicit false
set_option linter.unusedSimpArgs false
namespace Minijail
open Spec Offline

/-! ### Classes of characters -/

theorem wordChar_eq : wordChar = isPyWord := by
  funext c
  simp [wordChar, isPyWord, Char.isAlphanum]

theorem spaceChar_eq : spaceChar = isPySpace := by
  funext c
  have key : ∀ d : Char, c = d ↔ c.toNat = d.toNat := fun d => ⟨fun h => by rw [h], fun h => by
    rw [← Char.ofNat_toNat c, h, Char.ofNat_toNat]⟩
  rw [Bool.eq_iff_iff]
  simp only [spaceChar, isPySpace, Bool.or_eq_true, Bool.and_eq_true, beq_iff_eq, decide_eq_true_eq, List.mem_cons, List.not_mem_nil, or_false]
  rw [key ' ', key '\t', key '\n', key '\x0b', key '\x0c', key '\r', key '\x1c', key '\x1d', key '\x1e', key '\x1f']
  simp only [show ' '.toNat = 32 from rfl, show '\t'.toNat = 9 from rfl, show '\n'.toNat = 10 from rfl, show '\x0b'.toNat = 11 from rfl,
    show '\x0c'.toNat = 12 from rfl, show '\r'.toNat = 13 from rfl, show '\x1c'.toNat = 28 from rfl, show '\x1d'.toNat = 29 from rfl,
    show '\x1e'.toNat = 30 from rfl, show '\x1f'.toNat = 31 from rfl]
  omega

theorem char_le {a b : Char} : a ≤ b ↔ a.toNat ≤ b.toNat := by
  rw [Char.le_def, UInt32.le_iff_toNat_le]
  rfl

theorem isDigit_nat (c : Char) : c.isDigit = (decide (48 ≤ c.toNat) && decide (c.toNat ≤ 57)) := by
  rw [Bool.eq_iff_iff]
  simp only [Char.isDigit, Bool.and_eq_true, decide_eq_true_eq, ge_iff_le, UInt32.le_iff_toNat_le]
  rfl

theorem isDigitIn_nat (b : Nat) (c : Char) : isDigitIn b c = true ↔
    48 ≤ c.toNat ∧ c.toNat ≤ 57 ∧ c.toNat - 48 < b ∨ 97 ≤ c.toNat ∧ c.toNat ≤ 122 ∧ c.toNat - 97 + 10 < b ∨ 65 ≤ c.toNat ∧ c.toNat ≤ 90 ∧ c.toNat - 65 + 10 < b := by
  unfold isDigitIn digitVal
  simp only [char_le, show '0'.toNat = 48 from rfl, show '9'.toNat = 57 from rfl, show 'a'.toNat = 97 from rfl, show 'z'.toNat = 122 from rfl,
    show 'A'.toNat = 65 from rfl, show 'Z'.toNat = 90 from rfl]
  by_cases h1 : 48 ≤ c.toNat ∧ c.toNat ≤ 57
  · rw [if_pos h1]; simp only [decide_eq_true_eq]; omega
  · rw [if_neg h1]
    by_cases h2 : 97 ≤ c.toNat ∧ c.toNat ≤ 122
    · rw [if_pos h2]; simp only [decide_eq_true_eq]; omega
    · rw [if_neg h2]
      by_cases h3 : 65 ≤ c.toNat ∧ c.toNat ≤ 90
      · rw [if_pos h3]; simp only [decide_eq_true_eq]; omega
      · rw [if_neg h3]; simp only [Bool.false_eq_true, false_iff]; omega

theorem hexChar_eq : hexChar = isDigitIn 16 := by
  funext c
  rw [Bool.eq_iff_iff, isDigitIn_nat]
  simp only [hexChar, isDigit_nat, Bool.or_eq_true, Bool.and_eq_true, decide_eq_true_eq, char_le, show 'a'.toNat = 97 from rfl, show 'f'.toNat = 102 from rfl,
    show 'A'.toNat = 65 from rfl, show 'F'.toNat = 70 from rfl]
  omega

theorem octalChar_eq : octalChar = isDigitIn 8 := by
  funext c
  rw [Bool.eq_iff_iff, isDigitIn_nat]
  simp only [octalChar, Bool.or_eq_true, Bool.and_eq_true, decide_eq_true_eq, char_le, show '0'.toNat = 48 from rfl, show '7'.toNat = 55 from rfl]
  omega

theorem decimalChar_eq : Char.isDigit = isDigitIn 10 := by
  funext c
  rw [Bool.eq_iff_iff, isDigitIn_nat]
  simp only [isDigit_nat, Bool.and_eq_true, decide_eq_true_eq]
  omega

/-! ### Matches -/

/-- There is a word in front of the place. -/
def wordBefore (p : Place) : Bool := (p.1.map isPyWord).getD false

theorem edge_iff (p : Place) : ((p.1.map wordChar).getD false ≠ (p.2.head?.map wordChar).getD false) ↔ boundary (wordBefore p) p.2 = true := by
  unfold boundary wordBefore
  rw [wordChar_eq]
  obtain ⟨c, s⟩ := p
  cases s <;> simp

theorem advance_zero (p : Place) : p.advance 0 = p := by
  obtain ⟨c, s⟩ := p
  simp [Place.advance]

theorem match_text (w : List Char) (p : Place) : (Re.text w).match p = if w.isPrefixOf p.2 = true then some w.length else none := by
  simp only [Re.match, Re.lengths, List.isPrefixOf_iff_prefix]
  by_cases h : w <+: p.2
  · rw [if_pos h, if_pos h]; rfl
  · rw [if_neg h, if_neg h]; rfl

theorem match_text_seq (w : List Char) (b : Re) (p : Place) : (Re.seq (.text w) b).match p =
    if w.isPrefixOf p.2 = true then (b.match (p.advance w.length)).map (w.length + ·) else none := by
  simp only [Re.match, Re.lengths, List.isPrefixOf_iff_prefix]
  by_cases h : w <+: p.2
  · rw [if_pos h, if_pos h]; simp
  · rw [if_neg h, if_neg h]; rfl

theorem match_edge_seq (b : Re) (p : Place) : (Re.seq .edge b).match p = if boundary (wordBefore p) p.2 = true then b.match p else none := by
  simp only [Re.match, Re.lengths, edge_iff]
  by_cases h : boundary (wordBefore p) p.2 = true
  · rw [if_pos h, if_pos h]; simp [advance_zero]
  · rw [if_neg h, if_neg h]; rfl

theorem match_edge (p : Place) : Re.edge.match p = if boundary (wordBefore p) p.2 = true then some 0 else none := by
  simp only [Re.match, Re.lengths, edge_iff]
  by_cases h : boundary (wordBefore p) p.2 = true
  · rw [if_pos h, if_pos h]; rfl
  · rw [if_neg h, if_neg h]; rfl

theorem match_alt (a b : Re) (p : Place) : (Re.alt a b).match p = (a.match p).or (b.match p) := by
  simp [Re.match, Re.lengths, List.head?_append]

theorem match_opt_seq (a b : Re) (p : Place) : (Re.seq (.opt a) b).match p = ((Re.seq a b).match p).or (b.match p) := by
  simp [Re.match, Re.lengths, List.head?_append, advance_zero]

theorem match_stop (p : Place) (h : p.2.getLast? ≠ some '\n') : Re.stop.match p = if p.2 = [] then some 0 else none := by
  simp only [Re.match, Re.lengths]
  by_cases h0 : p.2 = []
  · rw [if_pos (Or.inl h0), if_pos h0]; rfl
  · rw [if_neg h0, if_neg]
    · rfl
    · rintro (h1 | h1)
      · exact h0 h1
      · rw [h1] at h; exact h rfl

theorem range_reverse (n : Nat) : (List.range (n + 1)).reverse = n :: (List.range n).reverse := by
  rw [List.range_succ]; simp

theorem some_lengths (q : Char → Bool) (p : Place) : (Re.some q).lengths p = (List.range (p.2.takeWhile q).length).reverse.map (1 + ·) := by
  obtain ⟨c, s⟩ := p
  cases s with
  | nil => simp [Re.some, Re.lengths]
  | cons x s =>
    by_cases h : q x = true
    · simp [Re.some, Re.lengths, h, List.takeWhile_cons, Place.advance]
    · simp [Re.some, Re.lengths, h, List.takeWhile_cons, Place.advance]

theorem match_some (q : Char → Bool) (p : Place) : (Re.some q).match p = runAt q p.2 := by
  rw [Re.match, some_lengths, runAt]
  generalize (p.2.takeWhile q).length = k
  cases k with
  | zero => rfl
  | succ k => rw [range_reverse]; simp; omega

theorem drop_takeWhile_head {q : Char → Bool} {s : List Char} {n : Nat} (h : n < (s.takeWhile q).length) : ∃ x t, s.drop n = x :: t ∧ q x = true := by
  induction n generalizing s with
  | zero =>
    cases s with
    | nil => simp at h
    | cons x s =>
      by_cases hq : q x = true
      · exact ⟨x, s, rfl, hq⟩
      · simp [List.takeWhile_cons, hq] at h
  | succ n ih =>
    cases s with
    | nil => simp at h
    | cons x s =>
      by_cases hq : q x = true
      · simp [List.takeWhile_cons, hq] at h
        exact ih h
      · simp [List.takeWhile_cons, hq] at h

theorem take_takeWhile_last {q : Char → Bool} {s : List Char} {n : Nat} (h : n + 1 ≤ (s.takeWhile q).length) : ∃ x, (s.take (n + 1)).getLast? = some x ∧ q x = true := by
  induction n generalizing s with
  | zero =>
    cases s with
    | nil => simp at h
    | cons x s =>
      by_cases hq : q x = true
      · exact ⟨x, by simp, hq⟩
      · simp [List.takeWhile_cons, hq] at h
  | succ n ih =>
    cases s with
    | nil => simp at h
    | cons x s =>
      by_cases hq : q x = true
      · simp [List.takeWhile_cons, hq] at h
        obtain ⟨y, h1, h2⟩ := ih h
        refine ⟨y, ?_, h2⟩
        rw [List.take_succ_cons, List.getLast?_cons, h1]
        rfl
      · simp [List.takeWhile_cons, hq] at h

theorem advance_before {p : Place} {n : Nat} {x : Char} (h : (p.2.take n).getLast? = some x) : wordBefore (p.advance n) = isPyWord x := by
  simp [wordBefore, Place.advance, h]

/-- A run of characters of words ends where the word ends. -/
theorem match_some_edge (q : Char → Bool) (hq : ∀ c, q c = true → isPyWord c = true) (p : Place) : (Re.seq (.some q) .edge).match p =
    (runAt q p.2).bind fun k => if boundary true (p.2.drop k) = true then some k else none := by
  rw [Re.match, Re.lengths, some_lengths, runAt]
  generalize hk : (p.2.takeWhile q).length = k
  cases k with
  | zero => rfl
  | succ k =>
    rw [range_reverse]
    simp only [List.map_cons, List.flatMap_cons]
    have hnil : (List.map (fun x => 1 + x) (List.range k).reverse).flatMap (fun n => (Re.edge.lengths (p.advance n)).map (n + ·)) = [] := by
      rw [List.flatMap_eq_nil_iff]
      intro n hn
      obtain ⟨m, hm, rfl⟩ := List.mem_map.1 hn
      rw [List.mem_reverse, List.mem_range] at hm
      obtain ⟨x, t, h1, h2⟩ := drop_takeWhile_head (q := q) (s := p.2) (n := 1 + m) (by omega)
      obtain ⟨y, h3, h4⟩ := take_takeWhile_last (q := q) (s := p.2) (n := m) (by omega)
      simp only [Re.lengths, edge_iff]
      rw [Nat.add_comm] at h1
      rw [Nat.add_comm 1 m, advance_before h3, hq y h4, if_neg]
      · rfl
      · simp [Place.advance, h1, boundary, hq x h2]
    rw [hnil]
    obtain ⟨y, h3, h4⟩ := take_takeWhile_last (q := q) (s := p.2) (n := k) (by omega)
    simp only [Re.lengths, edge_iff]
    rw [Nat.add_comm 1 k, advance_before h3, hq y h4]
    have e : (p.advance (k + 1)).2 = p.2.drop (k + 1) := rfl
    rw [e]
    by_cases hb : boundary true (p.2.drop (k + 1)) = true
    · simp [hb]
    · simp [hb]

/-! ### The entries of the table -/

theorem match_lit (w : List Char) (p : Place) (prev : Bool) : (Re.text w).match p = literalAt w false false prev p.2 := by
  rw [match_text, literalAt]
  simp

theorem match_lit_edge {w : List Char} (hw : w ≠ []) (p : Place) (prev : Bool) : (Re.seq (.text w) .edge).match p = literalAt w false true prev p.2 := by
  rw [match_text_seq, match_edge, literalAt]
  by_cases h : w.isPrefixOf p.2 = true
  · obtain ⟨t, ht⟩ := List.isPrefixOf_iff_prefix.1 h
    have e1 : (p.2.take w.length).getLast? = w.getLast? := by rw [← ht]; simp
    obtain ⟨x, hx⟩ : ∃ x, w.getLast? = some x := by
      cases hx : w.getLast? with
      | none => simp at hx; exact absurd hx hw
      | some x => exact ⟨x, rfl⟩
    rw [advance_before (e1.trans hx), if_pos h]
    show Option.map _ (if boundary (isPyWord x) (p.2.drop w.length) = true then _ else _) = _
    by_cases hb : boundary (isPyWord x) (p.2.drop w.length) = true <;> simp [h, hx, hb]
  · simp [h]

theorem match_word {w : List Char} (hw : w ≠ []) (p : Place) : (Re.seq .edge (.seq (.text w) .edge)).match p = literalAt w true true (wordBefore p) p.2 := by
  rw [match_edge_seq, match_lit_edge hw p (wordBefore p), literalAt, literalAt]
  by_cases h : boundary (wordBefore p) p.2 = true <;> simp [h]

theorem match_comment (p : Place) (h : p.2.getLast? ≠ some '\n') : (Re.seq (.text ['#']) (.seq (.many (· != '\n')) .stop)).match p =
    if p.2.head? = some '#' ∧ '\n' ∉ p.2 then some p.2.length else none := by
  obtain ⟨c, s⟩ := p
  rw [match_text_seq]
  cases s with
  | nil => simp
  | cons x s =>
    by_cases hx : x = '#'
    · subst hx
      simp only [List.isPrefixOf, beq_self_eq_true, Bool.and_true, if_true, List.head?_cons, true_and]
      have hs : s.getLast? ≠ some '\n' := by
        intro h'
        apply h
        show ('#' :: s).getLast? = _
        rw [List.getLast?_cons, h']
        rfl
      have e : (Place.advance (c, '#' :: s) 1) = (some '#', s) := by simp [Place.advance]
      show Option.map _ (Re.match _ (Place.advance (c, '#' :: s) 1)) = _
      rw [e]
      by_cases hn : '\n' ∈ s
      · rw [if_neg (by simp [hn])]
        rw [Option.map_eq_none_iff, Re.match, List.head?_eq_none_iff, Re.lengths, List.flatMap_eq_nil_iff]
        intro n hm
        rw [Re.lengths, List.mem_reverse, List.mem_range] at hm
        change n < (s.takeWhile (· != '\n')).length + 1 at hm
        have hlt : (s.takeWhile (· != '\n')).length < s.length := by
          apply Nat.lt_of_not_le
          intro hle
          have : s.takeWhile (· != '\n') = s := (List.takeWhile_prefix _).eq_of_length_le hle
          rw [← this] at hn
          have := List.mem_takeWhile_imp hn
          simp at this
        have : (Re.stop.match (Place.advance (some '#', s) n)) = none := by
          rw [match_stop, if_neg]
          · show s.drop n ≠ []
            simp
            omega
          · show (s.drop n).getLast? ≠ _
            rw [List.getLast?_drop, if_neg (by omega)]
            exact hs
        rw [Re.match, List.head?_eq_none_iff] at this
        rw [this]
        rfl
      · rw [if_pos (by simp [hn])]
        have hall : s.takeWhile (· != '\n') = s := by
          apply List.takeWhile_eq_self_iff.2
          intro c hc
          simp
          rintro rfl
          exact hn hc
        rw [Re.match, Re.lengths, Re.lengths]
        simp only [hall]
        rw [range_reverse, List.flatMap_cons]
        simp [Re.lengths, Place.advance]
        omega
    · have : (['#'].isPrefixOf (x :: s)) = false := by simp [List.isPrefixOf]; exact fun h => hx h.symm
      simp only [this]
      simp [hx]

theorem match_text_stop (w : List Char) (p : Place) (h : p.2.getLast? ≠ some '\n') : (Re.seq (.text w) .stop).match p =
    if p.2 = w then some w.length else none := by
  rw [match_text_seq]
  by_cases hw : w.isPrefixOf p.2 = true
  · rw [if_pos hw]
    obtain ⟨t, ht⟩ := List.isPrefixOf_iff_prefix.1 hw
    have e : (p.advance w.length).2 = t := by simp [Place.advance, ← ht]
    rw [match_stop, e]
    · by_cases h0 : t = []
      · subst h0
        rw [if_pos rfl, if_pos (by simpa using ht.symm)]
        simp
      · rw [if_neg h0, if_neg]
        · rfl
        · rw [← ht]
          intro h'
          exact h0 (by simpa using h')
    · rw [e]
      intro h'
      apply h
      rw [← ht, List.getLast?_append, h']
      rfl
  · rw [if_neg hw, if_neg]
    intro h'
    apply hw
    rw [h']
    simp

theorem match_path (p : Place) : (Re.seq (.opt (.text ['.'])) (.seq (.text ['/']) (.some fun c => !spaceChar c))).match p = pathAt p.2 := by
  obtain ⟨c, s⟩ := p
  rw [spaceChar_eq, match_opt_seq, match_text_seq, match_text_seq, match_text_seq, match_some, match_some]
  unfold pathAt
  simp only [Place.advance, List.length_singleton]
  match s with
  | [] => simp
  | [x] =>
    by_cases h1 : x = '.'
    · subst h1; simp
    · by_cases h2 : x = '/'
      · subst h2; simp [runAt]
      · simp [List.isPrefixOf, Ne.symm h1, Ne.symm h2]
        split <;> simp_all
  | x :: y :: t =>
    by_cases h1 : x = '.'
    · subst h1
      by_cases h2 : y = '/'
      · subst h2
        simp [List.isPrefixOf]
        cases runAt (fun c => !isPySpace c) t <;> simp
        omega
      · simp [List.isPrefixOf, Ne.symm h2]
        split <;> simp_all
    · by_cases h2 : x = '/'
      · subst h2
        simp [List.isPrefixOf]
        cases runAt (fun c => !isPySpace c) (y :: t) <;> simp
        omega
      · simp [List.isPrefixOf, Ne.symm h1, Ne.symm h2]
        split <;> simp_all

/-! Numbers. -/

theorem isPrefixOf_single (x : Char) (s : List Char) : ([x].isPrefixOf s) = (s.head? == some x) := by
  cases s with
  | nil => rfl
  | cons y s => simp [List.isPrefixOf]; exact eq_comm

theorem match_one_seq (q : Char → Bool) (b : Re) (p : Place) : (Re.seq (.one q) b).match p =
    if (p.2.head?.map q).getD false = true then (b.match (p.advance 1)).map (1 + ·) else none := by
  simp only [Re.match, Re.lengths]
  by_cases h : (p.2.head?.map q).getD false = true
  · rw [if_pos h, if_pos h]; simp
  · rw [if_neg h, if_neg h]; rfl

/-- The three forms behind the sign. -/
def hexPart (s : List Char) : Option Nat :=
  match s with
  | '0' :: x :: t => if x = 'x' ∨ x = 'X' then (runAt (isDigitIn 16) t).map (· + 2) else none
  | _ => none

def octalPart (s : List Char) : Option Nat :=
  match s with
  | '0' :: t => (runAt (isDigitIn 8) t).map (· + 1)
  | _ => none

theorem match_hexPart (p : Place) : (Re.seq (.text ['0']) (.seq (.one fun c => c == 'x' || c == 'X') (.some hexChar))).match p = hexPart p.2 := by
  obtain ⟨c, s⟩ := p
  rw [hexChar_eq, match_text_seq, match_one_seq, match_some, isPrefixOf_single]
  unfold hexPart
  match s with
  | [] => simp
  | [x] =>
    by_cases h : x = '0'
    · subst h; simp [Place.advance]
    · simp [h]
  | x :: y :: t =>
    by_cases h : x = '0'
    · subst h
      by_cases h2 : y = 'x' ∨ y = 'X'
      · have h3 : (y == 'x' || y == 'X') = true := by simpa using h2
        rw [if_pos (by simp)]
        simp only [Place.advance, List.length_singleton, List.drop_succ_cons, List.drop_zero, List.head?_cons, Option.map_some, Option.getD_some, h3, if_true, if_pos h2]
        cases runAt (isDigitIn 16) t <;> simp
        omega
      · have h3 : (y == 'x' || y == 'X') = false := by simpa [not_or] using h2
        rw [if_pos (by simp)]
        simp only [Place.advance, List.length_singleton, List.drop_succ_cons, List.drop_zero, List.head?_cons, Option.map_some, Option.getD_some, h3, if_neg h2]
        rfl
    · simp [h]

theorem match_octalPart (p : Place) : (Re.seq (.text ['0']) (.some octalChar)).match p = octalPart p.2 := by
  obtain ⟨c, s⟩ := p
  rw [octalChar_eq, match_text_seq, match_some, isPrefixOf_single]
  unfold octalPart
  cases s with
  | nil => simp
  | cons x s =>
    by_cases h : x = '0'
    · subst h
      simp only [Place.advance, List.length_singleton, List.drop_succ_cons, List.drop_zero, List.head?_cons, beq_self_eq_true, if_true]
      cases runAt (isDigitIn 8) s <;> simp
      omega
    · simp [h]

theorem numeralAt_parts (s : List Char) : numeralAt s = (hexPart s).or ((octalPart s).or (runAt (isDigitIn 10) s)) := by
  unfold numeralAt hexPart octalPart
  match s with
  | [] => rfl
  | [x] =>
    by_cases h : x = '0'
    · subst h; rfl
    · split <;> simp_all
  | x :: y :: t =>
    by_cases h : x = '0'
    · subst h
      simp only []
      by_cases h2 : y = 'x' ∨ y = 'X'
      · simp only [if_pos h2]
        cases runAt (isDigitIn 16) t with
        | some k => rfl
        | none =>
          cases runAt (isDigitIn 8) (y :: t) <;> rfl
      · simp only [if_neg h2]
        cases runAt (isDigitIn 8) (y :: t) <;> rfl
    · split <;> simp_all

theorem map_or {α β : Type} (f : α → β) (a b : Option α) : (a.or b).map f = (a.map f).or (b.map f) := by cases a <;> rfl

theorem match_sign (b : Re) (f : List Char → Option Nat) (hb : ∀ p, b.match p = f p.2) (hf : ∀ t, f ('-' :: t) = none) (p : Place) :
    (Re.seq (.opt (.text ['-'])) b).match p = match p.2 with | '-' :: t => (f t).map (· + 1) | s => f s := by
  obtain ⟨c, s⟩ := p
  rw [match_opt_seq, match_text_seq, isPrefixOf_single, hb, hb]
  cases s with
  | nil => simp
  | cons x s =>
    by_cases h : x = '-'
    · subst h
      simp [Place.advance, hf]
      cases f s <;> simp
      omega
    · simp [h]

theorem match_numeric (p : Place) : (Re.alt hexRe (.alt octalRe decimalRe)).match p = numericAt p.2 := by
  rw [match_alt, match_alt]
  unfold hexRe octalRe decimalRe
  rw [show Re.lit "-" = .text ['-'] from rfl, show Re.lit "0" = .text ['0'] from rfl]
  rw [match_sign _ hexPart match_hexPart (fun t => by simp [hexPart]), match_sign _ octalPart match_octalPart (fun t => by simp [octalPart]),
    match_sign _ (runAt (isDigitIn 10)) (fun p => by rw [decimalChar_eq, match_some]) (fun t => by
      have : isDigitIn 10 '-' = false := by decide
      simp [runAt, this])]
  unfold numericAt
  obtain ⟨c, s⟩ := p
  cases s with
  | nil => simp only []; rw [numeralAt_parts]
  | cons x s =>
    by_cases h : x = '-'
    · subst h
      simp only []
      rw [numeralAt_parts, map_or, map_or]
    · split
      · simp_all
      · simp only []
        rw [numeralAt_parts]

/-! Words. -/

theorem argument_shape (b : Bool) (r : Option Nat) (g : Nat → Bool) :
    (if b = true then (r.bind fun k => if g k = true then some k else none).map (3 + ·) else none) =
      match r with
      | some k => if b = true ∧ g k = true then some (k + 3) else none
      | none => none := by
  cases r with
  | none => simp
  | some k => cases b <;> cases h : g k <;> simp [h, Nat.add_comm]

theorem match_argument (p : Place) : (Re.seq .edge (.seq (.text "arg".toList) (.seq (.some Char.isDigit) .edge))).match p = argumentAt (wordBefore p) p.2 := by
  rw [match_edge_seq, match_text_seq, match_some_edge]
  · rw [decimalChar_eq]
    obtain ⟨c, s⟩ := p
    unfold argumentAt
    by_cases h : "arg".toList.isPrefixOf s = true
    · obtain ⟨t, rfl⟩ := List.isPrefixOf_iff_prefix.1 h
      rw [if_pos h]
      exact argument_shape (boundary (wordBefore (c, 'a' :: 'r' :: 'g' :: t)) ('a' :: 'r' :: 'g' :: t)) (runAt (isDigitIn 10) t) fun k => boundary true (t.drop k)
    · rw [if_neg h]
      have : ∀ t, s ≠ 'a' :: 'r' :: 'g' :: t := by
        rintro t rfl
        exact h rfl
      simp only [ite_self]
  · intro c hc
    simp [isPyWord, Char.isAlphanum, hc]

theorem match_identifier (p : Place) : (Re.seq (.one fun c => c.isAlpha || c == '_') (.many fun c => c.isAlpha || c == '_' || c.isDigit || c == '-' || c == '@')).match p =
    identifierAt p.2 := by
  have e : (fun c : Char => c.isAlpha || c == '_' || c.isDigit || c == '-' || c == '@') = isIdentChar := by
    funext c
    unfold isIdentChar Char.isAlphanum
    cases c.isAlpha <;> cases (c == '_') <;> cases c.isDigit <;> rfl
  rw [e, match_one_seq]
  obtain ⟨c, s⟩ := p
  unfold identifierAt
  cases s with
  | nil => simp
  | cons x s =>
    simp only [List.head?_cons, Option.map_some, Option.getD_some]
    show (if isIdentStart x = true then _ else _) = _
    by_cases h : isIdentStart x = true
    · rw [if_pos h]
      simp only [h, if_true, Re.match, Re.lengths, range_reverse]
      simp [Place.advance]
      omega
    · rw [if_neg h]
      simp [h]

theorem match_alts (ws : List (List Char × Bool)) (prev : Bool) (s : List Char) (r : Re) (p : Place) (x : List Char × Bool)
    (h : (Re.match r p) = ws.findSome? fun x => literalAt x.1 x.2 x.2 prev s) : (literalAt x.1 x.2 x.2 prev s).or (r.match p) =
      (x :: ws).findSome? fun x => literalAt x.1 x.2 x.2 prev s := by
  rw [List.findSome?_cons, h]
  cases literalAt x.1 x.2 x.2 prev s <;> rfl

/-- The table and the function of the model find the same token. -/
theorem tokenAt_table (p : Place) (h : p.2.getLast? ≠ some '\n') : tokenAt (wordBefore p) p.2 = tokenMatch p := by
  have e : ∀ (l : List (Option TokType × Re)), (l.findSome? fun e => (e.2.match p).map fun n => (e.1, n)) =
      (l.map fun e => (e.1, e.2.match p)).findSome? fun x => x.2.map fun k => (x.1, k) := by
    intro l
    rw [List.findSome?_map]
    rfl
  unfold tokenMatch
  rw [e]
  unfold tokenAt
  simp only []
  congr 1
  unfold tokenTable
  simp only [List.map_cons, List.map_nil]
  have hl : ∀ w : String, (Re.lit w).match p = literalAt w.toList false false (wordBefore p) p.2 := fun w => match_lit _ p _
  have hw : ∀ w : String, w.toList ≠ [] → (Re.word w).match p = literalAt w.toList true true (wordBefore p) p.2 := fun w hw => match_word hw p
  have he : ∀ w : String, w.toList ≠ [] → (Re.seq (.lit w) .edge).match p = literalAt w.toList false true (wordBefore p) p.2 := fun w hw => match_lit_edge hw p _
  rw [show Re.seq (.lit "#") (.seq (.many (· != '\n')) .stop) = Re.seq (.text ['#']) (.seq (.many (· != '\n')) .stop) from rfl, match_comment p h]
  rw [match_some, spaceChar_eq]
  rw [show Re.seq (.lit "\\") .stop = Re.seq (.text ['\\']) .stop from rfl, match_text_stop _ p h]
  rw [he "@default" (by decide), he "@include" (by decide), he "@frequency" (by decide)]
  rw [show Re.seq (.lit "@denylist") .stop = Re.seq (.text "@denylist".toList) .stop from rfl, match_text_stop _ p h]
  rw [← spaceChar_eq, show Re.seq (.opt (.lit ".")) (.seq (.lit "/") (.some fun c => !spaceChar c)) =
    Re.seq (.opt (.text ['.'])) (.seq (.text ['/']) (.some fun c => !spaceChar c)) from rfl, match_path, spaceChar_eq]
  rw [match_numeric]
  rw [show Re.seq .edge (.seq (.lit "arg") (.seq (.some Char.isDigit) .edge)) = Re.seq .edge (.seq (.text "arg".toList) (.seq (.some Char.isDigit) .edge)) from rfl,
    match_argument]
  rw [match_identifier]
  simp only [match_alt, hl]
  rw [hw "in" (by decide), hw "return" (by decide), hw "allow" (by decide), hw "kill-process" (by decide), hw "kill-thread" (by decide), hw "kill" (by decide),
    hw "trap" (by decide), hw "trace" (by decide), hw "log" (by decide), hw "user-notify" (by decide)]
  have e1 : operators.findSome? (fun x => literalAt x.1 x.2 x.2 (wordBefore p) p.2) =
      (literalAt "&".toList false false (wordBefore p) p.2).or ((literalAt "in".toList true true (wordBefore p) p.2).or
      ((literalAt "==".toList false false (wordBefore p) p.2).or ((literalAt "!=".toList false false (wordBefore p) p.2).or
      ((literalAt "<=".toList false false (wordBefore p) p.2).or ((literalAt "<".toList false false (wordBefore p) p.2).or
      ((literalAt ">=".toList false false (wordBefore p) p.2).or (literalAt ">".toList false false (wordBefore p) p.2))))))) := by
    simp only [operators, List.findSome?_cons, List.findSome?_nil]
    generalize literalAt "&".toList false false (wordBefore p) p.2 = a1
    generalize literalAt "in".toList true true (wordBefore p) p.2 = a2
    generalize literalAt "==".toList false false (wordBefore p) p.2 = a3
    generalize literalAt "!=".toList false false (wordBefore p) p.2 = a4
    generalize literalAt "<=".toList false false (wordBefore p) p.2 = a5
    generalize literalAt "<".toList false false (wordBefore p) p.2 = a6
    generalize literalAt ">=".toList false false (wordBefore p) p.2 = a7
    generalize literalAt ">".toList false false (wordBefore p) p.2 = a8
    cases a1 <;> cases a2 <;> cases a3 <;> cases a4 <;> cases a5 <;> cases a6 <;> cases a7 <;> cases a8 <;> rfl
  have e2 : actionWords.findSome? (fun w => literalAt w true true (wordBefore p) p.2) =
      (literalAt "allow".toList true true (wordBefore p) p.2).or ((literalAt "kill-process".toList true true (wordBefore p) p.2).or
      ((literalAt "kill-thread".toList true true (wordBefore p) p.2).or ((literalAt "kill".toList true true (wordBefore p) p.2).or
      ((literalAt "trap".toList true true (wordBefore p) p.2).or ((literalAt "trace".toList true true (wordBefore p) p.2).or
      ((literalAt "log".toList true true (wordBefore p) p.2).or (literalAt "user-notify".toList true true (wordBefore p) p.2))))))) := by
    simp only [actionWords, List.findSome?_cons, List.findSome?_nil]
    generalize literalAt "allow".toList true true (wordBefore p) p.2 = a1
    generalize literalAt "kill-process".toList true true (wordBefore p) p.2 = a2
    generalize literalAt "kill-thread".toList true true (wordBefore p) p.2 = a3
    generalize literalAt "kill".toList true true (wordBefore p) p.2 = a4
    generalize literalAt "trap".toList true true (wordBefore p) p.2 = a5
    generalize literalAt "trace".toList true true (wordBefore p) p.2 = a6
    generalize literalAt "log".toList true true (wordBefore p) p.2 = a7
    generalize literalAt "user-notify".toList true true (wordBefore p) p.2 = a8
    cases a1 <;> cases a2 <;> cases a3 <;> cases a4 <;> cases a5 <;> cases a6 <;> cases a7 <;> cases a8 <;> rfl
  rw [e1, e2]
  have e3 : (if p.2 = "@denylist".toList then some p.2.length else none) = if p.2 = "@denylist".toList then some "@denylist".toList.length else none := by
    by_cases hd : p.2 = "@denylist".toList
    · rw [if_pos hd, if_pos hd, hd]
    · rw [if_neg hd, if_neg hd]
  rw [e3]
  rfl

/-! ### Lengths -/

theorem lengths_le : ∀ (r : Re) (p : Place) (n : Nat), n ∈ r.lengths p → n ≤ p.2.length := by
  intro r
  induction r with
  | text w =>
    intro p n h
    simp only [Re.lengths] at h
    by_cases hw : w <+: p.2
    · rw [if_pos hw, List.mem_singleton] at h
      rw [h]
      exact hw.length_le
    · rw [if_neg hw] at h; simp at h
  | one q =>
    intro p n h
    obtain ⟨c, s⟩ := p
    cases s with
    | nil => simp [Re.lengths] at h
    | cons x s =>
      simp only [Re.lengths] at h
      split at h
      · rw [List.mem_singleton] at h; simp; omega
      · simp at h
  | many q =>
    intro p n h
    simp only [Re.lengths, List.mem_reverse, List.mem_range] at h
    have := (List.takeWhile_prefix q (l := p.2)).length_le
    omega
  | seq a b iha ihb =>
    intro p n h
    simp only [Re.lengths, List.mem_flatMap, List.mem_map] at h
    obtain ⟨m, hm, k, hk, rfl⟩ := h
    have h1 := iha p m hm
    have h2 := ihb _ k hk
    simp only [Place.advance, List.length_drop] at h2
    omega
  | alt a b iha ihb =>
    intro p n h
    simp only [Re.lengths, List.mem_append] at h
    rcases h with h | h
    · exact iha p n h
    · exact ihb p n h
  | opt a iha =>
    intro p n h
    simp only [Re.lengths, List.mem_append, List.mem_singleton] at h
    rcases h with h | h
    · exact iha p n h
    · omega
  | edge =>
    intro p n h
    simp only [Re.lengths] at h
    split at h
    · rw [List.mem_singleton] at h; omega
    · simp at h
  | stop =>
    intro p n h
    simp only [Re.lengths] at h
    split at h
    · rw [List.mem_singleton] at h; omega
    · simp at h

/-- A match has at least so many characters. -/
def leastLength : Re → Nat
  | .text w => w.length
  | .one _ => 1
  | .seq a b => leastLength a + leastLength b
  | .alt a b => min (leastLength a) (leastLength b)
  | _ => 0

theorem lengths_ge : ∀ (r : Re) (p : Place) (n : Nat), n ∈ r.lengths p → leastLength r ≤ n := by
  intro r
  induction r with
  | text w =>
    intro p n h
    simp only [Re.lengths] at h
    split at h
    · rw [List.mem_singleton] at h; simp [leastLength]; omega
    · simp at h
  | one q =>
    intro p n h
    simp only [Re.lengths] at h
    split at h
    · rw [List.mem_singleton] at h; simp [leastLength]; omega
    · simp at h
  | many q => intro p n _; simp [leastLength]
  | seq a b iha ihb =>
    intro p n h
    simp only [Re.lengths, List.mem_flatMap, List.mem_map] at h
    obtain ⟨m, hm, k, hk, rfl⟩ := h
    have h1 := iha p m hm
    have h2 := ihb _ k hk
    simp only [leastLength]
    omega
  | alt a b iha ihb =>
    intro p n h
    simp only [Re.lengths, List.mem_append] at h
    simp only [leastLength]
    rcases h with h | h
    · have := iha p n h; omega
    · have := ihb p n h; omega
  | opt a iha => intro p n _; simp [leastLength]
  | edge => intro p n _; simp [leastLength]
  | stop => intro p n _; simp [leastLength]

theorem tokenMatch_length {p : Place} {ty : Option TokType} {n : Nat} (h : tokenMatch p = some (ty, n)) : 0 < n ∧ n ≤ p.2.length := by
  unfold tokenMatch at h
  obtain ⟨e, he, hm⟩ := List.exists_of_findSome?_eq_some h
  obtain ⟨k, hk, hx⟩ := Option.map_eq_some_iff.1 hm
  simp only [Prod.mk.injEq] at hx
  obtain ⟨-, rfl⟩ := hx
  have hmem : k ∈ e.2.lengths p := List.mem_of_mem_head? hk
  refine ⟨?_, lengths_le _ _ _ hmem⟩
  have hpos : ∀ e ∈ tokenTable, 0 < leastLength e.2 := by decide
  exact Nat.lt_of_lt_of_le (hpos e he) (lengths_ge _ _ _ hmem)

/-! ### Lines -/

theorem lexLine_iff : ∀ (n : Nat) (p : Place) (ts : List Token), p.2.length ≤ n → p.2.getLast? ≠ some '\n' →
    (lexLine n (wordBefore p) p.2 = some ts ↔ LexedT p ts) := by
  intro n
  induction n with
  | zero =>
    intro p ts hn _
    obtain ⟨c, s⟩ := p
    cases s with
    | cons x s => simp at hn
    | nil =>
      rw [lexLine, Option.some.injEq]
      constructor
      · rintro rfl; exact .done
      · intro h
        generalize hp : ((c, []) : Place) = p at h
        cases h with
        | done => rfl
        | token h _ => have := tokenMatch_length h; rw [← hp] at this; simp at this; omega
        | skip h _ => have := tokenMatch_length h; rw [← hp] at this; simp at this; omega
  | succ n ih =>
    intro p ts hn hl
    obtain ⟨c, s⟩ := p
    cases s with
    | nil =>
      rw [lexLine, Option.some.injEq]
      constructor
      · rintro rfl; exact .done
      · intro h
        generalize hp : ((c, []) : Place) = p at h
        cases h with
        | done => rfl
        | token h _ => have := tokenMatch_length h; rw [← hp] at this; simp at this; omega
        | skip h _ => have := tokenMatch_length h; rw [← hp] at this; simp at this; omega
    | cons x s =>
      have step : ∀ ty k, tokenMatch (c, x :: s) = some (ty, k) → ∀ rest,
          (lexLine n ((((x :: s).take k).getLast?.map isPyWord).getD false) ((x :: s).drop k) = some rest ↔ LexedT (Place.advance (c, x :: s) k) rest) := by
        intro ty k h rest
        obtain ⟨h1, h2⟩ := tokenMatch_length h
        have e : ((((x :: s).take k).getLast?.map isPyWord).getD false) = wordBefore (Place.advance (c, x :: s) k) := by
          cases hx : ((x :: s).take k).getLast? with
          | none =>
            rw [List.getLast?_eq_none_iff] at hx
            have := congrArg List.length hx
            simp at this
            omega
          | some y => rw [advance_before hx]; rfl
        rw [e]
        apply ih
        · simp only [Place.advance, List.length_drop]
          simp only [List.length_cons] at hn ⊢
          omega
        · show ((x :: s).drop k).getLast? ≠ _
          rw [List.getLast?_drop]
          split
          · simp
          · exact hl
      rw [lexLine]
      · rw [show (x :: s) = ((c, x :: s) : Place).2 from rfl, tokenAt_table _ hl]
        cases hm : tokenMatch (c, x :: s) with
        | none =>
          simp only [Option.bind_eq_bind, Option.bind_none, reduceCtorEq, false_iff]
          intro h
          generalize hp : ((c, x :: s) : Place) = p at h hm
          cases h with
          | done => simp at hp
          | token h _ => rw [hm] at h; simp at h
          | skip h _ => rw [hm] at h; simp at h
        | some m =>
          obtain ⟨ty, k⟩ := m
          simp only [Option.bind_eq_bind, Option.bind_some, Option.pure_def]
          rw [Option.bind_eq_some_iff]
          constructor
          · rintro ⟨rest, h1, h2⟩
            have h1 := (step ty k hm rest).1 h1
            simp only [Option.some.injEq] at h2
            subst h2
            cases ty with
            | none => exact .skip hm h1
            | some ty => exact .token hm h1
          · intro h
            generalize hp : ((c, x :: s) : Place) = p at h hm
            cases h with
            | done => simp at hp
            | token h h1 =>
              rw [hm, Option.some.injEq, Prod.mk.injEq] at h
              obtain ⟨rfl, rfl⟩ := h
              subst hp
              exact ⟨_, (step _ k hm _).2 h1, rfl⟩
            | skip h h1 =>
              rw [hm, Option.some.injEq, Prod.mk.injEq] at h
              obtain ⟨rfl, rfl⟩ := h
              subst hp
              exact ⟨_, (step _ k hm _).2 h1, rfl⟩
      · simp

theorem lexLine_line (l : List Char) (ts : List Token) (h : l.getLast? ≠ some '\n') : lexLine l.length false l = some ts ↔ LexedT (none, l) ts :=
  lexLine_iff l.length (none, l) ts (Nat.le_refl _) h

/-- Statements where some tokens came before. -/
def StatementsAfter (acc : List Token) (lines : List (List Char)) (out : List (List Token)) : Prop :=
  (∃ cont last tss rest out', lines = cont ++ last :: rest ∧ (∀ l ∈ cont, l.getLast? = some '\\') ∧ last.getLast? ≠ some '\\' ∧
    All₂ (fun l ts => LexedT (none, l) ts) (cont ++ [last]) tss ∧ StatementsT rest out' ∧
    out = if acc ++ tss.flatten = [] then out' else (acc ++ tss.flatten) :: out') ∨
  (∃ tss, (∀ l ∈ lines, l.getLast? = some '\\') ∧ All₂ (fun l ts => LexedT (none, l) ts) lines tss ∧ out = [])

theorem statementsAfter_nil (lines : List (List Char)) (out : List (List Token)) : StatementsAfter [] lines out ↔ StatementsT lines out := by
  constructor
  · rintro (⟨cont, last, tss, rest, out', rfl, h1, h2, h3, h4, rfl⟩ | ⟨tss, h1, h2, rfl⟩)
    · exact .statement h1 h2 h3 h4
    · exact .lost h1 h2
  · intro h
    cases h with
    | nil => exact .inr ⟨[], by simp, .nil, rfl⟩
    | statement h1 h2 h3 h4 => exact .inl ⟨_, _, _, _, _, rfl, h1, h2, h3, h4, rfl⟩
    | lost h1 h2 => exact .inr ⟨_, h1, h2, rfl⟩

theorem tokenizeLines_iff : ∀ (lines : List (List Char)), (∀ l ∈ lines, l.getLast? ≠ some '\n') → ∀ acc out,
    (tokenizeLines acc lines = some out ↔ StatementsAfter acc lines out) := by
  intro lines
  induction lines with
  | nil =>
    intro _ acc out
    rw [tokenizeLines, Option.some.injEq]
    constructor
    · rintro rfl; exact .inr ⟨[], by simp, .nil, rfl⟩
    · rintro (⟨cont, last, tss, rest, out', h, -⟩ | ⟨tss, -, -, rfl⟩)
      · simp at h
      · rfl
  | cons line lines ih =>
    intro hl acc out
    have ih := ih fun l h => hl l (by simp [h])
    have hline := lexLine_line line
    rw [tokenizeLines]
    simp only [Option.bind_eq_bind, Option.pure_def]
    rw [Option.bind_eq_some_iff]
    by_cases hb : line.getLast? = some '\\'
    · simp only [if_pos hb]
      constructor
      · rintro ⟨ts, h1, h2⟩
        have h1 := (hline ts (hl line (by simp))).1 h1
        rcases (ih (acc ++ ts) out).1 h2 with ⟨cont, last, tss, rest, out', rfl, h3, h4, h5, h6, rfl⟩ | ⟨tss, h3, h4, rfl⟩
        · refine .inl ⟨line :: cont, last, ts :: tss, rest, out', rfl, ?_, h4, .cons h1 h5, h6, by simp⟩
          intro l hm
          rcases List.mem_cons.1 hm with rfl | hm
          · exact hb
          · exact h3 l hm
        · refine .inr ⟨ts :: tss, ?_, .cons h1 h4, rfl⟩
          intro l hm
          rcases List.mem_cons.1 hm with rfl | hm
          · exact hb
          · exact h3 l hm
      · rintro (⟨cont, last, tss, rest, out', h, h3, h4, h5, h6, rfl⟩ | ⟨tss, h3, h4, rfl⟩)
        · cases cont with
          | nil =>
            simp only [List.nil_append, List.cons.injEq] at h
            rw [h.1] at hb
            exact absurd hb h4
          | cons x cont =>
            simp only [List.cons_append, List.cons.injEq] at h
            obtain ⟨rfl, rfl⟩ := h
            cases h5 with
            | cons h5 h7 =>
              refine ⟨_, (hline _ (hl line (by simp))).2 h5, (ih _ _).2 (.inl ⟨cont, last, _, rest, out', rfl, fun l hm => h3 l (by simp [hm]), h4, h7, h6, ?_⟩)⟩
              simp
        · cases h4 with
          | cons h5 h7 =>
            exact ⟨_, (hline _ (hl line (by simp))).2 h5, (ih _ _).2 (.inr ⟨_, fun l hm => h3 l (by simp [hm]), h7, rfl⟩)⟩
    · simp only [if_neg hb]
      constructor
      · rintro ⟨ts, h1, h2⟩
        obtain ⟨rest, h2, h3⟩ := Option.bind_eq_some_iff.1 h2
        have h1 := (hline ts (hl line (by simp))).1 h1
        have h2 := (statementsAfter_nil _ _).1 ((ih [] rest).1 h2)
        simp only [Option.some.injEq] at h3
        exact .inl ⟨[], line, [ts], lines, rest, rfl, by simp, hb, .cons h1 .nil, h2, by simpa using h3.symm⟩
      · rintro (⟨cont, last, tss, rest, out', h, h3, h4, h5, h6, rfl⟩ | ⟨tss, h3, h4, rfl⟩)
        · cases cont with
          | cons x cont =>
            simp only [List.cons_append, List.cons.injEq] at h
            exact absurd (h3 line (by rw [h.1]; simp)) hb
          | nil =>
            simp only [List.nil_append, List.cons.injEq] at h
            obtain ⟨rfl, rfl⟩ := h
            cases h5 with
            | cons h5 h7 =>
              cases h7
              refine ⟨_, (hline _ (hl line (by simp))).2 h5, Option.bind_eq_some_iff.2 ⟨out', (ih [] out').2 ((statementsAfter_nil _ _).2 h6), ?_⟩⟩
              simp
        · exact absurd (h3 line (by simp)) hb

theorem pyLines_physical : ∀ (s : List Char), '\r' ∉ s → pyLines s = physicalLines s := by
  intro s
  induction s with
  | nil => intro _; rw [physicalLines_nil]; rfl
  | cons c s ih =>
    intro hr
    simp only [List.mem_cons, not_or] at hr
    by_cases hc : c = '\n'
    · subst hc
      have e : pyLines ('\n' :: s) = [] :: pyLines s := by simp [pyLines]
      rw [e, ih hr.2]
      unfold physicalLines
      rw [fields, if_pos rfl]
      cases hf : fields '\n' s with
      | nil => exact absurd hf (fields_ne_nil _ _)
      | cons f fs =>
        simp only [List.getLast?_cons_cons]
        by_cases hl : (f :: fs).getLast? = some []
        · simp [hl]
        · simp [hl]
    · rw [pyLines]
      · rw [ih hr.2]
        unfold physicalLines
        rw [fields, if_neg hc]
        cases hf : fields '\n' s with
        | nil => exact absurd hf (fields_ne_nil _ _)
        | cons f fs =>
          simp only [consHead]
          cases fs with
          | nil =>
            by_cases he : f = []
            · subst he; simp
            · simp [he]
          | cons g gs =>
            simp only [List.getLast?_cons_cons]
            by_cases hl : (g :: gs).getLast? = some []
            · simp [hl]
            · simp [hl]
      · exact fun h => hc h
      · exact fun s h => absurd h.symm hr.1
      · exact fun h => hr.1 h.symm


theorem newlines_pyLines : ∀ s : List Char, pyLines (newlines s) = pyLines s := by
  intro s
  induction s using newlines.induct with
  | case1 s ih => simp [newlines, pyLines, ih]
  | case2 s h ih =>
    rw [newlines, pyLines, pyLines, ih]
    all_goals exact h
  | case3 c s h1 h2 ih =>
    rw [newlines]
    · by_cases hc : c = '\n'
      · subst hc; simp [pyLines, ih]
      · rw [pyLines, pyLines, ih]
        all_goals first | exact hc | exact h2 | (intro t h; exact absurd h h2)
    · exact h1
    · exact h2
  | case4 => rfl

theorem newlines_no_return : ∀ s : List Char, '\r' ∉ newlines s := by
  intro s
  induction s using newlines.induct with
  | case1 s ih => simp [newlines, ih]
  | case2 s h ih => rw [newlines]; · simp [ih]
                    · exact h
  | case3 c s h1 h2 ih =>
    rw [newlines]
    · simp only [List.mem_cons, not_or]
      exact ⟨fun h => h2 h.symm, ih⟩
    · exact h1
    · exact h2
  | case4 => simp [newlines]

theorem pyLines_text (s : List Char) : pyLines s = physicalLines (newlines s) := by
  rw [← newlines_pyLines, pyLines_physical _ (newlines_no_return s)]

theorem fields_no_newline : ∀ s : List Char, ∀ l ∈ fields '\n' s, '\n' ∉ l := by
  intro s
  induction s with
  | nil => simp [fields]
  | cons c s ih =>
    rw [fields]
    by_cases hc : c = '\n'
    · rw [if_pos hc]
      intro l hl
      rcases List.mem_cons.1 hl with rfl | hl
      · simp
      · exact ih l hl
    · rw [if_neg hc]
      cases hf : fields '\n' s with
      | nil => exact absurd hf (fields_ne_nil _ _)
      | cons f fs =>
        rw [hf] at ih
        intro l hl
        simp only [consHead, List.mem_cons] at hl
        rcases hl with rfl | hl
        · simp only [List.mem_cons, not_or]
          exact ⟨fun h => hc h.symm, ih f (by simp)⟩
        · exact ih l (by simp [hl])

theorem pyLines_newline (s : List Char) : ∀ l ∈ pyLines s, '\n' ∉ l := by
  intro l hl
  rw [pyLines_text] at hl
  apply fields_no_newline (newlines s) l
  unfold physicalLines at hl
  simp only [] at hl
  split at hl
  · exact List.dropLast_subset _ hl
  · exact hl

/-- The tokens of the model are those of the table. -/
theorem tokenize_iff (text : List Char) (lines : List (List Token)) : Offline.tokenize text = some lines ↔ TokensT text lines := by
  unfold Offline.tokenize TokensT
  rw [← pyLines_text, tokenizeLines_iff, statementsAfter_nil]
  intro l hl h
  exact pyLines_newline text l hl (List.mem_of_mem_getLast? h)

/-- A text that is not a file is one line. -/
theorem stripNewlines_iff (text body : List Char) : stripNewlines text = body ↔
    ∃ nl, text = body ++ nl ∧ (∀ c ∈ nl, c = '\r' ∨ c = '\n') ∧ ∀ c, body.getLast? = some c → c ≠ '\r' ∧ c ≠ '\n' := by
  unfold stripNewlines
  constructor
  · rintro rfl
    refine ⟨(text.reverse.takeWhile fun c => c == '\r' || c == '\n').reverse, ?_, ?_, ?_⟩
    · rw [← List.reverse_append, List.takeWhile_append_dropWhile, List.reverse_reverse]
    · intro c hc
      have := List.mem_takeWhile_imp (List.mem_reverse.1 hc)
      simpa using this
    · intro c hc
      rw [List.getLast?_reverse] at hc
      have := List.head?_dropWhile_not (fun c => c == '\r' || c == '\n') text.reverse
      rw [hc] at this
      simpa using this
  · rintro ⟨nl, rfl, h1, h2⟩
    rw [List.reverse_append, List.dropWhile_append_of_pos]
    · cases hb : body.reverse with
      | nil => rw [List.reverse_eq_nil_iff] at hb; simp [hb]
      | cons x t =>
        have hx : body.getLast? = some x := by rw [← List.head?_reverse, hb]; rfl
        have := h2 x hx
        rw [List.dropWhile_cons_of_neg (by simpa using this), ← hb, List.reverse_reverse]
    · intro c hc
      simpa using h1 c (List.mem_reverse.1 hc)

/-- One line gives at most one statement. -/
theorem tokenizeLine_one {body : List Char} {ls : List (List Token)} (h : tokenizeLines [] [body] = some ls) : ls = [] ∨ ∃ ts, ls = [ts] := by
  rw [tokenizeLines] at h
  simp only [Option.bind_eq_bind, Option.pure_def] at h
  obtain ⟨ts, -, h⟩ := Option.bind_eq_some_iff.1 h
  split at h
  · rw [tokenizeLines, Option.some.injEq] at h
    exact .inl h.symm
  · rw [tokenizeLines, Option.bind_some, Option.some.injEq] at h
    rw [← h]
    split
    · exact .inl rfl
    · exact .inr ⟨_, rfl⟩

/-- One line. -/
theorem tokenizeLine_iff (body : List Char) (h : body.getLast? ≠ some '\n') (lines : List (List Token)) :
    tokenizeLines [] [body] = some lines ↔ StatementsT [body] lines := by
  rw [tokenizeLines_iff, statementsAfter_nil]
  intro l hl
  rw [List.mem_singleton] at hl
  rw [hl]
  exact h

end Minijail
