import Verif.Spec.CommonFits
import Verif.Proof.Text
import Verif.Proof.Number
/-! Minijail reads the common policies as they are written. -/
set_option autoImplicit false
set_option linter.unusedSimpArgs false
namespace Minijail
open Spec

/-! ### Characters -/

/-- Characters of constants. -/
def constChar (c : Char) : Prop := c.isAlphanum = true ∨ c ∈ ['_', '-', '~', '|', '(', ')']

theorem digit_alphanum {c : Char} {v : Nat} (h : digit c = some v) : c.isAlphanum = true := by
  unfold digit at h
  simp only [Char.isAlphanum, Char.isAlpha, Char.isUpper, Char.isLower, Char.isDigit, Bool.or_eq_true, Bool.and_eq_true, decide_eq_true_eq]
  split at h
  · rename_i h'; exact .inr h'
  · split at h
    · rename_i h'
      refine .inl (.inr ⟨h'.1, Char.le_trans h'.2 (by decide)⟩)
    · split at h
      · rename_i h'; exact .inl (.inl ⟨h'.1, Char.le_trans h'.2 (by decide)⟩)
      · simp at h

theorem digits_alphanum {b : Nat} {s : List Char} {n : Nat} (h : Digits b s n) : ∀ c ∈ s, c.isAlphanum = true := by
  induction h with
  | nil => simp
  | snoc _ hc _ ih =>
    intro x hx
    rcases List.mem_append.1 hx with hx | hx
    · exact ih x hx
    · rw [List.mem_singleton.1 hx]; exact digit_alphanum hc

theorem literal_alphanum {s : List Char} {n : Nat} (h : Literal s n) : ∀ c ∈ s, c.isAlphanum = true := by
  cases h with
  | dec _ h => exact digits_alphanum h
  | oct h => exact digits_alphanum h
  | hex hx _ h =>
    intro c hc
    simp only [List.mem_cons] at hc
    rcases hc with rfl | rfl | hc
    · decide
    · rcases hx with rfl | rfl <;> decide
    · exact digits_alphanum h c hc

theorem literal_ne {s : List Char} {n : Nat} (h : Literal s n) : s ≠ [] := by cases h <;> simp

theorem word_alphanum {w : List Char} (h : Word w) : ∀ c ∈ w, c.isAlphanum = true ∨ c = '_' := by
  obtain ⟨c, t, rfl, hc, ht⟩ := h
  intro x hx
  rcases List.mem_cons.1 hx with rfl | hx
  · rcases hc with hc | hc
    · exact .inl (by simp [Char.isAlphanum, hc])
    · exact .inr hc
  · exact ht x hx

theorem word_ne {w : List Char} (h : Word w) : w ≠ [] := by obtain ⟨c, t, rfl, -⟩ := h; simp

/-- A single constant: its characters are letters, digits, underscores, with a minus sign perhaps. -/
theorem single_chars {T : CommonTables} {s : List Char} {v : Nat} (h : CommonSingle T s v) :
    s ≠ [] ∧ ∀ c ∈ s, c.isAlphanum = true ∨ c = '_' ∨ c = '-' := by
  cases h with
  | name hw => exact ⟨word_ne hw, fun c hc => (word_alphanum hw c hc).imp id .inl⟩
  | number hl => exact ⟨literal_ne hl, fun c hc => .inl (literal_alphanum hl c hc)⟩
  | negative hl =>
    refine ⟨by simp, fun c hc => ?_⟩
    rcases List.mem_cons.1 hc with rfl | hc
    · exact .inr (.inr rfl)
    · exact .inl (literal_alphanum hl c hc)

theorem single_not {T : CommonTables} {s : List Char} {v : Nat} (h : CommonSingle T s v) {x : Char} (hx : x.isAlphanum = false) (h1 : x ≠ '_') (h2 : x ≠ '-') :
    x ∉ s := by
  intro hm
  rcases (single_chars h).2 x hm with h | h | h
  · rw [hx] at h; simp at h
  · exact h1 h
  · exact h2 h

theorem tilde_chars (neg : Bool) : ∀ c ∈ tilde neg, c = '~' := by cases neg <;> simp [tilde]

theorem const_chars {T : CommonTables} {s : List Char} {v : Nat} (h : CommonConst T s v) : s ≠ [] ∧ ∀ c ∈ s, constChar c := by
  have hs : ∀ {s v}, CommonSingle T s v → ∀ c ∈ s, constChar c := fun h c hc => by
    rcases (single_chars h).2 c hc with h | rfl | rfl
    · exact .inl h
    · exact .inr (by simp)
    · exact .inr (by simp)
  have ht : ∀ neg, ∀ c ∈ tilde neg, constChar c := fun neg c hc => by rw [tilde_chars neg c hc]; exact .inr (by simp)
  have hk : ∀ c ∈ ['|', '(', ')'], constChar c := fun c hc => .inr (by simp at hc ⊢; tauto)
  induction h with
  | @single neg s v h =>
    refine ⟨by have := (single_chars h).1; simp [this], fun c hc => ?_⟩
    rcases List.mem_append.1 hc with hc | hc
    · exact ht _ c hc
    · exact hs h c hc
  | @group neg g v h ih =>
    refine ⟨by simp, fun c hc => ?_⟩
    simp only [List.mem_append, List.mem_cons, List.not_mem_nil, or_false] at hc
    rcases hc with (hc | rfl | hc) | rfl
    · exact ht _ c hc
    · exact hk _ (by simp)
    · exact ih.2 c hc
    · exact hk _ (by simp)
  | @singleOr neg s v rest u h _ ih =>
    refine ⟨by simp, fun c hc => ?_⟩
    simp only [List.mem_append, List.mem_cons] at hc
    rcases hc with (hc | hc) | rfl | hc
    · exact ht _ c hc
    · exact hs h c hc
    · exact hk _ (by simp)
    · exact ih.2 c hc
  | @groupOr neg g v rest u _ _ ih ih' =>
    refine ⟨by simp, fun c hc => ?_⟩
    simp only [List.mem_append, List.mem_cons] at hc
    rcases hc with (hc | rfl | hc) | rfl | rfl | hc
    · exact ht _ c hc
    · exact hk _ (by simp)
    · exact ih.2 c hc
    · exact hk _ (by simp)
    · exact hk _ (by simp)
    · exact ih'.2 c hc

theorem const_not {T : CommonTables} {s : List Char} {v : Nat} (h : CommonConst T s v) {x : Char} (hx : x.isAlphanum = false)
    (h1 : x ∉ ['_', '-', '~', '|', '(', ')']) : x ∉ s := by
  intro hm
  rcases (const_chars h).2 x hm with h | h
  · rw [hx] at h; simp at h
  · exact h1 h

theorem getLast?_app {s t : List Char} (h : t ≠ []) : (s ++ t).getLast? = t.getLast? := by
  rw [List.getLast?_append]
  cases ht : t.getLast? with
  | none => exact absurd (List.getLast?_eq_none_iff.1 ht) h
  | some x => rfl

theorem digits_mem {b : Nat} {s : List Char} {n : Nat} (h : Digits b s n) : ∀ c ∈ s, ∃ v, digit c = some v ∧ v < b := by
  induction h with
  | nil => simp
  | @snoc s c n v _ hc hv ih =>
    intro x hx
    rcases List.mem_append.1 hx with hx | hx
    · exact ih x hx
    · rw [List.mem_singleton.1 hx]; exact ⟨v, hc, hv⟩

/-- No constant begins or ends with a bar. -/
theorem const_ends {T : CommonTables} {s : List Char} {v : Nat} (h : CommonConst T s v) :
    (∀ c, s.head? = some c → c ≠ '|' ∧ c ≠ ')') ∧ ∀ c, s.getLast? = some c → c.isAlphanum = true ∨ c = '_' ∨ c = '-' ∨ c = ')' := by
  have hs : ∀ {s v} neg r, CommonSingle T s v → ∀ c, (tilde neg ++ s ++ r).head? = some c → c ≠ '|' ∧ c ≠ ')' := by
    intro s v neg r h c hc
    cases neg with
    | true => simp [tilde] at hc; subst hc; decide
    | false =>
      obtain ⟨h1, h2⟩ := single_chars h
      cases s with
      | nil => simp at h1
      | cons x s =>
        simp [tilde] at hc
        subst hc
        rcases h2 x (by simp) with h | rfl | rfl
        · refine ⟨?_, ?_⟩ <;> (rintro rfl; simp [Char.isAlphanum, Char.isAlpha, Char.isUpper, Char.isLower, Char.isDigit] at h)
        · decide
        · decide
  have hg : ∀ neg r c, (tilde neg ++ '(' :: r).head? = some c → c ≠ '|' ∧ c ≠ ')' := by
    intro neg r c hc
    cases neg <;> simp [tilde] at hc <;> subst hc <;> decide
  induction h with
  | @single neg s v h =>
    refine ⟨fun c hc => hs neg [] h c (by simpa using hc), fun c hc => ?_⟩
    obtain ⟨h1, h2⟩ := single_chars h
    rw [getLast?_app h1] at hc
    rcases h2 c (List.mem_of_getLast? hc) with h | h | h <;> simp [h]
  | @group neg g v h ih => exact ⟨fun c hc => hg neg (g ++ [')']) c (by simpa using hc), fun c hc => by rw [getLast?_app (by simp)] at hc; simp at hc; simp [← hc]⟩
  | @singleOr neg s v rest u h hr ih =>
    refine ⟨fun c hc => hs neg _ h c hc, fun c hc => ?_⟩
    rw [show tilde neg ++ s ++ '|' :: rest = (tilde neg ++ s ++ ['|']) ++ rest by simp, getLast?_app (const_chars hr).1] at hc
    exact ih.2 c hc
  | @groupOr neg g v rest u _ hr ih ih' =>
    refine ⟨fun c hc => hg neg (g ++ ')' :: '|' :: rest) c (by simpa using hc), fun c hc => ?_⟩
    rw [show tilde neg ++ '(' :: g ++ ')' :: '|' :: rest = (tilde neg ++ '(' :: g ++ [')', '|']) ++ rest by simp,
      getLast?_app (const_chars hr).1] at hc
    exact ih'.2 c hc

/-! ### Splitting at double characters -/

/-- Puts a text in front of the first field. -/
def prependHead (s : List Char) : List (List Char) → List (List Char)
  | [] => [s]
  | f :: fs => (s ++ f) :: fs

/-- No double `a` begins in `s`. -/
def BarSafe (a : Char) (s : List Char) : Prop := ∀ rest, fields2 a a (s ++ rest) = prependHead s (fields2 a a rest)

theorem fields2_ne (a b : Char) (s : List Char) : fields2 a b s ≠ [] := by
  cases s with
  | nil => simp [fields2]
  | cons c s =>
    cases s with
    | nil => simp [fields2]
    | cons c' s => simp only [fields2]; split <;> simp [consHead_ne_nil]

theorem prependHead_append (s t : List Char) {l : List (List Char)} (h : l ≠ []) : prependHead s (prependHead t l) = prependHead (s ++ t) l := by
  cases l with
  | nil => simp at h
  | cons f fs => simp [prependHead]

theorem prependHead_ne (s : List Char) (l : List (List Char)) : prependHead s l ≠ [] := by cases l <;> simp [prependHead]

theorem consHead_eq (c : Char) (l : List (List Char)) : consHead c l = prependHead [c] l := by cases l <;> simp [consHead, prependHead]

theorem BarSafe.append {a : Char} {s t : List Char} (hs : BarSafe a s) (ht : BarSafe a t) : BarSafe a (s ++ t) := by
  intro rest
  rw [List.append_assoc, hs, ht, prependHead_append _ _ (fields2_ne _ _ _)]

theorem BarSafe.nil (a : Char) : BarSafe a [] := by
  intro rest
  have := fields2_ne a a rest
  simp only [List.nil_append]
  cases h : fields2 a a rest with
  | nil => exact absurd h this
  | cons f fs => simp [prependHead]

theorem BarSafe.char {a c : Char} (h : c ≠ a) : BarSafe a [c] := by
  intro rest
  cases rest with
  | nil => simp [fields2, prependHead]
  | cons c' s =>
    simp only [List.cons_append, List.nil_append]
    rw [fields2, if_neg (by simp [h]), consHead_eq]

theorem BarSafe.of_not_mem {a : Char} {s : List Char} (h : a ∉ s) : BarSafe a s := by
  induction s with
  | nil => exact BarSafe.nil a
  | cons c s ih =>
    simp only [List.mem_cons, not_or] at h
    exact (BarSafe.char (Ne.symm h.1)).append (ih h.2)

theorem BarSafe.sep {a x : Char} {r : List Char} (hx : x ≠ a) (h : BarSafe a (x :: r)) : BarSafe a (a :: x :: r) := by
  intro rest
  simp only [List.cons_append]
  rw [fields2, if_neg (by simp [hx])]
  have := h rest
  simp only [List.cons_append] at this
  rw [this, consHead_eq, prependHead_append _ _ (fields2_ne _ _ _)]
  rfl

theorem BarSafe.sep' {a : Char} {r : List Char} (hr : r ≠ []) (hx : ∀ c, r.head? = some c → c ≠ a) (h : BarSafe a r) : BarSafe a (a :: r) := by
  cases r with
  | nil => simp at hr
  | cons x r => exact BarSafe.sep (hx x rfl) h

theorem BarSafe.all {a : Char} {s : List Char} (h : BarSafe a s) : fields2 a a s = [s] := by
  have := h []
  simp [fields2, prependHead] at this
  exact this

theorem BarSafe.cut {a : Char} {s r : List Char} (h : BarSafe a s) : fields2 a a (s ++ a :: a :: r) = s :: fields2 a a r := by
  rw [h]
  simp [fields2, prependHead]

theorem tilde_safe (neg : Bool) {a : Char} (h : a ≠ '~') : BarSafe a (tilde neg) :=
  BarSafe.of_not_mem (fun hm => h (tilde_chars neg a hm))

theorem const_safe_bar {T : CommonTables} {s : List Char} {v : Nat} (h : CommonConst T s v) : BarSafe '|' s := by
  induction h with
  | @single neg s v h => exact (tilde_safe neg (by decide)).append (BarSafe.of_not_mem (single_not h (by decide) (by decide) (by decide)))
  | @group neg g v h ih =>
    have := ((tilde_safe neg (a := '|') (by decide)).append ((BarSafe.char (a := '|') (c := '(') (by decide)).append ih)).append (BarSafe.char (a := '|') (c := ')') (by decide))
    simpa using this
  | @singleOr neg s v rest u h hr ih =>
    exact ((tilde_safe neg (by decide)).append (BarSafe.of_not_mem (single_not h (by decide) (by decide) (by decide)))).append
      (BarSafe.sep' (const_chars hr).1 (fun c hc => ((const_ends hr).1 c hc).1) ih)
  | @groupOr neg g v rest u _ hr ih ih' =>
    have := (((tilde_safe neg (a := '|') (by decide)).append ((BarSafe.char (a := '|') (c := '(') (by decide)).append ih)).append
      (BarSafe.char (a := '|') (c := ')') (by decide))).append (BarSafe.sep' (const_chars hr).1 (fun c hc => ((const_ends hr).1 c hc).1) ih')
    simpa using this

theorem const_safe_and {T : CommonTables} {s : List Char} {v : Nat} (h : CommonConst T s v) : BarSafe '&' s :=
  BarSafe.of_not_mem (const_not h (by decide) (by decide))

/-! ### Parentheses -/

theorem balanced_plain {s : List Char} (h1 : '(' ∉ s) (h2 : ')' ∉ s) : Balanced s := by
  refine ⟨fun k => ?_, ?_⟩
  · rw [List.count_eq_zero_of_not_mem (fun h => h2 (List.mem_of_mem_take h))]; omega
  · rw [List.count_eq_zero_of_not_mem h1, List.count_eq_zero_of_not_mem h2]

theorem balanced_append {s t : List Char} (hs : Balanced s) (ht : Balanced t) : Balanced (s ++ t) := by
  refine ⟨fun k => ?_, ?_⟩
  · rw [List.take_append, List.count_append, List.count_append]
    have := hs.1 k
    have := ht.1 (k - s.length)
    omega
  · rw [List.count_append, List.count_append, hs.2, ht.2]

theorem balanced_group {s : List Char} (hs : Balanced s) : Balanced ('(' :: s ++ [')']) := by
  refine ⟨fun k => ?_, ?_⟩
  · cases k with
    | zero => simp
    | succ k =>
      simp only [List.cons_append, List.take_succ_cons, List.take_append, List.count_cons, List.count_append]
      have := hs.1 k
      have : ([')'].take (k - s.length)).count ')' ≤ 1 := by
        refine Nat.le_trans List.count_le_length ?_
        simp
        omega
      simp
      omega
  · have := hs.2
    simp [List.count_cons, List.count_append]
    omega

theorem const_balanced {T : CommonTables} {s : List Char} {v : Nat} (h : CommonConst T s v) : Balanced s := by
  have hs : ∀ {s v} neg, CommonSingle T s v → Balanced (tilde neg ++ s) := fun neg h =>
    balanced_append (balanced_plain (fun h => absurd (tilde_chars neg _ h) (by decide)) (fun h => absurd (tilde_chars neg _ h) (by decide)))
      (balanced_plain (single_not h (by decide) (by decide) (by decide)) (single_not h (by decide) (by decide) (by decide)))
  have ht : ∀ neg, Balanced (tilde neg) := fun neg =>
    balanced_plain (fun h => absurd (tilde_chars neg _ h) (by decide)) (fun h => absurd (tilde_chars neg _ h) (by decide))
  have hb : Balanced ['|'] := balanced_plain (by decide) (by decide)
  induction h with
  | @single neg s v h => exact hs neg h
  | @group neg g v h ih => simpa using balanced_append (ht neg) (balanced_group ih)
  | @singleOr neg s v rest u h hr ih => simpa using balanced_append (hs neg h) (balanced_append hb ih)
  | @groupOr neg g v rest u _ hr ih ih' => simpa using balanced_append (ht neg) (balanced_append (balanced_group ih) (balanced_append hb ih'))

/-! ### Constants -/

theorem literal_first {s : List Char} {n : Nat} (h : Literal s n) : ∃ c t, s = c :: t ∧ ∃ v, digit c = some v ∧ v < 10 := by
  cases h with
  | @dec c s n _ h =>
    exact ⟨c, s, rfl, digits_mem h c (by simp)⟩
  | @oct s n _ => exact ⟨'0', s, rfl, 0, by decide, by decide⟩
  | @hex x s n _ _ _ => exact ⟨'0', x :: s, rfl, 0, by decide, by decide⟩

theorem digit_not_alpha {c : Char} {v : Nat} (h : digit c = some v) (hv : v < 10) : c.isAlpha = false ∧ c ≠ '_' ∧ c ≠ '-' ∧ c ≠ '(' ∧ c ≠ '~' := by
  unfold digit at h
  split at h
  · rename_i h'
    refine ⟨?_, ?_, ?_, ?_, ?_⟩
    · have h1 : c.val ≤ '9'.val := h'.2
      have hle : c.val.toNat ≤ 57 := UInt32.le_iff_toNat_le.1 h1
      have hA : ¬c.val ≥ 'A'.val := fun h => by have := UInt32.le_iff_toNat_le.1 h; have : 65 ≤ c.val.toNat := this; omega
      have ha : ¬c.val ≥ 'a'.val := fun h => by have := UInt32.le_iff_toNat_le.1 h; have : 97 ≤ c.val.toNat := this; omega
      simp only [Char.isAlpha, Char.isUpper, Char.isLower]
      simp
      exact ⟨fun h => absurd h hA, fun h => absurd h ha⟩
    all_goals (rintro rfl; revert h'; decide)
  · split at h
    · simp at h; omega
    · split at h
      · simp at h; omega
      · simp at h

theorem literal_not_word {s : List Char} {n : Nat} (h : Literal s n) : ¬Word s := by
  obtain ⟨c, t, rfl, v, hc, hv⟩ := literal_first h
  rintro ⟨x, y, e, hx, -⟩
  simp only [List.cons.injEq] at e
  obtain ⟨h1, h2, -⟩ := digit_not_alpha hc hv
  rw [← e.1, h1] at hx
  rcases hx with hx | hx
  · simp at hx
  · exact h2 hx

theorem minus_not_word (s : List Char) : ¬Word ('-' :: s) := by
  rintro ⟨x, y, e, hx, -⟩
  simp only [List.cons.injEq] at e
  rw [← e.1] at hx
  revert hx
  decide

theorem single_means {T : CommonTables} {L : Lang} (hL : LangFits T L) {s : List Char} {v : Nat} (h : CommonSingle T s v) : Single L.named L.bits s v := by
  refine ⟨(single_chars h).1, ?_⟩
  rw [hL.bits]
  have hn : ∀ {w}, ¬Word w → L.named w = none := fun h => Option.eq_none_iff_forall_ne_some.2 fun v hv => h (hL.onlyWords _ _ hv)
  cases h with
  | name hw _ _ hc _ _ hv =>
    obtain ⟨v', h1, h2⟩ := hL.named _ _ hc
    rw [← hv] at h2
    exact .inl (by rw [h1]; congr 1; omega)
  | number hl hlt =>
    refine .inr ⟨hn (literal_not_word hl), v, .plain (ws := []) (by simp) hl, ?_, ?_, ?_⟩
    · have : (0 : Int) ≤ 2 ^ (T.bits - 1) := Int.pow_nonneg (by decide)
      omega
    · exact_mod_cast hlt
    · rw [Int.emod_eq_of_lt (by omega) (by exact_mod_cast hlt)]
  | @negative s n v hl hle hv =>
    refine .inr ⟨hn (minus_not_word s), -(n : Int), .minus (ws := []) (by simp) hl, ?_, ?_, hv⟩
    · have : (n : Int) ≤ 2 ^ (T.bits - 1) := by exact_mod_cast hle
      omega
    · have : (0 : Int) < 2 ^ T.bits := Int.pow_pos (by decide)
      omega

theorem single_plain {T : CommonTables} {s : List Char} {v : Nat} (h : CommonSingle T s v) (neg : Bool) : PlainToken neg s := by
  refine ⟨single_not h (by decide) (by decide) (by decide), ?_, fun _ => ?_⟩
  · intro hc; exact single_not h (x := '(') (by decide) (by decide) (by decide) (List.mem_of_mem_head? hc)
  · intro hc; exact single_not h (x := '~') (by decide) (by decide) (by decide) (List.mem_of_mem_head? hc)

/-- Constants mean to minijail what they are written for. -/
theorem const_means {T : CommonTables} {L : Lang} (hL : LangFits T L) {s : List Char} {v : Nat} (h : CommonConst T s v) : ConstExpr L.named L.bits s v := by
  rw [hL.bits]
  have hs : ∀ {s v}, CommonSingle T s v → Single L.named T.bits s v := fun h => by rw [← hL.bits]; exact single_means hL h
  induction h with
  | @single neg s v h => exact .plain (single_plain h neg) (hs h)
  | @group neg g v h ih => exact .group (const_balanced h) ih
  | @singleOr neg s v rest u h hr ih => exact .plainOr (single_plain h neg) (hs h) ih
  | @groupOr neg g v rest u h hr ih ih' => exact .groupOr (const_balanced h) ih ih'

/-! ### Words of a text -/

theorem words_spaces (k : Nat) (s : List Char) : words ' ' (spaces k ++ s) = words ' ' s := by
  induction k with
  | zero => rfl
  | succ k ih => simp only [spaces, List.replicate_succ, List.cons_append]; rw [words_cons_sep]; exact ih

theorem fields_pre {d : Char} {w : List Char} (h : d ∉ w) (s : List Char) : fields d (w ++ d :: s) = w :: fields d s := by
  induction w with
  | nil => simp [fields]
  | cons c w ih =>
    simp only [List.mem_cons, not_or] at h
    simp only [List.cons_append, fields, if_neg (Ne.symm h.1), ih h.2, consHead]

theorem fields_all {d : Char} {w : List Char} (h : d ∉ w) : fields d w = [w] := by
  induction w with
  | nil => simp [fields]
  | cons c w ih =>
    simp only [List.mem_cons, not_or] at h
    simp only [fields, if_neg (Ne.symm h.1), ih h.2, consHead]

theorem words_word {d : Char} {w : List Char} (h : d ∉ w) (hw : w ≠ []) (s : List Char) : words d (w ++ d :: s) = w :: words d s := by
  simp [words, fields_pre h, hw]

theorem words_all {d : Char} {w : List Char} (h : d ∉ w) (hw : w ≠ []) : words d w = [w] := by simp [words, fields_all h, hw]

theorem words_word_spaces {w : List Char} (h : ' ' ∉ w) (hw : w ≠ []) (n : Nat) (s : List Char) : words ' ' (w ++ (spaces (n + 1) ++ s)) = w :: words ' ' s := by
  simp only [spaces, List.replicate_succ, List.cons_append]
  rw [words_word h hw]
  congr 1
  exact words_spaces n s

theorem words_last {w : List Char} (h : ' ' ∉ w) (hw : w ≠ []) (n : Nat) : words ' ' (w ++ spaces n) = [w] := by
  cases n with
  | zero => simp [spaces, words_all h hw]
  | succ n =>
    have := words_word_spaces h hw n []
    rw [List.append_nil] at this
    rw [this, words_nil]

theorem digitChar_facts {i : Nat} (h : i < 6) : (Nat.digitChar i).isDigit = true ∧ digit (Nat.digitChar i) = some i := by
  have : ∀ i < 6, (Nat.digitChar i).isDigit = true ∧ digit (Nat.digitChar i) = some i := by decide
  exact this i h

theorem digit_not_space {c : Char} {x : Char} (h : c.isDigit = true) (hx : x.isDigit = false) : c ≠ x := by
  rintro rfl; rw [h] at hx; simp at hx

theorem op_chars {op : List Char} {cmp : Cmp} (h : OpText op cmp) : op ≠ [] ∧ ' ' ∉ op ∧ '|' ∉ op ∧ ';' ∉ op ∧ '\n' ∉ op ∧ '\r' ∉ op ∧ '\\' ∉ op := by
  cases h <;> decide

/-- A comparison with spaces around it. -/
theorem atom_means {T : CommonTables} {L : Lang} (hL : LangFits T L) {s : List Char} {a : Atom} (h : CommonAtom T s a) (k j : Nat) :
    AtomText L (spaces k ++ s ++ spaces j) a := by
  cases h with
  | @mk i op cmp c v n m hi hop hc =>
    obtain ⟨hd, hdig⟩ := digitChar_facts hi
    refine .mk (idx := [Nat.digitChar i]) (op := op) (c := c) ?_ ?_ hop (const_means hL hc)
    · have e : spaces k ++ ("arg".toList ++ Nat.digitChar i :: spaces (n + 1) ++ op ++ spaces (m + 1) ++ c) ++ spaces j =
          spaces k ++ (("arg".toList ++ [Nat.digitChar i]) ++ (spaces (n + 1) ++ (op ++ (spaces (m + 1) ++ (c ++ spaces j))))) := by simp
      rw [e, words_spaces, words_word_spaces _ (by simp), words_word_spaces (op_chars hop).2.1 (op_chars hop).1,
        words_last (const_not hc (by decide) (by decide)) (const_chars hc).1]
      intro hm
      simp only [String.toList, List.mem_append, List.mem_singleton] at hm
      rcases hm with hm | hm
      · revert hm; decide
      · exact digit_not_space hd (by decide) hm.symm
    · refine .plain (ws := []) (by simp) ⟨by simp, ?_⟩
      have : Digits 10 ([] ++ [Nat.digitChar i]) (0 * 10 + i) := .snoc .nil hdig (by omega)
      simpa using this

theorem spaces_not {x : Char} (h : x ≠ ' ') (n : Nat) : x ∉ spaces n := by
  intro hm; exact h (List.eq_of_mem_replicate hm)

theorem atom_safe_bar {T : CommonTables} {s : List Char} {a : Atom} (h : CommonAtom T s a) : BarSafe '|' s := by
  cases h with
  | @mk i op cmp c v n m hi hop hc =>
    obtain ⟨hd, -⟩ := digitChar_facts hi
    refine BarSafe.append (BarSafe.of_not_mem ?_) (const_safe_bar hc)
    simp only [List.mem_append, List.mem_cons, not_or]
    exact ⟨⟨⟨by decide, (digit_not_space hd (by decide)).symm, spaces_not (by decide) _⟩, (op_chars hop).2.2.1⟩, spaces_not (by decide) _⟩

theorem atom_safe_and {T : CommonTables} {s : List Char} {a : Atom} (h : CommonAtom T s a) : BarSafe '&' s := by
  cases h with
  | @mk i op cmp c v n m hi hop hc =>
    obtain ⟨hd, -⟩ := digitChar_facts hi
    have h1 : BarSafe '&' ("arg".toList ++ Nat.digitChar i :: spaces (n + 1)) := by
      refine BarSafe.of_not_mem ?_
      simp only [List.mem_append, List.mem_cons, not_or]
      exact ⟨by decide, (digit_not_space hd (by decide)).symm, spaces_not (by decide) _⟩
    have h2 : BarSafe '&' (spaces (m + 1) ++ c) := (BarSafe.of_not_mem (spaces_not (by decide) _)).append (const_safe_and hc)
    have h3 : BarSafe '&' (op ++ (spaces (m + 1) ++ c)) := by
      by_cases hm : '&' ∈ op
      · have : op = ['&'] := by revert hm; cases hop <;> decide
        rw [this]
        refine BarSafe.sep' (by simp [spaces]) ?_ h2
        intro x hx
        simp [spaces, List.replicate_succ] at hx
        subst hx; decide
      · exact (BarSafe.of_not_mem hm).append h2
    simpa using h1.append h3

theorem spaces_safe (n : Nat) {a : Char} (h : a ≠ ' ') : BarSafe a (spaces n) := BarSafe.of_not_mem (spaces_not h n)

/-- A conjunction with spaces around it. -/
theorem clause_means {T : CommonTables} {L : Lang} (hL : LangFits T L) {s : List Char} {l : List Atom} (h : Joined "&&".toList (CommonAtom T) s l) :
    ∀ k j, All₂ (AtomText L) (fields2 '&' '&' (spaces k ++ s ++ spaces j)) l := by
  induction h with
  | one h =>
    intro k j
    rw [(((spaces_safe k (by decide)).append (atom_safe_and h)).append (spaces_safe j (by decide))).all]
    exact .cons (atom_means hL h k j) .nil
  | @more s x r xs n m h _ ih =>
    intro k j
    have e : spaces k ++ (s ++ spaces n ++ "&&".toList ++ spaces m ++ r) ++ spaces j = (spaces k ++ s ++ spaces n) ++ '&' :: '&' :: (spaces m ++ r ++ spaces j) := by
      simp
    rw [e, (((spaces_safe k (by decide)).append (atom_safe_and h)).append (spaces_safe n (by decide))).cut]
    exact .cons (atom_means hL h k n) (ih m j)

theorem clause_safe_bar {T : CommonTables} {s : List Char} {l : List Atom} (h : Joined "&&".toList (CommonAtom T) s l) : BarSafe '|' s := by
  induction h with
  | one h => exact atom_safe_bar h
  | @more s x r xs n m h _ ih =>
    exact ((((atom_safe_bar h).append (spaces_safe n (by decide))).append (BarSafe.of_not_mem (by decide))).append (spaces_safe m (by decide))).append ih

/-- A condition with spaces around it. -/
theorem dnf_means {T : CommonTables} {L : Lang} (hL : LangFits T L) {s : List Char} {f : Dnf}
    (h : Joined "||".toList (Joined "&&".toList (CommonAtom T)) s f) : ∀ k j, DnfText L (spaces k ++ s ++ spaces j) f := by
  unfold DnfText
  induction h with
  | one h =>
    intro k j
    rw [(((spaces_safe k (by decide)).append (clause_safe_bar h)).append (spaces_safe j (by decide))).all]
    exact .cons (clause_means hL h k j) .nil
  | @more s x r xs n m h _ ih =>
    intro k j
    have e : spaces k ++ (s ++ spaces n ++ "||".toList ++ spaces m ++ r) ++ spaces j = (spaces k ++ s ++ spaces n) ++ '|' :: '|' :: (spaces m ++ r ++ spaces j) := by
      simp
    rw [e, (((spaces_safe k (by decide)).append (clause_safe_bar h)).append (spaces_safe n (by decide))).cut]
    exact .cons (clause_means hL h k n) (ih m j)

/-! ### Rules and lines -/

/-- Characters that no rule has. -/
def badChars : List Char := ['\n', '\r', '\\', ';', ':', '#', '@', '\t', '/']

theorem bad_facts {x : Char} (h : x ∈ badChars) : x.isAlphanum = false ∧ x ≠ '_' ∧ x ≠ '-' ∧ x ∉ ['_', '-', '~', '|', '(', ')'] ∧ x ≠ ' ' ∧ x.isDigit = false ∧
    x ∉ "arg".toList ∧ x ∉ "&&".toList ∧ x ∉ "||".toList ∧ x ∉ "return".toList ∧ x ≠ '1' := by
  have : ∀ x ∈ badChars, x.isAlphanum = false ∧ x ≠ '_' ∧ x ≠ '-' ∧ x ∉ ['_', '-', '~', '|', '(', ')'] ∧ x ≠ ' ' ∧ x.isDigit = false ∧
    x ∉ "arg".toList ∧ x ∉ "&&".toList ∧ x ∉ "||".toList ∧ x ∉ "return".toList ∧ x ≠ '1' := by decide
  exact this x h

theorem op_not {op : List Char} {cmp : Cmp} (h : OpText op cmp) {x : Char} (hx : x ∈ badChars) : x ∉ op := by
  have : ∀ x ∈ badChars, x ∉ op := by cases h <;> decide
  exact this x hx

/-- A text that begins and ends with no blank. -/
structure Solid (s : List Char) : Prop where
  ne : s ≠ []
  first : ∀ c, s.head? = some c → ¬isBlank c
  last : ∀ c, s.getLast? = some c → ¬(isBlank c ∨ c = '\n')

theorem not_blank_of {c : Char} (h : c.isAlphanum = true ∨ c = '_' ∨ c = '-' ∨ c = ')') : ¬(isBlank c ∨ c = '\n') := by
  rintro ((rfl | rfl) | rfl) <;> revert h <;> decide

theorem Solid.join {s t : List Char} (hs : Solid s) (m : List Char) (ht : Solid t) : Solid (s ++ m ++ t) := by
  refine ⟨by simp [hs.ne], fun c hc => hs.first c ?_, fun c hc => ht.last c ?_⟩
  · rw [List.append_assoc, List.head?_append] at hc
    cases h : s.head? with
    | none => exact absurd (List.head?_eq_none_iff.1 h) hs.ne
    | some x => rw [h] at hc; simpa using hc
  · rwa [getLast?_app ht.ne] at hc

theorem const_solid {T : CommonTables} {s : List Char} {v : Nat} (h : CommonConst T s v) : Solid s := by
  refine ⟨(const_chars h).1, fun c hc => ?_, fun c hc => not_blank_of ((const_ends h).2 c hc)⟩
  rintro (rfl | rfl)
  · exact const_not h (x := ' ') (by decide) (by decide) (List.mem_of_mem_head? hc)
  · exact const_not h (x := '\t') (by decide) (by decide) (List.mem_of_mem_head? hc)

theorem atom_solid {T : CommonTables} {s : List Char} {a : Atom} (h : CommonAtom T s a) : Solid s := by
  cases h with
  | @mk i op cmp c v n m hi hop hc =>
    refine ⟨by simp, fun x hx => ?_, fun x hx => ?_⟩
    · simp at hx; subst hx; unfold isBlank; decide
    · rw [getLast?_app (const_chars hc).1] at hx
      exact (const_solid hc).last x hx

theorem joined_solid {α : Type} {sep : List Char} {R : List Char → α → Prop} (hR : ∀ s x, R s x → Solid s) {s : List Char} {l : List α} (h : Joined sep R s l) :
    Solid s := by
  induction h with
  | one h => exact hR _ _ h
  | @more s x r xs n m h _ ih =>
    have := (hR _ _ h).join (spaces n ++ sep ++ spaces m) ih
    simpa using this

theorem atom_not {T : CommonTables} {s : List Char} {a : Atom} (h : CommonAtom T s a) {x : Char} (hx : x ∈ badChars) : x ∉ s := by
  obtain ⟨h1, h2, h3, h4, h5, h6, h7, -⟩ := bad_facts hx
  cases h with
  | @mk i op cmp c v n m hi hop hc =>
    simp only [List.mem_append, List.mem_cons, not_or]
    exact ⟨⟨⟨⟨h7, (digit_not_space (digitChar_facts hi).1 h6).symm, spaces_not h5 _⟩, op_not hop hx⟩, spaces_not h5 _⟩, const_not hc h1 h4⟩

theorem joined_not {α : Type} {sep : List Char} {R : List Char → α → Prop} {x : Char} (hx : x ≠ ' ') (hsep : x ∉ sep) (hR : ∀ s a, R s a → x ∉ s) {s : List Char}
    {l : List α} (h : Joined sep R s l) : x ∉ s := by
  induction h with
  | one h => exact hR _ _ h
  | @more s y r xs n m h _ ih =>
    simp only [List.mem_append, not_or]
    exact ⟨⟨⟨⟨hR _ _ h, spaces_not hx _⟩, hsep⟩, spaces_not hx _⟩, ih⟩

theorem single_const {T : CommonTables} {s : List Char} {v : Nat} (h : CommonSingle T s v) : CommonConst T s v := by
  have := CommonConst.single (neg := false) h
  simpa [tilde, Spec.compl] using this

theorem rule_solid {T : CommonTables} {dflt : Action} {s : List Char} {r : Rule} (h : CommonRule T dflt s r) : Solid s := by
  cases h with
  | allow => exact ⟨by simp, fun c hc => by simp at hc; subst hc; unfold isBlank; decide, fun c hc => by simp at hc; subst hc; unfold isBlank; decide⟩
  | errno n hc =>
    have h1 : Solid "return".toList :=
      ⟨by simp, fun c hc => by simp at hc; subst hc; unfold isBlank; decide, fun c hc => by simp at hc; subst hc; unfold isBlank; decide⟩
    exact h1.join _ (const_solid (single_const hc))
  | filter h => exact joined_solid (fun _ _ => joined_solid fun _ _ => atom_solid) h

theorem rule_not {T : CommonTables} {dflt : Action} {s : List Char} {r : Rule} (h : CommonRule T dflt s r) {x : Char} (hx : x ∈ badChars) : x ∉ s := by
  obtain ⟨h1, h2, h3, h4, h5, h6, h7, h8, h9, h10, h11⟩ := bad_facts hx
  cases h with
  | allow => simpa using h11
  | errno n hc =>
    simp only [List.mem_append, not_or]
    exact ⟨⟨h10, spaces_not h5 _⟩, single_not hc h1 h2 h3⟩
  | filter h => exact joined_not h5 h9 (fun _ _ => joined_not h5 h8 fun _ _ ha => atom_not ha hx) h

theorem joined_begins {α : Type} {sep : List Char} {R : List Char → α → Prop} {w : List Char} (hR : ∀ s a, R s a → w <+: s) {s : List Char} {l : List α}
    (h : Joined sep R s l) : w <+: s := by
  cases h with
  | one h => exact hR _ _ h
  | @more s y r xs n m h _ =>
    obtain ⟨t, rfl⟩ := hR _ _ h
    exact ⟨t ++ spaces n ++ sep ++ spaces m ++ r, by simp⟩

/-- A rule means to minijail what it is written for. -/
theorem rule_means {T : CommonTables} {L : Lang} (hL : LangFits T L) {s : List Char} {r : Rule} (h : CommonRule T L.dflt s r) : RuleText L s r := by
  have hsemi := rule_not h (x := ';') (by decide)
  have hsolid := rule_solid h
  cases h with
  | allow => exact .allow
  | @errno c v n hc hv =>
    refine .block (by rw [List.append_assoc]; exact List.prefix_append _ _) (.errno (w := "return".toList) (c := c) (rest := []) ?_ (List.prefix_refl _)
      (const_means hL (single_const hc)) hv)
    rw [List.append_assoc, words_word_spaces (by decide) (by simp), words_all (single_not hc (by decide) (by decide) (by decide)) (single_chars hc).1]
  | @filter s f h =>
    have hb : "arg".toList <+: s := joined_begins (fun _ _ => joined_begins fun _ _ ha => by
      cases ha with
      | @mk i op cmp c v n m => exact ⟨Nat.digitChar i :: spaces (n + 1) ++ op ++ spaces (m + 1) ++ c, by simp⟩) h
    obtain ⟨t, rfl⟩ := hb
    refine .filter (by simp) ?_ (words_all hsemi hsolid.ne) ?_
    · rintro ⟨u, hu⟩
      simp at hu
    · have := dnf_means hL h 0 0
      simpa [spaces] using this

/-! ### Trimming -/

theorem dropWhile_blanks {b s : List Char} {p : Char → Bool} (hb : ∀ c ∈ b, p c = true) (hs : ∀ c, s.head? = some c → p c = false) :
    (b ++ s).dropWhile p = s := by
  induction b with
  | nil =>
    cases s with
    | nil => rfl
    | cons c s => simp [List.dropWhile_cons, hs c rfl]
  | cons c b ih =>
    simp only [List.cons_append, List.dropWhile_cons, hb c (by simp), if_true]
    exact ih fun c hc => hb c (by simp [hc])

theorem trim_pad {b s b' : List Char} (hb : Blanks b) (hs : Solid s) (hb' : Blanks b') : trim (b ++ s ++ b') = s := by
  unfold trim
  simp only []
  have hbl : ∀ c, isBlank c ↔ (c == ' ' || c == '\t') = true := by intro c; simp [isBlank]
  rw [List.append_assoc, dropWhile_blanks (s := s ++ b') (fun c hc => (hbl c).1 (hb c hc)) ?_]
  · rw [List.reverse_append, dropWhile_blanks, List.reverse_reverse]
    · intro c hc
      have := (hbl c).1 (hb' c (List.mem_reverse.1 hc))
      simp only [Bool.or_eq_true] at this ⊢
      exact .inl this
    · intro c hc
      rw [List.head?_reverse] at hc
      have := hs.last c hc
      rw [hbl] at this
      simp only [not_or] at this
      simp only [Bool.or_eq_false_iff]
      exact ⟨by simpa using this.1, by simpa using this.2⟩
  · intro c hc
    rw [List.head?_append] at hc
    cases h : s.head? with
    | none => exact absurd (List.head?_eq_none_iff.1 h) hs.ne
    | some x =>
      rw [h] at hc
      simp at hc
      subst hc
      have := hs.first x h
      rw [hbl] at this
      simpa using this

theorem trim_blanks {b : List Char} (hb : Blanks b) : trim b = [] := by
  unfold trim
  simp only []
  have : b.dropWhile (fun c => c == ' ' || c == '\t') = [] := by
    rw [List.dropWhile_eq_nil_iff]
    intro c hc
    have := hb c hc
    simpa [isBlank] using this
  rw [this]
  rfl

theorem word_solid {w : List Char} (h : Word w) : Solid w :=
  ⟨word_ne h, fun c hc => fun hb => not_blank_of ((word_alphanum h c (List.mem_of_mem_head? hc)).imp id .inl) (.inl hb),
   fun c hc => not_blank_of ((word_alphanum h c (List.mem_of_getLast? hc)).imp id .inl)⟩

theorem word_not {w : List Char} (h : Word w) {x : Char} (hx : x ∈ badChars) : x ∉ w := by
  obtain ⟨h1, h2, -⟩ := bad_facts hx
  intro hm
  rcases word_alphanum h x hm with h | h
  · rw [h1] at h; simp at h
  · exact h2 h

theorem blanks_not {b : List Char} (hb : Blanks b) {x : Char} (hx : ¬isBlank x) : x ∉ b := fun h => hx (hb x h)

/-- A statement means to minijail what it is written for. -/
theorem statement_means {T : CommonTables} {L : Lang} (hL : LangFits T L) {incl : List Char → List (BitVec 32 × Rule) → Prop} {s name : List Char} {r : Rule} {nr : Nat}
    (h : CommonStatement T L.dflt s (name, r)) (hn : T.syscall name = some nr) : LineText L incl (trim s) [(BitVec.ofNat 32 nr, r)] := by
  cases h with
  | @mk b0 name b1 b2 rhs r b3 h0 hw hres h1 h2 hr h3 =>
    have e : b0 ++ name ++ b1 ++ ':' :: b2 ++ rhs ++ b3 = b0 ++ (name ++ (b1 ++ ':' :: b2) ++ rhs) ++ b3 := by simp
    rw [e, trim_pad h0 ((word_solid hw).join _ (rule_solid hr)) h3]
    have e2 : name ++ (b1 ++ ':' :: b2) ++ rhs = (name ++ b1) ++ ':' :: (b2 ++ rhs) := by simp
    rw [e2]
    have hhead : ∀ c, (name ++ b1).head? = some c → c ∈ name := by
      intro c hc
      obtain ⟨x, t, rfl, -⟩ := hw
      simp at hc ⊢
      exact .inl hc.symm
    refine .rule ?_ ?_ ?_ ?_ ?_
    · intro h; exact word_not hw (x := '#') (by decide) (hhead _ h)
    · intro h; exact word_not hw (x := '@') (by decide) (hhead _ h)
    · simp only [List.mem_append, not_or]
      exact ⟨word_not hw (by decide), blanks_not h1 (by unfold isBlank; decide)⟩
    · have := trim_pad (b := []) (by intro c hc; simp at hc) (word_solid hw) h1
      rw [List.nil_append] at this
      rw [this]
      exact hL.syscall _ _ hn
    · have := trim_pad h2 (rule_solid hr) (b' := []) (by intro c hc; simp at hc)
      rw [List.append_nil] at this
      rw [this]
      exact rule_means hL hr

/-! ### Files -/

theorem physicalLines_cons {a : List Char} (h : '\n' ∉ a) (x : List Char) : physicalLines (a ++ '\n' :: x) = a :: physicalLines x := by
  unfold physicalLines
  rw [fields_pre h]
  simp only []
  have hne := fields_ne_nil '\n' x
  have e : (a :: fields '\n' x).getLast? = (fields '\n' x).getLast? := by
    cases hx : fields '\n' x with
    | nil => exact absurd hx hne
    | cons f fs => simp
  rw [e]
  split
  · cases hx : fields '\n' x with
    | nil => exact absurd hx hne
    | cons f fs => simp
  · rfl

theorem logicalLines_cons {a : List Char} (h : '\n' ∉ a) (h' : a.getLast? ≠ some '\\') (x : List Char) : logicalLines (a ++ '\n' :: x) = a :: logicalLines x := by
  unfold logicalLines
  rw [physicalLines_cons h]
  simp only [joinLines]
  rw [if_neg h']

theorem logicalLines_cut {a s x : List Char} {l : List (List Char)} (h : '\n' ∉ a) (hx : logicalLines x = s :: l) :
    logicalLines (a ++ '\\' :: '\n' :: x) = (a ++ ' ' :: s) :: l := by
  unfold logicalLines at *
  have e : a ++ '\\' :: '\n' :: x = (a ++ ['\\']) ++ '\n' :: x := by simp
  rw [e, physicalLines_cons (by simp [h])]
  simp only [joinLines]
  rw [if_pos (by simp), hx]
  simp

theorem logicalLines_written {s p : List Char} (h : Written s p) : '\n' ∉ s → '\\' ∉ s → ∀ text, logicalLines (p ++ '\n' :: text) = s :: logicalLines text := by
  induction h with
  | plain => intro h1 h2 text; exact logicalLines_cons h1 (fun h => h2 (List.mem_of_getLast? h)) text
  | @cut a s p _ ih =>
    intro h1 h2 text
    simp only [List.mem_append, List.mem_cons, not_or] at h1 h2
    have := logicalLines_cut h1.1 (ih h1.2.2 h2.2.2 text)
    simpa using this

theorem statement_not {T : CommonTables} {dflt : Action} {s : List Char} {x : List Char × Rule} (h : CommonStatement T dflt s x) :
    '\n' ∉ s ∧ '\\' ∉ s ∧ '\r' ∉ s ∧ '#' ∉ s ∧ '@' ∉ s ∧ '/' ∉ s := by
  have key : ∀ c ∈ badChars, ¬isBlank c → c ≠ ':' → c ∉ s := by
    intro c hc hb hcol
    cases h with
    | @mk b0 name b1 b2 rhs r b3 h0 hw hres h1 h2 hr h3 =>
      simp only [List.mem_append, List.mem_cons, not_or]
      exact ⟨⟨⟨⟨⟨blanks_not h0 hb, word_not hw hc⟩, blanks_not h1 hb⟩, hcol, blanks_not h2 hb⟩, rule_not hr hc⟩, blanks_not h3 hb⟩
  refine ⟨key _ ?_ ?_ ?_, key _ ?_ ?_ ?_, key _ ?_ ?_ ?_, key _ ?_ ?_ ?_, key _ ?_ ?_ ?_, key _ ?_ ?_ ?_⟩ <;> (try unfold isBlank) <;> decide

theorem straight_facts {path : List Char} (h : StraightPath path) : "/".toList <+: path ∧ ∀ c ∈ path, c ≠ '\\' ∧ 33 ≤ c.toNat ∧ c.toNat < 127 := by
  obtain ⟨parts, hne, rfl, hp⟩ := h
  refine ⟨?_, ?_⟩
  · cases parts with
    | nil => simp at hne
    | cons p ps => exact ⟨p ++ (ps.map ('/' :: ·)).flatten, by simp⟩
  · intro c hc
    simp only [List.mem_flatten, List.mem_map] at hc
    obtain ⟨_, ⟨p, hpp, rfl⟩, hc⟩ := hc
    rcases List.mem_cons.1 hc with rfl | hc
    · decide
    · exact ((hp p hpp).2.2.2 c hc).2

theorem numbered_append (T : CommonTables) (a b : List (List Char × Rule)) : numbered T (a ++ b) = numbered T a ++ numbered T b := by simp [numbered]

/-- A file means to minijail what it is written for. -/
theorem lines_mean {T : CommonTables} {L : Lang} (hL : LangFits T L) {incl : List Char → List (List Char × Rule) → Prop}
    {incl' : List Char → List (BitVec 32 × Rule) → Prop} {text : List Char} {rules : List (List Char × Rule)} (h : CommonLines T L.dflt incl text rules)
    (hs : ∀ x ∈ rules, (T.syscall x.1).isSome) (hi : ∀ content added, incl content added → (∀ x ∈ added, (T.syscall x.1).isSome) → incl' content (numbered T added)) :
    FileText L incl' text (numbered T rules) := by
  induction h with
  | nil => exact ⟨[], by rw [show logicalLines [] = [] by simp [logicalLines, physicalLines_nil, joinLines]]; exact .nil, rfl⟩
  | @statement s p x text rest hst hw _ ih =>
    obtain ⟨h1, h2, -⟩ := statement_not hst
    obtain ⟨parts, hp, e⟩ := ih fun y hy => hs y (by simp [hy])
    obtain ⟨nr, hnr⟩ := Option.isSome_iff_exists.1 (hs x (by simp))
    refine ⟨[(BitVec.ofNat 32 nr, x.2)] :: parts, ?_, ?_⟩
    · rw [logicalLines_written hw h1 h2]
      exact .cons (statement_means hL hst hnr) hp
    · show numbered T (x :: rest) = _
      simp only [numbered, List.map_cons, hnr, Option.getD_some, List.flatten_cons, List.cons_append, List.nil_append]
      rw [← e]
      rfl
  | @blank b text rest hb _ ih =>
    obtain ⟨parts, hp, e⟩ := ih hs
    refine ⟨[] :: parts, ?_, by simpa using e⟩
    rw [logicalLines_cons (blanks_not hb (by unfold isBlank; decide)) (fun h => blanks_not hb (by unfold isBlank; decide) (List.mem_of_getLast? h))]
    exact .cons (by rw [trim_blanks hb]; exact .blank) hp
  | @comment b s text rest hb hn hr hl _ ih =>
    obtain ⟨parts, hp, e⟩ := ih hs
    refine ⟨[] :: parts, ?_, by simpa using e⟩
    rw [logicalLines_cons]
    · refine .cons ?_ hp
      have : ∃ t, trim (b ++ '#' :: s) = '#' :: t := by
        unfold trim
        simp only []
        rw [dropWhile_blanks (s := '#' :: s) (fun c hc => by have := hb c hc; simpa [isBlank] using this) (by simp)]
        have key : ∀ l : List Char, ∃ t, ((l ++ ['#']).dropWhile fun c => (c == ' ' || c == '\t') || c == '\n') = t ++ ['#'] := by
          intro l
          induction l with
          | nil => exact ⟨[], by simp⟩
          | cons c l ih =>
            simp only [List.cons_append, List.dropWhile_cons]
            split
            · exact ih
            · exact ⟨c :: l, by simp⟩
        obtain ⟨t, ht⟩ := key s.reverse
        rw [List.reverse_cons, ht]
        exact ⟨t.reverse, by simp⟩
      obtain ⟨t, ht⟩ := this
      rw [ht]
      exact .comment
    · simp only [List.mem_append, List.mem_cons, not_or]
      exact ⟨blanks_not hb (by unfold isBlank; decide), by decide, hn⟩
    · rw [getLast?_app (by simp)]
      cases s with
      | nil => simp
      | cons c s => simpa using hl
  | @include_ path content added b text rest hp hf hin hb _ ih =>
    obtain ⟨parts, hpp, e⟩ := ih fun y hy => hs y (by simp [hy])
    obtain ⟨hslash, hchars⟩ := straight_facts hp
    refine ⟨numbered T added :: parts, ?_, ?_⟩
    · rw [logicalLines_cons]
      · refine .cons ?_ hpp
        have hsol : Solid ("@include ".toList ++ path) := by
          refine ⟨by simp, fun c hc => ?_, fun c hc => ?_⟩
          · simp at hc; subst hc; unfold isBlank; decide
          · rw [getLast?_app (by rintro rfl; simp at hslash)] at hc
            obtain ⟨h1, h2, h3⟩ := hchars c (List.mem_of_getLast? hc)
            rintro ((rfl | rfl) | rfl) <;> revert h2 <;> decide
        have := trim_pad (b := []) (by intro c hc; simp at hc) hsol hb
        rw [List.nil_append] at this
        rw [this]
        exact .include_ (.inl hslash) (by rw [hL.files]; exact hf) (hi _ _ hin fun y hy => hs y (by simp [hy]))
      · simp only [List.mem_append, not_or]
        refine ⟨⟨by decide, fun h => ?_⟩, blanks_not hb (by unfold isBlank; decide)⟩
        have := (hchars _ h).2.1
        revert this; decide
      · intro h
        have hm := List.mem_of_getLast? h
        simp only [List.mem_append] at hm
        rcases hm with (hm | hm) | hm
        · revert hm; decide
        · exact (hchars _ hm).1 rfl
        · exact blanks_not hb (by unfold isBlank; decide) hm
    · rw [numbered_append, e]; simp

/-- A policy means to minijail what it is written for. -/
theorem policy_means {T : CommonTables} {L : Lang} (hL : LangFits T L) {text : List Char} {rules : List (List Char × Rule)} (h : CommonPolicy T L.dflt text rules) :
    PolicyText L text (numbered T rules) :=
  lines_mean hL h.1 h.2.2 fun _ _ hc hs => lines_mean hL hc hs fun _ _ h => h.elim

end Minijail
