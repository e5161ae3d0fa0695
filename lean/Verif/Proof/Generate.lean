import Verif.Model.Generate
import Verif.Spec.Trace
import Verif.Proof.CommonMeaning
/-! What the generator of policies reads in traces. -/
set_option autoImplicit false
set_option linter.unusedSimpArgs false
namespace Minijail
open Spec Offline Generate

/-! ### Lines -/

theorem blank_pySpace {b : List Char} (h : Blanks b) : ∀ c ∈ b, isPySpace c = true := fun c hc => blank_space (h c hc)

theorem drop_blanks {b s : List Char} (hb : Blanks b) (hs : ∀ c, s.head? = some c → isPySpace c = false) : (b ++ s).dropWhile isPySpace = s :=
  dropWhile_blanks (blank_pySpace hb) hs

theorem word_pyWord {w : List Char} (h : Word w) : ∀ c ∈ w, isPyWord c = true := by
  intro c hc
  rcases word_alphanum h c hc with h | rfl
  · simp [isPyWord, h]
  · decide

theorem pyWord_not_space {c : Char} (h : isPyWord c = true) : isPySpace c = false := by
  cases hs : isPySpace c with
  | false => rfl
  | true =>
    simp [isPySpace] at hs
    rcases hs with rfl | rfl | rfl | rfl | rfl | rfl | rfl | rfl | rfl | rfl <;> revert h <;> decide

theorem word_head {w : List Char} (h : Word w) (s : List Char) : ∃ c t, w ++ s = c :: t ∧ isPySpace c = false ∧ c ≠ '[' ∧ c.isDigit = false := by
  obtain ⟨c, t, rfl, hc, -⟩ := h
  refine ⟨c, t ++ s, rfl, ?_, ?_, ?_⟩
  · apply pyWord_not_space
    rcases hc with hc | rfl
    · simp [isPyWord, Char.isAlphanum, hc]
    · decide
  · rintro rfl
    revert hc; decide
  · rcases hc with hc | rfl
    · cases hd : c.isDigit with
      | false => rfl
      | true =>
        simp [Char.isDigit, Char.isAlpha, Char.isUpper, Char.isLower] at hd hc
        rcases hc with hc | hc
        · have h1 := hc.1; have h2 := hd.2
          simp [UInt32.le_iff_toNat_le] at h1 h2
          omega
        · have h1 := hc.1; have h2 := hd.2
          simp [UInt32.le_iff_toNat_le] at h1 h2
          omega
    · decide

theorem nameAt_word {name rest : List Char} (h : Word name) : nameAt (name ++ '(' :: rest) = some (name, rest.takeWhile fun c => c != ')' && c != '<') := by
  unfold nameAt
  simp only []
  rw [takeWhile_run (word_pyWord h) (by simp; decide), List.drop_left]
  simp only []
  rw [if_neg (word_ne h)]

theorem digits_run {s r : List Char} (hs : ∀ c ∈ s, c.isDigit = true) (hr : ∀ c, r.head? = some c → c.isDigit = false) : (s ++ r).takeWhile Char.isDigit = s :=
  takeWhile_run hs hr

/-- What follows the tag of a line decides. -/
theorem lineRe_tag {b tag rest : List Char} (hb : Blanks b) (ht : TraceTag tag) (h1 : ∀ c, rest.head? = some c → isPySpace c = false ∧ c ≠ '[' ∧ c.isDigit = false)
    {m : List Char × List Char} (hm : nameAt rest = some m) :
    lineRe (b ++ tag ++ rest) = some m := by
  unfold lineRe
  rw [List.append_assoc]
  cases ht with
  | none =>
    rw [List.nil_append, drop_blanks hb fun c hc => (h1 c hc).1]
    cases rest with
    | nil => simp [nameAt] at hm
    | cons c t =>
      obtain ⟨h2, h3, h4⟩ := h1 c rfl
      split
      · next e => simp at e; exact absurd e.1 h3
      · next e =>
        have : (c :: t).takeWhile Char.isDigit = [] := by simp [List.takeWhile_cons, h4]
        rw [this]
        simp only [List.length_nil, Nat.zero_add, List.range_one, List.reverse_singleton, List.findSome?_cons, List.drop_zero]
        have hd : (c :: t).dropWhile isPySpace = c :: t := by simp [List.dropWhile_cons, h2]
        rw [hd, hm]
  | @pid s b' hs hdig hb' hbl =>
    have hhead : ∀ c, (s ++ b' ++ rest).head? = some c → isPySpace c = false ∧ c ≠ '[' := by
      cases s with
      | nil => simp at hs
      | cons x s =>
        intro c hc
        simp at hc
        subst hc
        have hx := hdig x (by simp)
        exact ⟨pyWord_not_space (by simp [isPyWord, Char.isAlphanum, hx]), by rintro rfl; revert hx; decide⟩
    rw [drop_blanks hb fun c hc => (hhead c hc).1]
    have hrun : (s ++ b' ++ rest).takeWhile Char.isDigit = s := by
      rw [List.append_assoc]
      refine digits_run hdig ?_
      cases b' with
      | nil => simp at hb'
      | cons x b' =>
        intro c hc
        simp at hc
        subst hc
        rcases hbl x (by simp) with rfl | rfl <;> decide
    split
    · next e =>
      exact absurd rfl (hhead '[' (by rw [e]; rfl)).2
    · next e =>
      rw [hrun, List.range_succ, List.reverse_append, List.reverse_singleton, List.singleton_append, List.findSome?_cons]
      rw [List.append_assoc, List.drop_left, drop_blanks hbl fun c hc => (h1 c hc).1, hm]
  | @brackets s b' hs hbl =>
    rw [List.cons_append, List.cons_append, drop_blanks hb (by intro c hc; simp at hc; subst hc; decide)]
    simp only []
    have : (s ++ ']' :: b' ++ rest).dropWhile (· != ']') = ']' :: (b' ++ rest) := by
      rw [List.append_assoc]
      exact dropWhile_blanks (fun c hc => by
        simp only [bne_iff_ne, ne_eq]
        rintro rfl
        exact hs hc) (by simp)
    rw [this]
    simp only []
    rw [drop_blanks hbl fun c hc => (h1 c hc).1, hm]

theorem nameAt_nil : nameAt [] = none := rfl

theorem nameAt_mark {c : Char} (h : c ∈ ['+', '-', '<']) (s : List Char) : nameAt (c :: s) = none := by
  simp at h
  rcases h with rfl | rfl | rfl <;> rfl

/-- Digits with something that is neither part of a word nor a parenthesis behind them name nothing. -/
theorem nameAt_digits {s rest : List Char} (hs : ∀ c ∈ s, c.isDigit = true) (hr : ∀ c, rest.head? = some c → isPyWord c = false ∧ c ≠ '(') :
    nameAt (s ++ rest) = none := by
  unfold nameAt
  simp only []
  rw [takeWhile_run (fun c hc => by simp [isPyWord, Char.isAlphanum, hs c hc]) fun c hc => (hr c hc).1, List.drop_left]
  split
  · next t => exact absurd rfl (hr '(' rfl).2
  · rfl

theorem lineRe_noise_rest {b tag rest : List Char} (hb : Blanks b) (ht : TraceTag tag)
    (h : rest = [] ∨ ∃ c s, rest = c :: s ∧ c ∈ ['+', '-', '<']) : lineRe (b ++ tag ++ rest) = none := by
  have h0 : nameAt rest = none := by
    rcases h with rfl | ⟨c, s, rfl, hc⟩
    · rfl
    · exact nameAt_mark hc s
  have h1 : ∀ c, rest.head? = some c → isPySpace c = false ∧ c ≠ '[' ∧ c.isDigit = false ∧ isPyWord c = false ∧ c ≠ '(' := by
    rcases h with rfl | ⟨c, s, rfl, hc⟩
    · simp
    · simp at hc
      rcases hc with rfl | rfl | rfl <;> simp <;> decide
  unfold lineRe
  rw [List.append_assoc]
  cases ht with
  | none =>
    rw [List.nil_append, drop_blanks hb fun c hc => (h1 c hc).1]
    cases rest with
    | nil => rfl
    | cons c t =>
      obtain ⟨h2, h3, h4, -⟩ := h1 c rfl
      split
      · next e => simp at e; exact absurd e.1 h3
      · have : (c :: t).takeWhile Char.isDigit = [] := by simp [List.takeWhile_cons, h4]
        rw [this]
        simp only [List.length_nil, Nat.zero_add, List.range_one, List.reverse_singleton, List.findSome?_cons, List.drop_zero]
        have hd : (c :: t).dropWhile isPySpace = c :: t := by simp [List.dropWhile_cons, h2]
        rw [hd, h0]
        rfl
  | @pid s b' hs hdig hb' hbl =>
    have hhead : ∀ c, (s ++ b' ++ rest).head? = some c → isPySpace c = false ∧ c ≠ '[' := by
      cases s with
      | nil => simp at hs
      | cons x s =>
        intro c hc
        simp at hc
        subst hc
        have hx := hdig x (by simp)
        exact ⟨pyWord_not_space (by simp [isPyWord, Char.isAlphanum, hx]), by rintro rfl; revert hx; decide⟩
    rw [drop_blanks hb fun c hc => (hhead c hc).1]
    split
    · next e =>
      exact absurd rfl (hhead '[' (by rw [e]; rfl)).2
    · have hrun : (s ++ b' ++ rest).takeWhile Char.isDigit = s := by
        rw [List.append_assoc]
        refine digits_run hdig ?_
        cases b' with
        | nil => simp at hb'
        | cons x b' =>
          intro c hc
          simp at hc
          subst hc
          rcases hbl x (by simp) with rfl | rfl <;> decide
      rw [hrun, List.findSome?_eq_none_iff]
      intro k hk
      simp at hk
      rw [List.append_assoc]
      rcases Nat.lt_or_ge k s.length with hlt | hge
      · rw [List.drop_append_of_le_length (by omega)]
        have hd : (s.drop k ++ (b' ++ rest)).dropWhile isPySpace = s.drop k ++ (b' ++ rest) := by
          cases he : s.drop k with
          | nil => simp at he; omega
          | cons x l =>
            have hx := hdig x (List.mem_of_mem_drop (he ▸ List.mem_cons_self))
            rw [List.cons_append, List.dropWhile_cons, if_neg]
            simp [pyWord_not_space (c := x) (by simp [isPyWord, Char.isAlphanum, hx])]
        rw [hd]
        refine nameAt_digits (fun c hc => hdig c (List.mem_of_mem_drop hc)) ?_
        cases b' with
        | nil => simp at hb'
        | cons x b' =>
          intro c hc
          simp at hc
          subst hc
          rcases hbl x (by simp) with rfl | rfl <;> decide
      · have : k = s.length := by omega
        subst this
        rw [List.drop_left, drop_blanks hbl fun c hc => (h1 c hc).1, h0]
  | @brackets s b' hs hbl =>
    rw [List.cons_append, List.cons_append, drop_blanks hb (by intro c hc; simp at hc; subst hc; decide)]
    simp only []
    have : (s ++ ']' :: b' ++ rest).dropWhile (· != ']') = ']' :: (b' ++ rest) := by
      rw [List.append_assoc]
      exact dropWhile_blanks (fun c hc => by
        simp only [bne_iff_ne, ne_eq]
        rintro rfl
        exact hs hc) (by simp)
    rw [this]
    simp only []
    rw [drop_blanks hbl fun c hc => (h1 c hc).1, h0]

theorem lineRe_noise {line : List Char} (h : TraceNoise line) : lineRe line = none := by
  cases h with
  | @blank b tag hb ht =>
    have := lineRe_noise_rest (rest := []) hb ht (.inl rfl)
    rwa [List.append_nil] at this
  | mark hb ht hc => exact lineRe_noise_rest hb ht (.inr ⟨_, _, rfl, hc⟩)

theorem pySplit_eq (d : Char) (s : List Char) : pySplit d s = fields d s := by
  induction s with
  | nil => rfl
  | cons c s ih =>
    rw [pySplit, fields, ih]
    by_cases h : c = d
    · rw [if_pos h, if_pos h]
    · rw [if_neg h, if_neg h]
      cases fields d s <;> rfl

theorem fields_joinWith {d : Char} : ∀ {l : List (List Char)}, l ≠ [] → (∀ w ∈ l, d ∉ w) → fields d (List.intercalate [d] l) = l
  | [], h, _ => absurd rfl h
  | [w], _, h => by
    rw [show List.intercalate [d] [w] = w by simp [List.intercalate]]
    exact fields_all (h w (by simp))
  | w :: v :: l, _, h => by
    rw [show List.intercalate [d] (w :: v :: l) = w ++ d :: List.intercalate [d] (v :: l) by simp [List.intercalate]]
    rw [fields_pre (h w (by simp)), fields_joinWith (by simp) fun x hx => h x (by simp at hx ⊢; exact .inr hx)]

theorem intercalate_mem {d c : Char} : ∀ {l : List (List Char)}, c ∈ List.intercalate [d] l → c = d ∨ ∃ w ∈ l, c ∈ w
  | [], h => by simp [List.intercalate] at h
  | [w], h => by
    rw [show List.intercalate [d] [w] = w by simp [List.intercalate]] at h
    exact .inr ⟨w, by simp, h⟩
  | w :: v :: l, h => by
    rw [show List.intercalate [d] (w :: v :: l) = w ++ d :: List.intercalate [d] (v :: l) by simp [List.intercalate]] at h
    simp only [List.mem_append, List.mem_cons] at h
    rcases h with h | h | h
    · exact .inr ⟨w, by simp, h⟩
    · exact .inl h
    · rcases intercalate_mem h with h | ⟨x, hx, hc⟩
      · exact .inl h
      · exact .inr ⟨x, List.mem_cons_of_mem _ hx, hc⟩

/-- What the expression finds in a line that tells of a call. -/
theorem lineRe_record {line name : List Char} {args : List (List Char)} (h : TraceRecord line name args) :
    ∃ raw, lineRe line = some (name, List.intercalate [','] raw) ∧ fields ',' (List.intercalate [','] raw) = raw ∧ args = raw.map trim := by
  cases h with
  | @mk b tag _ raw tail hb ht hn hne hraw htail =>
    refine ⟨raw, ?_, fields_joinWith hne fun w hw hc => (hraw w hw ',' hc).1 rfl, rfl⟩
    rw [List.append_assoc, List.append_assoc]
    refine lineRe_tag hb ht ?_ ?_
    · obtain ⟨c, t, e, h1, h2, h3⟩ := word_head hn ('(' :: List.intercalate [','] raw ++ tail)
      rw [e]
      intro x hx
      simp at hx
      subst hx
      exact ⟨h1, h2, h3⟩
    · rw [List.cons_append, nameAt_word hn, takeWhile_run]
      · intro c hc
        rcases intercalate_mem hc with rfl | ⟨w, hw, hc⟩
        · decide
        · have := hraw w hw c hc
          simp [this]
      · intro c hc
        cases htail <;> simp at hc <;> subst hc <;> rfl

theorem record_unique {line name name' : List Char} {args args' : List (List Char)} (h : TraceRecord line name args) (h' : TraceRecord line name' args') :
    name = name' ∧ args = args' := by
  obtain ⟨raw, h1, h2, h3⟩ := lineRe_record h
  obtain ⟨raw', h1', h2', h3'⟩ := lineRe_record h'
  rw [h1] at h1'
  simp at h1'
  refine ⟨h1'.1, ?_⟩
  rw [h3, h3', ← h2, ← h2', h1'.2]

theorem record_not_noise {line name : List Char} {args : List (List Char)} (h : TraceRecord line name args) (h' : TraceNoise line) : False := by
  obtain ⟨raw, h1, -⟩ := lineRe_record h
  rw [lineRe_noise h'] at h1
  cases h1

/-! ### Arguments -/

theorem trim_split (s : List Char) : ∃ b b', s = b ++ trim s ++ b' ∧ Blanks b ∧ ∀ c ∈ b', isBlank c ∨ c = '\n' := by
  let blank (c : Char) : Bool := c == ' ' || c == '\t'
  have h1 := List.takeWhile_append_dropWhile (p := blank) (l := s)
  have h2 := List.takeWhile_append_dropWhile (p := fun c => blank c || c == '\n') (l := (s.dropWhile blank).reverse)
  refine ⟨s.takeWhile blank, ((s.dropWhile blank).reverse.takeWhile fun c => blank c || c == '\n').reverse, ?_, ?_, ?_⟩
  · have h3 := congrArg List.reverse h2
    rw [List.reverse_append, List.reverse_reverse] at h3
    conv => lhs; rw [← h1, ← h3]
    rw [List.append_assoc]
    rfl
  · intro c hc
    have := List.all_takeWhile (p := blank) (l := s)
    rw [List.all_eq_true] at this
    have := this c hc
    simpa [blank, isBlank] using this
  · intro c hc
    rw [List.mem_reverse] at hc
    have := List.all_takeWhile (p := fun c => blank c || c == '\n') (l := (s.dropWhile blank).reverse)
    rw [List.all_eq_true] at this
    have := this c hc
    simpa [blank, isBlank] using this

theorem const_space {T : CommonTables} {s : List Char} {v : Nat} (h : CommonConst T s v) : ∀ c ∈ s, isPySpace c = false := by
  intro c hc
  cases hs : isPySpace c with
  | false => rfl
  | true =>
    refine absurd hc (const_not h ?_ ?_)
    all_goals
      simp [isPySpace] at hs
      rcases hs with rfl | rfl | rfl | rfl | rfl | rfl | rfl | rfl | rfl | rfl <;> decide

theorem pyStrip_pad {b s b' : List Char} (hb : ∀ c ∈ b, isPySpace c = true) (hs : ∀ c ∈ s, isPySpace c = false) (hne : s ≠ []) (hb' : ∀ c ∈ b', isPySpace c = true) :
    pyStrip (b ++ s ++ b') = s := by
  unfold pyStrip
  rw [List.append_assoc, dropWhile_blanks hb]
  · rw [List.reverse_append, dropWhile_blanks (fun c hc => hb' c (List.mem_reverse.1 hc))]
    · simp
    · intro c hc
      exact hs c (List.mem_reverse.1 (List.mem_of_mem_head? hc))
  · intro c hc
    cases s with
    | nil => exact absurd rfl hne
    | cons x s => simp at hc; subst hc; exact hs _ (by simp)

theorem pyStrip_trim {T : CommonTables} {s : List Char} {v : Nat} (h : CommonConst T (trim s) v) : pyStrip s = trim s := by
  obtain ⟨b, b', e, hb, hb'⟩ := trim_split s
  have hne := (const_chars h).1
  have hsp := const_space h
  generalize trim s = t at e hne hsp ⊢
  subst e
  refine pyStrip_pad (blank_pySpace hb) hsp hne ?_
  intro c hc
  rcases hb' c hc with h | rfl
  · exact blank_space h
  · decide

theorem pyStrip_id {s : List Char} (h : ∀ c ∈ s, isPySpace c = false) : pyStrip s = s := by
  cases hs : s with
  | nil => rfl
  | cons x t =>
    have := pyStrip_pad (b := []) (b' := []) (s := s) (by simp) h (by simp [hs]) (by simp)
    simpa [hs] using this

theorem fields_sub {d : Char} : ∀ {s w : List Char}, w ∈ fields d s → ∀ c ∈ w, c ∈ s
  | [], w, h, c, hc => by simp [fields] at h; subst h; simp at hc
  | x :: s, w, h, c, hc => by
    rw [fields] at h
    by_cases hx : x = d
    · rw [if_pos hx] at h
      simp at h
      rcases h with rfl | h
      · simp at hc
      · exact List.mem_cons_of_mem _ (fields_sub h c hc)
    · rw [if_neg hx] at h
      cases hf : fields d s with
      | nil => exact absurd hf (fields_ne_nil _ _)
      | cons f fs =>
        rw [hf] at h
        simp [consHead] at h
        rcases h with rfl | h
        · simp at hc
          rcases hc with rfl | hc
          · simp
          · exact List.mem_cons_of_mem _ (fields_sub (hf ▸ List.mem_cons_self) c hc)
        · exact List.mem_cons_of_mem _ (fields_sub (hf ▸ List.mem_cons_of_mem _ h) c hc)

/-- The names between the bars. -/
theorem names_strip {T : CommonTables} {s : List Char} {v : Nat} (h : CommonConst T s v) : (pySplit '|' s).map pyStrip = fields '|' s := by
  rw [pySplit_eq]
  conv => rhs; rw [← List.map_id (fields '|' s)]
  refine List.map_congr_left fun w hw => pyStrip_id fun c hc => const_space h c (fields_sub hw c hc)

end Minijail
