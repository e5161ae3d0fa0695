import Verif.Proof.CommonC
import Verif.Model.OfflineParse
/-! How the offline compiler cuts the lines of the common policies into tokens. -/
set_option autoImplicit false
set_option linter.unusedSimpArgs false
namespace Minijail
open Spec Offline

/-! ### Tokens that are signs -/

theorem tokenAt_colon (prev : Bool) (s : List Char) : tokenAt prev (':' :: s) = some (some .colon, 1) := by
  have h : isDigitIn 10 ':' = false := by decide
  simp [tokenAt, literalAt, runAt, pathAt, numericAt, numeralAt, argumentAt, identifierAt, isPySpace, List.isPrefixOf, h]

theorem tokenAt_complement (prev : Bool) (s : List Char) : tokenAt prev ('~' :: s) = some (some .complement, 1) := by
  have h : isDigitIn 10 '~' = false := by decide
  simp [tokenAt, literalAt, runAt, pathAt, numericAt, numeralAt, argumentAt, identifierAt, isPySpace, List.isPrefixOf, h]

theorem tokenAt_lparen (prev : Bool) (s : List Char) : tokenAt prev ('(' :: s) = some (some .lparen, 1) := by
  have h : isDigitIn 10 '(' = false := by decide
  simp [tokenAt, literalAt, runAt, pathAt, numericAt, numeralAt, argumentAt, identifierAt, isPySpace, List.isPrefixOf, h]

theorem tokenAt_rparen (prev : Bool) (s : List Char) : tokenAt prev (')' :: s) = some (some .rparen, 1) := by
  have h : isDigitIn 10 ')' = false := by decide
  simp [tokenAt, literalAt, runAt, pathAt, numericAt, numeralAt, argumentAt, identifierAt, isPySpace, List.isPrefixOf, h]

theorem tokenAt_or (prev : Bool) (s : List Char) : tokenAt prev ('|' :: '|' :: s) = some (some .or, 2) := by
  have h : isDigitIn 10 '|' = false := by decide
  simp [tokenAt, literalAt, runAt, pathAt, numericAt, numeralAt, argumentAt, identifierAt, isPySpace, List.isPrefixOf, h]

theorem tokenAt_and (prev : Bool) (s : List Char) : tokenAt prev ('&' :: '&' :: s) = some (some .and, 2) := by
  have h : isDigitIn 10 '&' = false := by decide
  simp [tokenAt, literalAt, runAt, pathAt, numericAt, numeralAt, argumentAt, identifierAt, isPySpace, List.isPrefixOf, h]

theorem tokenAt_bitOr (prev : Bool) {s : List Char} (hs : s.head? ≠ some '|') : tokenAt prev ('|' :: s) = some (some .bitOr, 1) := by
  have h : isDigitIn 10 '|' = false := by decide
  cases s with
  | nil => simp [tokenAt, literalAt, runAt, pathAt, numericAt, numeralAt, argumentAt, identifierAt, isPySpace, List.isPrefixOf, h]
  | cons c s =>
    have hc : ¬'|' = c := by rintro rfl; simp at hs
    simp [tokenAt, literalAt, runAt, pathAt, numericAt, numeralAt, argumentAt, identifierAt, isPySpace, List.isPrefixOf, h, hc]

/-- Before an operator and behind it is a blank, or the line ends. -/
theorem tokenAt_op {op : List Char} {cmp : Cmp} (h : OpText op cmp) {s : List Char} (hs : ∀ c, s.head? = some c → c = ' ' ∨ c = '\t' ∨ c = '\\') :
    tokenAt false (op ++ s) = some (some .op, op.length) := by
  have hd : isDigitIn 10 '&' = false ∧ isDigitIn 10 'i' = false ∧ isDigitIn 10 '=' = false ∧ isDigitIn 10 '!' = false ∧ isDigitIn 10 '<' = false ∧
    isDigitIn 10 '>' = false := by decide
  obtain ⟨h1, h2, h3, h4, h5, h6⟩ := hd
  have hw : isPyWord 'n' = true ∧ isPyWord 'i' = true ∧ isPyWord ' ' = false ∧ isPyWord '\t' = false ∧ isPyWord '\\' = false := by decide
  obtain ⟨w1, w2, w3, w4, w5⟩ := hw
  cases s with
  | nil =>
    cases h <;> simp [tokenAt, literalAt, runAt, pathAt, numericAt, numeralAt, argumentAt, identifierAt, isPySpace, List.isPrefixOf, operators, boundary, *]
  | cons c s =>
    rcases hs c rfl with rfl | rfl | rfl <;> cases h <;>
      simp [tokenAt, literalAt, runAt, pathAt, numericAt, numeralAt, argumentAt, identifierAt, isPySpace, List.isPrefixOf, operators, boundary, *]

/-! ### Numbers -/

theorem literalAt_head {x c : Char} (h : c ≠ x) (w : List Char) (l t prev : Bool) (s : List Char) : literalAt (x :: w) l t prev (c :: s) = none := by
  unfold literalAt
  rw [if_neg]
  rintro ⟨h', -⟩
  simp [List.isPrefixOf] at h'
  exact h h'.1.symm

/-- The next character cannot belong to a word. -/
def WordEnds (s : List Char) : Prop := ∀ c, s.head? = some c → isIdentChar c = false

theorem takeWhile_run {p : Char → Bool} {s r : List Char} (hs : ∀ c ∈ s, p c = true) (hr : ∀ c, r.head? = some c → p c = false) :
    (s ++ r).takeWhile p = s := by
  induction s with
  | nil =>
    cases r with
    | nil => rfl
    | cons c r => simp [List.takeWhile_cons, hr c rfl]
  | cons c s ih =>
    simp only [List.cons_append, List.takeWhile_cons, hs c (by simp), if_true]
    rw [ih fun c hc => hs c (by simp [hc])]

theorem runAt_run {p : Char → Bool} {s r : List Char} (hne : s ≠ []) (hs : ∀ c ∈ s, p c = true) (hr : ∀ c, r.head? = some c → p c = false) :
    runAt p (s ++ r) = some s.length := by
  unfold runAt
  simp only []
  rw [takeWhile_run hs hr, if_neg (by simpa using hne)]

theorem ident_of_digit {b : Nat} {c : Char} (hb : b ≤ 16) (h : isDigitIn b c = true) : isIdentChar c = true := by
  obtain ⟨v, hv, -⟩ := (digit_iff b hb c).2 h
  simp [isIdentChar, digit_alphanum hv]

theorem digit_ends {b : Nat} (hb : b ≤ 16) {r : List Char} (hr : WordEnds r) : ∀ c, r.head? = some c → isDigitIn b c = false := by
  intro c hc
  cases h : isDigitIn b c with
  | false => rfl
  | true => exact absurd (ident_of_digit hb h) (by simp [hr c hc])

theorem numeralAt_literal {s r : List Char} {n : Nat} (h : Literal s n) (hr : WordEnds r) : numeralAt (s ++ r) = some s.length := by
  cases h with
  | @dec c s n hc h =>
    have hd := ((digits_iff 10 (by decide) _ _).1 h).1
    have : numeralAt (c :: s ++ r) = runAt (isDigitIn 10) (c :: s ++ r) := by
      unfold numeralAt
      split
      · rename_i x t e; simp at e; exact absurd e.1 hc
      · rfl
    rw [this, runAt_run (by simp) hd (digit_ends (by decide) hr)]
  | @oct s n h =>
    have hd := ((digits_iff 8 (by decide) _ _).1 h).1
    cases s with
    | nil =>
      cases r with
      | nil => simp [numeralAt, runAt, isDigitIn, digitVal]
      | cons x r =>
        have hx := hr x rfl
        have h1 : x ≠ 'x' := by rintro rfl; revert hx; decide
        have h2 : x ≠ 'X' := by rintro rfl; revert hx; decide
        have h3 : isDigitIn 8 x = false := digit_ends (by decide) hr x rfl
        have h4 : isDigitIn 10 x = false := digit_ends (by decide) hr x rfl
        have h5 : isDigitIn 10 '0' = true := by decide
        simp [numeralAt, runAt, h1, h2, h3, h4, h5]
    | cons x t =>
      have hx := hd x (by simp)
      have h1 : x ≠ 'x' := by rintro rfl; revert hx; decide
      have h2 : x ≠ 'X' := by rintro rfl; revert hx; decide
      have := runAt_run (p := isDigitIn 8) (s := x :: t) (r := r) (by simp) (fun c hc => hd c (List.mem_cons_of_mem _ hc)) (digit_ends (by decide) hr)
      simp only [List.cons_append] at this
      simp [numeralAt, h1, h2, this]
  | @hex x s n hx hne h =>
    have hd := ((digits_iff 16 (by decide) _ _).1 h).1
    have := runAt_run (r := r) hne hd (digit_ends (by decide) hr)
    simp [numeralAt, hx, this]

theorem numericAt_literal {s r : List Char} {n : Nat} (h : Literal s n) (hr : WordEnds r) : numericAt (s ++ r) = some s.length := by
  obtain ⟨c, t, rfl, v, hc, hv⟩ := literal_first h
  obtain ⟨-, -, h3, -⟩ := digit_not_alpha hc hv
  have : numericAt (c :: t ++ r) = numeralAt (c :: t ++ r) := by
    unfold numericAt
    split
    · rename_i x e; simp at e; exact absurd e.1 h3
    · rfl
  rw [this, numeralAt_literal h hr]

/-- Nothing before the numbers matches. -/
theorem tokenAt_numeric {prev : Bool} {c : Char} {s : List Char} {k : Nat} (hs : isPySpace c = false) (hc : c ∉ ['#', '\\', '@', '.', '/'])
    (h : numericAt (c :: s) = some k) : tokenAt prev (c :: s) = some (some .numeric, k) := by
  simp only [List.mem_cons, not_or, List.not_mem_nil, not_false_iff, and_true] at hc
  obtain ⟨h1, h2, h3, h4, h5⟩ := hc
  have hp : pathAt (c :: s) = none := by
    unfold pathAt
    split
    · rename_i x e; simp at e; exact absurd e.1 h4
    · rename_i x e; simp at e; exact absurd e.1 h5
    · rfl
  have e1 := literalAt_head h3 "default".toList false true prev s
  have e2 := literalAt_head h3 "include".toList false true prev s
  have e3 := literalAt_head h3 "frequency".toList false true prev s
  simp at e1 e2 e3
  simp [tokenAt, runAt, hs, hp, h, h1, h2, h3, e1, e2, e3]

theorem tokenAt_literal {prev : Bool} {s r : List Char} {n : Nat} (h : Literal s n) (hr : WordEnds r) :
    tokenAt prev (s ++ r) = some (some .numeric, s.length) := by
  have hn := numericAt_literal h hr
  have hal := literal_alphanum h
  cases s with
  | nil => exact absurd rfl (literal_ne h)
  | cons c s =>
    have hc := hal c (by simp)
    refine tokenAt_numeric ?_ ?_ hn
    · cases hsp : isPySpace c with
      | false => rfl
      | true =>
        simp [isPySpace] at hsp
        rcases hsp with rfl | rfl | rfl | rfl | rfl | rfl | rfl | rfl | rfl | rfl <;> revert hc <;> decide
    · intro hm
      simp at hm
      rcases hm with rfl | rfl | rfl | rfl | rfl <;> revert hc <;> decide

theorem tokenAt_negative {prev : Bool} {s r : List Char} {n : Nat} (h : Literal s n) (hr : WordEnds r) :
    tokenAt prev ('-' :: s ++ r) = some (some .numeric, s.length + 1) := by
  refine tokenAt_numeric (by decide) (by decide) ?_
  simp [numericAt, numeralAt_literal h hr]

/-! ### Words -/

theorem isPyWord_iff (c : Char) : isPyWord c = true ↔ c.isAlphanum = true ∨ c = '_' := by simp [isPyWord]

theorem ident_of_word {c : Char} (h : isPyWord c = true) : isIdentChar c = true := by
  rcases (isPyWord_iff c).1 h with h | h <;> simp [isIdentChar, h]

/-- A word of the language, at a place where another word is. -/
theorem literalAt_other {k w r : List Char} {l prev : Bool} (hk : ∀ c ∈ k, isPyWord c = true) (hne : k ≠ []) (hw : ∀ c ∈ w, isPyWord c = true) (hr : WordEnds r)
    (h : k ≠ w) : literalAt k l true prev (w ++ r) = none := by
  unfold literalAt
  rw [if_neg]
  rintro ⟨h1, -, h3⟩
  have h1 := List.isPrefixOf_iff_prefix.1 h1
  have hlast : (k.getLast?.map isPyWord).getD false = true := by
    cases hl : k.getLast? with
    | none => exact absurd (List.getLast?_eq_none_iff.1 hl) hne
    | some x => simp [hk x (List.mem_of_getLast? hl)]
  have h3 := h3 rfl
  rw [hlast] at h3
  rcases List.prefix_or_prefix_of_prefix h1 (List.prefix_append w r) with ⟨x, rfl⟩ | ⟨y, rfl⟩
  · cases x with
    | nil => simp at h
    | cons c x =>
      have hc := hw c (by simp)
      simp [boundary, hc] at h3
  · cases y with
    | nil => simp at h
    | cons c y =>
      obtain ⟨z, hz⟩ := h1
      rw [List.append_assoc, List.append_cancel_left_eq] at hz
      have := hr c (by rw [← hz]; rfl)
      rw [ident_of_word (hk c (by simp))] at this
      simp at this

/-- The actions with a hyphen. -/
theorem literalAt_hyphen {k k' w r : List Char} {l t prev : Bool} (hk : ∀ c ∈ k, isPyWord c = true) (hw : ∀ c ∈ w, isPyWord c = true) (hr : WordEnds r) :
    literalAt (k ++ '-' :: k') l t prev (w ++ r) = none := by
  unfold literalAt
  rw [if_neg]
  rintro ⟨h1, -⟩
  have h1 := List.isPrefixOf_iff_prefix.1 h1
  have hk1 : k <+: w ++ r := List.IsPrefix.trans (List.prefix_append k _) h1
  rcases List.prefix_or_prefix_of_prefix hk1 (List.prefix_append w r) with ⟨x, rfl⟩ | ⟨y, rfl⟩
  · obtain ⟨z, hz⟩ := h1
    simp only [List.append_assoc, List.append_cancel_left_eq, List.cons_append] at hz
    cases x with
    | nil => have := hr '-' (by rw [List.nil_append] at hz; rw [← hz]; rfl); revert this; decide
    | cons c x =>
      simp only [List.cons_append, List.cons.injEq] at hz
      have := hw c (by simp)
      rw [← hz.1] at this
      revert this; decide
  · obtain ⟨z, hz⟩ := h1
    simp only [List.append_assoc, List.append_cancel_left_eq, List.cons_append] at hz
    cases y with
    | nil => have := hr '-' (by rw [List.nil_append] at hz; rw [← hz]; rfl); revert this; decide
    | cons c y =>
      have := hr c (by rw [← hz]; rfl)
      rw [ident_of_word (hk c (by simp))] at this
      simp at this

theorem argumentAt_other {prev : Bool} {w r : List Char} (hw : ∀ c ∈ w, isPyWord c = true) (hr : WordEnds r) (h : ¬Reserved w) : argumentAt prev (w ++ r) = none := by
  unfold argumentAt
  split
  · rename_i t e
    split
    · rename_i k hk
      rw [if_neg]
      rintro ⟨-, hb⟩
      have hpre : "arg".toList <+: w ++ r := ⟨t, by rw [e]; rfl⟩
      rcases List.prefix_or_prefix_of_prefix hpre (List.prefix_append w r) with ⟨x, rfl⟩ | ⟨y, hy⟩
      · have ht : t = x ++ r := by simpa using e.symm
        subst ht
        have hrun : runAt (isDigitIn 10) (x ++ r) = some k := hk
        have hkl : ((x ++ r).takeWhile (isDigitIn 10)).length = k ∧ k ≠ 0 := by
          unfold runAt at hrun
          simp only [] at hrun
          split at hrun
          · simp at hrun
          · rename_i h0; simp at hrun; exact ⟨hrun, by rw [← hrun]; exact h0⟩
        by_cases hall : ∀ c ∈ x, isDigitIn 10 c = true
        · refine h (.inr ⟨x, rfl, ?_, ?_⟩)
          · rintro rfl
            rw [takeWhile_run hall (digit_ends (by decide) hr)] at hkl
            simp at hkl
            omega
          · intro c hc
            obtain ⟨v, hv, hlt⟩ := (digit_iff 10 (by decide) c).2 (hall c hc)
            have := digit_not_alpha hv hlt
            have h2 := digit_alphanum hv
            simp only [Char.isAlphanum, this.1, Bool.false_or] at h2
            exact h2
        · -- the first character that is no digit is in the word
          have hdrop : ∃ c q, x.dropWhile (isDigitIn 10) = c :: q := by
            cases hd : x.dropWhile (isDigitIn 10) with
            | nil => exact absurd (fun c hc => List.dropWhile_eq_nil_iff.1 hd c hc) hall
            | cons c q => exact ⟨c, q, rfl⟩
          obtain ⟨c, q, hd⟩ := hdrop
          have hx : x = x.takeWhile (isDigitIn 10) ++ c :: q := by rw [← hd, List.takeWhile_append_dropWhile]
          have hcn : isDigitIn 10 c = false := by
            have := List.head?_dropWhile_not (isDigitIn 10) x
            rw [hd] at this
            simpa using this
          have htw : ((x ++ r).takeWhile (isDigitIn 10)) = x.takeWhile (isDigitIn 10) := by
            conv => lhs; rw [hx, List.append_assoc]
            exact takeWhile_run (fun c hc => List.mem_takeWhile_imp hc) (by intro c' hc'; simp at hc'; subst hc'; exact hcn)
          have hdrop : (x ++ r).drop k = c :: q ++ r := by
            rw [← hkl.1, htw]
            generalize x.takeWhile (isDigitIn 10) = p at hx ⊢
            rw [hx]
            simp
          rw [hdrop] at hb
          have hcw : isPyWord c = true := hw c (by rw [hx]; simp)
          simp [boundary, hcw] at hb
      · cases y with
        | nil =>
          simp at hy
          subst hy
          have ht : t = r := by simpa using e.symm
          subst ht
          have := digit_ends (b := 10) (by decide) hr
          unfold runAt at hk
          cases t with
          | nil => simp at hk
          | cons c t => simp [List.takeWhile_cons, this c rfl] at hk
        | cons c y =>
          have hpre' : "arg".toList <+: w ++ r := hpre
          obtain ⟨z, hz⟩ := hpre'
          rw [← hy, List.append_assoc, List.append_cancel_left_eq] at hz
          have h1 := hr c (by rw [← hz]; rfl)
          have h2 : c ∈ "arg".toList := by rw [← hy]; simp
          have : ∀ c ∈ "arg".toList, isIdentChar c = true := by decide
          rw [this c h2] at h1
          simp at h1
    · rfl
  · rfl

/-- A word that is none of the language is an identifier. -/
theorem tokenAt_word {prev : Bool} {w r : List Char} (hw : Word w) (hres : ¬Reserved w) (hkill : w ≠ "kill".toList) (hr : WordEnds r) :
    tokenAt prev (w ++ r) = some (some .identifier, w.length) := by
  have hall : ∀ c ∈ w, isPyWord c = true := fun c hc => (isPyWord_iff c).2 (word_alphanum hw c hc)
  have hres' : ∀ k ∈ ["in".toList, "return".toList, "allow".toList, "trap".toList, "trace".toList, "log".toList], k ≠ w := by
    rintro k hk rfl; exact hres (.inl hk)
  have harg := argumentAt_other (prev := prev) hall hr hres
  have hact : ∀ k ∈ actionWords, literalAt k true true prev (w ++ r) = none := by
    have hy : ∀ k ∈ ["allow".toList, "kill".toList, "trap".toList, "trace".toList, "log".toList], literalAt k true true prev (w ++ r) = none := by
      intro k hk
      refine literalAt_other ?_ ?_ hall hr ?_
      · have : ∀ k ∈ ["allow".toList, "kill".toList, "trap".toList, "trace".toList, "log".toList], ∀ c ∈ k, isPyWord c = true := by decide
        exact this k hk
      · rintro rfl; revert hk; decide
      · rintro rfl
        simp only [List.mem_cons, List.not_mem_nil, or_false] at hk
        rcases hk with hk | hk | hk | hk | hk
        · exact hres' k (by simp [hk]) rfl
        · exact hkill hk
        · exact hres' k (by simp [hk]) rfl
        · exact hres' k (by simp [hk]) rfl
        · exact hres' k (by simp [hk]) rfl
    have hz : ∀ k ∈ ["kill-process".toList, "kill-thread".toList, "user-notify".toList], literalAt k true true prev (w ++ r) = none := by
      intro k hk
      simp only [List.mem_cons, List.not_mem_nil, or_false] at hk
      rcases hk with rfl | rfl | rfl
      · exact literalAt_hyphen (k := "kill".toList) (k' := "process".toList) (by decide) hall hr
      · exact literalAt_hyphen (k := "kill".toList) (k' := "thread".toList) (by decide) hall hr
      · exact literalAt_hyphen (k := "user".toList) (k' := "notify".toList) (by decide) hall hr
    intro k hk
    simp only [actionWords, List.mem_cons, List.not_mem_nil, or_false] at hk
    rcases hk with rfl | rfl | rfl | rfl | rfl | rfl | rfl | rfl
    · exact hy _ (by simp)
    · exact hz _ (by simp)
    · exact hz _ (by simp)
    · exact hy _ (by simp)
    · exact hy _ (by simp)
    · exact hy _ (by simp)
    · exact hy _ (by simp)
    · exact hz _ (by simp)
  have hact' : (actionWords.findSome? fun k => literalAt k true true prev (w ++ r)) = none := List.findSome?_eq_none_iff.2 hact
  have hin : literalAt "in".toList true true prev (w ++ r) = none :=
    literalAt_other (by decide) (by simp) hall hr (hres' _ (by simp))
  have hret : literalAt "return".toList true true prev (w ++ r) = none :=
    literalAt_other (by decide) (by simp) hall hr (hres' _ (by simp))
  obtain ⟨c, t, rfl, hc, ht⟩ := hw
  have hstart : isIdentStart c = true := by rcases hc with hc | hc <;> simp [isIdentStart, hc]
  have hne : ∀ x, isIdentStart x = false → c ≠ x := by rintro x hx rfl; rw [hstart] at hx; simp at hx
  have hsp : isPySpace c = false := by
    cases hsp : isPySpace c with
    | false => rfl
    | true =>
      simp [isPySpace] at hsp
      rcases hsp with rfl | rfl | rfl | rfl | rfl | rfl | rfl | rfl | rfl | rfl <;> revert hstart <;> decide
  have hdig : isDigitIn 10 c = false := by
    cases hd : isDigitIn 10 c with
    | false => rfl
    | true =>
      obtain ⟨v, hv, hlt⟩ := (digit_iff 10 (by decide) c).2 hd
      obtain ⟨h1, h2, -⟩ := digit_not_alpha hv hlt
      simp [isIdentStart, h1, h2] at hstart
  have hpath : pathAt (c :: (t ++ r)) = none := by
    unfold pathAt
    split
    · rename_i x e; simp at e; exact absurd e.1 (hne _ (by decide))
    · rename_i x e; simp at e; exact absurd e.1 (hne _ (by decide))
    · rfl
  have hnum : numericAt (c :: (t ++ r)) = none := by
    unfold numericAt
    split
    · rename_i x e; simp at e; exact absurd e.1 (hne _ (by decide))
    · unfold numeralAt
      split
      · rename_i x y e; simp at e; exact absurd e.1 (hne _ (by decide))
      · simp [runAt, List.takeWhile_cons, hdig]
  have hid : identifierAt (c :: (t ++ r)) = some (t.length + 1) := by
    simp only [identifierAt, hstart, if_true]
    rw [takeWhile_run (fun x hx => ident_of_word (hall x (by simp [hx]))) (fun x hx => hr x hx)]
  simp only [List.cons_append] at *
  have hlit : ∀ x w l t' , isIdentStart x = false → literalAt (x :: w) l t' prev (c :: (t ++ r)) = none := fun x w l t' hx => literalAt_head (hne x hx) w l t' prev _
  have hop : (operators.findSome? fun x => literalAt x.1 x.2 x.2 prev (c :: (t ++ r))) = none := by
    rw [List.findSome?_eq_none_iff]
    intro x hx
    simp only [operators, List.mem_cons, List.not_mem_nil, or_false] at hx
    rcases hx with rfl | rfl | rfl | rfl | rfl | rfl | rfl | rfl
    · exact hlit '&' _ _ _ (by decide)
    · exact hin
    · exact hlit '=' _ _ _ (by decide)
    · exact hlit '!' _ _ _ (by decide)
    · exact hlit '<' _ _ _ (by decide)
    · exact hlit '<' _ _ _ (by decide)
    · exact hlit '>' _ _ _ (by decide)
    · exact hlit '>' _ _ _ (by decide)
  have e1 : c ≠ '#' := hne _ (by decide)
  have e2 : c ≠ '\\' := hne _ (by decide)
  have e3 : c ≠ '@' := hne _ (by decide)
  unfold tokenAt
  simp only [hpath, hnum, hop, harg, hact', hid, hret, List.findSome?_cons, Option.map_none, Option.map_some]
  have f1 := hlit '@' "default".toList false true (by decide)
  have f2 := hlit '@' "include".toList false true (by decide)
  have f3 := hlit '@' "frequency".toList false true (by decide)
  have g : ∀ x ∈ [':', ';', ',', '~', '(', ')', '{', '}', ']', '[', '|', '='], literalAt [x] false false prev (c :: (t ++ r)) = none := by
    intro x hx
    refine hlit x [] _ _ ?_
    revert x hx; decide
  have f4 := hlit '|' ['|'] false false (by decide)
  have f5 := hlit '&' ['&'] false false (by decide)
  simp at g f1 f2 f3 f4 f5
  simp [runAt, hsp, e1, e2, e3, f1, f2, f3, f4, f5, g]

/-- `kill` names a system call. -/
theorem tokenAt_kill {r : List Char} (hr : WordEnds r) : tokenAt false ("kill".toList ++ r) = some (some .action, 4) := by
  have hall : ∀ c ∈ "kill".toList, isPyWord c = true := by decide
  have h1 := literalAt_other (k := "allow".toList) (l := true) (prev := false) (by decide) (by simp) hall hr (by decide)
  have h2 := literalAt_hyphen (k := "kill".toList) (k' := "process".toList) (l := true) (t := true) (prev := false) (by decide) hall hr
  have h3 := literalAt_hyphen (k := "kill".toList) (k' := "thread".toList) (l := true) (t := true) (prev := false) (by decide) hall hr
  have hb : boundary true r = true := by
    unfold boundary
    cases r with
    | nil => rfl
    | cons c r =>
      have := hr c rfl
      cases hc : isPyWord c with
      | false => simp [hc]
      | true => rw [ident_of_word hc] at this; simp at this
  have hd : isDigitIn 10 'k' = false := by decide
  have hk : isPyWord 'k' = true ∧ isPyWord 'l' = true := by decide
  simp at h1 h2 h3
  have h4 : literalAt ['k', 'i', 'l', 'l'] true true false ('k' :: 'i' :: 'l' :: 'l' :: r) = some 4 := by
    simp [literalAt, List.isPrefixOf, boundary, hk] at hb ⊢
    exact hb
  simp [tokenAt, literalAt_head, runAt, pathAt, numericAt, numeralAt, argumentAt, isPySpace, operators, actionWords, hd, h1, h2, h3, h4]

/-- `return`. -/
theorem tokenAt_return {r : List Char} (hr : WordEnds r) : tokenAt false ("return".toList ++ r) = some (some .ret, 6) := by
  have hb : boundary true r = true := by
    unfold boundary
    cases r with
    | nil => rfl
    | cons c r =>
      have := hr c rfl
      cases hc : isPyWord c with
      | false => simp [hc]
      | true => rw [ident_of_word hc] at this; simp at this
  have hd : isDigitIn 10 'r' = false := by decide
  have hk : isPyWord 'r' = true ∧ isPyWord 'n' = true := by decide
  have h4 : literalAt ['r', 'e', 't', 'u', 'r', 'n'] true true false ('r' :: 'e' :: 't' :: 'u' :: 'r' :: 'n' :: r) = some 6 := by
    simp [literalAt, List.isPrefixOf, boundary, hk] at hb ⊢
    exact hb
  simp [tokenAt, literalAt_head, runAt, pathAt, numericAt, numeralAt, argumentAt, isPySpace, operators, hd, h4]

/-- `arg0`. -/
theorem tokenAt_argument {i : Nat} (hi : i < 6) {r : List Char} (hr : WordEnds r) : tokenAt false ("arg".toList ++ Nat.digitChar i :: r) = some (some .argument, 4) := by
  have hb : boundary true r = true := by
    unfold boundary
    cases r with
    | nil => rfl
    | cons c r =>
      have := hr c rfl
      cases hc : isPyWord c with
      | false => simp [hc]
      | true => rw [ident_of_word hc] at this; simp at this
  have hd : isDigitIn 10 'a' = false := by decide
  have hk : isPyWord 'a' = true := by decide
  have hdi : isDigitIn 10 (Nat.digitChar i) = true := (digit_iff 10 (by decide) _).1 ⟨i, (digitChar_facts hi).2, by omega⟩
  have hrun : runAt (isDigitIn 10) (Nat.digitChar i :: r) = some 1 :=
    runAt_run (s := [Nat.digitChar i]) (by simp) (by simpa using hdi) (digit_ends (by decide) hr)
  have harg : argumentAt false ('a' :: 'r' :: 'g' :: Nat.digitChar i :: r) = some 4 := by
    simp only [argumentAt, hrun]
    simp [boundary, hk] at hb ⊢
    exact hb
  have hnum : numericAt ('a' :: 'r' :: 'g' :: Nat.digitChar i :: r) = none := by simp [numericAt, numeralAt, runAt, hd]
  simp [tokenAt, literalAt_head, pathAt, isPySpace, operators, harg, hnum, runAt]

end Minijail
