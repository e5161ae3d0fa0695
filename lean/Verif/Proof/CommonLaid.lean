import Verif.Proof.CommonLex
/-! Lines that consist of tokens with blanks between them. -/
set_option autoImplicit false
set_option linter.unusedSimpArgs false
namespace Minijail
open Spec Offline

/-! ### Lines -/

/-- The tokens of the common policies. -/
inductive TokShape : Token → Prop
  | colon : TokShape ⟨.colon, ":".toList⟩
  | complement : TokShape ⟨.complement, "~".toList⟩
  | lparen : TokShape ⟨.lparen, "(".toList⟩
  | rparen : TokShape ⟨.rparen, ")".toList⟩
  | or : TokShape ⟨.or, "||".toList⟩
  | and : TokShape ⟨.and, "&&".toList⟩
  | bitOr : TokShape ⟨.bitOr, "|".toList⟩
  | op {v cmp} : OpText v cmp → TokShape ⟨.op, v⟩
  | argument {i} : i < 6 → TokShape ⟨.argument, "arg".toList ++ [Nat.digitChar i]⟩
  | ret : TokShape ⟨.ret, "return".toList⟩
  | number {s n} : Literal s n → TokShape ⟨.numeric, s⟩
  | negative {s n} : Literal s n → TokShape ⟨.numeric, '-' :: s⟩
  | identifier {w} : Word w → ¬Reserved w → w ≠ "kill".toList → TokShape ⟨.identifier, w⟩
  | kill : TokShape ⟨.action, "kill".toList⟩

/-- A token whose end must be seen from what follows. -/
def Stops (t : Token) (s : List Char) : Prop :=
  (t.type ∈ [TokType.argument, .ret, .numeric, .identifier, .action] → WordEnds s) ∧ (t.type = .op → ∀ c, s.head? = some c → c = ' ' ∨ c = '\t' ∨ c = '\\') ∧
    (t.type = .bitOr → s.head? ≠ some '|')

/-- Tokens with blanks between them. The line may end in a backslash. -/
inductive Laid : List Token → List Char → Prop
  | nil : Laid [] []
  | backslash : Laid [] ['\\']
  | gap {c ts s} : isBlank c → Laid ts s → Laid ts (c :: s)
  | tok {t ts s} : TokShape t → Stops t s → Laid ts s → Laid (t :: ts) (t.value ++ s)

theorem blank_ends {c : Char} (h : isBlank c) : isIdentChar c = false := by rcases h with rfl | rfl <;> decide

/-- The last character of a token is in no word, or the token ends a word. -/
theorem shape_facts {t : Token} (h : TokShape t) : t.value ≠ [] ∧ ' ' ∉ t.value ∧
    ((t.value.getLast?.map isPyWord).getD false = true → ∀ s, Stops t s → WordEnds s) := by
  have hw : ∀ {w : List Char}, Word w → ' ' ∉ w := fun h hm => by
    rcases word_alphanum h _ hm with h | h <;> revert h <;> decide
  have hl : ∀ {s : List Char} {n : Nat}, Literal s n → ' ' ∉ s := fun h hm => by have := literal_alphanum h _ hm; revert this; decide
  cases h with
  | colon => exact ⟨by simp, by decide, fun h => absurd h (by decide)⟩
  | complement => exact ⟨by simp, by decide, fun h => absurd h (by decide)⟩
  | lparen => exact ⟨by simp, by decide, fun h => absurd h (by decide)⟩
  | rparen => exact ⟨by simp, by decide, fun h => absurd h (by decide)⟩
  | or => exact ⟨by simp, by decide, fun h => absurd h (by decide)⟩
  | and => exact ⟨by simp, by decide, fun h => absurd h (by decide)⟩
  | bitOr => exact ⟨by simp, by decide, fun h => absurd h (by decide)⟩
  | op h =>
    refine ⟨(op_chars h).1, (op_chars h).2.1, fun _ s hs c hc => ?_⟩
    rcases hs.2.1 rfl c hc with rfl | rfl | rfl <;> decide
  | argument hi =>
    refine ⟨by simp, ?_, fun _ s hs => hs.1 (by simp)⟩
    simp only [List.mem_append, List.mem_singleton, not_or]
    exact ⟨by decide, (digit_not_space (digitChar_facts hi).1 (by decide)).symm⟩
  | ret => exact ⟨by simp, by decide, fun _ s hs => hs.1 (by simp)⟩
  | number h => exact ⟨literal_ne h, hl h, fun _ s hs => hs.1 (by simp)⟩
  | negative h => exact ⟨by simp, by simp [hl h], fun _ s hs => hs.1 (by simp)⟩
  | identifier h => exact ⟨word_ne h, hw h, fun _ s hs => hs.1 (by simp)⟩
  | kill => exact ⟨by simp, by decide, fun _ s hs => hs.1 (by simp)⟩

theorem tokenAt_shape {t : Token} {s : List Char} {prev : Bool} (h : TokShape t) (hs : Stops t s) (hp : prev = true → WordEnds (t.value ++ s)) :
    tokenAt prev (t.value ++ s) = some (some t.type, t.value.length) := by
  have hprev : ∀ c, (t.value ++ s).head? = some c → isIdentChar c = true → prev = false := by
    intro c hc hi
    cases prev with
    | false => rfl
    | true => rw [hp rfl c hc] at hi; simp at hi
  cases h with
  | colon => exact tokenAt_colon prev s
  | complement => exact tokenAt_complement prev s
  | lparen => exact tokenAt_lparen prev s
  | rparen => exact tokenAt_rparen prev s
  | or => exact tokenAt_or prev s
  | and => exact tokenAt_and prev s
  | bitOr => exact tokenAt_bitOr prev (hs.2.2 rfl)
  | @op v cmp h =>
    cases prev with
    | false => exact tokenAt_op h (hs.2.1 rfl)
    | true =>
      by_cases hin : v = "in".toList
      · subst hin
        exact absurd (hprev 'i' (by simp) (by decide)) (by simp)
      · -- signs do not look at what is before
        have hs := hs.2.1 rfl
        have hd : isDigitIn 10 '&' = false ∧ isDigitIn 10 'i' = false ∧ isDigitIn 10 '=' = false ∧ isDigitIn 10 '!' = false ∧ isDigitIn 10 '<' = false ∧
          isDigitIn 10 '>' = false := by decide
        obtain ⟨h1, h2, h3, h4, h5, h6⟩ := hd
        cases s with
        | nil =>
          cases h <;> first
            | (exact absurd rfl hin)
            | simp [tokenAt, literalAt, runAt, pathAt, numericAt, numeralAt, argumentAt, identifierAt, isPySpace, List.isPrefixOf, operators, boundary, *]
        | cons c s =>
          rcases hs c rfl with rfl | rfl | rfl <;> cases h <;> first
            | (exact absurd rfl hin)
            | simp [tokenAt, literalAt, runAt, pathAt, numericAt, numeralAt, argumentAt, identifierAt, isPySpace, List.isPrefixOf, operators, boundary, *]
  | @argument i hi =>
    have := hprev 'a' (by simp) (by decide)
    subst this
    have := tokenAt_argument hi (hs.1 (by simp))
    simpa using this
  | ret =>
    have := hprev 'r' (by simp) (by decide)
    subst this
    exact tokenAt_return (hs.1 (by simp))
  | number h => exact tokenAt_literal h (hs.1 (by simp))
  | negative h => exact tokenAt_negative h (hs.1 (by simp))
  | identifier hw hr hk => exact tokenAt_word hw hr hk (hs.1 (by simp))
  | kill =>
    have := hprev 'k' (by simp) (by decide)
    subst this
    exact tokenAt_kill (hs.1 (by simp))

theorem tokenAt_blank {c : Char} (h : isBlank c) (prev : Bool) (s : List Char) :
    tokenAt prev (c :: s) = some (none, ((c :: s).takeWhile isPySpace).length) := by
  have h' : isPySpace c = true := by rcases h with rfl | rfl <;> decide
  rcases h with rfl | rfl <;> simp [tokenAt, runAt, List.takeWhile_cons, h']

theorem tokenAt_backslash (prev : Bool) : tokenAt prev ['\\'] = some (none, 1) := by
  cases prev <;> decide +kernel

/-- Blanks in front of tokens. -/
theorem laid_drop {ts : List Token} {s : List Char} (h : Laid ts s) : Laid ts (s.dropWhile isPySpace) ∧ ∀ c, (s.takeWhile isPySpace).getLast? = some c → isPyWord c = false := by
  have hsp : ∀ c, isPySpace c = true → isPyWord c = false := by
    intro c hc
    simp [isPySpace] at hc
    rcases hc with rfl | rfl | rfl | rfl | rfl | rfl | rfl | rfl | rfl | rfl <;> decide
  refine ⟨?_, fun c hc => hsp c (List.mem_takeWhile_imp (List.mem_of_getLast? hc))⟩
  induction h with
  | nil => exact .nil
  | backslash => exact .backslash
  | @gap c ts s hc h ih =>
    have h' : isPySpace c = true := by rcases hc with rfl | rfl <;> decide
    simp only [List.dropWhile_cons, h', if_true]
    exact ih
  | @tok t ts s ht hs h ih =>
    have : (t.value ++ s).dropWhile isPySpace = t.value ++ s := by
      have hfirst : ∀ c, (t.value ++ s).head? = some c → isPySpace c = false := by
        have key : ∀ c, t.value.head? = some c → isPySpace c = false := by
          intro c hc
          have hw : ∀ {x : Char}, x.isAlphanum = true ∨ x = '_' → isPySpace x = false := by
            intro x hx
            cases hsp : isPySpace x with
            | false => rfl
            | true =>
              have := hsp
              simp [isPySpace] at this
              rcases this with rfl | rfl | rfl | rfl | rfl | rfl | rfl | rfl | rfl | rfl <;> revert hx <;> decide
          cases ht with
          | number h => exact hw (.inl (literal_alphanum h c (List.mem_of_mem_head? hc)))
          | identifier h => exact hw (word_alphanum h c (List.mem_of_mem_head? hc))
          | op h => cases h <;> (simp at hc; subst hc; decide)
          | _ => simp at hc; subst hc; decide
        intro c hc
        rw [List.head?_append] at hc
        cases hv : t.value.head? with
        | none => exact absurd (List.head?_eq_none_iff.1 hv) (shape_facts ht).1
        | some x => rw [hv] at hc; simp at hc; subst hc; exact key x hv
      cases hq : t.value ++ s with
      | nil => rfl
      | cons c q => simp [List.dropWhile_cons, hfirst c (by rw [hq]; rfl)]
    rw [this]
    exact .tok ht hs h

theorem take_run (p : Char → Bool) (l : List Char) : l.take (l.takeWhile p).length = l.takeWhile p := by
  induction l with
  | nil => rfl
  | cons c l ih =>
    simp only [List.takeWhile_cons]
    split
    · simp [ih]
    · rfl

theorem drop_run (p : Char → Bool) (l : List Char) : l.drop (l.takeWhile p).length = l.dropWhile p := by
  induction l with
  | nil => rfl
  | cons c l ih =>
    simp only [List.takeWhile_cons, List.dropWhile_cons]
    split
    · simp [ih]
    · rfl

/-- The tokens of a line are found. -/
theorem lex_laid : ∀ (n : Nat) (ts : List Token) (s : List Char) (prev : Bool), s.length ≤ n → Laid ts s → (prev = true → WordEnds s) → lexLine n prev s = some ts := by
  intro n
  induction n with
  | zero =>
    intro ts s prev hl h hp
    have : s = [] := List.eq_nil_of_length_eq_zero (by omega)
    subst this
    generalize hq : ([] : List Char) = q at h
    cases h with
    | nil => simp [lexLine]
    | backslash => simp at hq
    | gap => simp at hq
    | tok ht =>
      have := (shape_facts ht).1
      simp at hq
      exact absurd hq.1.symm (by simpa using fun h => this h)
  | succ n ih =>
    intro ts s prev hl h hp
    cases h with
    | nil => simp [lexLine]
    | backslash =>
      simp only [lexLine, tokenAt_backslash]
      simp [lexLine]
    | @gap c ts s hc h =>
      have hd := laid_drop (.gap hc h)
      have hk : ((c :: s).takeWhile isPySpace).length ≠ 0 := by
        have h' : isPySpace c = true := by rcases hc with rfl | rfl <;> decide
        simp [List.takeWhile_cons, h']
      have htake := take_run isPySpace (c :: s)
      have hdrop := drop_run isPySpace (c :: s)
      have hprev : (((c :: s).takeWhile isPySpace).getLast?.map isPyWord).getD false = false := by
        cases hg : ((c :: s).takeWhile isPySpace).getLast? with
        | none => rfl
        | some x => simp [hd.2 x hg]
      simp only [lexLine, tokenAt_blank hc, Option.bind_eq_bind, Option.bind_some, htake, hdrop, hprev]
      rw [ih ts _ false ?_ hd.1 (by simp)]
      · rfl
      · have : ((c :: s).takeWhile isPySpace).length + ((c :: s).dropWhile isPySpace).length = (c :: s).length := by
          rw [← List.length_append, List.takeWhile_append_dropWhile]
        omega
    | @tok t ts s ht hs h =>
      obtain ⟨hne, -, hend⟩ := shape_facts ht
      have hlen : t.value.length ≠ 0 := by simpa using hne
      have hrec : lexLine n ((t.value.getLast?.map isPyWord).getD false) s = some ts := by
        refine ih ts s _ ?_ h (fun hl => hend hl s hs)
        simp only [List.length_append] at hl
        omega
      have hcons : ∃ c q, t.value ++ s = c :: q := by
        cases hq : t.value with
        | nil => exact absurd hq hne
        | cons c q => exact ⟨c, q ++ s, rfl⟩
      obtain ⟨c, q, hq⟩ := hcons
      have hstep : lexLine (n + 1) prev (t.value ++ s) = (do
          let m ← tokenAt prev (t.value ++ s)
          let rest ← lexLine n ((((t.value ++ s).take m.2).getLast?.map isPyWord).getD false) ((t.value ++ s).drop m.2)
          return (match m.1 with | some ty => ⟨ty, (t.value ++ s).take m.2⟩ :: rest | none => rest)) := by
        rw [hq]
        rfl
      rw [hstep, tokenAt_shape ht hs hp]
      simp [hrec]

end Minijail
