import Verif.Proof.Constants
import Verif.Spec.Llvm
import Mathlib.Data.List.Forall2
/-! What generate_constants_json.py takes from the LLVM files. -/
set_option autoImplicit false
set_option linter.unusedSimpArgs false
namespace Minijail.Constants
open Spec.Json Spec.Llvm Offline

/-! ### Lines that define strings -/

theorem isNameChar_iff (c : Char) : isNameChar c = true ↔ (c.isAlphanum = true ∨ c = '.') := by
  unfold isNameChar; simp

theorem label_split {l : CStr} {c : Char} {r : CStr} (h : StrLabel l) (hc : isNameChar c = false) :
    (l ++ c :: r).takeWhile isNameChar = l ∧ (l ++ c :: r).dropWhile isNameChar = c :: r := by
  have h1 : ∀ x ∈ l, isNameChar x = true := fun x hx => (isNameChar_iff x).2 (h.2 x hx)
  rw [List.takeWhile_append_of_pos h1, List.dropWhile_append_of_pos h1, List.takeWhile_cons, List.dropWhile_cons, hc]
  simp

theorem lastQuoted_none : ∀ s : CStr, '"' ∉ s → lastQuoted s = none
  | [], _ => rfl
  | c :: r, h => by
    rw [lastQuoted, lastQuoted_none r fun q => h (by simp [q])]
    simp only
    unfold quotedHere
    split
    · rename_i heq
      cases heq
      exact absurd (by simp) h
    · rfl

theorem lastQuoted_append (a : CStr) {b x : CStr} (h : lastQuoted b = some x) : lastQuoted (a ++ b) = some x := by
  induction a with
  | nil => exact h
  | cons c a ih => rw [List.cons_append, lastQuoted, ih]

theorem lastQuoted_skip : ∀ (a b : CStr), (∀ c ∈ a, c ≠ '"') → b.head? ≠ some '"' → lastQuoted b = none → lastQuoted (a ++ b) = none
  | [], _, _, _, h => h
  | c :: a, b, ha, hb, h => by
    have ih := lastQuoted_skip a b (fun x hx => ha x (by simp [hx])) hb h
    rw [List.cons_append, lastQuoted, ih]
    simp only
    unfold quotedHere
    split
    · rename_i r heq
      injection heq with h1 h2
      cases a with
      | nil => rw [List.nil_append] at h2; rw [h2] at hb; exact absurd rfl hb
      | cons y a => injection h2 with h2 _; exact absurd h2 (ha y (by simp))
    · rfl

theorem stringConstant_line {l s line : CStr} (h : StringLine l s line) : stringConstant line = some ('@' :: l, s) := by
  obtain ⟨hl, hs, hp, hm, ht⟩ := h
  rename_i mid tail
  have e : '@' :: l ++ " = ".toList ++ mid ++ "c\"".toList ++ s ++ "\\00\"".toList ++ tail =
      '@' :: (l ++ ' ' :: ('=' :: ' ' :: (mid ++ ('c' :: '"' :: (s ++ ('\\' :: '0' :: '0' :: '"' :: tail)))))) := by
    simp only [List.append_assoc, List.cons_append, List.nil_append, String.reduceToList]
  obtain ⟨h1, h2⟩ := label_split (r := '=' :: ' ' :: (mid ++ ('c' :: '"' :: (s ++ ('\\' :: '0' :: '0' :: '"' :: tail))))) hl (show isNameChar ' ' = false by decide)
  rw [e]
  have q : lastQuoted ('c' :: '"' :: (s ++ ('\\' :: '0' :: '0' :: '"' :: tail))) = some s := by
    have z : ∀ (c : Char) (r : CStr), c ≠ 'c' → quotedHere (c :: r) = none := by
      intro c r hc
      unfold quotedHere
      split
      · rename_i heq; injection heq with h _; exact absurd h hc
      · rfl
    have q1 : lastQuoted ('\\' :: '0' :: '0' :: '"' :: tail) = none := by
      rw [lastQuoted, lastQuoted, lastQuoted, lastQuoted, lastQuoted_none tail ht, z _ _ (by decide), z _ _ (by decide), z _ _ (by decide), z _ _ (by decide)]
    have q2 : lastQuoted (s ++ ('\\' :: '0' :: '0' :: '"' :: tail)) = none := lastQuoted_skip _ _ (fun c hc => (hp c hc).1) (by simp) q1
    have p1 : ∀ c ∈ s, (c != '"' && c != '\\') = true := fun c hc => by simp [hp c hc]
    rw [lastQuoted, lastQuoted, q2]
    have q3 : quotedHere ('"' :: (s ++ ('\\' :: '0' :: '0' :: '"' :: tail))) = none := rfl
    rw [q3]
    simp only [quotedHere]
    have t1 : (s ++ ('\\' :: '0' :: '0' :: '"' :: tail)).takeWhile (fun c => c != '"' && c != '\\') = s := by
      rw [List.takeWhile_append_of_pos p1, List.takeWhile_cons, if_neg (by decide), List.append_nil]
    have t2 : (s ++ ('\\' :: '0' :: '0' :: '"' :: tail)).dropWhile (fun c => c != '"' && c != '\\') = '\\' :: '0' :: '0' :: '"' :: tail := by
      rw [List.dropWhile_append_of_pos p1, List.dropWhile_cons, if_neg (by decide)]
    rw [t1, t2, if_pos]
    exact ⟨hs, rfl⟩
  simp only [stringConstant, h1, h2, hl.1, if_false]
  have : afterPrefix " = ".toList (' ' :: '=' :: ' ' :: (mid ++ ('c' :: '"' :: (s ++ ('\\' :: '0' :: '0' :: '"' :: tail))))) =
    some (mid ++ ('c' :: '"' :: (s ++ ('\\' :: '0' :: '0' :: '"' :: tail)))) := rfl
  rw [this]
  simp only [lastQuoted_append mid q]
  rfl

/-! ### Entries -/

theorem prefix_before {p x y : CStr} {c : Char} (hc : c ∉ p) (h : p.isPrefixOf (x ++ c :: y) = true) : p <+: x := by
  induction p generalizing x with
  | nil => exact List.nil_prefix
  | cons a p ih =>
    cases x with
    | nil =>
      simp only [List.nil_append, List.isPrefixOf_cons₂, Bool.and_eq_true, beq_iff_eq] at h
      exact absurd (by simp [h.1]) hc
    | cons b x =>
      simp only [List.cons_append, List.isPrefixOf_cons₂, Bool.and_eq_true, beq_iff_eq] at h
      rw [h.1, List.cons_prefix_cons]
      exact ⟨rfl, ih (fun q => hc (by simp [q])) h.2⟩

theorem firstSymbol_skip {c : Char} (hc : c ∉ "null".toList) (y : CStr) : ∀ x : CStr, '@' ∉ x → ¬"null".toList <:+: x → firstSymbol (x ++ c :: y) = firstSymbol (c :: y)
  | [], _, _ => rfl
  | a :: x, h1, h2 => by
    have ih := firstSymbol_skip hc y x (fun q => h1 (by simp [q])) fun q => h2 (q.trans (List.suffix_cons a x).isInfix)
    rw [List.cons_append, firstSymbol, if_neg, if_neg, ih]
    · rintro ⟨rfl, -⟩; exact h1 (by simp)
    · intro h
      exact h2 (prefix_before (x := a :: x) hc h).isInfix

theorem firstSymbol_null (y : CStr) : ∀ x : CStr, '@' ∉ x → ¬"null".toList <:+: x → firstSymbol (x ++ ("null,".toList ++ y)) = some ("null".toList, ',' :: y)
  | [], _, _ => rfl
  | a :: x, h1, h2 => by
    have ih := firstSymbol_null y x (fun q => h1 (by simp [q])) fun q => h2 (q.trans (List.suffix_cons a x).isInfix)
    rw [List.cons_append, firstSymbol, if_neg, if_neg (by rintro ⟨rfl, -⟩; exact h1 (by simp)), ih]
    intro h
    rw [show "null".toList = 'n' :: "ull".toList from rfl, List.isPrefixOf_cons₂, Bool.and_eq_true, beq_iff_eq] at h
    have := prefix_before (p := "ull".toList) (x := x) (c := 'n') (y := "ull,".toList ++ y) (by decide) h.2
    refine h2 (List.IsPrefix.isInfix ?_)
    rw [show "null".toList = 'n' :: "ull".toList from rfl, ← h.1, List.cons_prefix_cons]
    exact ⟨rfl, this⟩

theorem lastNumber_append (a : CStr) {b : CStr} {i : Int} (h : lastNumber b = some i) : lastNumber (a ++ b) = some i := by
  induction a with
  | nil => exact h
  | cons c a ih => rw [List.cons_append, lastNumber, ih]

theorem lastNumber_skip : ∀ (a b : CStr), ' ' ∉ a → lastNumber b = none → lastNumber (a ++ b) = none
  | [], _, _, h => h
  | c :: a, b, ha, h => by
    rw [List.cons_append, lastNumber, lastNumber_skip a b (fun q => ha (by simp [q])) h]
    simp only
    unfold numberHere
    split
    · rename_i heq; cases heq; exact absurd (by simp) ha
    · rfl

theorem number_no_space {i : Int} {t : CStr} (h : Number i t) : ' ' ∉ t := by
  intro hm
  unfold Number at h
  have d : ∀ n : Nat, ' ' ∉ Nat.toDigits 10 n := by
    intro n hn
    have := Nat.isDigit_of_mem_toDigits (b := 10) (n := n) (by decide) (by decide) hn
    exact absurd this (by decide)
  split at h
  · rw [h] at hm
    simp only [List.mem_cons] at hm
    rcases hm with hm | hm
    · exact absurd hm (by decide)
    · exact d _ hm
  · rw [h] at hm; exact d _ hm

theorem lastNumber_number {i : Int} {t : CStr} (h : Number i t) : lastNumber (' ' :: (t ++ " ".toList)) = some i := by
  have h1 : lastNumber (t ++ " ".toList) = none := lastNumber_skip t _ (number_no_space h) rfl
  rw [lastNumber, h1]
  have hr : NoDigit " ".toList := by
    intro c hc
    have : c = ' ' := by simpa using hc.symm
    rw [this]; rfl
  have hne : ∀ n : Nat, Nat.toDigits 10 n ≠ [] := fun n => Nat.toDigits_ne_nil
  have hhead : ∀ n : Nat, (Nat.toDigits 10 n ++ " ".toList).head? ≠ some '-' := by
    intro n hh
    cases hd : Nat.toDigits 10 n with
    | nil => exact hne n hd
    | cons c s =>
      rw [hd] at hh
      simp only [List.cons_append, List.head?_cons, Option.some.injEq] at hh
      have := Nat.isDigit_of_mem_toDigits (b := 10) (n := n) (c := c) (by decide) (by decide) (by rw [hd]; simp)
      rw [hh] at this
      exact absurd this (by decide)
  simp only [numberHere]
  unfold Number at h
  by_cases hi : i < 0
  · rw [if_pos hi] at h
    subst h
    simp only [List.cons_append, List.head?_cons, if_true, List.tail_cons, takeWhile_digits hr, hne, if_false, digitsVal_toDigits]
    congr 1
    omega
  · rw [if_neg hi] at h
    subst h
    simp only [hhead, if_false, takeWhile_digits hr, hne, digitsVal_toDigits]
    congr 1
    omega

theorem lastNumber_none : ∀ s : CStr, NoNumber s → lastNumber s = none
  | [], _ => rfl
  | c :: r, h => by
    rw [lastNumber, lastNumber_none r fun a x b e => h (c :: a) x b (by rw [e]; rfl)]
    simp only
    unfold numberHere
    split
    · rename_i q heq
      injection heq with e1 e2
      subst e1; subst e2
      rw [if_pos]
      cases r with
      | nil => rfl
      | cons x b =>
        obtain ⟨h1, h2⟩ := h [] x b rfl
        by_cases hx : x = '-'
        · subst hx
          simp only [List.head?_cons, if_true, List.tail_cons]
          cases b with
          | nil => rfl
          | cons y b => rw [List.takeWhile_cons, h2 rfl y rfl]; rfl
        · have : ¬(some x = some '-') := fun e => hx (by injection e)
          simp only [List.head?_cons, this, if_false]
          rw [List.takeWhile_cons, h1]; rfl
    · rfl

theorem firstSymbol_label {pre l y : CStr} (hb : Before pre) (hl : StrLabel l) : firstSymbol (pre ++ '@' :: (l ++ ',' :: y)) = some ('@' :: l, ',' :: y) := by
  rw [firstSymbol_skip (by decide) _ _ hb.2.1 hb.2.2.2]
  obtain ⟨h1, h2⟩ := label_split (r := y) hl (show isNameChar ',' = false by decide)
  rw [firstSymbol, if_neg (by simp [List.isPrefixOf_cons₂]), if_pos ⟨rfl, by rw [h1]; exact hl.1⟩, h1, h2]

theorem ignored_append (a : CStr) {b : CStr} (h : ignoredEntry b = true) : ignoredEntry (a ++ b) = true := by
  induction a with
  | nil => exact h
  | cons c a ih => rw [List.cons_append, ignoredEntry, ih, Bool.or_true]

theorem ignored_ptr (arg : CStr) : ignoredEntry (" ptrtoint (".toList ++ (arg ++ ") ".toList)) = true := by
  have e : " ptrtoint (".toList ++ (arg ++ ") ".toList) = ' ' :: 'p' :: 't' :: 'r' :: 't' :: 'o' :: 'i' :: 'n' :: 't' :: ' ' :: '(' :: (arg ++ ") ".toList) := rfl
  rw [e, ignoredEntry]
  have : afterPrefix " ptrto".toList (' ' :: 'p' :: 't' :: 'r' :: 't' :: 'o' :: 'i' :: 'n' :: 't' :: ' ' :: '(' :: (arg ++ ") ".toList)) =
    some ('i' :: 'n' :: 't' :: ' ' :: '(' :: (arg ++ ") ".toList)) := rfl
  rw [this]
  simp only
  have o : ignoredEntry.openParen ('i' :: 'n' :: 't' :: ' ' :: '(' :: (arg ++ ") ".toList)) = true := by
    rw [ignoredEntry.openParen, ignoredEntry.openParen, ignoredEntry.openParen, ignoredEntry.openParen]
    have : (" (".toList.isPrefixOf (' ' :: '(' :: (arg ++ ") ".toList)) && (List.drop 1 ('(' :: (arg ++ ") ".toList))).contains ')') = true := by
      rw [Bool.and_eq_true]
      exact ⟨rfl, by simp⟩
    rw [this]
    simp
  rw [o, Bool.true_or]

/-- One more entry, if it has a number. -/
def addEntry (s : CStr) (v : Option Int) (x : Option (List (CStr × Int))) : Option (List (CStr × Int)) :=
  match v with
  | some i => x.map fun l => (s, i) :: l
  | none => x

/-- What an entry means, given the strings. -/
theorem tableEntries_entry {l e : CStr} {v : Option Int} (h : EntryText l v e) {strings : List (CStr × CStr)} {s : CStr} (hs : dictGet strings ('@' :: l) = some s) (rest : List CStr) :
    tableEntries strings (e :: rest) = addEntry s v (tableEntries strings rest) := by
  cases h with
  | @number pre _ mid i num hb hl hm hn =>
    have e : pre ++ '@' :: l ++ ',' :: mid ++ ' ' :: num ++ " ".toList = pre ++ '@' :: (l ++ ',' :: (mid ++ ' ' :: (num ++ " ".toList))) := by simp
    rw [e, tableEntries, firstSymbol_label hb hl]
    have : lastNumber (',' :: (mid ++ ' ' :: (num ++ " ".toList))) = some i := by
      have := lastNumber_append (',' :: mid) (lastNumber_number hn)
      simpa using this
    simp only [this, Option.map_some]
    rw [if_neg (by simp), hs]
    rfl
  | @pointer pre _ mid arg hb hl hm ha hn =>
    have e : pre ++ '@' :: l ++ ',' :: mid ++ " ptrtoint (".toList ++ arg ++ ") ".toList =
        pre ++ '@' :: (l ++ ',' :: (mid ++ " ptrtoint (".toList ++ arg ++ ") ".toList)) := by simp
    have i : ignoredEntry (pre ++ '@' :: l ++ ',' :: mid ++ " ptrtoint (".toList ++ arg ++ ") ".toList) = true := by
      have := ignored_append (pre ++ '@' :: l ++ ',' :: mid) (ignored_ptr arg)
      simpa using this
    rw [tableEntries, i, e, firstSymbol_label hb hl]
    have : lastNumber (',' :: (mid ++ " ptrtoint (".toList ++ arg ++ ") ".toList)) = none := lastNumber_skip [','] _ (by decide) (lastNumber_none _ hn)
    simp only [this, Option.map_none, if_true]
    rfl

theorem tableEntries_null {pre mid num : CStr} {i : Int} (hb : Before pre) (hn : Number i num) (strings : List (CStr × CStr)) (rest : List CStr) :
    tableEntries strings ((pre ++ "null,".toList ++ mid ++ ' ' :: num ++ " ".toList) :: rest) = some [] := by
  have e : pre ++ "null,".toList ++ mid ++ ' ' :: num ++ " ".toList = pre ++ ("null,".toList ++ (mid ++ ' ' :: (num ++ " ".toList))) := by simp
  rw [e, tableEntries, firstSymbol_null _ _ hb.2.1 hb.2.2.2]
  have : lastNumber (',' :: (mid ++ ' ' :: (num ++ " ".toList))) = some i := by
    have := lastNumber_append (',' :: mid) (lastNumber_number hn)
    simpa using this
  simp only [this, Option.map_some, if_true]

/-! ### The line of a table -/

/-- One of the two tables. -/
def Kind (kind other : CStr) : Prop := (kind = "syscall".toList ∧ other = "constant".toList) ∨ (kind = "constant".toList ∧ other = "syscall".toList)

theorem entryHere_other {c : Char} (r : CStr) (h : c ≠ '%') : entryHere (c :: r) = none := by
  have h1 : ∀ p : CStr, afterPrefix ('%' :: p) (c :: r) = none := by
    intro p
    unfold afterPrefix
    rw [if_neg]
    rw [List.isPrefixOf_cons₂, Bool.and_eq_true, beq_iff_eq]
    exact fun q => h q.1.symm
  unfold entryHere
  rw [show "%struct.constant_entry".toList = '%' :: "struct.constant_entry".toList from rfl, h1,
    show "%struct.syscall_entry".toList = '%' :: "struct.syscall_entry".toList from rfl, h1]

theorem findEntries_skip : ∀ (s r : CStr) (fuel : Nat), '%' ∉ s → findEntries (s.length + fuel) (s ++ r) = findEntries fuel r
  | [], r, fuel, _ => by simp
  | c :: s, r, fuel, h => by
    have : (c :: s).length + fuel = (s.length + fuel) + 1 := by simp; omega
    rw [this, List.cons_append, findEntries, entryHere_other _ (by rintro rfl; exact h (by simp))]
    exact findEntries_skip s r fuel fun q => h (by simp [q])

theorem findEntries_none (s : CStr) (fuel : Nat) (h : '%' ∉ s) (hf : s.length ≤ fuel) : findEntries fuel s = [] := by
  obtain ⟨k, rfl⟩ := Nat.exists_eq_add_of_le hf
  have := findEntries_skip s [] k h
  rw [List.append_nil] at this
  rw [this]
  cases k <;> rfl

/-- The beginning of an entry, or of the type of the table. -/
theorem struct_prefix {kind other : CStr} (h : Kind kind other) (r : CStr) :
    entryHere ("%struct.".toList ++ kind ++ "_entry".toList ++ r) =
      (match r.dropWhile isPySpace with
      | '{' :: r =>
        let r := r.dropWhile isPySpace
        match r.dropWhile (· != '}') with
        | '}' :: rest => if r.takeWhile (· != '}') = [] then none else some (r.takeWhile (· != '}'), rest)
        | _ => none
      | _ => none) := by
  rcases h with ⟨rfl, -⟩ | ⟨rfl, -⟩ <;> rfl

theorem struct_other {kind other : CStr} (h : Kind kind other) {c : Char} {r : CStr} (hc : c ≠ '{') (hs : isPySpace c = false) (w : CStr) (hw : ∀ x ∈ w, isPySpace x = true) :
    entryHere ("%struct.".toList ++ kind ++ "_entry".toList ++ (w ++ c :: r)) = none := by
  rw [struct_prefix h, List.dropWhile_append_of_pos hw, List.dropWhile_cons, hs]
  split
  · rename_i heq
    simp only [Bool.false_eq_true, if_false] at heq
    injection heq with e _
    exact absurd e hc
  · rfl

theorem struct_entry {kind other : CStr} (h : Kind kind other) {e rest : CStr} (h1 : e ≠ []) (h2 : ∀ c, e.head? = some c → isPySpace c = false) (h3 : '}' ∉ e) :
    entryHere ("%struct.".toList ++ kind ++ "_entry".toList ++ (" { ".toList ++ (e ++ '}' :: rest))) = some (e, rest) := by
  rw [struct_prefix h]
  have d1 : (" { ".toList ++ (e ++ '}' :: rest)).dropWhile isPySpace = '{' :: ' ' :: (e ++ '}' :: rest) := rfl
  have d2 : (' ' :: (e ++ '}' :: rest)).dropWhile isPySpace = e ++ '}' :: rest := by
    rw [List.dropWhile_cons, if_pos (by rfl)]
    cases e with
    | nil => exact absurd rfl h1
    | cons c e => rw [List.cons_append, List.dropWhile_cons, h2 c rfl]; rfl
  have p1 : ∀ c ∈ e, (c != '}') = true := by
    intro c hc
    simp only [bne_iff_ne, ne_eq]
    rintro rfl
    exact h3 hc
  simp only [d1, d2]
  have d3 : (e ++ '}' :: rest).dropWhile (· != '}') = '}' :: rest := by rw [List.dropWhile_append_of_pos p1, List.dropWhile_cons, if_neg (by decide)]
  have d4 : (e ++ '}' :: rest).takeWhile (· != '}') = e := by rw [List.takeWhile_append_of_pos p1, List.takeWhile_cons, if_neg (by decide), List.append_nil]
  simp only [d3, d4, h1, if_false]

theorem number_no_brace {i : Int} {t : CStr} (h : Number i t) : '}' ∉ t := by
  intro hm
  unfold Number at h
  have d : ∀ n : Nat, '}' ∉ Nat.toDigits 10 n := by
    intro n hn
    have := Nat.isDigit_of_mem_toDigits (b := 10) (n := n) (by decide) (by decide) hn
    exact absurd this (by decide)
  split at h
  · rw [h] at hm
    simp only [List.mem_cons] at hm
    rcases hm with hm | hm
    · exact absurd hm (by decide)
    · exact d _ hm
  · rw [h] at hm; exact d _ hm

theorem before_head {pre y : CStr} {c : Char} (hb : Before pre) (hc : isPySpace c = false) : ∀ x, (pre ++ c :: y).head? = some x → isPySpace x = false := by
  intro x hx
  cases pre with
  | nil =>
    simp only [List.nil_append, List.head?_cons, Option.some.injEq] at hx
    rw [← hx]; exact hc
  | cons a pre =>
    simp only [List.cons_append, List.head?_cons, Option.some.injEq] at hx
    subst hx
    have := hb.1 a rfl
    simp only [List.mem_cons, List.not_mem_nil, or_false, not_or] at this
    unfold isPySpace
    simp [this]

theorem label_no_brace {l : CStr} (h : StrLabel l) : '}' ∉ l := by
  intro hm
  rcases h.2 _ hm with h | h
  · exact absurd h (by decide)
  · exact absurd h (by decide)

theorem entryText_good {l e : CStr} {v : Option Int} (h : EntryText l v e) : e ≠ [] ∧ (∀ c, e.head? = some c → isPySpace c = false) ∧ '}' ∉ e := by
  cases h with
  | @number pre _ mid i num hb hl hm hn =>
    refine ⟨by simp, ?_, ?_⟩
    · have := before_head (y := l ++ ',' :: mid ++ ' ' :: num ++ " ".toList) hb (show isPySpace '@' = false by decide)
      simpa using this
    · simp only [List.mem_append, List.mem_cons, not_or]
      exact ⟨⟨⟨⟨hb.2.2.1, by decide, label_no_brace hl⟩, by decide, hm⟩, by decide, number_no_brace hn⟩, by decide⟩
  | @pointer pre _ mid arg hb hl hm ha hn =>
    refine ⟨by simp, ?_, ?_⟩
    · have := before_head (y := l ++ ',' :: mid ++ " ptrtoint (".toList ++ arg ++ ") ".toList) hb (show isPySpace '@' = false by decide)
      simpa using this
    · simp only [List.mem_append, List.mem_cons, not_or]
      exact ⟨⟨⟨⟨⟨hb.2.2.1, by decide, label_no_brace hl⟩, by decide, hm⟩, by decide⟩, ha⟩, by decide⟩

theorem kind_plain {kind other : CStr} (h : Kind kind other) : '%' ∉ kind ∧ kind.length ≤ 8 := by
  rcases h with ⟨rfl, -⟩ | ⟨rfl, -⟩ <;> decide

/-- The strings that are named are known. -/
def Named (strings : List (CStr × CStr)) (entries table : List (CStr × Option Int)) : Prop :=
  List.Forall₂ (fun e t => dictGet strings ('@' :: e.1) = some t.1 ∧ t.2 = e.2) entries table

/-- The entries that have a number. -/
def numbersOf (table : List (CStr × Option Int)) : List (CStr × Int) := table.filterMap fun e => e.2.map fun i => (e.1, i)

theorem entries_read {kind other : CStr} (hk : Kind kind other) {entries : List (CStr × Option Int)} {t : CStr} (h : Entries kind entries t) (strings : List (CStr × CStr)) :
    ∀ (table : List (CStr × Option Int)) (fuel : Nat), Named strings entries table → t.length ≤ fuel →
      tableEntries strings (findEntries fuel t) = some (numbersOf table) := by
  induction h with
  | @null pre mid i num tail hb hm hn =>
    intro table fuel ht hf
    cases ht
    cases fuel with
    | zero => simp at hf
    | succ fuel =>
      have e : "%struct.".toList ++ kind ++ "_entry { ".toList ++ (pre ++ "null,".toList ++ mid ++ ' ' :: num ++ " ".toList) ++ '}' :: tail =
          "%struct.".toList ++ kind ++ "_entry".toList ++ (" { ".toList ++ ((pre ++ "null,".toList ++ mid ++ ' ' :: num ++ " ".toList) ++ '}' :: tail)) := by simp
      have g : entryHere ("%struct.".toList ++ kind ++ "_entry".toList ++ (" { ".toList ++ ((pre ++ "null,".toList ++ mid ++ ' ' :: num ++ " ".toList) ++ '}' :: tail))) =
          some (pre ++ "null,".toList ++ mid ++ ' ' :: num ++ " ".toList, tail) := by
        refine struct_entry hk (by simp) ?_ ?_
        · have := before_head (y := "ull,".toList ++ mid ++ ' ' :: num ++ " ".toList) hb (show isPySpace 'n' = false by decide)
          simpa using this
        · simp only [List.mem_append, List.mem_cons, not_or]
          exact ⟨⟨⟨⟨hb.2.2.1, by decide⟩, hm⟩, by decide, number_no_brace hn⟩, by decide⟩
      rw [e]
      have s : ∃ x, "%struct.".toList ++ kind ++ "_entry".toList ++ (" { ".toList ++ ((pre ++ "null,".toList ++ mid ++ ' ' :: num ++ " ".toList) ++ '}' :: tail)) = '%' :: x := ⟨_, rfl⟩
      obtain ⟨x, hx⟩ := s
      rw [hx] at g ⊢
      rw [findEntries, g]
      exact tableEntries_null hb hn strings _
  | @zero tail ht =>
    intro table fuel htab hf
    cases htab
    cases fuel with
    | zero => simp at hf
    | succ fuel =>
      have g := struct_other (r := "eroinitializer".toList ++ tail) hk (show 'z' ≠ '{' by decide) (by decide) [' '] (by decide)
      have e : "%struct.".toList ++ kind ++ "_entry zeroinitializer".toList ++ tail = "%struct.".toList ++ kind ++ "_entry".toList ++ ([' '] ++ 'z' :: ("eroinitializer".toList ++ tail)) := by simp
      have e2 : "%struct.".toList ++ kind ++ "_entry".toList ++ ([' '] ++ 'z' :: ("eroinitializer".toList ++ tail)) =
        '%' :: ("struct.".toList ++ kind ++ "_entry".toList ++ ([' '] ++ 'z' :: ("eroinitializer".toList ++ tail))) := rfl
      rw [e] at hf ⊢
      rw [e2] at g hf ⊢
      rw [findEntries, g]
      simp only
      rw [findEntries_none _ _ _ (by simpa using hf)]
      · rfl
      · simp only [List.mem_append, List.mem_cons, not_or]
        exact ⟨⟨⟨by decide, (kind_plain hk).1⟩, by decide⟩, ⟨by decide, by simp⟩, by decide, by decide, ht⟩
  | @more l v e r t he hr ih =>
    intro table fuel htab hf
    cases htab with
    | @cons _ tb _ table h1 h2 =>
    cases fuel with
    | zero => simp at hf
    | succ fuel =>
      obtain ⟨k1, k2, k3⟩ := entryText_good he
      have g := struct_entry (rest := ", ".toList ++ t) hk k1 k2 k3
      have e1 : "%struct.".toList ++ kind ++ "_entry { ".toList ++ e ++ "}, ".toList ++ t = "%struct.".toList ++ kind ++ "_entry".toList ++ (" { ".toList ++ (e ++ '}' :: (", ".toList ++ t))) := by simp
      have e2 : "%struct.".toList ++ kind ++ "_entry".toList ++ (" { ".toList ++ (e ++ '}' :: (", ".toList ++ t))) =
        '%' :: ("struct.".toList ++ kind ++ "_entry".toList ++ (" { ".toList ++ (e ++ '}' :: (", ".toList ++ t)))) := rfl
      rw [e1] at hf ⊢
      rw [e2] at g hf ⊢
      rw [findEntries, g]
      simp only
      have hf2 : 2 + t.length ≤ fuel := by simp at hf; omega
      obtain ⟨k, rfl⟩ := Nat.exists_eq_add_of_le hf2
      have sk := findEntries_skip ", ".toList t (t.length + k) (by decide)
      rw [show 2 + t.length + k = (", ".toList).length + (t.length + k) by simp; omega, sk]
      rw [tableEntries_entry he h1.1, ih table _ h2 (by omega)]
      unfold numbersOf
      cases v with
      | none => simp [h1.2, addEntry]
      | some i => simp [h1.2, addEntry]

theorem occursIn_iff (p : CStr) : ∀ s : CStr, occursIn p s = true ↔ p <:+: s
  | [] => by simp [occursIn]
  | c :: r => by
    rw [occursIn, Bool.or_eq_true, occursIn_iff p r, List.isPrefixOf_iff_prefix, List.infix_cons_iff]

/-! ### Files -/

/-- The name of a table in the file of the architecture. -/
def tableName (kind : CStr) : CStr := kind ++ ['s']

theorem stringConstant_none {kind other : CStr} (h : Kind kind other) (t : CStr) : stringConstant ('@' :: kind ++ "_table".toList ++ t) = none := by
  rcases h with ⟨rfl, -⟩ | ⟨rfl, -⟩ <;> rfl

/-- A table. -/
theorem parse_table {kind other : CStr} (hk : Kind kind other) {entries table : List (CStr × Option Int)} {line : CStr} (h : TableLine kind other entries line)
    {strings : List (CStr × CStr)} (hn : Named strings entries table) (rest : List CStr) (name : CStr) (done : List (CStr × Int)) :
    parseLlvmIr (line :: rest) strings name done = parseLlvmIr rest strings (tableName kind) (done ++ numbersOf table) := by
  obtain ⟨hm, he, ho⟩ := h
  rename_i mid t
  have sc := stringConstant_none hk (" = ".toList ++ mid ++ "%struct.".toList ++ kind ++ "_entry] [".toList ++ t)
  have e : '@' :: kind ++ "_table = ".toList ++ mid ++ "%struct.".toList ++ kind ++ "_entry] [".toList ++ t =
    '@' :: kind ++ "_table".toList ++ (" = ".toList ++ mid ++ "%struct.".toList ++ kind ++ "_entry] [".toList ++ t) := by simp
  have in1 : occursIn ('@' :: kind ++ "_table".toList) ('@' :: kind ++ "_table = ".toList ++ mid ++ "%struct.".toList ++ kind ++ "_entry] [".toList ++ t) = true := by
    rw [occursIn_iff, e]
    exact (List.prefix_append _ _).isInfix
  have in2 : occursIn ('@' :: other ++ "_table".toList) ('@' :: kind ++ "_table = ".toList ++ mid ++ "%struct.".toList ++ kind ++ "_entry] [".toList ++ t) = false := by
    rw [← Bool.not_eq_true, occursIn_iff]; exact ho
  rw [← e] at sc
  have fe : ∀ fuel, ('@' :: kind ++ "_table = ".toList ++ mid ++ "%struct.".toList ++ kind ++ "_entry] [".toList ++ t).length ≤ fuel →
      tableEntries strings (findEntries fuel ('@' :: kind ++ "_table = ".toList ++ mid ++ "%struct.".toList ++ kind ++ "_entry] [".toList ++ t)) = some (numbersOf table) := by
    intro fuel hf
    have hkp := (kind_plain hk).1
    have p1 : '%' ∉ '@' :: kind ++ "_table = ".toList ++ mid := by
      simp only [List.mem_append, List.mem_cons, not_or]
      exact ⟨⟨⟨by decide, hkp⟩, by decide⟩, hm⟩
    have e1 : '@' :: kind ++ "_table = ".toList ++ mid ++ "%struct.".toList ++ kind ++ "_entry] [".toList ++ t =
      ('@' :: kind ++ "_table = ".toList ++ mid) ++ ("%struct.".toList ++ kind ++ "_entry".toList ++ ([] ++ ']' :: (" [".toList ++ t))) := by simp
    have g := struct_other (r := " [".toList ++ t) hk (show ']' ≠ '{' by decide) (by decide) [] (by simp)
    rw [e1] at hf ⊢
    rw [List.length_append] at hf
    obtain ⟨k, rfl⟩ := Nat.exists_eq_add_of_le hf
    rw [Nat.add_assoc, findEntries_skip _ _ _ p1]
    have e2 : "%struct.".toList ++ kind ++ "_entry".toList ++ ([] ++ ']' :: (" [".toList ++ t)) = '%' :: (("struct.".toList ++ kind ++ "_entry] [".toList) ++ t) := by simp
    rw [e2] at g ⊢
    rw [show ('%' :: (("struct.".toList ++ kind ++ "_entry] [".toList) ++ t)).length + k = ("struct.".toList ++ kind ++ "_entry] [".toList).length + (t.length + k) + 1 by simp; omega]
    rw [findEntries, g]
    simp only
    rw [findEntries_skip]
    · exact entries_read hk he strings table _ hn (by omega)
    · simp only [List.mem_append, not_or]
      exact ⟨⟨by decide, hkp⟩, by decide⟩
  rw [parseLlvmIr, sc]
  simp only
  rw [fe _ (by omega)]
  rcases hk with ⟨rfl, rfl⟩ | ⟨rfl, rfl⟩
  · rw [show "@syscall_table".toList = '@' :: "syscall".toList ++ "_table".toList from rfl, in1]
    simp [tableName]
  · rw [show "@syscall_table".toList = '@' :: "syscall".toList ++ "_table".toList from rfl, in2,
      show "@constant_table".toList = '@' :: "constant".toList ++ "_table".toList from rfl, in1]
    simp [tableName]

/-- Lines that are no tables. Only a line about the size of the table changes the name, to that of the table. -/
theorem parse_lines {kind other : CStr} (hk : Kind kind other) {more : List (CStr × CStr)} {lines : List CStr} (h : Lines kind more lines) :
    ∀ (rest : List CStr) (strings : List (CStr × CStr)) (name : CStr) (done : List (CStr × Int)), ∃ name', (name' = name ∨ name' = tableName kind) ∧
      parseLlvmIr (lines ++ rest) strings name done = parseLlvmIr rest (strings ++ more.map fun x => ('@' :: x.1, x.2)) name' done := by
  induction h with
  | nil => intro rest strings name done; exact ⟨name, .inl rfl, by simp⟩
  | @string l s line more lines hl hr ih =>
    intro rest strings name done
    obtain ⟨n, hn, e⟩ := ih rest (strings ++ [('@' :: l, s)]) name done
    refine ⟨n, hn, ?_⟩
    rw [List.cons_append, parseLlvmIr, stringConstant_line hl]
    simp only
    rw [e]
    simp
  | @other line more lines hl hr ih =>
    intro rest strings name done
    cases hl with
    | plain h1 h2 h3 =>
      obtain ⟨n, hn, e⟩ := ih rest strings name done
      refine ⟨n, hn, ?_⟩
      have sc : stringConstant line = none := by
        unfold stringConstant
        split
        · exact absurd rfl h1
        · rfl
      have o1 : occursIn "@syscall_table".toList line = false := by rw [← Bool.not_eq_true, occursIn_iff]; exact h2
      have o2 : occursIn "@constant_table".toList line = false := by rw [← Bool.not_eq_true, occursIn_iff]; exact h3
      rw [List.cons_append, parseLlvmIr, sc]
      simp only [o1, o2, Bool.or_self, Bool.false_eq_true, if_false]
      exact e
    | @size t h1 h2 =>
      obtain ⟨n, hn, e⟩ := ih rest strings (tableName kind) done
      refine ⟨n, .inr (hn.elim id id), ?_⟩
      have sc := stringConstant_none hk ("_size = ".toList ++ t)
      have eq : '@' :: kind ++ "_table_size = ".toList ++ t = '@' :: kind ++ "_table".toList ++ ("_size = ".toList ++ t) := by simp
      have in1 : occursIn ('@' :: kind ++ "_table".toList) ('@' :: kind ++ "_table_size = ".toList ++ t) = true := by
        rw [occursIn_iff, eq]; exact (List.prefix_append _ _).isInfix
      have fe : findEntries (('@' :: kind ++ "_table_size = ".toList ++ t).length + 1) ('@' :: kind ++ "_table_size = ".toList ++ t) = [] := by
        refine findEntries_none _ _ ?_ (by omega)
        simp only [List.mem_append, List.mem_cons, not_or]
        exact ⟨⟨⟨by decide, (kind_plain hk).1⟩, by decide⟩, h1⟩
      rw [← eq] at sc
      rw [List.cons_append, parseLlvmIr, sc]
      simp only
      rw [fe]
      rcases hk with ⟨rfl, rfl⟩ | ⟨rfl, rfl⟩
      · rw [show "@syscall_table".toList = '@' :: "syscall".toList ++ "_table".toList from rfl, in1]
        simpa [tableName, tableEntries] using e
      · have in2 : occursIn "@syscall_table".toList ('@' :: "constant".toList ++ "_table_size = ".toList ++ t) = false := by
          rw [← Bool.not_eq_true, occursIn_iff]
          intro hi
          have : '@' :: "constant".toList ++ "_table_size = ".toList ++ t = '@' :: ("constant_table_size = ".toList ++ t) := rfl
          rw [this, List.infix_cons_iff] at hi
          rcases hi with hi | hi
          · rw [← List.isPrefixOf_iff_prefix] at hi
            exact absurd hi (by simp [List.isPrefixOf_cons₂])
          · have : '@' ∈ "constant_table_size = ".toList ++ t := hi.subset (by decide)
            rcases List.mem_append.1 this with q | q
            · exact absurd q (by decide)
            · exact h2 q
        rw [in2, show "@constant_table".toList = '@' :: "constant".toList ++ "_table".toList from rfl, in1]
        simpa [tableName, tableEntries] using e

theorem dictGet_mem {α : Type} {l : List (CStr × α)} {k : CStr} {v : α} (h : (k, v) ∈ l) (hu : ∀ v', (k, v') ∈ l → v' = v) : dictGet l k = some v := by
  unfold dictGet
  cases h2 : l.reverse.find? fun e => e.1 == k with
  | none =>
    have := List.find?_eq_none.1 h2 (k, v) (by rw [List.mem_reverse]; exact h)
    simp at this
  | some x =>
    have hx := List.mem_of_find?_eq_some h2
    have hk2 : x.1 = k := by simpa using List.find?_some h2
    rw [List.mem_reverse] at hx
    rw [Option.map_some, hu x.2 (by rw [← hk2]; exact hx)]

theorem dictGet_some {α : Type} {l : List (CStr × α)} {k : CStr} {v : α} (h : dictGet l k = some v) : (k, v) ∈ l := by
  unfold dictGet at h
  cases h2 : l.reverse.find? fun e => e.1 == k with
  | none => rw [h2] at h; cases h
  | some x =>
    rw [h2] at h
    have hx := List.mem_of_find?_eq_some h2
    have hk2 : x.1 = k := by simpa using List.find?_some h2
    rw [List.mem_reverse] at hx
    simp only [Option.map_some, Option.some.injEq] at h
    rw [← hk2, ← h]; exact hx

theorem parse_file {kind other : CStr} (hk : Kind kind other) {table : List (CStr × Option Int)} {lines : List CStr} (h : TableFile kind other table lines) :
    parseLlvmIr lines [] [] [] = some (tableName kind, numbersOf table) := by
  obtain ⟨strings, more, before, line, after, entries, rfl, h1, h2, h3, h4, h5, h6⟩ := h
  have hn : Named (strings.map fun x => ('@' :: x.1, x.2)) entries table := by
    clear h1 h2 h3
    unfold Named
    induction entries generalizing table with
    | nil =>
      cases table with
      | nil => exact .nil
      | cons _ _ => simp at h5
    | cons e entries ih =>
      cases table with
      | nil => simp at h5
      | cons t table =>
        obtain ⟨k1, k2⟩ := h6 (t, e) (by simp)
        refine .cons ⟨?_, k2⟩ (ih (by simpa using h5) fun x hx => h6 x (by simp [hx]))
        refine dictGet_mem (List.mem_map.2 ⟨_, k1, rfl⟩) ?_
        intro v' hv
        obtain ⟨y, hy, e'⟩ := List.mem_map.1 hv
        injection e' with a b
        injection a with _ a
        exact h4 e.1 v' t.1 (by rw [← a, ← b]; exact hy) k1
  obtain ⟨n1, -, e1⟩ := parse_lines hk h1 (line :: after) [] [] []
  rw [e1, List.nil_append, parse_table hk h3 hn]
  obtain ⟨n2, hn2, e2⟩ := parse_lines hk h2 [] (strings.map fun x => ('@' :: x.1, x.2)) (tableName kind) ([] ++ numbersOf table)
  rw [List.append_nil] at e2
  rw [e2, parseLlvmIr, hn2.elim id id]
  rfl

end Minijail.Constants
