import Verif.Model.Util
import Verif.Spec.Text
import Mathlib.Data.List.TakeWhile
/-! The C string functions compute the splitting functions of the specification. -/
set_option linter.unusedSimpArgs false
set_option autoImplicit false
namespace Minijail

theorem strip_eq_trim (s : CStr) : strip s = Spec.trim s := rfl

theorem consHead_ne_nil (c : Char) (fs) : Spec.consHead c fs ≠ [] := by cases fs <;> simp [Spec.consHead]

theorem fields_ne_nil (d : Char) (s : List Char) : Spec.fields d s ≠ [] := by
  cases s with
  | nil => simp [Spec.fields]
  | cons c s => simp only [Spec.fields]; split <;> simp [consHead_ne_nil]

/-- Splitting at the first separator. -/
theorem fields_eq (d : Char) (s : List Char) :
    Spec.fields d s = match s.dropWhile (· != d) with
      | [] => [s.takeWhile (· != d)]
      | _ :: b => s.takeWhile (· != d) :: Spec.fields d b := by
  induction s with
  | nil => simp [Spec.fields]
  | cons c s ih =>
    by_cases h : c = d
    · subst h; simp [Spec.fields]
    · simp only [Spec.fields, h, if_false]
      rw [ih]
      have h' : (c != d) = true := by simpa using h
      simp only [List.dropWhile_cons, List.takeWhile_cons, h', if_true]
      split <;> simp [Spec.consHead]

theorem words_cons_sep (d : Char) (s : List Char) : Spec.words d (d :: s) = Spec.words d s := by
  simp [Spec.words, Spec.fields]

theorem words_dropWhile (d : Char) (s : List Char) : Spec.words d (s.dropWhile (· == d)) = Spec.words d s := by
  induction s with
  | nil => rfl
  | cons c s ih =>
    by_cases h : c = d
    · subst h; simp [words_cons_sep, ih]
    · simp [List.dropWhile_cons, h]

theorem words_nil (d : Char) : Spec.words d [] = [] := by simp [Spec.words, Spec.fields]

theorem strtok_none {d : Char} {s : CStr} (h : strtok d s = none) : Spec.words d s = [] := by
  simp only [strtok] at h
  split at h
  · next h1 => rw [← words_dropWhile, h1, words_nil]
  · simp at h

theorem strtok_some {d : Char} {s t r : CStr} (h : strtok d s = some (t, r)) :
    Spec.words d s = t :: Spec.words d r := by
  simp only [strtok] at h
  split at h
  · simp at h
  · next h1 =>
    simp only [Option.some.injEq, Prod.mk.injEq] at h
    obtain ⟨rfl, rfl⟩ := h
    rw [← words_dropWhile]
    generalize hs : s.dropWhile (· == d) = s' at *
    have hhead : ∃ c s'', s' = c :: s'' ∧ c ≠ d := by
      cases s' with
      | nil => exact absurd rfl h1
      | cons c s'' =>
        refine ⟨c, s'', rfl, ?_⟩
        have := List.head?_dropWhile_not (fun x : Char => x == d) s
        rw [hs] at this
        simpa using this
    obtain ⟨c, s'', rfl, hc⟩ := hhead
    have hc' : (c != d) = true := by simpa using hc
    conv => lhs; rw [Spec.words, fields_eq]
    cases hd : (c :: s'').dropWhile (· != d) with
    | nil => simp [words_nil, List.takeWhile_cons, hc']
    | cons x b => simp [Spec.words, List.takeWhile_cons, hc']

theorem strtok_eq_none_iff {d : Char} {s : CStr} : strtok d s = none ↔ Spec.words d s = [] := by
  constructor
  · exact strtok_none
  · intro h
    cases h1 : strtok d s with
    | none => rfl
    | some x => obtain ⟨t, r⟩ := x; rw [strtok_some h1] at h; simp at h

theorem strsep_none {d : Char} {s a : CStr} (h : strsep d s = (a, none)) : d ∉ s := by
  simp only [strsep] at h
  split at h
  · next h1 =>
    intro hd
    have := (List.dropWhile_eq_nil_iff.1 h1) d hd
    simp at this
  · simp at h

theorem strsep_some {d : Char} {s a b : CStr} (h : strsep d s = (a, some b)) : s = a ++ d :: b ∧ d ∉ a := by
  simp only [strsep] at h
  split at h
  · simp at h
  · next x b' h1 =>
    simp only [Prod.mk.injEq, Option.some.injEq] at h
    obtain ⟨rfl, rfl⟩ := h
    have hx : x = d := by
      have := List.head?_dropWhile_not (fun c : Char => c != d) s
      rw [h1] at this
      simpa using this
    subst hx
    constructor
    · conv => lhs; rw [← List.takeWhile_append_dropWhile (p := fun c : Char => c != x) (l := s)]
      rw [h1]
    · intro hd
      have := List.mem_takeWhile_imp hd
      simp at this

theorem strsep_of {d : Char} {a b : CStr} (h : d ∉ a) : strsep d (a ++ d :: b) = (a, some b) := by
  have h1 : (a ++ d :: b).takeWhile (· != d) = a := by
    rw [List.takeWhile_append_of_pos]
    · simp
    · intro x hx; simp only [bne_iff_ne, ne_eq]; rintro rfl; exact h hx
  have h2 : (a ++ d :: b).dropWhile (· != d) = d :: b := by
    rw [List.dropWhile_append_of_pos]
    · simp
    · intro x hx; simp only [bne_iff_ne, ne_eq]; rintro rfl; exact h hx
  simp [strsep, h1, h2]

/-! ### tokenize -/

theorem strstr2_cons (a b c c' : Char) (s : CStr) :
    strstr [a, b] (c :: c' :: s) = if c = a ∧ c' = b then some ([], s)
      else (strstr [a, b] (c' :: s)).map fun x => (c :: x.1, x.2) := by
  rw [strstr]
  by_cases h : c = a ∧ c' = b
  · obtain ⟨rfl, rfl⟩ := h
    simp [List.isPrefixOf]
  · rw [if_neg h, if_neg]
    simp only [List.isPrefixOf, Bool.and_true, Bool.and_eq_true, beq_iff_eq]
    rintro ⟨h1, h2⟩; exact h ⟨h1.symm, h2.symm⟩

theorem tokenizeAll_eq (delim s : CStr) (h : delim ≠ []) : tokenizeAll delim s =
    match strstr delim s with
    | none => [s]
    | some (a, b) => a :: tokenizeAll delim b := by
  rw [tokenizeAll]
  simp only [h, dite_false]
  split <;> simp_all

theorem tokenizeAll_two (a b : Char) (s : CStr) : tokenizeAll [a, b] s = Spec.fields2 a b s := by
  induction s using Spec.fields2.induct a b with
  | case1 => rw [tokenizeAll_eq _ _ (by simp)]; simp [strstr, Spec.fields2]
  | case2 c =>
    rw [tokenizeAll_eq _ _ (by simp)]
    simp [strstr, Spec.fields2, List.isPrefixOf]
  | case3 c c' s h ih =>
    rw [tokenizeAll_eq _ _ (by simp), strstr2_cons, if_pos h]
    simp [Spec.fields2, h, ih]
  | case4 c c' s h ih =>
    rw [tokenizeAll_eq _ _ (by simp), strstr2_cons, if_neg h]
    rw [Spec.fields2, if_neg h, ← ih, tokenizeAll_eq _ _ (by simp)]
    cases h1 : strstr [a, b] (c' :: s) with
    | none => simp [Spec.consHead]
    | some x => simp [Spec.consHead]

/-! ### Lines -/

theorem getline_of_no_newline {s : CStr} (h : '\n' ∉ s) (hs : s ≠ []) : getline s = some (s, []) := by
  induction s with
  | nil => exact absurd rfl hs
  | cons c s ih =>
    simp only [List.mem_cons, not_or] at h
    rw [getline, if_neg (fun hc => h.1 hc.symm)]
    cases s with
    | nil => simp [getline]
    | cons d s => rw [ih h.2 (by simp)]

theorem getline_of_newline {a b : CStr} (h : '\n' ∉ a) : getline (a ++ '\n' :: b) = some (a ++ ['\n'], b) := by
  induction a with
  | nil => simp [getline]
  | cons c a ih =>
    simp only [List.mem_cons, not_or] at h
    rw [List.cons_append, getline, if_neg (fun hc => h.1 hc.symm), ih h.2]
    rfl

/-- One physical line: its text without newline, and the rest. -/
theorem getline_cases (s : CStr) : s = [] ∨
    (∃ l, s = l ∧ l ≠ [] ∧ '\n' ∉ l ∧ getline s = some (l, []) ∧ eatNewline l = l ∧ Spec.physicalLines s = [l]) ∨
    (∃ l rest, s = l ++ '\n' :: rest ∧ '\n' ∉ l ∧ getline s = some (l ++ ['\n'], rest) ∧
      eatNewline (l ++ ['\n']) = l ∧ Spec.physicalLines s = l :: Spec.physicalLines rest) := by
  by_cases hn : '\n' ∈ s
  · right; right
    have hf := fields_eq '\n' s
    have hsep : ∃ a b, strsep '\n' s = (a, some b) := by
      cases h : strsep '\n' s with
      | mk a o =>
        cases o with
        | none => exact absurd hn (strsep_none h)
        | some b => exact ⟨a, b, rfl⟩
    obtain ⟨a, b, hab⟩ := hsep
    obtain ⟨rfl, ha⟩ := strsep_some hab
    refine ⟨a, b, rfl, ha, getline_of_newline ha, by simp [eatNewline], ?_⟩
    have h2 : (a ++ '\n' :: b).dropWhile (· != '\n') = '\n' :: b := by
      rw [List.dropWhile_append_of_pos]
      · simp
      · intro x hx; simp only [bne_iff_ne, ne_eq]; rintro rfl; exact ha hx
    have h1 : (a ++ '\n' :: b).takeWhile (· != '\n') = a := by
      rw [List.takeWhile_append_of_pos]
      · simp
      · intro x hx; simp only [bne_iff_ne, ne_eq]; rintro rfl; exact ha hx
    rw [h2, h1] at hf
    simp only [Spec.physicalLines]
    rw [hf]
    obtain ⟨f, fs, hfs⟩ := List.exists_cons_of_ne_nil (fields_ne_nil '\n' b)
    simp only [hfs, List.getLast?_cons_cons, List.dropLast_cons_cons]
    split <;> rfl
  · by_cases hs : s = []
    · exact .inl hs
    · right; left
      refine ⟨s, rfl, hs, hn, getline_of_no_newline hn hs, ?_, ?_⟩
      · unfold eatNewline
        rw [if_neg]
        intro h
        exact hn (List.mem_of_getLast? h)
      · have hf := fields_eq '\n' s
        have h2 : s.dropWhile (· != '\n') = [] := by
          rw [List.dropWhile_eq_nil_iff]
          intro x hx; simp only [bne_iff_ne, ne_eq]; rintro rfl; exact hn hx
        have h1 : s.takeWhile (· != '\n') = s := by
          rw [List.takeWhile_eq_self_iff]
          intro x hx; simp only [bne_iff_ne, ne_eq]; rintro rfl; exact hn hx
        rw [h2, h1] at hf
        simp [Spec.physicalLines, hf, hs]

theorem physicalLines_nil : Spec.physicalLines [] = [] := by simp [Spec.physicalLines, Spec.fields]

theorem getmultiline_eq (s : CStr) : getmultiline s =
    match getline s with
    | none => none
    | some (l, rest) =>
      if (eatNewline l).getLast? = some '\\' then
        match getmultiline rest with
        | none => none
        | some (next, rest') => some ((eatNewline l).dropLast ++ ' ' :: next, rest')
      else some (eatNewline l, rest) := by
  rw [getmultiline]
  split
  · simp_all
  · next h => simp only [h]; rfl

theorem getmultiline_spec (n : Nat) : ∀ s : CStr, s.length ≤ n →
    (getmultiline s = none ∧ Spec.logicalLines s = []) ∨
    (∃ l rest, getmultiline s = some (l, rest) ∧ Spec.logicalLines s = l :: Spec.logicalLines rest) := by
  induction n with
  | zero =>
    intro s h
    have : s = [] := List.eq_nil_of_length_eq_zero (by omega)
    subst this
    left
    rw [getmultiline_eq]
    simp [getline, Spec.logicalLines, physicalLines_nil, Spec.joinLines]
  | succ n ih =>
    intro s hlen
    rcases getline_cases s with rfl | ⟨l, rfl, hne, hn, hg, he, hp⟩ | ⟨l, rest, hs, hn, hg, he, hp⟩
    · left
      rw [getmultiline_eq]
      simp [getline, Spec.logicalLines, physicalLines_nil, Spec.joinLines]
    · rw [getmultiline_eq, hg]
      simp only [he, Spec.logicalLines, hp, Spec.joinLines]
      by_cases hb : s.getLast? = some '\\'
      · left
        rw [if_pos hb, if_pos hb, getmultiline_eq]; simp [getline]
      · right
        rw [if_neg hb, if_neg hb]
        exact ⟨s, [], rfl, by simp [physicalLines_nil, Spec.joinLines]⟩
    · rw [getmultiline_eq, hg]
      simp only [he, Spec.logicalLines, hp, Spec.joinLines]
      by_cases hb : l.getLast? = some '\\'
      · rw [if_pos hb, if_pos hb]
        have hlr : rest.length ≤ n := by
          rw [hs] at hlen; simp only [List.length_append, List.length_cons] at hlen; omega
        rcases ih rest hlr with ⟨h1, h2⟩ | ⟨l', rest', h1, h2⟩
        · left
          simp only [Spec.logicalLines] at h2
          simp [h1, h2]
        · right
          simp only [Spec.logicalLines] at h2
          simp only [h1, h2]
          exact ⟨_, _, rfl, rfl⟩
      · right
        rw [if_neg hb, if_neg hb]
        exact ⟨l, rest, rfl, rfl⟩

theorem readLines_eq (s : CStr) : readLines s =
    match getmultiline s with
    | none => []
    | some (l, rest) => l :: readLines rest := by
  rw [readLines]
  split <;> simp_all

/-- The reading loop delivers the logical lines of the file. -/
theorem readLines_eq_logicalLines (s : CStr) : readLines s = Spec.logicalLines s := by
  suffices h : ∀ n, ∀ s : CStr, s.length ≤ n → readLines s = Spec.logicalLines s from h s.length s (Nat.le_refl _)
  intro n
  induction n with
  | zero =>
    intro s h
    rw [readLines_eq]
    rcases getmultiline_spec _ s (Nat.le_refl _) with ⟨h1, h2⟩ | ⟨l, rest, h1, h2⟩
    · rw [h1, h2]
    · have := getmultiline_length _ (Nat.le_refl _) h1
      omega
  | succ n ih =>
    intro s h
    rw [readLines_eq]
    rcases getmultiline_spec _ s (Nat.le_refl _) with ⟨h1, h2⟩ | ⟨l, rest, h1, h2⟩
    · rw [h1, h2]
    · have := getmultiline_length _ (Nat.le_refl _) h1
      rw [h1, h2]
      simp only
      rw [ih rest (by omega)]

end Minijail
