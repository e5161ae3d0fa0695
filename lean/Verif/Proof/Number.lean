import Verif.Model.Util
import Verif.Spec.Const
import Mathlib.Data.List.TakeWhile
import Mathlib.Tactic.SplitIfs
import Mathlib.Data.List.Induction
/-! `strtol` against the specification of numbers. -/
set_option linter.unusedSimpArgs false
set_option autoImplicit false
namespace Minijail

theorem digit_iff (base : Nat) (hb : base ≤ 16) (c : Char) :
    (∃ v, Spec.digit c = some v ∧ v < base) ↔ isDigitIn base c = true := by
  unfold Spec.digit isDigitIn digitVal
  simp only [Char.le_def, UInt32.le_iff_toNat_le, Char.toNat]
  have e0 : '0'.val.toNat = 48 := rfl
  have e9 : '9'.val.toNat = 57 := rfl
  have ea : 'a'.val.toNat = 97 := rfl
  have ef : 'f'.val.toNat = 102 := rfl
  have ez : 'z'.val.toNat = 122 := rfl
  have eA : 'A'.val.toNat = 65 := rfl
  have eF : 'F'.val.toNat = 70 := rfl
  have eZ : 'Z'.val.toNat = 90 := rfl
  simp only [e0, e9, ea, ef, ez, eA, eF, eZ]
  generalize c.val.toNat = n
  split_ifs <;> simp <;> omega

theorem digit_val {c : Char} {v : Nat} (h : Spec.digit c = some v) : digitVal c = some v := by
  unfold Spec.digit at h
  unfold digitVal
  simp only [Char.le_def, UInt32.le_iff_toNat_le, Char.toNat] at *
  have e0 : '0'.val.toNat = 48 := rfl
  have e9 : '9'.val.toNat = 57 := rfl
  have ea : 'a'.val.toNat = 97 := rfl
  have ef : 'f'.val.toNat = 102 := rfl
  have ez : 'z'.val.toNat = 122 := rfl
  have eA : 'A'.val.toNat = 65 := rfl
  have eF : 'F'.val.toNat = 70 := rfl
  have eZ : 'Z'.val.toNat = 90 := rfl
  simp only [e0, e9, ea, ef, ez, eA, eF, eZ] at *
  generalize c.val.toNat = n at *
  split_ifs at h ⊢ <;> simp_all <;> omega

theorem digitsVal_snoc (base : Nat) (s : CStr) (c : Char) :
    digitsVal base (s ++ [c]) = digitsVal base s * base + (digitVal c).getD 0 := by
  simp [digitsVal, List.foldl_append]

theorem digits_iff (base : Nat) (hb : base ≤ 16) (s : List Char) (n : Nat) :
    Spec.Digits base s n ↔ (∀ c ∈ s, isDigitIn base c = true) ∧ n = digitsVal base s := by
  constructor
  · intro h
    induction h with
    | nil => simp [digitsVal]
    | @snoc s c n v _ hd hv ih =>
      obtain ⟨ih1, ih2⟩ := ih
      refine ⟨?_, ?_⟩
      · intro c' hc'
        rw [List.mem_append, List.mem_singleton] at hc'
        rcases hc' with h | rfl
        · exact ih1 c' h
        · exact (digit_iff base hb _).1 ⟨v, hd, hv⟩
      · rw [digitsVal_snoc, ← ih2, digit_val hd]; rfl
  · rintro ⟨h, rfl⟩
    induction s using List.reverseRecOn with
    | nil => exact .nil
    | append_singleton s c ih =>
      rw [digitsVal_snoc]
      obtain ⟨v, hv, hlt⟩ := (digit_iff base hb c).2 (h c (by simp))
      rw [digit_val hv]
      exact .snoc (ih (fun c hc => h c (by simp [hc]))) hv hlt

/-- All digits, as the C code sees a fully consumed number. -/
theorem mag_full (b : Nat) (s : CStr) (m : Nat) :
    ((if s.takeWhile (isDigitIn b) = [] then none
      else some (digitsVal b (s.takeWhile (isDigitIn b)), s.dropWhile (isDigitIn b))) = some (m, ([] : CStr))) ↔
      (s ≠ [] ∧ (∀ c ∈ s, isDigitIn b c = true) ∧ m = digitsVal b s) := by
  constructor
  · intro h
    split at h
    · simp at h
    · next hne =>
      simp only [Option.some.injEq, Prod.mk.injEq] at h
      obtain ⟨h1, h2⟩ := h
      have h3 := List.dropWhile_eq_nil_iff.1 h2
      have h4 := List.takeWhile_eq_self_iff.2 h3
      rw [h4] at h1 hne
      exact ⟨hne, h3, h1.symm⟩
  · rintro ⟨h1, h2, rfl⟩
    have h4 := List.takeWhile_eq_self_iff.2 h2
    have h5 := List.dropWhile_eq_nil_iff.2 h2
    rw [h4, h5, if_neg h1]

theorem isDigitIn_x (b : Nat) (hb : b ≤ 16) : isDigitIn b 'x' = false ∧ isDigitIn b 'X' = false := by
  have h1 : digitVal 'x' = some 33 := by decide
  have h2 : digitVal 'X' = some 33 := by decide
  simp only [isDigitIn, h1, h2, decide_eq_false_iff_not]
  omega

theorem strtolMag_ten (s : CStr) (m : Nat) :
    strtolMag 10 s = some (m, []) ↔ s ≠ [] ∧ Spec.Digits 10 s m := by
  rw [digits_iff 10 (by omega)]
  simp only [strtolMag, strtolPrefix]
  exact mag_full 10 s m

theorem literal_head {s : List Char} {n : Nat} (h : Spec.Literal s n) :
    ∃ c t, s = c :: t ∧ isDigitIn 10 c = true := by
  cases h with
  | dec _ hd => exact ⟨_, _, rfl, ((digits_iff 10 (by omega) _ _).1 hd).1 _ (by simp)⟩
  | oct hd => exact ⟨_, _, rfl, by decide⟩
  | hex _ _ _ => exact ⟨_, _, rfl, by decide⟩

theorem strtolPrefix_cases (s : CStr) :
    (∃ x c t, s = '0' :: x :: c :: t ∧ (x = 'x' ∨ x = 'X') ∧ isDigitIn 16 c = true ∧
      strtolPrefix 0 s = (16, c :: t)) ∨
    (∃ t, s = '0' :: t ∧ strtolPrefix 0 s = (8, s)) ∨
    ((∀ t, s ≠ '0' :: t) ∧ strtolPrefix 0 s = (10, s)) := by
  simp only [strtolPrefix, if_true]
  split
  · next c t =>
    split
    · next hc => exact .inl ⟨_, _, _, rfl, .inl rfl, hc, rfl⟩
    · exact .inr (.inl ⟨_, rfl, rfl⟩)
  · next c t =>
    split
    · next hc => exact .inl ⟨_, _, _, rfl, .inr rfl, hc, rfl⟩
    · exact .inr (.inl ⟨_, rfl, rfl⟩)
  · exact .inr (.inl ⟨_, rfl, rfl⟩)
  · next h => exact .inr (.inr ⟨fun t ht => h t ht, rfl⟩)

theorem strtolMag_zero (s : CStr) (m : Nat) : strtolMag 0 s = some (m, []) ↔ Spec.Literal s m := by
  simp only [strtolMag]
  rw [mag_full]
  constructor
  · rintro ⟨h1, h2, h3⟩
    rcases strtolPrefix_cases s with ⟨x, c, t, rfl, hx, hc, hp⟩ | ⟨t, rfl, hp⟩ | ⟨hh, hp⟩
    · rw [hp] at h1 h2 h3
      exact .hex hx (by simp) ((digits_iff 16 (by omega) _ _).2 ⟨h2, h3⟩)
    · rw [hp] at h1 h2 h3
      exact .oct ((digits_iff 8 (by omega) _ _).2 ⟨h2, h3⟩)
    · rw [hp] at h1 h2 h3
      cases s with
      | nil => exact absurd rfl h1
      | cons c t =>
        exact .dec (by rintro rfl; exact hh t rfl) ((digits_iff 10 (by omega) _ _).2 ⟨h2, h3⟩)
  · intro h
    cases h with
    | @dec c s n hc hd =>
      obtain ⟨h1, h2⟩ := (digits_iff 10 (by omega) _ _).1 hd
      have : strtolPrefix 0 (c :: s) = (10, c :: s) := by
        simp only [strtolPrefix, if_true]
        split
        · next heq => simp at heq; exact absurd heq.1 hc
        · next heq => simp at heq; exact absurd heq.1 hc
        · next heq => simp at heq; exact absurd heq.1 hc
        · rfl
      rw [this]
      exact ⟨by simp, h1, h2⟩
    | @oct s n hd =>
      obtain ⟨h1, h2⟩ := (digits_iff 8 (by omega) _ _).1 hd
      have : strtolPrefix 0 ('0' :: s) = (8, '0' :: s) := by
        simp only [strtolPrefix, if_true]
        split
        · next c t heq =>
          simp only [List.cons.injEq, true_and] at heq
          subst heq
          have := h1 'x' (by simp)
          rw [(isDigitIn_x 8 (by omega)).1] at this; simp at this
        · next c t heq =>
          simp only [List.cons.injEq, true_and] at heq
          subst heq
          have := h1 'X' (by simp)
          rw [(isDigitIn_x 8 (by omega)).2] at this; simp at this
        · rfl
        · next h => exact absurd rfl (h s)
      rw [this]
      exact ⟨by simp, h1, h2⟩
    | @hex x s n hx hs hd =>
      obtain ⟨h1, h2⟩ := (digits_iff 16 (by omega) _ _).1 hd
      cases s with
      | nil => exact absurd rfl hs
      | cons c t =>
        have hc := h1 c (by simp)
        have : strtolPrefix 0 ('0' :: x :: c :: t) = (16, c :: t) := by
          rcases hx with rfl | rfl <;> simp [strtolPrefix, hc]
        rw [this]
        exact ⟨by simp, h1, h2⟩

theorem isWhite_iff (c : Char) : Spec.isWhite c ↔ isspace c = true := by
  simp [Spec.isWhite, isspace, or_assoc]

theorem digit_not_special {c : Char} (h : isDigitIn 10 c = true) :
    isspace c = false ∧ c ≠ '-' ∧ c ≠ '+' := by
  refine ⟨?_, ?_, ?_⟩
  · by_contra hc
    simp only [Bool.not_eq_false, isspace, Bool.or_eq_true, beq_iff_eq] at hc
    rcases hc with ((((rfl | rfl) | rfl) | rfl) | rfl) | rfl <;> revert h <;> decide
  · rintro rfl; revert h; decide
  · rintro rfl; revert h; decide

theorem dropWhile_white (ws s : CStr) (h : ∀ c ∈ ws, Spec.isWhite c)
    (hs : ∀ c t, s = c :: t → isspace c = false) : (ws ++ s).dropWhile isspace = s := by
  rw [List.dropWhile_append_of_pos]
  · cases s with
    | nil => rfl
    | cons c t => simp [List.dropWhile_cons, hs c t rfl]
  · intro x hx; exact (isWhite_iff x).1 (h x hx)

/-- A fully consumed number is exactly a signed literal. -/
theorem strtolScan_full (base : Nat) (lit : List Char → Nat → Prop)
    (hlit : ∀ s m, strtolMag base s = some (m, []) ↔ lit s m)
    (hhead : ∀ s n, lit s n → ∃ c t, s = c :: t ∧ isDigitIn 10 c = true) (s : CStr) (i : Int) :
    Spec.Signed lit s i ↔ ∃ neg m, strtolScan base s = some (neg, m, []) ∧ i = if neg then -(m : Int) else m := by
  constructor
  · intro h
    cases h with
    | @plain ws s n hws hl =>
      obtain ⟨c, t, rfl, hc⟩ := hhead _ _ hl
      obtain ⟨h1, h2, h3⟩ := digit_not_special hc
      refine ⟨false, n, ?_, by simp⟩
      rw [strtolScan, dropWhile_white ws _ hws (by rintro c' t' heq; simp at heq; rw [← heq.1]; exact h1)]
      have hs : strtolSign (c :: t) = (false, c :: t) := by
        unfold strtolSign
        split
        · next heq => simp at heq; exact absurd heq.1 h2
        · next heq => simp at heq; exact absurd heq.1 h3
        · rfl
      simp [hs, (hlit _ _).2 hl]
    | @plus ws s n hws hl =>
      refine ⟨false, n, ?_, by simp⟩
      rw [strtolScan, dropWhile_white ws _ hws (by rintro c' t' heq; simp at heq; rw [← heq.1]; decide)]
      simp [strtolSign, (hlit _ _).2 hl]
    | @minus ws s n hws hl =>
      refine ⟨true, n, ?_, by simp⟩
      rw [strtolScan, dropWhile_white ws _ hws (by rintro c' t' heq; simp at heq; rw [← heq.1]; decide)]
      simp [strtolSign, (hlit _ _).2 hl]
  · rintro ⟨neg, m, h, rfl⟩
    simp only [strtolScan, Option.map_eq_some_iff, Prod.mk.injEq] at h
    obtain ⟨⟨m', r'⟩, h1, h2, h3, h4⟩ := h
    simp only at h3 h4
    subst h3 h4
    have hsplit : s = s.takeWhile isspace ++ s.dropWhile isspace := (List.takeWhile_append_dropWhile).symm
    have hws : ∀ c ∈ s.takeWhile isspace, Spec.isWhite c := fun c hc =>
      (isWhite_iff c).2 (List.mem_takeWhile_imp hc)
    generalize s.takeWhile isspace = ws at *
    generalize s.dropWhile isspace = u at *
    subst hsplit
    unfold strtolSign at h1 h2
    split at h1
    · simp only at h2; subst h2
      exact .minus hws ((hlit _ _).1 h1)
    · simp only at h2; subst h2
      exact .plus hws ((hlit _ _).1 h1)
    · simp only at h2; subst h2
      exact .plain hws ((hlit _ _).1 h1)

theorem signed_literal_iff (s : CStr) (i : Int) :
    Spec.Signed Spec.Literal s i ↔ ∃ neg m, strtolScan 0 s = some (neg, m, []) ∧ i = if neg then -(m : Int) else m :=
  strtolScan_full 0 _ strtolMag_zero (fun _ _ h => literal_head h) s i

theorem signed_decimal_iff (s : CStr) (i : Int) :
    Spec.Signed (fun s n => s ≠ [] ∧ Spec.Digits 10 s n) s i ↔
      ∃ neg m, strtolScan 10 s = some (neg, m, []) ∧ i = if neg then -(m : Int) else m := by
  apply strtolScan_full 10 _ strtolMag_ten
  rintro s n ⟨h1, h2⟩
  cases s with
  | nil => exact absurd rfl h1
  | cons c t => exact ⟨c, t, rfl, ((digits_iff 10 (by omega) _ _).1 h2).1 c (by simp)⟩

end Minijail
