import Verif.Model.ParseSize
import Verif.Spec.Size
import Verif.Proof.Number
import Mathlib.Tactic.IntervalCases
/-! C12: size strings parse exactly or are rejected. -/
set_option linter.unusedSimpArgs false
set_option autoImplicit false
namespace Minijail

private theorem mask_iff (n m : Nat) (hn : n < 2 ^ 64) (hm : m < 64) :
    (BitVec.ofNat 64 n &&& ~~~((1#64 <<< m) - 1#64)) = 0#64 ↔ n < 2 ^ m := by
  have e : (1#64 <<< m) - 1#64 = BitVec.ofNat 64 (2 ^ m - 1) := by
    interval_cases m <;> rfl
  rw [e]
  constructor
  · intro h
    apply Nat.lt_pow_two_of_testBit
    intro j hj
    by_cases hj' : j < 64
    · have := congrArg (fun b => b.getLsbD j) h
      simp only [BitVec.getLsbD_and, BitVec.getLsbD_ofNat, BitVec.getLsbD_not, hj', decide_true, Bool.true_and,
        Nat.testBit_two_pow_sub_one, Nat.not_lt.2 hj, decide_false, Bool.not_false, Bool.and_true, BitVec.getLsbD_zero] at this
      simpa using this
    · exact Nat.testBit_lt_two_pow (Nat.lt_of_lt_of_le hn (Nat.pow_le_pow_right (by omega) (by omega)))
  · intro h
    apply BitVec.eq_of_getLsbD_eq
    intro j hj
    simp only [BitVec.getLsbD_and, BitVec.getLsbD_ofNat, BitVec.getLsbD_not, hj, decide_true, Bool.true_and,
      Nat.testBit_two_pow_sub_one, BitVec.getLsbD_zero]
    by_cases hjm : j < m
    · simp [hjm]
    · have : n.testBit j = false :=
        Nat.testBit_lt_two_pow (Nat.lt_of_lt_of_le h (Nat.pow_le_pow_right (by omega) (by omega)))
      simp [this]

private theorem scaleSize_spec (n : Nat) (hn : n < 2 ^ 64) (i : Nat) (hi : i < 6) :
    scaleSize (BitVec.ofNat 64 n) i =
      if n * 1024 ^ (i + 1) < 2 ^ 64 then .ok (BitVec.ofNat 64 (n * 1024 ^ (i + 1))) else .error .erange := by
  have hp : (1024 : Nat) ^ (i + 1) = 2 ^ ((i + 1) * 10) := by
    rw [show (1024 : Nat) = 2 ^ 10 from rfl, ← Nat.pow_mul, Nat.mul_comm]
  have hsplit : (2 : Nat) ^ 64 = 2 ^ (64 - (i + 1) * 10) * 2 ^ ((i + 1) * 10) := by
    rw [← Nat.pow_add]; congr 1; omega
  have hiff : n * 1024 ^ (i + 1) < 2 ^ 64 ↔ n < 2 ^ (64 - (i + 1) * 10) := by
    rw [hp, hsplit]
    exact Nat.mul_lt_mul_right (Nat.two_pow_pos _)
  have hshift : BitVec.ofNat 64 n <<< ((i + 1) * 10) = BitVec.ofNat 64 (n * 1024 ^ (i + 1)) := by
    apply BitVec.eq_of_toNat_eq
    rw [BitVec.toNat_shiftLeft, Nat.shiftLeft_eq, hp]
    simp [Nat.mod_mul_mod]
  have hm := mask_iff n (64 - (i + 1) * 10) hn (by omega)
  unfold scaleSize
  simp only [ne_eq]
  by_cases h : n * 1024 ^ (i + 1) < 2 ^ 64
  · rw [if_pos h, if_neg (not_not.2 (hm.2 (hiff.1 h))), hshift]
  · rw [if_neg h, if_pos (fun h' => h (hiff.2 (hm.1 h')))]

private theorem suffix_iff (c : Char) (k : Nat) :
    Spec.suffixPower [c] = some k ↔ ∃ i, k = i + 1 ∧ i < 6 ∧ sizeSuffixes.idxOf? c = some i := by
  have e : sizeSuffixes = ['K', 'M', 'G', 'T', 'P', 'E'] := rfl
  simp only [e, List.idxOf?, List.findIdx?_cons, List.findIdx?_nil]
  by_cases h1 : c = 'K'
  · subst h1; simp [Spec.suffixPower]; omega
  by_cases h2 : c = 'M'
  · subst h2; simp [Spec.suffixPower]; omega
  by_cases h3 : c = 'G'
  · subst h3; simp [Spec.suffixPower]; omega
  by_cases h4 : c = 'T'
  · subst h4; simp [Spec.suffixPower]; omega
  by_cases h5 : c = 'P'
  · subst h5; simp [Spec.suffixPower]; omega
  by_cases h6 : c = 'E'
  · subst h6; simp [Spec.suffixPower]; omega
  have : Spec.suffixPower [c] = none := by
    unfold Spec.suffixPower
    split <;> simp_all
  simp [this, Ne.symm h1, Ne.symm h2, Ne.symm h3, Ne.symm h4, Ne.symm h5, Ne.symm h6]

private theorem not_digit_iff (c : Char) : (c < '0' ∨ c > '9') ↔ isDigitIn 10 c = false := by
  rw [← Bool.not_eq_true, ← digit_iff 10 (by omega)]
  unfold Spec.digit
  simp only [Char.lt_def, gt_iff_lt, Char.le_def, UInt32.le_iff_toNat_le, UInt32.lt_iff_toNat_lt, Char.toNat]
  have e0 : '0'.val.toNat = 48 := rfl
  have e9 : '9'.val.toNat = 57 := rfl
  have ea : 'a'.val.toNat = 97 := rfl
  have ef : 'f'.val.toNat = 102 := rfl
  have eA : 'A'.val.toNat = 65 := rfl
  have eF : 'F'.val.toNat = 70 := rfl
  simp only [e0, e9, ea, ef, eA, eF]
  generalize c.val.toNat = n
  split_ifs <;> simp <;> omega

/-- A size string is digits followed by one character that is no digit, if any. -/
private theorem sizeText_iff (s : CStr) (v : Nat) : Spec.SizeText s v ↔
    s.takeWhile (isDigitIn 10) ≠ [] ∧ ∃ k, Spec.suffixPower (s.dropWhile (isDigitIn 10)) = some k ∧
      v = digitsVal 10 (s.takeWhile (isDigitIn 10)) * 1024 ^ k := by
  have hsuf : ∀ suf k, Spec.suffixPower suf = some k → suf = [] ∨ ∃ c, suf = [c] ∧ isDigitIn 10 c = false := by
    intro suf k h
    unfold Spec.suffixPower at h
    split at h <;> first | exact .inl rfl | exact .inr ⟨_, rfl, by decide⟩ | simp at h
  constructor
  · rintro ⟨ds, suf, n, k, rfl, hne, hd, hk, rfl⟩
    obtain ⟨h1, rfl⟩ := (digits_iff 10 (by omega) ds n).1 hd
    have htw : (ds ++ suf).takeWhile (isDigitIn 10) = ds ∧ (ds ++ suf).dropWhile (isDigitIn 10) = suf := by
      rw [List.takeWhile_append_of_pos h1, List.dropWhile_append_of_pos h1]
      rcases hsuf suf k hk with rfl | ⟨c, rfl, hc⟩ <;> simp [*]
    rw [htw.1, htw.2]
    exact ⟨hne, k, hk, rfl⟩
  · rintro ⟨hne, k, hk, rfl⟩
    refine ⟨_, _, _, k, (List.takeWhile_append_dropWhile).symm, hne, (digits_iff 10 (by omega) _ _).2 ⟨?_, rfl⟩, hk, rfl⟩
    intro c hc
    exact List.mem_takeWhile_imp hc

private theorem parseSize_eq (s : CStr) : parseSize s =
    if s.takeWhile (isDigitIn 10) = [] then .error .einval
    else if 2 ^ 64 ≤ digitsVal 10 (s.takeWhile (isDigitIn 10)) then .error .erange
    else match Spec.suffixPower (s.dropWhile (isDigitIn 10)) with
      | none => .error .einval
      | some k =>
        if digitsVal 10 (s.takeWhile (isDigitIn 10)) * 1024 ^ k < 2 ^ 64 then
          .ok (BitVec.ofNat 64 (digitsVal 10 (s.takeWhile (isDigitIn 10)) * 1024 ^ k))
        else .error .erange := by
  cases s with
  | nil => rfl
  | cons c t =>
    unfold parseSize
    simp only
    by_cases hc : isDigitIn 10 c = true
    · rw [if_neg (by rw [not_digit_iff, hc]; simp)]
      obtain ⟨h1, h2, h3⟩ := digit_not_special hc
      have hscan : strtolScan 10 (c :: t) = some (false, digitsVal 10 ((c :: t).takeWhile (isDigitIn 10)), (c :: t).dropWhile (isDigitIn 10)) := by
        unfold strtolScan
        have e1 : (c :: t).dropWhile isspace = c :: t := by simp [List.dropWhile_cons, h1]
        have e2 : strtolSign (c :: t) = (false, c :: t) := by
          unfold strtolSign
          split
          · next h => simp at h; exact absurd h.1 h2
          · next h => simp at h; exact absurd h.1 h3
          · rfl
        rw [e1, e2]
        simp [strtolMag, strtolPrefix, List.takeWhile_cons, hc]
      have hne : (c :: t).takeWhile (isDigitIn 10) ≠ [] := by simp [List.takeWhile_cons, hc]
      rw [if_neg hne]
      unfold strtoul
      rw [hscan]
      simp only [Bool.false_eq_true, if_false]
      generalize digitsVal 10 ((c :: t).takeWhile (isDigitIn 10)) = n
      generalize (c :: t).dropWhile (isDigitIn 10) = rest
      by_cases hn : n < 2 ^ 64
      · rw [if_pos hn, if_neg (Nat.not_le.2 hn)]
        have e : BitVec.ofInt 64 (n : Int) = BitVec.ofNat 64 n := by simp
        simp only [Bool.false_eq_true, if_false, e]
        cases rest with
        | nil => simp [Spec.suffixPower]; exact hn
        | cons x r =>
          cases r with
          | cons y r => simp [Spec.suffixPower]
          | nil =>
            simp only [ne_eq, not_true_eq_false, if_false]
            cases hi : sizeSuffixes.idxOf? x with
            | none =>
              cases hk : Spec.suffixPower [x] with
              | none => rfl
              | some k =>
                obtain ⟨i, -, -, h⟩ := (suffix_iff x k).1 hk
                rw [hi] at h; simp at h
            | some i =>
              have hlt : i < 6 := by
                unfold List.idxOf? at hi
                exact (List.findIdx?_eq_some_iff_getElem.1 hi).1
              have hk := (suffix_iff x (i + 1)).2 ⟨i, rfl, hlt, hi⟩
              rw [hk]
              exact scaleSize_spec n hn i hlt
      · rw [if_neg hn, if_pos (Nat.not_lt.1 hn)]
        rfl
    · simp only [Bool.not_eq_true] at hc
      rw [if_pos ((not_digit_iff c).2 hc), if_pos (by simp [List.takeWhile_cons, hc])]

/-- Size strings are accepted exactly when the value fits in 64 bits, with that value. Everything else is an error,
which leaves the result untouched. -/
theorem C12_exact (s : CStr) (v : BitVec 64) :
    parseSize s = .ok v ↔ ∃ n, Spec.SizeText s n ∧ n < 2 ^ 64 ∧ v = BitVec.ofNat 64 n := by
  simp only [sizeText_iff]
  rw [parseSize_eq]
  constructor
  · intro h
    split at h
    · simp at h
    next hne =>
    split at h
    · simp at h
    split at h
    · simp at h
    next k hk =>
    split at h
    · next hlt =>
      simp only [Except.ok.injEq] at h
      exact ⟨_, ⟨hne, k, hk, rfl⟩, hlt, h.symm⟩
    · simp at h
  · rintro ⟨n, ⟨hne, k, hk, rfl⟩, hlt, rfl⟩
    rw [if_neg hne, if_neg, hk]
    · simp only; rw [if_pos hlt]
    · have : 0 < 1024 ^ k := Nat.pow_pos (by omega)
      have := Nat.le_mul_of_pos_right (digitsVal 10 (s.takeWhile (isDigitIn 10))) this
      omega

/-- Overflow is reported as such. -/
theorem C12_overflow (s : CStr) (n : Nat) (h : Spec.SizeText s n) (hn : 2 ^ 64 ≤ n) : parseSize s = .error .erange := by
  rw [sizeText_iff] at h
  obtain ⟨hne, k, hk, rfl⟩ := h
  rw [parseSize_eq, if_neg hne]
  split
  · rfl
  · rw [hk]; simp only; rw [if_neg (Nat.not_lt.2 hn)]

/-- The value of a size string is unique, so overflow is never silent. -/
theorem C12_unique (s : CStr) (n m : Nat) (h : Spec.SizeText s n) (h' : Spec.SizeText s m) : n = m := by
  rw [sizeText_iff] at h h'
  obtain ⟨-, k, hk, rfl⟩ := h
  obtain ⟨-, k', hk', rfl⟩ := h'
  rw [hk] at hk'
  simp only [Option.some.injEq] at hk'
  rw [hk']

/-- `16E` is 2^64 and does not fit; `15E` does; `+1` and `1KB` are no size strings. -/
example : Spec.SizeText "16E".toList (2 ^ 64) ∧ parseSize "16E".toList = .error .erange ∧
    parseSize "15E".toList = .ok (BitVec.ofNat 64 (15 * 1024 ^ 6)) ∧ parseSize "+1".toList = .error .einval ∧
    parseSize "1KB".toList = .error .einval ∧ parseSize "007M".toList = .ok 7340032#64 := by
  have h : Spec.SizeText "16E".toList (2 ^ 64) :=
    ⟨"16".toList, "E".toList, 16, 6, rfl, by decide, (digits_iff 10 (by omega) _ _).2 (by decide), rfl, by norm_num⟩
  exact ⟨h, C12_overflow _ _ h (Nat.le_refl _), by decide, by decide, by decide, by decide⟩

end Minijail
