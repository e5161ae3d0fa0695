import Verif.Model.GenTables
import Verif.Spec.Headers
import Verif.Proof.GenerateSeen
import Verif.Proof.Llvm
import Mathlib.Tactic.Conv
/-! The expressions of the generators read the lines of Spec/Headers. -/
set_option autoImplicit false
set_option linter.unusedSimpArgs false
namespace Minijail
open Spec Spec.Headers Constants GenTables

theorem afterPrefix_iff {p s r : List Char} : afterPrefix p s = some r ↔ s = p ++ r := by
  unfold afterPrefix
  split
  · rename_i h
    rw [List.isPrefixOf_iff_prefix] at h
    obtain ⟨t, rfl⟩ := h
    simp
  · rename_i h
    rw [List.isPrefixOf_iff_prefix] at h
    constructor
    · intro e; cases e
    · rintro rfl; exact absurd (List.prefix_append _ _) h

theorem isCallChar_iff (c : Char) : isCallChar c = true ↔ (c.isLower = true ∨ c.isDigit = true ∨ c = '_') := by
  unfold isCallChar; simp [or_assoc]

theorem isConstChar_iff (c : Char) : isConstChar c = true ↔ (c.isUpper = true ∨ c.isDigit = true ∨ c = '_') := by
  unfold isConstChar; simp [or_assoc]

theorem isPySpace_iff (c : Char) : isPySpace c = true ↔ c ∈ [' ', '\t', '\n', '\r', '\x0b', '\x0c'] := by
  unfold isPySpace; simp [or_assoc]

theorem sedSyscall_iff {line n m : List Char} : sedSyscall line = some (n, m) ↔ DefinesCall n m line := by
  constructor
  · intro h
    unfold sedSyscall at h
    split at h
    · cases h
    rename_i r hr
    rw [afterPrefix_iff] at hr
    subst hr
    simp only at h
    split at h
    · cases h
    rename_i r2 hr2
    rw [afterPrefix_iff] at hr2
    split at h
    · rename_i t ht
      injection h with h
      injection h with h1 h2
      have hn : CallName (r2.takeWhile isCallChar) := fun c hc => (isCallChar_iff c).1 (List.mem_takeWhile_imp hc)
      have e2 : r2 = r2.takeWhile isCallChar ++ ' ' :: t := by rw [← ht, List.takeWhile_append_dropWhile]
      by_cases harm : "ARM_".toList.isPrefixOf r = true
      · simp only [harm, if_true] at h1 h2 hr2
        rw [List.isPrefixOf_iff_prefix] at harm
        obtain ⟨q, rfl⟩ := harm
        rw [List.drop_left] at hr2
        subst hr2
        rw [← h1, ← h2]
        have := DefinesCall.arm (value := t) hn
        have e : "#define __".toList ++ ("ARM_".toList ++ ("NR_".toList ++ r2)) = "#define __ARM_NR_".toList ++ r2.takeWhile isCallChar ++ ' ' :: t := by
          rw [List.append_assoc, ← e2]; rfl
        rw [e]
        exact this
      · simp only [harm, Bool.false_eq_true, if_false, List.length_nil, List.drop_zero, List.nil_append, List.append_nil] at h1 h2 hr2
        subst hr2
        rw [← h1, ← h2]
        have := DefinesCall.call (value := t) hn
        have e : "#define __".toList ++ ("NR_".toList ++ r2) = "#define __NR_".toList ++ r2.takeWhile isCallChar ++ ' ' :: t := by
          rw [List.append_assoc, ← e2]; rfl
        rw [e]
        exact this
    · cases h
  · have tw : ∀ {n value : List Char}, CallName n → (n ++ ' ' :: value).takeWhile isCallChar = n ∧ (n ++ ' ' :: value).dropWhile isCallChar = ' ' :: value := by
      intro n value h
      have h1 : ∀ c ∈ n, isCallChar c = true := fun c hc => (isCallChar_iff c).2 (h c hc)
      rw [List.takeWhile_append_of_pos h1, List.dropWhile_append_of_pos h1, List.takeWhile_cons, List.dropWhile_cons, if_neg (by decide), if_neg (by decide)]
      simp
    intro h
    cases h with
    | @call _ value hn =>
      obtain ⟨t1, t2⟩ := tw (value := value) hn
      have e : "#define __NR_".toList ++ n ++ ' ' :: value = "#define __".toList ++ ("NR_".toList ++ (n ++ ' ' :: value)) := by rw [List.append_assoc]; rfl
      have a1 := (afterPrefix_iff (p := "#define __".toList)).2 e
      have a2 : afterPrefix "NR_".toList ("NR_".toList ++ (n ++ ' ' :: value)) = some (n ++ ' ' :: value) := afterPrefix_iff.2 rfl
      have a3 : "ARM_".toList.isPrefixOf ("NR_".toList ++ (n ++ ' ' :: value)) = false := rfl
      unfold sedSyscall
      simp only [a1, a3, Bool.false_eq_true, if_false, List.length_nil, List.drop_zero, a2, t1, t2]
      rfl
    | @arm n value hn =>
      obtain ⟨t1, t2⟩ := tw (value := value) hn
      have e : "#define __ARM_NR_".toList ++ n ++ ' ' :: value = "#define __".toList ++ ("ARM_".toList ++ ("NR_".toList ++ (n ++ ' ' :: value))) := by rw [List.append_assoc]; rfl
      have a1 := (afterPrefix_iff (p := "#define __".toList)).2 e
      have a2 : afterPrefix "NR_".toList ("NR_".toList ++ (n ++ ' ' :: value)) = some (n ++ ' ' :: value) := afterPrefix_iff.2 rfl
      have a3 : "ARM_".toList.isPrefixOf ("ARM_".toList ++ ("NR_".toList ++ (n ++ ' ' :: value))) = true := by rw [List.isPrefixOf_iff_prefix]; exact List.prefix_append _ _
      unfold sedSyscall
      simp only [a1, a3, if_true, List.drop_left, a2, t1, t2]
      rfl

theorem mem_sortU {l : List (List Char)} {x : List Char} : x ∈ sortU l ↔ x ∈ l := by
  unfold sortU
  rw [(pySorted_perm Generate.strLe l.eraseDups).mem_iff, List.mem_eraseDups]

theorem constParts {n blanks value : List Char} (hn : ∀ x ∈ n, x.isUpper = true ∨ x.isDigit = true ∨ x = '_') (hb : Headers.Blanks blanks)
    (hv : ∀ c, value.head? = some c → c ∉ [' ', '\t', '\n', '\r', '\x0b', '\x0c']) :
    (n ++ (blanks ++ value)).takeWhile isConstChar = n ∧ (n ++ (blanks ++ value)).dropWhile isConstChar = blanks ++ value ∧
      (blanks ++ value).takeWhile isPySpace = blanks ∧ (blanks ++ value).dropWhile isPySpace = value := by
  obtain ⟨b, bs, rfl⟩ := List.exists_cons_of_ne_nil hb.1
  have h1 : ∀ c ∈ n, isConstChar c = true := fun c hc => (isConstChar_iff c).2 (hn c hc)
  have h2 : isConstChar b = false := by
    have := hb.2 b (List.mem_cons_self ..)
    simp only [List.mem_cons, List.not_mem_nil, or_false] at this
    rcases this with rfl | rfl | rfl | rfl | rfl | rfl <;> decide
  have h3 : ∀ c ∈ b :: bs, isPySpace c = true := fun c hc => (isPySpace_iff c).2 (hb.2 c hc)
  refine ⟨?_, ?_, ?_, ?_⟩
  · rw [List.takeWhile_append_of_pos h1, List.cons_append, List.takeWhile_cons, h2]; simp
  · rw [List.dropWhile_append_of_pos h1, List.cons_append, List.dropWhile_cons, h2]; simp
  · rw [List.takeWhile_append_of_pos h3]
    cases value with
    | nil => simp
    | cons v t =>
      have : isPySpace v = false := by rw [← Bool.not_eq_true, isPySpace_iff]; exact hv v rfl
      rw [List.takeWhile_cons, this]; simp
  · rw [List.dropWhile_append_of_pos h3]
    cases value with
    | nil => simp
    | cons v t =>
      have : isPySpace v = false := by rw [← Bool.not_eq_true, isPySpace_iff]; exact hv v rfl
      rw [List.dropWhile_cons, this]; simp

theorem sedConstant_of {n value line : List Char} (h : DefinesConstant n value line) : sedConstant line = n := by
  cases h with
  | mk hn hb hv =>
    rename_i blanks
    obtain ⟨c, t, rfl, hc, ht⟩ := hn
    have a : afterPrefix "#define ".toList ("#define ".toList ++ (c :: t) ++ blanks ++ value) = some (c :: (t ++ (blanks ++ value))) :=
      afterPrefix_iff.2 (by simp only [List.append_assoc, List.cons_append])
    unfold sedConstant
    simp only [a, (constParts ht hb hv).1]

theorem grepWords_iff {line : List Char} : grepWords line = true ↔ ∀ w ∈ ["SIGRTMAX".toList, "SIGRTMIN".toList, "SIG_".toList, "NULL".toList], ¬w <:+: line := by
  unfold grepWords
  simp only [Bool.not_eq_true', ← Bool.not_eq_true, Bool.or_eq_true, occursIn_iff, List.forall_mem_cons, List.not_mem_nil, false_imp_iff, implies_true, and_true, not_or,
    and_assoc]

theorem grep_iff {line : List Char} : (grepDefine line = true ∧ grepWords line = true) ↔ ∃ n value, DefinesConstant n value line ∧ Taken value line := by
  rw [grepWords_iff]
  constructor
  · rintro ⟨h, hw⟩
    unfold grepDefine at h
    split at h
    · rename_i c r ha
      rw [afterPrefix_iff] at ha
      simp only [Bool.and_eq_true, Bool.not_eq_true'] at h
      obtain ⟨⟨hu, hb⟩, hv⟩ := h
      split at hv
      · rename_i d t hd
        have e1 : r = r.takeWhile isConstChar ++ ((r.dropWhile isConstChar).takeWhile isPySpace ++ d :: t) := by
          rw [← hd, List.takeWhile_append_dropWhile, List.takeWhile_append_dropWhile]
        have hd' : isPySpace d = false := by
          have := List.head?_dropWhile_not isPySpace (r.dropWhile isConstChar)
          rw [hd] at this
          simpa using this
        have e : line = "#define ".toList ++ (c :: r.takeWhile isConstChar) ++ (r.dropWhile isConstChar).takeWhile isPySpace ++ d :: t := by
          rw [ha]
          conv_lhs => rw [e1]
          simp only [List.append_assoc, List.cons_append]
        refine ⟨c :: r.takeWhile isConstChar, d :: t, ?_, ⟨d, t, rfl, by simpa using hv⟩, hw⟩
        rw [e]
        refine .mk ⟨c, _, rfl, hu, fun x hx => (isConstChar_iff x).1 (List.mem_takeWhile_imp hx)⟩ ⟨?_, fun x hx => (isPySpace_iff x).1 (List.mem_takeWhile_imp hx)⟩ ?_
        · intro hnil; rw [hnil] at hb; cases hb
        · intro x hx
          simp only [List.head?_cons, Option.some.injEq] at hx
          subst hx
          rw [← isPySpace_iff, hd']; exact Bool.false_ne_true
      · cases hv
    · cases h
  · rintro ⟨n, value, hd, ⟨d, t, rfl, hv⟩, hw⟩
    refine ⟨?_, hw⟩
    cases hd with
    | mk hn hb hv' =>
      rename_i blanks
      obtain ⟨c, r, rfl, hc, ht⟩ := hn
      have a : afterPrefix "#define ".toList ("#define ".toList ++ (c :: r) ++ blanks ++ d :: t) = some (c :: (r ++ (blanks ++ d :: t))) :=
        afterPrefix_iff.2 (by simp only [List.append_assoc, List.cons_append])
      obtain ⟨_, p2, p3, p4⟩ := constParts ht hb hv'
      unfold grepDefine
      simp only [a, p2, p3, p4, hc, Bool.true_and]
      have : blanks.isEmpty = false := by cases blanks with | nil => exact absurd rfl hb.1 | cons => rfl
      simp only [this, Bool.not_false, Bool.true_and]
      simpa using hv

end Minijail
