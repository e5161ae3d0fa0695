import Verif.Proof.OfflineFlat
/-! Helper lemmas: comparisons of words by comparisons of their halves. -/
set_option autoImplicit false
set_option linter.unusedSimpArgs false
namespace Minijail.Offline
open Minijail.Spec

open Classical in
/-- The verdict of a graph of comparisons of arguments. -/
noncomputable def asem (bits : Nat) (d : SeccompData) : Block → Verdict
  | .basic _ _ l => execN d l 0 Regs.init
  | .atom _ arg op v jt jf => if jumpTest op (argValue bits d arg) v then asem bits d jt else asem bits d jf
  | _ => .bad

/-- Comparisons and actions. -/
def Tree (bits : Nat) : Block → Prop
  | .basic _ _ l => ∃ w, w < 2 ^ 32 ∧ l = [⟨RET, 0, 0, w⟩]
  | .atom _ arg op v _ _ => arg < 6 ∧ v < 2 ^ 64 ∧ (bits = 32 → op = .jset ∨ v < 2 ^ 32)
  | _ => False

theorem load_arg (d : SeccompData) {arg : Nat} (h : arg < 6) :
    ∃ x : BitVec 64, d.arg arg = some x ∧ d.load false (argOffset arg false) = some (x.extractLsb' 0 32) ∧ d.load false (argOffset arg true) = some (x.extractLsb' 32 32) := by
  have : arg = 0 ∨ arg = 1 ∨ arg = 2 ∨ arg = 3 ∨ arg = 4 ∨ arg = 5 := by omega
  rcases this with rfl | rfl | rfl | rfl | rfl | rfl
  · exact ⟨d.arg0, rfl, rfl, rfl⟩
  · exact ⟨d.arg1, rfl, rfl, rfl⟩
  · exact ⟨d.arg2, rfl, rfl, rfl⟩
  · exact ⟨d.arg3, rfl, rfl, rfl⟩
  · exact ⟨d.arg4, rfl, rfl, rfl⟩
  · exact ⟨d.arg5, rfl, rfl, rfl⟩

theorem lo_nat (x : BitVec 64) : (x.extractLsb' 0 32).toNat = x.toNat % 2 ^ 32 := by
  simp [BitVec.extractLsb'_toNat]

theorem hi_nat (x : BitVec 64) : (x.extractLsb' 32 32).toNat = x.toNat / 2 ^ 32 := by
  simp only [BitVec.extractLsb'_toNat, Nat.shiftRight_eq_div_pow]
  have := x.isLt
  omega

/-- Flags in common, half by half. -/
theorem common_halves (x v : Nat) (hx : x < 2 ^ 64) :
    (∃ bit, x.testBit bit = true ∧ v.testBit bit = true) ↔
      (∃ bit, (x / 2 ^ 32).testBit bit = true ∧ (v / 2 ^ 32 % 2 ^ 32).testBit bit = true) ∨ ∃ bit, (x % 2 ^ 32).testBit bit = true ∧ (v % 2 ^ 32).testBit bit = true := by
  constructor
  · rintro ⟨b, h1, h2⟩
    have hb := testBit_lt hx h1
    by_cases hl : b < 32
    · right
      exact ⟨b, by rw [Nat.testBit_mod_two_pow, h1]; simp [hl], by rw [Nat.testBit_mod_two_pow, h2]; simp [hl]⟩
    · left
      refine ⟨b - 32, ?_, ?_⟩
      · rw [Nat.testBit_div_two_pow, show b - 32 + 32 = b by omega, h1]
      · rw [Nat.testBit_mod_two_pow, Nat.testBit_div_two_pow, show b - 32 + 32 = b by omega, h2]
        simp; omega
  · rintro (⟨b, h1, h2⟩ | ⟨b, h1, h2⟩)
    · rw [Nat.testBit_div_two_pow] at h1
      rw [Nat.testBit_mod_two_pow, Nat.testBit_div_two_pow] at h2
      exact ⟨b + 32, h1, by simp at h2; exact h2.2⟩
    · rw [Nat.testBit_mod_two_pow] at h1 h2
      simp at h1 h2
      exact ⟨b, h1.2, h2.2⟩

theorem ite_congr' {α : Type} {p q : Prop} [Decidable p] [Decidable q] (h : p ↔ q) (x y : α) : (if p then x else y) = if q then x else y := by
  by_cases hp : p
  · rw [if_pos hp, if_pos (h.1 hp)]
  · rw [if_neg hp, if_neg fun hq => hp (h.2 hq)]

open Classical in
/-- A comparison of words, lowered. -/
theorem lowerAtom_sem {bits : Nat} (hbits : bits = 32 ∨ bits = 64) {d : SeccompData} {H : Block → Prop} {n : Nat} (hh : Heap (Code d) H n) {arg : Nat} {op : JOp} {v : Nat}
    (ha : arg < 6) (hv : v < 2 ^ 64) (hv32 : bits = 32 → op = .jset ∨ v < 2 ^ 32) {jt jf : Block} (ht : H jt) (hf : H jf) {X Y : Verdict}
    (hX : ∀ r, sem d jt r = X) (hY : ∀ r, sem d jf r = Y) :
    ∃ H', (∀ b, H b → H' b) ∧ Heap (Code d) H' (lowerAtom bits n arg op v jt jf).2 ∧ H' (lowerAtom bits n arg op v jt jf).1 ∧
      ∀ r, sem d (lowerAtom bits n arg op v jt jf).1 r = if jumpTest op (argValue bits d arg) v then X else Y := by
  obtain ⟨x, hx, l0, l1⟩ := load_arg d ha
  have hxl := x.isLt
  have ofs : ∀ c, argOffset arg c < 2 ^ 32 := by intro c; unfold argOffset; split <;> omega
  have e0 := lo_nat x
  have e1 := hi_nat x
  have av : argValue bits d arg = x.toNat % 2 ^ bits := by simp only [argValue, hx]
  have A : ∀ m, m = n → Heap (Code d) (fun b => H b ∨ b = .wideAtom m (argOffset arg false) op (v % 2 ^ 32) jt jf) (m + 1) := by
    rintro m rfl
    exact hh.add rfl ⟨ht, hf⟩ ⟨ofs false, Nat.mod_lt _ (by decide), _, l0⟩
  have S0 : ∀ r, sem d (.wideAtom n (argOffset arg false) op (v % 2 ^ 32) jt jf) r = if jumpTest op (x.toNat % 2 ^ 32) (v % 2 ^ 32) then X else Y := by
    intro r
    simp only [sem, l0, hX, hY, e0]
  rcases hbits with rfl | rfl
  · refine ⟨_, fun b hb => Or.inl hb, A n rfl, Or.inr rfl, fun r => ?_⟩
    rw [show (lowerAtom 32 n arg op v jt jf).1 = .wideAtom n (argOffset arg false) op (v % 2 ^ 32) jt jf from rfl, S0 r, av]
    apply ite_congr'
    rcases hv32 rfl with rfl | h
    · simp only [jumpTest]
      constructor
      · rintro ⟨b, h1, h2⟩
        rw [Nat.testBit_mod_two_pow] at h2
        simp only [Bool.and_eq_true] at h2
        exact ⟨b, h1, h2.2⟩
      · rintro ⟨b, h1, h2⟩
        have := testBit_lt (Nat.mod_lt _ (by decide)) h1
        exact ⟨b, h1, by rw [Nat.testBit_mod_two_pow, h2]; simp [this]⟩
    · rw [Nat.mod_eq_of_lt h]
  · have av : argValue 64 d arg = x.toNat := by rw [av, Nat.mod_eq_of_lt hxl]
    rw [av]
    cases op with
    | jeq =>
      refine ⟨_, fun b hb => Or.inl (Or.inl hb), (A n rfl).add (b := .wideAtom (n + 1) (argOffset arg true) .jeq (v / 2 ^ 32 % 2 ^ 32)
        (.wideAtom n (argOffset arg false) .jeq (v % 2 ^ 32) jt jf) jf) rfl ⟨Or.inr rfl, Or.inl hf⟩ ⟨ofs true, Nat.mod_lt _ (by decide), _, l1⟩, Or.inr rfl, fun r => ?_⟩
      rw [show (lowerAtom 64 n arg .jeq v jt jf).1 = .wideAtom (n + 1) (argOffset arg true) .jeq (v / 2 ^ 32 % 2 ^ 32)
        (.wideAtom n (argOffset arg false) .jeq (v % 2 ^ 32) jt jf) jf from rfl, sem, l1]
      simp only [S0, hY, e1]
      by_cases h1 : jumpTest .jeq (x.toNat / 2 ^ 32) (v / 2 ^ 32 % 2 ^ 32)
      · rw [if_pos h1]
        apply ite_congr'
        simp only [jumpTest] at *
        omega
      · rw [if_neg h1, if_neg (by simp only [jumpTest] at *; omega)]
    | jset =>
      have hc := common_halves x.toNat v hxl
      by_cases hz : v / 2 ^ 32 % 2 ^ 32 = 0
      · have e : lowerAtom 64 n arg .jset v jt jf = (.wideAtom n (argOffset arg false) .jset (v % 2 ^ 32) jt jf, n + 1) := by
          unfold lowerAtom
          simp only [hz]
          rfl
        rw [e]
        refine ⟨_, fun b hb => Or.inl hb, A n rfl, Or.inr rfl, fun r => ?_⟩
        rw [S0 r]
        apply ite_congr'
        simp only [jumpTest]
        rw [hc, hz]
        simp
      · have e : lowerAtom 64 n arg .jset v jt jf = (.wideAtom (n + 1) (argOffset arg true) .jset (v / 2 ^ 32 % 2 ^ 32) jt
            (.wideAtom n (argOffset arg false) .jset (v % 2 ^ 32) jt jf), n + 2) := by
          unfold lowerAtom
          simp only [if_neg hz]
          rfl
        rw [e]
        refine ⟨_, fun b hb => Or.inl (Or.inl hb), (A n rfl).add (b := .wideAtom (n + 1) (argOffset arg true) .jset (v / 2 ^ 32 % 2 ^ 32) jt
            (.wideAtom n (argOffset arg false) .jset (v % 2 ^ 32) jt jf)) rfl ⟨Or.inl ht, Or.inr rfl⟩ ⟨ofs true, Nat.mod_lt _ (by decide), _, l1⟩, Or.inr rfl, fun r => ?_⟩
        simp only [sem, l0, l1, hX, hY, e0, e1]
        by_cases h1 : jumpTest .jset (x.toNat / 2 ^ 32) (v / 2 ^ 32 % 2 ^ 32)
        · rw [if_pos h1, if_pos]
          exact hc.2 (.inl h1)
        · rw [if_neg h1]
          apply ite_congr'
          constructor
          · intro h; exact hc.2 (.inr h)
          · intro h; exact (hc.1 h).resolve_left h1
    | jge =>
      by_cases hz : v / 2 ^ 32 % 2 ^ 32 = 0
      · have e : lowerAtom 64 n arg .jge v jt jf = (.wideAtom (n + 1) (argOffset arg true) .jgt (v / 2 ^ 32 % 2 ^ 32) jt
            (.wideAtom n (argOffset arg false) .jge (v % 2 ^ 32) jt jf), n + 2) := by
          unfold lowerAtom
          simp only [if_pos hz]
          rfl
        rw [e]
        refine ⟨_, fun b hb => Or.inl (Or.inl hb), (A n rfl).add (b := .wideAtom (n + 1) (argOffset arg true) .jgt (v / 2 ^ 32 % 2 ^ 32) jt
            (.wideAtom n (argOffset arg false) .jge (v % 2 ^ 32) jt jf)) rfl ⟨Or.inl ht, Or.inr rfl⟩ ⟨ofs true, Nat.mod_lt _ (by decide), _, l1⟩, Or.inr rfl, fun r => ?_⟩
        simp only [sem, l0, l1, hX, hY, e0, e1]
        by_cases h1 : jumpTest .jgt (x.toNat / 2 ^ 32) (v / 2 ^ 32 % 2 ^ 32)
        · rw [if_pos h1, if_pos (by simp only [jumpTest] at *; omega)]
        · rw [if_neg h1]
          apply ite_congr'
          simp only [jumpTest] at *
          omega
      · have e : lowerAtom 64 n arg .jge v jt jf = (.wideAtom (n + 2) (argOffset arg true) .jgt (v / 2 ^ 32 % 2 ^ 32) jt
            (.wideAtom (n + 1) (argOffset arg true) .jeq (v / 2 ^ 32 % 2 ^ 32) (.wideAtom n (argOffset arg false) .jge (v % 2 ^ 32) jt jf) jf), n + 3) := by
          unfold lowerAtom
          simp only [if_neg hz]
          rfl
        rw [e]
        refine ⟨_, fun b hb => Or.inl (Or.inl (Or.inl hb)), ((A n rfl).add (b := .wideAtom (n + 1) (argOffset arg true) .jeq (v / 2 ^ 32 % 2 ^ 32)
            (.wideAtom n (argOffset arg false) .jge (v % 2 ^ 32) jt jf) jf) rfl ⟨Or.inr rfl, Or.inl hf⟩ ⟨ofs true, Nat.mod_lt _ (by decide), _, l1⟩).add
            (b := .wideAtom (n + 2) (argOffset arg true) .jgt (v / 2 ^ 32 % 2 ^ 32) jt
            (.wideAtom (n + 1) (argOffset arg true) .jeq (v / 2 ^ 32 % 2 ^ 32) (.wideAtom n (argOffset arg false) .jge (v % 2 ^ 32) jt jf) jf)) rfl
            ⟨Or.inl (Or.inl ht), Or.inr rfl⟩ ⟨ofs true, Nat.mod_lt _ (by decide), _, l1⟩, Or.inr rfl, fun r => ?_⟩
        simp only [sem, l0, l1, hX, hY, e0, e1]
        by_cases h1 : jumpTest .jgt (x.toNat / 2 ^ 32) (v / 2 ^ 32 % 2 ^ 32)
        · rw [if_pos h1, if_pos (by simp only [jumpTest] at *; omega)]
        · rw [if_neg h1]
          by_cases h2 : jumpTest .jeq (x.toNat / 2 ^ 32) (v / 2 ^ 32 % 2 ^ 32)
          · rw [if_pos h2]
            apply ite_congr'
            simp only [jumpTest] at *
            omega
          · rw [if_neg h2, if_neg (by simp only [jumpTest] at *; omega)]
    | jgt =>
      by_cases hz : v / 2 ^ 32 % 2 ^ 32 = 0
      · have e : lowerAtom 64 n arg .jgt v jt jf = (.wideAtom (n + 1) (argOffset arg true) .jgt (v / 2 ^ 32 % 2 ^ 32) jt
            (.wideAtom n (argOffset arg false) .jgt (v % 2 ^ 32) jt jf), n + 2) := by
          unfold lowerAtom
          simp only [if_pos hz]
          rfl
        rw [e]
        refine ⟨_, fun b hb => Or.inl (Or.inl hb), (A n rfl).add (b := .wideAtom (n + 1) (argOffset arg true) .jgt (v / 2 ^ 32 % 2 ^ 32) jt
            (.wideAtom n (argOffset arg false) .jgt (v % 2 ^ 32) jt jf)) rfl ⟨Or.inl ht, Or.inr rfl⟩ ⟨ofs true, Nat.mod_lt _ (by decide), _, l1⟩, Or.inr rfl, fun r => ?_⟩
        simp only [sem, l0, l1, hX, hY, e0, e1]
        by_cases h1 : jumpTest .jgt (x.toNat / 2 ^ 32) (v / 2 ^ 32 % 2 ^ 32)
        · rw [if_pos h1, if_pos (by simp only [jumpTest] at *; omega)]
        · rw [if_neg h1]
          apply ite_congr'
          simp only [jumpTest] at *
          omega
      · have e : lowerAtom 64 n arg .jgt v jt jf = (.wideAtom (n + 2) (argOffset arg true) .jgt (v / 2 ^ 32 % 2 ^ 32) jt
            (.wideAtom (n + 1) (argOffset arg true) .jeq (v / 2 ^ 32 % 2 ^ 32) (.wideAtom n (argOffset arg false) .jgt (v % 2 ^ 32) jt jf) jf), n + 3) := by
          unfold lowerAtom
          simp only [if_neg hz]
          rfl
        rw [e]
        refine ⟨_, fun b hb => Or.inl (Or.inl (Or.inl hb)), ((A n rfl).add (b := .wideAtom (n + 1) (argOffset arg true) .jeq (v / 2 ^ 32 % 2 ^ 32)
            (.wideAtom n (argOffset arg false) .jgt (v % 2 ^ 32) jt jf) jf) rfl ⟨Or.inr rfl, Or.inl hf⟩ ⟨ofs true, Nat.mod_lt _ (by decide), _, l1⟩).add
            (b := .wideAtom (n + 2) (argOffset arg true) .jgt (v / 2 ^ 32 % 2 ^ 32) jt
            (.wideAtom (n + 1) (argOffset arg true) .jeq (v / 2 ^ 32 % 2 ^ 32) (.wideAtom n (argOffset arg false) .jgt (v % 2 ^ 32) jt jf) jf)) rfl
            ⟨Or.inl (Or.inl ht), Or.inr rfl⟩ ⟨ofs true, Nat.mod_lt _ (by decide), _, l1⟩, Or.inr rfl, fun r => ?_⟩
        simp only [sem, l0, l1, hX, hY, e0, e1]
        by_cases h1 : jumpTest .jgt (x.toNat / 2 ^ 32) (v / 2 ^ 32 % 2 ^ 32)
        · rw [if_pos h1, if_pos (by simp only [jumpTest] at *; omega)]
        · rw [if_neg h1]
          by_cases h2 : jumpTest .jeq (x.toNat / 2 ^ 32) (v / 2 ^ 32 % 2 ^ 32)
          · rw [if_pos h2]
            apply ite_congr'
            simp only [jumpTest] at *
            omega
          · rw [if_neg h2, if_neg (by simp only [jumpTest] at *; omega)]

end Minijail.Offline
