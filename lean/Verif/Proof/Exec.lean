import Verif.Model.Bpf
import Verif.Spec.Policy
import Mathlib.Tactic.IntervalCases
/-! Helper lemmas about the BPF machine and single comparisons. -/
set_option autoImplicit false
namespace Minijail

variable {be : Bool} {d : SeccompData}

theorem exec_drop (p : List Insn) (n : Nat) (r : Regs) :
    exec be d p n r = exec be d (p.drop n) 0 r := by
  induction p generalizing n with
  | nil => simp [exec]
  | cons i p ih =>
    cases n with
    | zero => simp
    | succ n => simp [exec, ih n]

@[simp] theorem exec_cons_succ (i : Insn) (p : List Insn) (n : Nat) (r : Regs) :
    exec be d (i :: p) (n + 1) r = exec be d p n r := by simp [exec]

@[simp] theorem exec_ret (k jt jf) (p : List Insn) (r : Regs) :
    exec be d (⟨0x06, jt, jf, k⟩ :: p) 0 r = .ret k := by simp [exec]

@[simp] theorem exec_ja (k jt jf) (p : List Insn) (r : Regs) :
    exec be d (⟨0x05, jt, jf, k⟩ :: p) 0 r = exec be d p k.toNat r := by simp [exec]

@[simp] theorem exec_jeq (k jt jf) (p : List Insn) (r : Regs) :
    exec be d (⟨0x15, jt, jf, k⟩ :: p) 0 r =
      exec be d p (if r.a = k then jt.toNat else jf.toNat) r := by simp [exec]

@[simp] theorem exec_jgt (k jt jf) (p : List Insn) (r : Regs) :
    exec be d (⟨0x25, jt, jf, k⟩ :: p) 0 r =
      exec be d p (if k.toNat < r.a.toNat then jt.toNat else jf.toNat) r := by simp [exec]

@[simp] theorem exec_jge (k jt jf) (p : List Insn) (r : Regs) :
    exec be d (⟨0x35, jt, jf, k⟩ :: p) 0 r =
      exec be d p (if k.toNat ≤ r.a.toNat then jt.toNat else jf.toNat) r := by simp [exec]

@[simp] theorem exec_jset (k jt jf) (p : List Insn) (r : Regs) :
    exec be d (⟨0x45, jt, jf, k⟩ :: p) 0 r =
      exec be d p (if r.a &&& k ≠ 0 then jt.toNat else jf.toNat) r := by simp [exec]

@[simp] theorem exec_st (k jt jf) (p : List Insn) (r : Regs) :
    exec be d (⟨0x02, jt, jf, k⟩ :: p) 0 r =
      if k.toNat < 16 then exec be d p 0 (r.store k.toNat) else .bad := by simp [exec]

theorem exec_ldmem (k jt jf) (p : List Insn) (r : Regs) (w) (h : r.m k.toNat = some w) :
    exec be d (⟨0x60, jt, jf, k⟩ :: p) 0 r = exec be d p 0 { r with a := w } := by
  simp [exec, h]

theorem exec_ldabs (k jt jf) (p : List Insn) (r : Regs) (w) (h : d.load be k.toNat = some w) :
    exec be d (⟨0x20, jt, jf, k⟩ :: p) 0 r = exec be d p 0 { r with a := w } := by
  simp [exec, h]

/-! ### Words -/

theorem toNat_split (x : BitVec 64) : x.toNat = (hi32 x).toNat * 2 ^ 32 + (lo32 x).toNat := by
  simp only [hi32, lo32, BitVec.toNat_setWidth, BitVec.toNat_ushiftRight, Nat.shiftRight_eq_div_pow]
  have := x.isLt
  omega

theorem hi32_lt (x : BitVec 64) : (hi32 x).toNat < 2 ^ 32 := (hi32 x).isLt
theorem lo32_lt (x : BitVec 64) : (lo32 x).toNat < 2 ^ 32 := (lo32 x).isLt

theorem extract_lo (x : BitVec 64) : x.extractLsb' 0 32 = lo32 x := by
  apply BitVec.eq_of_toNat_eq
  simp [lo32, BitVec.extractLsb'_toNat]

theorem extract_hi (x : BitVec 64) : x.extractLsb' 32 32 = hi32 x := by
  apply BitVec.eq_of_toNat_eq
  simp [hi32, BitVec.extractLsb'_toNat]

theorem eq_iff_halves (x y : BitVec 64) : x = y ↔ hi32 x = hi32 y ∧ lo32 x = lo32 y := by
  constructor
  · rintro rfl; simp
  · rintro ⟨h1, h2⟩
    apply BitVec.eq_of_toNat_eq
    rw [toNat_split x, toNat_split y, h1, h2]

theorem hi32_and (x y : BitVec 64) : hi32 (x &&& y) = hi32 x &&& hi32 y := by
  simp [hi32, BitVec.ushiftRight_and_distrib, BitVec.setWidth_and]

theorem lo32_and (x y : BitVec 64) : lo32 (x &&& y) = lo32 x &&& lo32 y := by
  simp [lo32, BitVec.setWidth_and]

theorem and_ne_zero_iff_halves (x y : BitVec 64) :
    x &&& y ≠ 0 ↔ hi32 x &&& hi32 y ≠ 0 ∨ lo32 x &&& lo32 y ≠ 0 := by
  have := eq_iff_halves (x &&& y) 0
  rw [hi32_and, lo32_and] at this
  rw [Ne, this]
  have h1 : hi32 0 = 0 := by decide
  have h2 : lo32 0 = 0 := by decide
  rw [h1, h2]
  tauto

theorem and_ne_zero_iff_bits {w : Nat} (x y : BitVec w) :
    x &&& y ≠ 0 ↔ ∃ bit, x.toNat.testBit bit = true ∧ y.toNat.testBit bit = true := by
  constructor
  · intro h
    by_contra hc
    push Not at hc
    apply h
    apply BitVec.eq_of_toNat_eq
    rw [BitVec.toNat_and]
    apply Nat.eq_of_testBit_eq
    intro i
    rw [Nat.testBit_and]
    have := hc i
    cases hx : x.toNat.testBit i <;> simp_all
  · rintro ⟨b, h1, h2⟩ h
    have : (x &&& y).toNat.testBit b = true := by rw [BitVec.toNat_and, Nat.testBit_and, h1, h2]; rfl
    rw [h] at this
    simp at this

theorem and_not_ne_zero_iff_bits {w : Nat} (x y : BitVec w) :
    x &&& ~~~y ≠ 0 ↔ ¬ ∀ bit, x.toNat.testBit bit = true → y.toNat.testBit bit = true := by
  rw [and_ne_zero_iff_bits]
  push Not
  constructor
  · rintro ⟨b, h1, h2⟩
    refine ⟨b, h1, ?_⟩
    rw [BitVec.testBit_toNat] at *
    intro h
    simp [h] at h2
  · rintro ⟨b, h1, h2⟩
    refine ⟨b, h1, ?_⟩
    rw [BitVec.testBit_toNat] at *
    simp only [BitVec.getLsbD_not, Bool.and_eq_true, decide_eq_true_eq, Bool.not_eq_true']
    refine ⟨BitVec.lt_of_getLsbD h1, by simpa using h2⟩

end Minijail
