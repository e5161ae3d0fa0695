import Verif.Model.Marshal
import Mathlib.Tactic.IntervalCases
/-! Lemmas about serialisation: every field reader inverts its writer. -/
set_option autoImplicit false
set_option linter.unusedSimpArgs false
namespace Minijail

theorem decLE_enc64 (x : BitVec 64) : decLE 64 (enc64 x) = x := by
  simp only [enc64, decLE]
  apply BitVec.eq_of_getLsbD_eq
  intro i hi
  interval_cases i <;> simp [BitVec.getLsbD_shiftLeft, BitVec.getLsbD_setWidth, BitVec.getLsbD_extractLsb']

theorem decLE_enc32 (x : BitVec 32) : decLE 32 (enc32 x) = x := by
  simp only [enc32, decLE]
  apply BitVec.eq_of_getLsbD_eq
  intro i hi
  interval_cases i <;> simp [BitVec.getLsbD_shiftLeft, BitVec.getLsbD_setWidth, BitVec.getLsbD_extractLsb']

theorem decLE_enc16 (x : BitVec 16) : decLE 16 (enc16 x) = x := by
  simp only [enc16, decLE]
  apply BitVec.eq_of_getLsbD_eq
  intro i hi
  interval_cases i <;> simp [BitVec.getLsbD_shiftLeft, BitVec.getLsbD_setWidth, BitVec.getLsbD_extractLsb']

theorem decLE_byte (x : BitVec 8) : decLE 8 [x] = x := by
  simp [decLE]

@[simp] theorem length_enc64 (x : BitVec 64) : (enc64 x).length = 8 := rfl
@[simp] theorem length_enc32 (x : BitVec 32) : (enc32 x).length = 4 := rfl
@[simp] theorem length_enc16 (x : BitVec 16) : (enc16 x).length = 2 := rfl

theorem consumebytes_append {n : Nat} {p : Bytes} (r : Bytes) (h : p.length = n) : consumebytes n (p ++ r) = some (p, r) := by
  subst h
  simp [consumebytes]

theorem rdInt_enc64 (x : BitVec 64) (r : Bytes) : rdInt 8 64 (enc64 x ++ r) = some (x, r) := by
  rw [rdInt, consumebytes_append r (length_enc64 x)]; simp [decLE_enc64]

theorem rdInt_enc32 (x : BitVec 32) (r : Bytes) : rdInt 4 32 (enc32 x ++ r) = some (x, r) := by
  rw [rdInt, consumebytes_append r (length_enc32 x)]; simp [decLE_enc32]

theorem rdInt_enc16 (x : BitVec 16) (r : Bytes) : rdInt 2 16 (enc16 x ++ r) = some (x, r) := by
  rw [rdInt, consumebytes_append r (length_enc16 x)]; simp [decLE_enc16]

theorem rdInt_byte (x : BitVec 8) (r : Bytes) : rdInt 1 8 (x :: r) = some (x, r) := by
  have := consumebytes_append (n := 1) (p := [x]) r rfl
  simp only [List.cons_append, List.nil_append] at this
  rw [rdInt, this]; simp [decLE_byte]

theorem bind64 {β : Type} (x : BitVec 64) (r : Bytes) (f : BitVec 64 → Rd β) :
    Rd.bind (rdInt 8 64) f (enc64 x ++ r) = f x r := by
  simp [Rd.bind, rdInt_enc64]

theorem bind32 {β : Type} (x : BitVec 32) (r : Bytes) (f : BitVec 32 → Rd β) :
    Rd.bind (rdInt 4 32) f (enc32 x ++ r) = f x r := by
  simp [Rd.bind, rdInt_enc32]

theorem rdArray_enc {α : Type} {rd : Rd α} {enc : α → Bytes} (h : ∀ a r, rd (enc a ++ r) = some (a, r)) (l : List α)
    (r : Bytes) : rdArray rd l.length (l.flatMap enc ++ r) = some (l, r) := by
  induction l with
  | nil => simp [rdArray]
  | cons a l ih => simp [rdArray, Rd.bind, List.append_assoc, h, ih]

theorem bindArray {α β : Type} {rd : Rd α} {enc : α → Bytes} (h : ∀ a r, rd (enc a ++ r) = some (a, r)) {l : List α}
    {n : Nat} (hl : l.length = n) (r : Bytes) (f : List α → Rd β) :
    Rd.bind (rdArray rd n) f (l.flatMap enc ++ r) = f l r := by
  subst hl
  simp [Rd.bind, rdArray_enc h]

theorem rdRlimit_enc (x : Rlimit) (r : Bytes) : rdRlimit (encRlimit x ++ r) = some (x, r) := by
  simp only [rdRlimit, encRlimit, List.append_assoc, bind32, bind64]

theorem rdPreservedFd_enc (x : PreservedFd) (r : Bytes) : rdPreservedFd (encPreservedFd x ++ r) = some (x, r) := by
  simp only [rdPreservedFd, encPreservedFd, List.append_assoc, bind32, bind64]

theorem rdInsn_enc (x : Insn) (r : Bytes) : rdInsn (encInsn x ++ r) = some (x, r) := by
  simp [rdInsn, encInsn, List.append_assoc, Rd.bind, rdInt_enc16, rdInt_byte, rdInt_enc32]

theorem testBit_packBits (l : List Bool) (i : Nat) : (packBits l).testBit i = l.getD i false := by
  induction l generalizing i with
  | nil => simp [packBits]
  | cons b l ih =>
    cases i with
    | zero => cases b <;> simp [packBits, Nat.testBit_zero]
    | succ i =>
      rw [Nat.testBit_succ]
      have : packBits (b :: l) / 2 = packBits l := by
        simp only [packBits]
        cases b <;> simp <;> omega
      rw [this, ih]
      simp

theorem Flags.ofWord_word (f : Flags) : Flags.ofWord f.word = f := by
  cases f
  simp only [Flags.ofWord, Flags.word, BitVec.getLsbD_ofNat, testBit_packBits, Flags.bits]
  simp

/-- An image whose arrays have their C sizes. -/
structure Image.Sized (i : Image) : Prop where
  cgroups : i.cgroups.length = MAX_CGROUPS
  rlimits : i.rlimits.length = MAX_RLIMITS
  preserved : i.preserved_fds.length = MAX_PRESERVED_FDS

theorem length_flatMap_const {α : Type} {enc : α → Bytes} {n : Nat} (h : ∀ a, (enc a).length = n) (l : List α) :
    (l.flatMap enc).length = l.length * n := by
  induction l with
  | nil => simp
  | cons a l ih => simp [h, ih, Nat.succ_mul]; omega

theorem length_encRlimit (r : Rlimit) : (encRlimit r).length = 24 := rfl
theorem length_encPreservedFd (r : PreservedFd) : (encPreservedFd r).length = 8 := rfl
theorem length_encInsn (r : Insn) : (encInsn r).length = 8 := rfl

theorem length_encImage {i : Image} (h : i.Sized) : (encImage i).length = SIZEOF_MINIJAIL := by
  have h1 := length_flatMap_const length_enc64 i.cgroups
  have h2 := length_flatMap_const length_encRlimit i.rlimits
  have h3 := length_flatMap_const length_encPreservedFd i.preserved_fds
  rw [h.cgroups] at h1
  rw [h.rlimits] at h2
  rw [h.preserved] at h3
  unfold encImage
  simp only [List.length_append, length_enc64, length_enc32, h1, h2, h3]
  rfl

theorem rdImage_enc {i : Image} (h : i.Sized) (r : Bytes) : rdImage (encImage i ++ r) = some (i, r) := by
  have h1 (s : Bytes) (f : List (BitVec 64) → Rd Image) := bindArray rdInt_enc64 h.cgroups s f
  have h2 (s : Bytes) (f : List Rlimit → Rd Image) := bindArray rdRlimit_enc h.rlimits s f
  have h3 (s : Bytes) (f : List PreservedFd → Rd Image) := bindArray rdPreservedFd_enc h.preserved s f
  unfold rdImage encImage
  simp only [List.append_assoc]
  simp only [bind64, bind32, h1, h2, h3, Flags.ofWord_word]

/-- A string without NUL bytes: what a C string can hold. -/
def NoNul (s : BStr) : Prop := 0#8 ∉ s

theorem strnlen_cstring {s : BStr} (h : NoNul s) (r : Bytes) : strnlen (s ++ 0#8 :: r) = s.length := by
  rw [strnlen, List.takeWhile_append_of_pos]
  · simp
  · intro b hb
    simp only [ne_eq, decide_not, Bool.not_eq_eq_eq_not, Bool.not_true, decide_eq_false_iff_not]
    rintro rfl
    exact h hb

theorem consumestr_cstring {s : BStr} (h : NoNul s) (r : Bytes) : consumestr (cstring s ++ r) = some (s, r) := by
  have e : cstring s ++ r = s ++ 0#8 :: r := by simp [cstring]
  rw [consumestr, e, strnlen_cstring h, if_neg (by simp)]
  have := consumebytes_append (n := s.length + 1) (p := cstring s) r (by simp [cstring])
  rw [e] at this
  rw [this]
  simp [cstring]

end Minijail
