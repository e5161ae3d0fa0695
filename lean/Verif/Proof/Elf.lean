import Verif.Spec.Elf
/-! Lemmas about linkage detection. -/
set_option autoImplicit false
set_option linter.unusedSimpArgs false
namespace Minijail
open Spec

theorem hostNat_append (a b : List (BitVec 8)) : hostNat (a ++ b) = hostNat a + 256 ^ a.length * hostNat b := by
  induction a with
  | nil => simp [hostNat]
  | cons x a ih => simp only [List.cons_append, hostNat, ih, List.length_cons, Nat.pow_succ]; grind

theorem hostNat_foldl (bs : List (BitVec 8)) : bs.reverse.foldl (fun n b => n * 256 + b.toNat) 0 = hostNat bs := by
  rw [List.foldl_reverse]
  induction bs with
  | nil => rfl
  | cons x bs ih => simp only [List.foldr_cons, ih, hostNat]; omega

theorem toHost_eq (little : Bool) (bs : List (BitVec 8)) : toHost little bs = number little bs := by
  cases little
  · have := hostNat_foldl bs.reverse
    rw [List.reverse_reverse] at this
    simp [toHost, number, this]
  · simp [toHost, number, ← hostNat_foldl]

variable {file : List (BitVec 8)} {wide little : Bool}

theorem read_header (h : 128 ≤ file.length) {off n : Nat} (hn : off + n ≤ 128) : readBytes (file.take 128) off n = .ok ((file.drop off).take n) := by
  unfold readBytes
  rw [if_pos (by simp; omega)]
  congr 1
  rw [List.drop_take, List.take_take]
  congr 1; omega

theorem parse_eq (h : 128 ≤ file.length) : parseElf wide file (file.take 128) little = .ok (
    if entrySize file wide little ≠ headerSize wide then .error else if tableStart file wide little ≥ 2 ^ 63 then .error
    else phdrLoop file (headerSize wide) (entryCount file wide little) (tableStart file wide little)) := by
  unfold parseElf
  cases wide <;>
    simp only [Bool.false_eq_true, if_false, if_true, read_header h (off := 28) (n := 4) (by omega), read_header h (off := 42) (n := 2) (by omega),
      read_header h (off := 44) (n := 2) (by omega), read_header h (off := 32) (n := 8) (by omega), read_header h (off := 54) (n := 2) (by omega),
      read_header h (off := 56) (n := 2) (by omega), Res.bind_ok, toHost_eq, Res.pure_eq, entrySize, headerSize, tableStart, entryCount, headerField] <;>
    split <;> (try split) <;> rfl

/-- The type of the header at a position, as the code reads it. -/
def typeAt (file : List (BitVec 8)) (size pos : Nat) : Option Nat :=
  if pos + size ≤ file.length then some (hostNat (((file.drop pos).take size).take 4)) else none

theorem entry_length {size pos : Nat} : ((file.drop pos).take size).length = size ↔ pos + size ≤ file.length ∨ size = 0 := by
  simp; omega

theorem phdr_loop_eq {size : Nat} (hs : 0 < size) : ∀ (n pos : Nat),
    (phdrLoop file size n pos = .dynamic ↔ ∃ i < n, typeAt file size (pos + i * size) = some 3) ∧
    (phdrLoop file size n pos = .static ↔ ∀ i < n, ∃ x, typeAt file size (pos + i * size) = some x ∧ x ≠ 3)
  | 0, pos => by simp [phdrLoop]
  | n + 1, pos => by
    obtain ⟨i1, i2⟩ := phdr_loop_eq hs n (pos + size)
    have step : ∀ i, pos + size + i * size = pos + (i + 1) * size := fun i => by rw [Nat.add_mul]; omega
    simp only [phdrLoop, entry_length]
    by_cases hb : pos + size ≤ file.length
    · rw [if_pos (Or.inl hb)]
      have h0 : typeAt file size (pos + 0 * size) = some (hostNat (((file.drop pos).take size).take 4)) := by
        simp [typeAt, hb]
      by_cases h3 : hostNat (((file.drop pos).take size).take 4) = 3
      · rw [if_pos h3]
        rw [h3] at h0
        refine ⟨⟨fun _ => ⟨0, by omega, h0⟩, fun _ => rfl⟩, ⟨fun h => by simp at h, fun h => ?_⟩⟩
        obtain ⟨x, hx, hn⟩ := h 0 (by omega)
        rw [h0] at hx
        exact absurd (Option.some.inj hx).symm hn
      · rw [if_neg h3, i1, i2]
        constructor
        · constructor
          · rintro ⟨i, hi, h⟩
            exact ⟨i + 1, by omega, by rw [← step]; exact h⟩
          · rintro ⟨i, hi, h⟩
            cases i with
            | zero => rw [h0] at h; exact absurd (Option.some.inj h) h3
            | succ i => exact ⟨i, by omega, by rw [step]; exact h⟩
        · constructor
          · intro h i hi
            cases i with
            | zero => exact ⟨_, h0, h3⟩
            | succ i => obtain ⟨x, hx⟩ := h i (by omega); exact ⟨x, by rw [← step]; exact hx⟩
          · intro h i hi
            obtain ⟨x, hx⟩ := h (i + 1) (by omega)
            exact ⟨x, by rw [step]; exact hx⟩
    · rw [if_neg (by omega)]
      have hnone : ∀ i, typeAt file size (pos + i * size) = none := fun i => by
        have : pos ≤ pos + i * size := by omega
        simp [typeAt]; omega
      refine ⟨⟨fun h => by simp at h, fun ⟨i, hi, h⟩ => by rw [hnone] at h; simp at h⟩, ⟨fun h => by simp at h, fun h => ?_⟩⟩
      obtain ⟨x, hx, _⟩ := h 0 (by omega)
      rw [hnone] at hx; simp at hx

theorem linkage_elf (h : 128 ≤ file.length) (he : IsElf file wide little) :
    getElfLinkage (some file) = parseElf wide file (file.take 128) little := by
  have hlen : (file.take 128).length = 128 := by simp; omega
  have hm := he.magic
  have e4 : (file.drop 4).take 1 = [if wide then 2 else 1] := by
    have := he.class_
    rw [List.take_one, List.head?_drop, this]; rfl
  have e5 : (file.drop 5).take 1 = [if little then 1 else 2] := by
    have := he.order
    rw [List.take_one, List.head?_drop, this]; rfl
  unfold getElfLinkage
  simp only [hlen, ne_eq, not_true, if_false, read_header h (off := 0) (n := 4) (by omega), read_header h (off := 4) (n := 1) (by omega),
    read_header h (off := 5) (n := 1) (by omega), Res.bind_ok, List.drop_zero, hm, e4, e5]
  cases wide <;> cases little <;> simp

theorem linkage_script (h : file.length < 128 ∨ file.take 4 ≠ [0x7f, 0x45, 0x4c, 0x46]) : getElfLinkage (some file) = .ok .dynamic := by
  unfold getElfLinkage
  by_cases hl : 128 ≤ file.length
  · have hlen : (file.take 128).length = 128 := by simp; omega
    have hm : file.take 4 ≠ [0x7f, 0x45, 0x4c, 0x46] := by rcases h with h | h; (· omega); exact h
    simp only [hlen, ne_eq, not_true, if_false, read_header hl (off := 0) (n := 4) (by omega), Res.bind_ok, List.drop_zero, hm, not_false_eq_true, if_true,
      Res.pure_eq]
  · have hlen : ¬ (file.take 128).length = 128 := by simp; omega
    simp only [hlen, ne_eq, not_false_eq_true, if_true, Res.pure_eq]

theorem linkage_other (h : 128 ≤ file.length) (hm : file.take 4 = [0x7f, 0x45, 0x4c, 0x46]) (hn : ∀ w l, ¬ IsElf file w l) :
    getElfLinkage (some file) = .ok .error := by
  have hlen : (file.take 128).length = 128 := by simp; omega
  have g4 : ∀ x, (file.drop 4).take 1 = [x] → file[4]? = some x := fun x hx => by
    rw [List.take_one, List.head?_drop] at hx
    cases h4 : file[4]? with
    | none => rw [h4] at hx; simp at hx
    | some y => rw [h4] at hx; simpa using hx
  have g5 : ∀ x, (file.drop 5).take 1 = [x] → file[5]? = some x := fun x hx => by
    rw [List.take_one, List.head?_drop] at hx
    cases h4 : file[5]? with
    | none => rw [h4] at hx; simp at hx
    | some y => rw [h4] at hx; simpa using hx
  unfold getElfLinkage
  simp only [hlen, ne_eq, not_true, if_false, read_header h (off := 0) (n := 4) (by omega), read_header h (off := 4) (n := 1) (by omega),
    read_header h (off := 5) (n := 1) (by omega), Res.bind_ok, List.drop_zero, hm]
  rw [if_neg fun e => hn true true ⟨hm, g4 _ e.2, g5 _ e.1⟩, if_neg fun e => hn true false ⟨hm, g4 _ e.2, g5 _ e.1⟩,
    if_neg fun e => hn false true ⟨hm, g4 _ e.2, g5 _ e.1⟩, if_neg fun e => hn false false ⟨hm, g4 _ e.2, g5 _ e.1⟩]
  rfl

theorem header_type (i : Nat) : headerType file wide true i = typeAt file (headerSize wide) (tableStart file wide true + i * headerSize wide) := by
  simp only [headerType, programHeader, typeAt]
  split
  · simp [← toHost_eq, toHost]
  · rfl

end Minijail
