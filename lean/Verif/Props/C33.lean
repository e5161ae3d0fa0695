import Verif.Proof.Elf
/-! C33: detecting whether a program is statically or dynamically linked. -/
set_option autoImplicit false
set_option linter.unusedSimpArgs false
namespace Minijail
open Spec

variable {file : List (BitVec 8)} {wide little : Bool}

/-- The result for an ELF file of at least 128 bytes, in terms of what the code reads. -/
theorem linkage_result (h : 128 ≤ file.length) (he : IsElf file wide little) : getElfLinkage (some file) = .ok (
    if entrySize file wide little ≠ headerSize wide then .error else if tableStart file wide little ≥ 2 ^ 63 then .error
    else phdrLoop file (headerSize wide) (entryCount file wide little) (tableStart file wide little)) := by
  rw [linkage_elf h he, parse_eq h]

/-- No file makes it read outside its buffers, and it always has a result. -/
theorem C33_safe (f : Option (List (BitVec 8))) : ∃ r, getElfLinkage f = .ok r := by
  cases f with
  | none => exact ⟨.error, rfl⟩
  | some file =>
    by_cases h : file.length < 128 ∨ file.take 4 ≠ [0x7f, 0x45, 0x4c, 0x46]
    · exact ⟨_, linkage_script h⟩
    · rw [not_or] at h
      have hl : 128 ≤ file.length := by omega
      have hm : file.take 4 = [0x7f, 0x45, 0x4c, 0x46] := Classical.byContradiction h.2
      by_cases hx : ∃ w l, IsElf file w l
      · obtain ⟨w, l, he⟩ := hx
        exact ⟨_, linkage_result hl he⟩
      · exact ⟨_, linkage_other hl hm fun w l he => hx ⟨w, l, he⟩⟩

/-- A file that is not an ELF file counts as dynamically linked (a script). -/
theorem C33_script (h : file.take 4 ≠ [0x7f, 0x45, 0x4c, 0x46]) : getElfLinkage (some file) = .ok .dynamic := linkage_script (.inr h)

/-- An ELF file of unknown class or byte order is an error. -/
theorem C33_unknown (h : 128 ≤ file.length) (hm : file.take 4 = [0x7f, 0x45, 0x4c, 0x46]) (hn : ∀ w l, ¬ IsElf file w l) :
    getElfLinkage (some file) = .ok .error := linkage_other h hm hn

/-- A malformed table is an error, in either byte order. -/
theorem C33_malformed (h : 128 ≤ file.length) (he : IsElf file wide little) (hg : ¬ GoodTable file wide little) :
    getElfLinkage (some file) = .ok .error := by
  rw [linkage_result h he]
  unfold GoodTable at hg
  split
  · rfl
  · split
    · rfl
    · exact absurd ⟨by omega, by omega⟩ hg

/-- An ELF file with the least significant byte first is reported as dynamically linked exactly if its table is well formed and names an interpreter,
and as statically linked exactly if it is well formed, complete and names none. (Missing: the other byte order, see `C33_violated_order`, and files
shorter than 128 bytes, see `C33_violated_short`.) -/
theorem C33_linkage_partial (h : 128 ≤ file.length) (he : IsElf file wide true) :
    (getElfLinkage (some file) = .ok .dynamic ↔ GoodTable file wide true ∧ NamesInterpreter file wide true) ∧
    (getElfLinkage (some file) = .ok .static ↔ GoodTable file wide true ∧ WholeTable file wide true ∧ ¬ NamesInterpreter file wide true) := by
  by_cases hg : GoodTable file wide true
  · obtain ⟨l1, l2⟩ := phdr_loop_eq (file := file) (size := headerSize wide) (by cases wide <;> decide) (entryCount file wide true) (tableStart file wide true)
    rw [linkage_result h he, if_neg (by simpa using hg.1), if_neg (by have := hg.2; omega), Res.ok.injEq, Res.ok.injEq, l1, l2]
    constructor
    · simp only [hg, true_and, NamesInterpreter, header_type]
    · simp only [hg, true_and, NamesInterpreter, WholeTable, header_type]
      constructor
      · intro hx
        refine ⟨fun i hi => ?_, fun ⟨i, hi, h3⟩ => ?_⟩
        · obtain ⟨x, e, _⟩ := hx i hi
          rw [← header_type, headerType] at e
          cases hp : programHeader file wide true i with
          | none => rw [hp] at e; simp at e
          | some y => rfl
        · obtain ⟨x, e, hn⟩ := hx i hi
          rw [e] at h3
          exact hn (Option.some.inj h3)
      · rintro ⟨hc, hn⟩ i hi
        have := hc i hi
        obtain ⟨y, hy⟩ := Option.isSome_iff_exists.1 this
        have e : headerType file wide true i = some (number true (y.take 4)) := by rw [headerType, hy]; rfl
        rw [header_type] at e
        exact ⟨_, e, fun h3 => hn ⟨i, hi, by rw [e, h3]⟩⟩
  · rw [C33_malformed h he hg]
    simp [hg]

/-- A file header with one program header right behind it: class, byte order, the fields in that order. -/
def tinyElf (order : BitVec 8) (phoff : List (BitVec 8)) (entsize num : List (BitVec 8)) : List (BitVec 8) :=
  [0x7f, 0x45, 0x4c, 0x46, 2, order, 1, 0] ++ List.replicate 24 0 ++ phoff ++ List.replicate 14 0 ++ entsize ++ num ++ List.replicate 6 0

/-- The same, dynamically linked: the first of two headers names an interpreter. -/
def dynamicLittle : List (BitVec 8) :=
  tinyElf 1 [64, 0, 0, 0, 0, 0, 0, 0] [56, 0] [2, 0] ++ [3, 0, 0, 0] ++ List.replicate 52 0 ++ [1, 0, 0, 0] ++ List.replicate 52 0
/-- With the most significant byte first. -/
def dynamicBig : List (BitVec 8) :=
  tinyElf 2 [0, 0, 0, 0, 0, 0, 0, 64] [0, 56] [0, 2] ++ [0, 0, 0, 3] ++ List.replicate 52 0 ++ [0, 0, 0, 1] ++ List.replicate 52 0
/-- A statically linked program of 120 bytes. -/
def staticShort : List (BitVec 8) := tinyElf 1 [64, 0, 0, 0, 0, 0, 0, 0] [56, 0] [1, 0] ++ [1, 0, 0, 0] ++ List.replicate 52 0

/-- A dynamically linked program with the most significant byte first is reported as statically linked: the type of a program header is not
converted. -/
theorem C33_violated_order : IsElf dynamicBig true false ∧ GoodTable dynamicBig true false ∧ NamesInterpreter dynamicBig true false ∧
    getElfLinkage (some dynamicBig) = .ok .static := by
  refine ⟨⟨by decide +kernel, by decide +kernel, by decide +kernel⟩, ?_, ⟨0, by decide +kernel, by decide +kernel⟩, by decide +kernel⟩
  unfold GoodTable
  decide +kernel

/-- In general: a well-formed file with the most significant byte first is reported as dynamically linked exactly if it has a header of type
0x03000000. -/
theorem C33_order (h : 128 ≤ file.length) (he : IsElf file wide false) (hg : GoodTable file wide false) :
    getElfLinkage (some file) = .ok .dynamic ↔ ∃ i < entryCount file wide false, headerType file wide false i = some 0x03000000 := by
  obtain ⟨l1, _⟩ := phdr_loop_eq (file := file) (size := headerSize wide) (by cases wide <;> decide) (entryCount file wide false) (tableStart file wide false)
  rw [linkage_result h he, if_neg (by simpa using hg.1), if_neg (by have := hg.2; omega), Res.ok.injEq, l1]
  have swap : ∀ l : List (BitVec 8), l.length = 4 → (hostNat l = 3 ↔ number false l = 0x03000000) := by
    intro l hl
    obtain ⟨a, b, c, d, rfl⟩ : ∃ a b c d, l = [a, b, c, d] := by
      match l, hl with
      | [a, b, c, d], _ => exact ⟨a, b, c, d, rfl⟩
    have := a.isLt; have := b.isLt; have := c.isLt; have := d.isLt
    simp only [hostNat, number, Bool.false_eq_true, if_false, List.foldl_cons, List.foldl_nil]
    omega
  constructor <;> rintro ⟨i, hi, e⟩ <;> refine ⟨i, hi, ?_⟩
  · simp only [typeAt] at e
    split at e
    · rename_i hb
      simp only [headerType, programHeader, if_pos hb, Option.map_some]
      rw [(swap _ (by simp; cases wide <;> simp [headerSize] at * <;> omega)).1 (Option.some.inj e)]
    · simp at e
  · simp only [headerType, programHeader] at e
    split at e
    · rename_i hb
      simp only [typeAt, if_pos hb]
      rw [(swap _ (by simp; cases wide <;> simp [headerSize] at * <;> omega)).2 (Option.some.inj e)]
    · simp at e

/-- A statically linked program shorter than 128 bytes is reported as dynamically linked. -/
theorem C33_violated_short : IsElf staticShort true true ∧ GoodTable staticShort true true ∧ WholeTable staticShort true true ∧
    ¬ NamesInterpreter staticShort true true ∧ getElfLinkage (some staticShort) = .ok .dynamic := by
  have hc : entryCount staticShort true true = 1 := by decide +kernel
  have ht : headerType staticShort true true 0 = some 1 := by decide +kernel
  refine ⟨⟨by decide +kernel, by decide +kernel, by decide +kernel⟩, ?_, fun i hi => ?_, fun ⟨i, hi, e⟩ => ?_, by decide +kernel⟩
  · unfold GoodTable; decide +kernel
  · rw [hc] at hi
    have : i = 0 := by omega
    subst this; decide +kernel
  · rw [hc] at hi
    have : i = 0 := by omega
    subst this; rw [ht] at e; simp at e

/-- A file that meets the hypotheses of `C33_linkage_partial`. -/
example : 128 ≤ dynamicLittle.length ∧ IsElf dynamicLittle true true ∧ getElfLinkage (some dynamicLittle) = .ok .dynamic :=
  ⟨by decide +kernel, ⟨by decide +kernel, by decide +kernel, by decide +kernel⟩, by decide +kernel⟩

end Minijail
