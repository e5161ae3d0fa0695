import Verif.Proof.OfflineFlat
/-!
C42: a conditional jump of the offline compiler (`_emit_jmp`, tools/bpf.py:665-686) reaches its targets, whatever the distances.
-/
set_option autoImplicit false
set_option linter.unusedSimpArgs false
namespace Minijail
open Offline Spec

open Classical in
/-- Whatever code `rest` was emitted before (instructions are emitted last to first), whatever the comparison, the value and the distances `jt` and
`jf`: if the instructions of the jump can be encoded, then running them with any accumulator goes on in `rest`, `jt` instructions in if the test is
true and `jf` instructions in if it is false, and changes no register. -/
theorem C42_exact (be : Bool) (d : SeccompData) (op : JOp) (v jt jf : Nat) {q : List Insn} (h : opcodes (emitJmp op v jt jf) = some q) (rest : List Insn) (r : Regs) :
    exec be d (q ++ rest) 0 r = exec be d rest (if jumpTest op r.a.toNat v then jt else jf) r := by
  obtain ⟨h1, rfl⟩ := opcodes_some h
  rw [exec_emitJmp op v jt jf h1]
  rfl

/-- The instructions of a jump can be encoded whenever the distances are those of a program of less than 2³² instructions, and there are at most three. -/
theorem C42_encodes (op : JOp) (v jt jf : Nat) (hv : v < 2 ^ 32) (ht : jt + 3 < 2 ^ 32) (hf : jf + 3 < 2 ^ 32) :
    ∃ q, opcodes (emitJmp op v jt jf) = some q ∧ q.length ≤ 3 := by
  have hl : (emitJmp op v jt jf).length ≤ 3 := by unfold emitJmp; split_ifs <;> simp
  refine ⟨_, opcodes_of_fits (emitJmp_fits (n := max jt jf) hv (Nat.le_max_left ..) (Nat.le_max_right ..) ?_), by rw [List.length_map]; exact hl⟩
  have : max jt jf + 3 < 2 ^ 32 := by rw [Nat.max_def]; split_ifs <;> assumption
  omega

/-- Distances up to 255, which fit into the jump itself, take one instruction. -/
theorem C42_short (op : JOp) (v jt jf : Nat) (hv : v < 2 ^ 32) (ht : jt ≤ 255) (hf : jf ≤ 255) : ∃ i, opcodes (emitJmp op v jt jf) = some [i] := by
  obtain ⟨q, h1, -⟩ := C42_encodes op v jt jf hv (by omega) (by omega)
  obtain ⟨-, h2⟩ := opcodes_some h1
  rw [emitJmp, if_pos ⟨by omega, by omega⟩] at h2
  exact ⟨_, h2 ▸ h1⟩

/-! Concrete cases, at the boundaries: one instruction for 255 and 255, two for 254 and 256 (either way), three for 255 and 256. -/
example : opcodes (emitJmp .jeq 7 255 255) = some [⟨0x15#16, 255#8, 255#8, 7#32⟩] := by decide
example : opcodes (emitJmp .jeq 7 254 256) = some [⟨0x15#16, 255#8, 0#8, 7#32⟩, ⟨0x05#16, 0#8, 0#8, 256#32⟩] := by decide
example : opcodes (emitJmp .jgt 7 256 254) = some [⟨0x25#16, 0#8, 255#8, 7#32⟩, ⟨0x05#16, 0#8, 0#8, 256#32⟩] := by decide
example : opcodes (emitJmp .jset 7 255 256) = some [⟨0x45#16, 0#8, 1#8, 7#32⟩, ⟨0x05#16, 0#8, 0#8, 256#32⟩, ⟨0x05#16, 0#8, 0#8, 256#32⟩] := by decide
example : opcodes (emitJmp .jge 0xffffffff 100000 70000) = some [⟨0x35#16, 0#8, 1#8, 0xffffffff#32⟩, ⟨0x05#16, 0#8, 0#8, 100001#32⟩, ⟨0x05#16, 0#8, 0#8, 70000#32⟩] := by decide

end Minijail
