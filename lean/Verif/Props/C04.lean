import Verif.Proof.Atom
/-!
C04: argument comparisons are exact unsigned relations of the width of `long`.

`bpfArgComp t op i c n` is the code for one atom `arg<i> op c`; its last instruction jumps over `n`
instructions.  The theorems say: when the comparison holds, execution continues right after the
atom; otherwise it continues `n` instructions later.
-/
set_option autoImplicit false
namespace Minijail

/-- On every target that bpf.h supports in little-endian byte order, for every operator, argument
index 0..5, constant and argument value: the code of an atom falls through iff the unsigned relation
on `long`-sized values holds (64-bit relation on 64-bit targets, low 32 bits on 32-bit targets), and
jumps otherwise — from any machine state and in front of any further code `q`. -/
theorem C04_atom_exact_partial (t : Target) (hle : t.be = false) (op : Op) (i : Nat) (hi : i < 6)
    (c : BitVec 64) (n : BitVec 32) (d : SeccompData) (q : List Insn) (r : Regs) :
    ∃ r',
      (op.cmp.holds (Spec.argValue t.longBits d i) (c.toNat % 2 ^ t.longBits) →
        exec t.be d (bpfArgComp t op (BitVec.ofNat 32 i) c n ++ q) 0 r = exec t.be d q 0 r') ∧
      (¬ op.cmp.holds (Spec.argValue t.longBits d i) (c.toNat % 2 ^ t.longBits) →
        exec t.be d (bpfArgComp t op (BitVec.ofNat 32 i) c n ++ q) 0 r = exec t.be d q n.toNat r') := by
  rw [hle]; exact exec_argComp t op i hi c n q r

open Classical in
/-- The same as a verdict: an atom in front of `RET yes; RET no` answers `yes` exactly when the
relation holds. -/
theorem C04_atom_verdict_partial (t : Target) (hle : t.be = false) (op : Op) (i : Nat) (hi : i < 6)
    (c : BitVec 64) (d : SeccompData) (yes no : BitVec 32) :
    runFilter t.be (bpfArgComp t op (BitVec.ofNat 32 i) c 1 ++ [bpfStmt RET yes, bpfStmt RET no]) d =
      .ret (if op.cmp.holds (Spec.argValue t.longBits d i) (c.toNat % 2 ^ t.longBits) then yes else no) := by
  obtain ⟨r', h1, h2⟩ := C04_atom_exact_partial t hle op i hi c 1 d [bpfStmt RET yes, bpfStmt RET no] Regs.init
  have h11 : BitVec.toNat (1 : BitVec 32) = 1 := rfl
  split
  · next h => rw [runFilter, h1 h]; exact exec_ret _ _ _ _ _
  · next h => rw [runFilter, h2 h, h11, exec_cons_succ]; exact exec_ret _ _ _ _ _

/-- The code of an atom fills exactly the buffer that `bpf_arg_comp` allocates for it. -/
theorem C04_atom_length (t : Target) (op : Op) (i : BitVec 32) (c : BitVec 64) (n : BitVec 32) :
    (bpfArgComp t op i c n).length = bpfArgCompLen t op c := bpfArgComp_length t op i c n

/-- x86-64 meets the hypotheses: `arg1 > 0xffffffff` on argument 0x1_0000_0000. -/
example : runFilter false (bpfArgComp ⟨true, false, 0xc000003e⟩ .gt (BitVec.ofNat 32 1) 0xffffffff 1 ++
    [bpfStmt RET RET_ALLOW, bpfStmt RET RET_KILL]) ⟨0, 0, 0, 0, 0x100000000, 0, 0, 0, 0⟩ = .ret RET_ALLOW := by
  rw [C04_atom_verdict_partial ⟨true, false, 0xc000003e⟩ rfl .gt 1 (by decide)]
  simp [Op.cmp, Spec.Cmp.holds, Spec.argValue, SeccompData.arg, Target.longBits]

/-- The full statement fails on 32-bit big-endian targets, which arch.h:35-81 admits (MIPS, PowerPC,
s390, PA-RISC) and bpf.h does not refuse: `LO_ARG` then addresses the upper word, so `arg0 == 5` is
false of a call whose argument 0 is 5. -/
theorem C04_be32_violated : ∃ (t : Target) (d : SeccompData), t.bits64 = false ∧ t.be = true ∧
    Spec.argValue t.longBits d 0 = 5 ∧
    runFilter t.be (bpfArgComp t .eq (BitVec.ofNat 32 0) 5 1 ++ [bpfStmt RET RET_ALLOW, bpfStmt RET RET_KILL]) d =
      .ret RET_KILL :=
  ⟨⟨false, true, 0x14⟩, ⟨0, 0, 0, 5, 0, 0, 0, 0, 0⟩, rfl, rfl, rfl, by decide⟩

end Minijail
