import Verif.Model.Res
import Verif.Model.BpfMachine
/-!
bpf.c / bpf.h: instruction generators.  A `struct sock_filter *` output buffer together with the
returned length is modelled by the list of instructions written.
-/
set_option autoImplicit false
namespace Minijail

/-- Compile-time properties of the target: `BITS64` or `BITS32` (bpf.h:25-29), byte order
(bpf.h:112-117) and `MINIJAIL_ARCH_NR` (arch.h:16-93). -/
structure Target where
  bits64 : Bool
  be : Bool
  archNr : BitVec 32
  deriving DecidableEq, Repr

/-- The width of `long` on the target (bpf.h:25-29). -/
def Target.longBits (t : Target) : Nat := if t.bits64 then 64 else 32

/-- Comparison operators, the enum at bpf.h:33-42 (`EQ` … `IN`). -/
inductive Op where
  | eq | ne | lt | le | gt | ge | set | in_
  deriving DecidableEq, Repr

-- Opcode constants (linux/bpf_common.h) as summed in bpf.c/bpf.h.
/-- `BPF_LD + BPF_W + BPF_ABS` (bpf.c:18). -/
def LD_ABS : BitVec 16 := 0x20
/-- `BPF_LD + BPF_MEM` (bpf.c:86). -/
def LD_MEM : BitVec 16 := 0x60
/-- `BPF_ST` (bpf.c:55). -/
def ST : BitVec 16 := 0x02
/-- `BPF_JMP + BPF_JA` (bpf.h:165). -/
def JA : BitVec 16 := 0x05
/-- `BPF_JMP + BPF_JEQ + BPF_K` (bpf.c:19). -/
def JEQ : BitVec 16 := 0x15
/-- `BPF_JMP + BPF_JGT + BPF_K` (bpf.c:97). -/
def JGT : BitVec 16 := 0x25
/-- `BPF_JMP + BPF_JGE + BPF_K` (bpf.c:105). -/
def JGE : BitVec 16 := 0x35
/-- `BPF_JMP + BPF_JSET + BPF_K` (bpf.c:169). -/
def JSET : BitVec 16 := 0x45
/-- `BPF_RET + BPF_K` (bpf.h:171). -/
def RET : BitVec 16 := 0x06

/-- `SECCOMP_RET_KILL`, bpf.h:51-52. -/
def RET_KILL : BitVec 32 := 0x00000000
/-- `SECCOMP_RET_KILL_PROCESS`, bpf.h:50. -/
def RET_KILL_PROCESS : BitVec 32 := 0x80000000
/-- `SECCOMP_RET_TRAP`, bpf.h:53. -/
def RET_TRAP : BitVec 32 := 0x00030000
/-- `SECCOMP_RET_ERRNO`, bpf.h:54. -/
def RET_ERRNO : BitVec 32 := 0x00050000
/-- `SECCOMP_RET_LOG`, bpf.h:55. -/
def RET_LOG : BitVec 32 := 0x7ffc0000
/-- `SECCOMP_RET_ALLOW`, bpf.h:56. -/
def RET_ALLOW : BitVec 32 := 0x7fff0000
/-- `SECCOMP_RET_DATA`, bpf.h:58. -/
def RET_DATA : BitVec 32 := 0x0000ffff

/-- `NEXT`, bpf.h:125. -/
def NEXT : BitVec 8 := 0
/-- `SKIP`, bpf.h:126. -/
def SKIP : BitVec 8 := 1
/-- `SKIPN(n)`, bpf.h:127 (the sum with `jt`/`jf` is truncated to `unsigned char`, as here). -/
def SKIPN (n : BitVec 8) : BitVec 8 := n

/-- `BPF_MAXINSNS` (linux/bpf_common.h), used at bpf.c:307 and syscall_filter.c:851. -/
def BPF_MAXINSNS : Nat := 4096
/-- `BPF_LABELS_MAX`, bpf.h:137. -/
def BPF_LABELS_MAX : Nat := 512
/-- `MAX_BPF_LABEL_LEN`, bpf.h:135. -/
def MAX_BPF_LABEL_LEN : Nat := 32

/-- `set_bpf_jump` / `set_bpf_instr`, bpf.h:147-162. -/
def bpfJump (code : BitVec 16) (k : BitVec 32) (jt jf : BitVec 8) : Insn := ⟨code, jt, jf, k⟩
/-- `set_bpf_stmt`, bpf.h:158-159. -/
def bpfStmt (code : BitVec 16) (k : BitVec 32) : Insn := ⟨code, 0, 0, k⟩
/-- `set_bpf_lbl`, bpf.h:164-165 (`LABEL_JT` = `LABEL_JF` = 0xfe, bpf.h:132-133). -/
def bpfLbl (id : BitVec 32) : Insn := bpfJump JA id 0xfe 0xfe
/-- `set_bpf_jump_lbl`, bpf.h:167-168 (`JUMP_JT` = `JUMP_JF` = 0xff, bpf.h:130-131). -/
def bpfJumpLbl (id : BitVec 32) : Insn := bpfJump JA id 0xff 0xff
/-- `set_bpf_ret_kill`, bpf.h:170-171. -/
def bpfRetKill : Insn := bpfStmt RET RET_KILL
/-- `set_bpf_ret_kill_process`, bpf.h:173-174. -/
def bpfRetKillProcess : Insn := bpfStmt RET RET_KILL_PROCESS
/-- `set_bpf_ret_trap`, bpf.h:176-177. -/
def bpfRetTrap : Insn := bpfStmt RET RET_TRAP
/-- `set_bpf_ret_errno`, bpf.h:179-181. -/
def bpfRetErrno (e : BitVec 32) : Insn := bpfStmt RET (RET_ERRNO ||| (e &&& RET_DATA))
/-- `set_bpf_ret_log`, bpf.h:183-184. -/
def bpfRetLog : Insn := bpfStmt RET RET_LOG
/-- `set_bpf_ret_allow`, bpf.h:186-187. -/
def bpfRetAllow : Insn := bpfStmt RET RET_ALLOW
/-- `bpf_load_syscall_nr`, bpf.h:189-190 (`syscall_nr` = offset 0, bpf.h:67). -/
def bpfLoadSyscallNr : Insn := bpfStmt LD_ABS 0

/-- `bpf_validate_arch`, bpf.c:15-23 (`arch_nr` = offset 4, bpf.h:68). -/
def bpfValidateArch (t : Target) : List Insn :=
  [bpfStmt LD_ABS 4, bpfJump JEQ t.archNr SKIP NEXT, bpfRetKill]

/-- `bpf_allow_syscall`, bpf.c:26-32. -/
def bpfAllowSyscall (nr : BitVec 32) : List Insn :=
  [bpfJump JEQ nr NEXT SKIP, bpfStmt RET RET_ALLOW]

/-- `bpf_allow_syscall_args`, bpf.c:34-41. -/
def bpfAllowSyscallArgs (nr id : BitVec 32) : List Insn :=
  [bpfJump JEQ nr NEXT SKIP, bpfJumpLbl id]

/-- `LO_ARG(idx)`, bpf.h:90 and 113: `offsetof(args) + 8*idx`, truncated to the 32-bit `k` field. -/
def loArg (argidx : BitVec 32) : BitVec 32 := 16 + 8 * argidx
/-- `HI_ARG(idx)`, bpf.h:114. -/
def hiArg (argidx : BitVec 32) : BitVec 32 := 16 + 8 * argidx + 4

/-- `bpf_load_arg`, bpf.c:44-60. -/
def bpfLoadArg (t : Target) (argidx : BitVec 32) : List Insn :=
  if t.bits64 then
    [bpfStmt LD_ABS (loArg argidx), bpfStmt ST 0, bpfStmt LD_ABS (hiArg argidx), bpfStmt ST 1]
  else
    [bpfStmt LD_ABS (loArg argidx)]

/-- `(unsigned int)(c & 0xFFFFFFFF)`, bpf.c:66. -/
def lo32 (c : BitVec 64) : BitVec 32 := c.setWidth 32
/-- `(unsigned int)(c >> 32)`, bpf.c:80. -/
def hi32 (c : BitVec 64) : BitVec 32 := (c >>> 32).setWidth 32

/-- `bpf_comp_jeq32`, bpf.c:63-69. -/
def bpfCompJeq32 (c : BitVec 32) (jt jf : BitVec 8) : List Insn := [bpfJump JEQ c jt jf]
/-- `bpf_comp_jgt32`, bpf.c:93-99. -/
def bpfCompJgt32 (c : BitVec 32) (jt jf : BitVec 8) : List Insn := [bpfJump JGT c jt jf]
/-- `bpf_comp_jge32`, bpf.c:101-107. -/
def bpfCompJge32 (c : BitVec 32) (jt jf : BitVec 8) : List Insn := [bpfJump JGE c jt jf]
/-- `bpf_comp_jset32`, bpf.c:165-171. -/
def bpfCompJset32 (c : BitVec 32) (jt jf : BitVec 8) : List Insn := [bpfJump JSET c jt jf]

/-- `bpf_comp_jeq64`, bpf.c:76-90. -/
def bpfCompJeq64 (c : BitVec 64) (jt jf : BitVec 8) : List Insn :=
  bpfCompJeq32 (hi32 c) NEXT (SKIPN 2 + jf) ++ [bpfStmt LD_MEM 0] ++ bpfCompJeq32 (lo32 c) jt jf

/-- `bpf_comp_jgt64`, bpf.c:115-137. -/
def bpfCompJgt64 (c : BitVec 64) (jt jf : BitVec 8) : List Insn :=
  (if hi32 c = 0 then bpfCompJgt32 (hi32 c) (SKIPN 2 + jt) NEXT
   else bpfCompJgt32 (hi32 c) (SKIPN 3 + jt) NEXT ++ bpfCompJeq32 (hi32 c) NEXT (SKIPN 2 + jf)) ++
  [bpfStmt LD_MEM 0] ++ bpfCompJgt32 (lo32 c) jt jf

/-- `bpf_comp_jge64`, bpf.c:139-161. -/
def bpfCompJge64 (c : BitVec 64) (jt jf : BitVec 8) : List Insn :=
  (if hi32 c = 0 then bpfCompJgt32 (hi32 c) (SKIPN 2 + jt) NEXT
   else bpfCompJgt32 (hi32 c) (SKIPN 3 + jt) NEXT ++ bpfCompJeq32 (hi32 c) NEXT (SKIPN 2 + jf)) ++
  [bpfStmt LD_MEM 0] ++ bpfCompJge32 (lo32 c) jt jf

/-- `bpf_comp_jset64`, bpf.c:178-192. -/
def bpfCompJset64 (c : BitVec 64) (jt jf : BitVec 8) : List Insn :=
  bpfCompJset32 (hi32 c) (SKIPN 2 + jt) NEXT ++ [bpfStmt LD_MEM 0] ++ bpfCompJset32 (lo32 c) jt jf

/-- `bpf_comp_jeq`, bpf.h:85 and 106. -/
def bpfCompJeq (t : Target) (c : BitVec 64) (jt jf : BitVec 8) : List Insn :=
  if t.bits64 then bpfCompJeq64 c jt jf else bpfCompJeq32 (lo32 c) jt jf
/-- `bpf_comp_jgt`, bpf.h:86 and 107. -/
def bpfCompJgt (t : Target) (c : BitVec 64) (jt jf : BitVec 8) : List Insn :=
  if t.bits64 then bpfCompJgt64 c jt jf else bpfCompJgt32 (lo32 c) jt jf
/-- `bpf_comp_jge`, bpf.h:87 and 108. -/
def bpfCompJge (t : Target) (c : BitVec 64) (jt jf : BitVec 8) : List Insn :=
  if t.bits64 then bpfCompJge64 c jt jf else bpfCompJge32 (lo32 c) jt jf
/-- `bpf_comp_jset`, bpf.h:88 and 109. -/
def bpfCompJset (t : Target) (c : BitVec 64) (jt jf : BitVec 8) : List Insn :=
  if t.bits64 then bpfCompJset64 c jt jf else bpfCompJset32 (lo32 c) jt jf
/-- `bpf_comp_jin`, bpf.c:195-205: negated mask, swapped targets. -/
def bpfCompJin (t : Target) (c : BitVec 64) (jt jf : BitVec 8) : List Insn :=
  bpfCompJset t (~~~c) jf jt

/-- `bpf_arg_comp_len`, bpf.c:207-226 (the size of the `calloc`ed buffer). -/
def bpfArgCompLen (t : Target) (op : Op) (c : BitVec 64) : Nat :=
  let loadLen := if t.bits64 then 4 else 1
  match op with
  | .lt | .le | .gt | .ge =>
    if t.bits64 then (if c >>> 32 = 0 then loadLen + 3 + 1 else loadLen + 4 + 1) else loadLen + 1 + 1
  | _ => if t.bits64 then loadLen + 3 + 1 else loadLen + 1 + 1

/-- The `flip` variable of `bpf_arg_comp`, bpf.c:237 and 248-286. -/
def opFlip : Op → Bool
  | .eq => false
  | .ne => true
  | .lt => true
  | .le => true
  | .gt => false
  | .ge => false
  | .set => false
  | .in_ => false

/-- The `comp_function` of `bpf_arg_comp`, bpf.c:248-286. -/
def compFunction (t : Target) : Op → BitVec 64 → BitVec 8 → BitVec 8 → List Insn
  | .eq => bpfCompJeq t
  | .ne => bpfCompJeq t
  | .lt => bpfCompJge t
  | .le => bpfCompJgt t
  | .gt => bpfCompJgt t
  | .ge => bpfCompJge t
  | .set => bpfCompJset t
  | .in_ => bpfCompJin t

/-- `bpf_arg_comp`, bpf.c:228-299. Allocation failure is not modelled. The constant is held in 64
bits; on a 32-bit target only its low half is used. -/
def bpfArgComp (t : Target) (op : Op) (argidx : BitVec 32) (c : BitVec 64) (labelId : BitVec 32) :
    List Insn :=
  let jt := if opFlip op then NEXT else SKIP
  let jf := if opFlip op then SKIP else NEXT
  bpfLoadArg t argidx ++ compFunction t op c jt jf ++ [bpfJumpLbl labelId]

end Minijail
