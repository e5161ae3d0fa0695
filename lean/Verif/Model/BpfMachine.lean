/-!
The classic BPF machine as the kernel runs it for seccomp filters.  This is part of the trusted
environment: it specifies what the instructions used by bpf.c / bpf.h mean
(linux/filter.h, linux/bpf_common.h, Documentation/networking/filter.rst).
-/
set_option autoImplicit false
namespace Minijail

/-- `struct sock_filter` (linux/filter.h), the unit written by `set_bpf_instr`, bpf.h:147-156. -/
structure Insn where
  code : BitVec 16
  jt : BitVec 8
  jf : BitVec 8
  k : BitVec 32
  deriving DecidableEq, Repr

/-- `struct seccomp_data`, bpf.h:60-65. -/
structure SeccompData where
  nr : BitVec 32
  arch : BitVec 32
  ip : BitVec 64
  arg0 : BitVec 64
  arg1 : BitVec 64
  arg2 : BitVec 64
  arg3 : BitVec 64
  arg4 : BitVec 64
  arg5 : BitVec 64
  deriving DecidableEq, Repr

/-- `seccomp_data.args[i]`, bpf.h:64 (six arguments; `none` beyond them). -/
def SeccompData.arg (d : SeccompData) : Nat → Option (BitVec 64)
  | 0 => some d.arg0
  | 1 => some d.arg1
  | 2 => some d.arg2
  | 3 => some d.arg3
  | 4 => some d.arg4
  | 5 => some d.arg5
  | _ => none

/-- The two 32-bit words of a 64-bit field in memory order; `be` is the byte order of the machine. -/
def halves (be : Bool) (x : BitVec 64) : List (BitVec 32) :=
  if be then [x.extractLsb' 32 32, x.extractLsb' 0 32] else [x.extractLsb' 0 32, x.extractLsb' 32 32]

/-- `struct seccomp_data` as sixteen 32-bit words in memory order, bpf.h:60-65. -/
def SeccompData.words (be : Bool) (d : SeccompData) : List (BitVec 32) :=
  [d.nr, d.arch] ++ halves be d.ip ++ halves be d.arg0 ++ halves be d.arg1 ++ halves be d.arg2 ++
    halves be d.arg3 ++ halves be d.arg4 ++ halves be d.arg5

/-- `BPF_LD | BPF_W | BPF_ABS` at byte offset `k`: the kernel only accepts aligned offsets inside
`struct seccomp_data` (kernel/seccomp.c, seccomp_check_filter). -/
def SeccompData.load (be : Bool) (d : SeccompData) (k : Nat) : Option (BitVec 32) :=
  if k % 4 = 0 then (d.words be)[k / 4]? else none

/-- Result of running a filter: a 32-bit verdict, or `bad` when the program is one that the kernel
would have refused (falls off the end, bad load, uninitialised memory, unknown opcode). -/
inductive Verdict where
  | ret (v : BitVec 32)
  | bad
  deriving DecidableEq, Repr

/-- Machine registers: accumulator and scratch memory (`BPF_MEMWORDS` = 16 words, initially undefined). -/
structure Regs where
  a : BitVec 32
  m : Nat → Option (BitVec 32)

/-- Registers at the start of a filter. -/
def Regs.init : Regs := ⟨0, fun _ => none⟩

/-- Store into scratch memory. -/
def Regs.store (r : Regs) (k : Nat) : Regs := { r with m := fun j => if j = k then some r.a else r.m j }

/-- Runs the program from the point where `skip` more instructions are to be skipped. `skip` is how
relative jumps are represented: a taken jump of distance `n` continues with `skip = n` in the rest
of the program, so every jump is forward and execution always ends. -/
def exec (be : Bool) (d : SeccompData) : List Insn → Nat → Regs → Verdict
  | [], _, _ => .bad
  | _ :: rest, n + 1, r => exec be d rest n r
  | i :: rest, 0, r =>
    match i.code.toNat with
    | 0x20 => -- BPF_LD + BPF_W + BPF_ABS
      match d.load be i.k.toNat with
      | some w => exec be d rest 0 { r with a := w }
      | none => .bad
    | 0x60 => -- BPF_LD + BPF_MEM
      match r.m i.k.toNat with
      | some w => exec be d rest 0 { r with a := w }
      | none => .bad
    | 0x02 => -- BPF_ST
      if i.k.toNat < 16 then exec be d rest 0 (r.store i.k.toNat) else .bad
    | 0x05 => exec be d rest i.k.toNat r -- BPF_JMP + BPF_JA
    | 0x15 => exec be d rest (if r.a = i.k then i.jt.toNat else i.jf.toNat) r -- BPF_JEQ + BPF_K
    | 0x25 => exec be d rest (if i.k.toNat < r.a.toNat then i.jt.toNat else i.jf.toNat) r -- BPF_JGT
    | 0x35 => exec be d rest (if i.k.toNat ≤ r.a.toNat then i.jt.toNat else i.jf.toNat) r -- BPF_JGE
    | 0x45 => exec be d rest (if r.a &&& i.k ≠ 0 then i.jt.toNat else i.jf.toNat) r -- BPF_JSET
    | 0x06 => .ret i.k -- BPF_RET + BPF_K
    | _ => .bad

/-- Verdict of a whole filter program on a system call. -/
def runFilter (be : Bool) (p : List Insn) (d : SeccompData) : Verdict := exec be d p 0 Regs.init

end Minijail
