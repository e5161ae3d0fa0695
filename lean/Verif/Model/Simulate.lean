import Verif.Model.Offline
/-! The simulator of filters that the tests of the tools rely on: `simulate` of tools/bpf.py and tools/compiler.py. Exceptions are `none`. -/
set_option autoImplicit false
namespace Minijail.Offline

/-- `struct.pack` of one unsigned number, as used at tools/bpf.py:81-83: an exception if it does not fit. (Simplified: the order of bytes is that of machines where
the least significant comes first.) -/
def packNumber (size value : Nat) : Option (List Nat) :=
  if value < 256 ^ size then some ((List.range size).map fun i => value / 256 ^ i % 256) else none

/-- `struct.pack` of several eight byte numbers, tools/bpf.py:81-83. -/
def packNumbers : List Nat → Option (List Nat)
  | [] => some []
  | x :: l => do
    let a ← packNumber 8 x
    let b ← packNumbers l
    return a ++ b

/-- `MAX_SYSCALL_ARGUMENTS`, tools/bpf.py:14. -/
def maxSyscallArguments : Nat := 7

/-- `input_memory`, tools/bpf.py:78-83: missing arguments are 0, more than seven are cut off. -/
def inputMemory (arch nr : Nat) (args : List Nat) : Option (List Nat) := do
  let a ← packNumber 4 nr
  let b ← packNumber 4 arch
  let c ← packNumbers (0 :: (args ++ List.replicate (maxSyscallArguments - args.length) 0).take maxSyscallArguments)
  return a ++ b ++ c

/-- `struct.unpack("I", …)`, tools/bpf.py:93: an exception unless there are four bytes. -/
def unpackNumber : List Nat → Option Nat
  | [a, b, c, d] => some (a + 256 * b + 65536 * c + 16777216 * d)
  | _ => none

/-- What a return stands for, tools/bpf.py:117-133; the actions are the names that are returned. -/
def retAction (k : Nat) : Option Action :=
  if k = 0x80000000 then some .killProcess
  else if k = 0x00000000 then some .killThread
  else if k = 0x00030000 then some .trap
  else if k &&& 0xFFFF0000 = 0x00050000 then some (.returnErrno (k &&& 0x0000FFFF))
  else if k = 0x7FF00000 then some .trace
  else if k = 0x7FC00000 then some .userNotify
  else if k = 0x7FFC0000 then some .log
  else if k = 0x7FFF0000 then some .allow
  else none

/-- The loop of `simulate`, tools/bpf.py:85-136. (The counter of the program only grows, so that the number of rounds is at most that of the instructions: the first
argument is the rounds that are left.) -/
def simulateFrom (memory : List Nat) (instructions : List SockFilter) : Nat → Nat → Nat → Nat → Option (Nat × Action)
  | 0, _, _, _ => none
  | rounds + 1, pc, register, cost =>
    match instructions[pc]? with
    | none => none
    | some i =>
      if i.code = LD_W_ABS then
        match unpackNumber ((memory.drop i.k).take 4) with
        | none => none
        | some register => simulateFrom memory instructions rounds (pc + 1) register (cost + 1)
      else if i.code = JMP_JA then simulateFrom memory instructions rounds (pc + 1 + i.k) register (cost + 1)
      else if i.code = jmpCode .jeq then simulateFrom memory instructions rounds (pc + 1 + if register = i.k then i.jt else i.jf) register (cost + 1)
      else if i.code = jmpCode .jgt then simulateFrom memory instructions rounds (pc + 1 + if register > i.k then i.jt else i.jf) register (cost + 1)
      else if i.code = jmpCode .jge then simulateFrom memory instructions rounds (pc + 1 + if register ≥ i.k then i.jt else i.jf) register (cost + 1)
      else if i.code = jmpCode .jset then simulateFrom memory instructions rounds (pc + 1 + if register &&& i.k ≠ 0 then i.jt else i.jf) register (cost + 1)
      else if i.code = RET then (retAction i.k).map fun a => (cost + 1, a)
      else none

/-- `simulate`, tools/bpf.py:76-136. -/
def simulate (instructions : List SockFilter) (arch nr : Nat) (args : List Nat) : Option (Nat × Action) := do
  let memory ← inputMemory arch nr args
  simulateFrom memory instructions instructions.length 0 0 0

end Minijail.Offline
