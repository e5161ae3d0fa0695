import Verif.Model.BpfMachine
/-!
When the kernel accepts a classic BPF program as a seccomp filter: `seccomp_check_filter` (kernel/seccomp.c),
`bpf_check_classic` and `check_load_and_stores` (net/core/filter.c), restricted to the opcodes of `BpfMachine` (the
kernel permits more opcodes, so what is accepted here is accepted there).
-/
set_option autoImplicit false
namespace Minijail.Spec

/-- The checks on a single instruction `i` at position `pc` of a program of `len` instructions. -/
def insnAccepted (len pc : Nat) (i : Insn) : Prop :=
  match i.code.toNat with
  | 0x20 => i.k.toNat % 4 = 0 ∧ i.k.toNat < 64 -- BPF_LD | BPF_W | BPF_ABS: aligned, inside struct seccomp_data
  | 0x60 => i.k.toNat < 16 -- BPF_LD | BPF_MEM
  | 0x02 => i.k.toNat < 16 -- BPF_ST
  | 0x05 => i.k.toNat < len - pc - 1 -- BPF_JMP | BPF_JA
  | 0x15 | 0x25 | 0x35 | 0x45 => pc + i.jt.toNat + 1 < len ∧ pc + i.jf.toNat + 1 < len
  | 0x06 => True -- BPF_RET | BPF_K
  | _ => False

/-- `masks[n] &= memvalid`. -/
def andAt (memvalid : BitVec 16) (n : Nat) (masks : Nat → BitVec 16) : Nat → BitVec 16 :=
  fun m => if m = n then masks m &&& memvalid else masks m

/-- `check_load_and_stores`: no scratch word is read before it was written. `memvalid` are the words known to be
written, `masks n` the words known at the jumps seen so far to the `n`-th instruction from here. -/
def loadsAccepted : List Insn → (memvalid : BitVec 16) → (masks : Nat → BitVec 16) → Prop
  | [], _, _ => True
  | i :: rest, memvalid, masks =>
    let memvalid := memvalid &&& masks 0
    let masks' := fun n => masks (n + 1)
    match i.code.toNat with
    | 0x02 => loadsAccepted rest (memvalid ||| (1#16 <<< i.k.toNat)) masks'
    | 0x60 => memvalid.getLsbD i.k.toNat = true ∧ loadsAccepted rest memvalid masks'
    | 0x05 => loadsAccepted rest 0xffff#16 (andAt memvalid i.k.toNat masks')
    | 0x15 | 0x25 | 0x35 | 0x45 => loadsAccepted rest 0xffff#16 (andAt memvalid i.jt.toNat (andAt memvalid i.jf.toNat masks'))
    | _ => loadsAccepted rest memvalid masks'

/-- The kernel accepts the program. -/
structure KernelAccepts (p : List Insn) : Prop where
  nonempty : p ≠ []
  /-- `BPF_MAXINSNS` -/
  short : p.length ≤ 4096
  insns : ∀ pc i, p[pc]? = some i → insnAccepted p.length pc i
  endsInReturn : ∃ i, p.getLast? = some i ∧ i.code.toNat = 0x06
  loads : loadsAccepted p 0#16 (fun _ => 0xffff#16)

end Minijail.Spec
