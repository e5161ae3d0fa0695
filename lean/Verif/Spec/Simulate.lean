import Verif.Model.BpfMachine
import Verif.Spec.Offline
/-! The system call that a simulation is about, and the programs it is meant for. -/
set_option autoImplicit false
namespace Minijail.Spec
open Offline

/-- A system call made from instruction 0; arguments that are not given are 0. -/
def callOf (arch nr : Nat) (args : List Nat) : SeccompData :=
  ⟨BitVec.ofNat 32 nr, BitVec.ofNat 32 arch, 0, BitVec.ofNat 64 (args.getD 0 0), BitVec.ofNat 64 (args.getD 1 0), BitVec.ofNat 64 (args.getD 2 0),
    BitVec.ofNat 64 (args.getD 3 0), BitVec.ofNat 64 (args.getD 4 0), BitVec.ofNat 64 (args.getD 5 0)⟩

/-- Numbers that a system call can have. -/
structure Call (arch nr : Nat) (args : List Nat) : Prop where
  arch : arch < 2 ^ 32
  nr : nr < 2 ^ 32
  args : ∀ x ∈ args, x < 2 ^ 64

/-- Loads, jumps and returns: no scratch memory. -/
def Simple (l : List SockFilter) : Prop := ∀ i ∈ l, i.code ∈ [0x20, 0x05, 0x15, 0x25, 0x35, 0x45, 0x06]

/-- Loads are of the words that the kernel shows to a filter: at multiples of four, within 64 bytes. -/
def Aligned (l : List SockFilter) : Prop := ∀ i ∈ l, i.code = 0x20 → i.k % 4 = 0 ∧ i.k < 64

/-- The instructions that are executed for a system call, by their positions: from position `pc`, with `a` in the accumulator. -/
inductive Visits (d : SeccompData) (l : List SockFilter) : (pc : Nat) → (a : BitVec 32) → List Nat → Prop
  | ret {pc : Nat} {a : BitVec 32} {i : SockFilter} : l[pc]? = some i → i.code = 0x06 → Visits d l pc a [pc]
  | load {pc : Nat} {a w : BitVec 32} {i : SockFilter} {v : List Nat} : l[pc]? = some i → i.code = 0x20 → d.load false i.k = some w →
      Visits d l (pc + 1) w v → Visits d l pc a (pc :: v)
  | always {pc : Nat} {a : BitVec 32} {i : SockFilter} {v : List Nat} : l[pc]? = some i → i.code = 0x05 →
      Visits d l (pc + 1 + i.k) a v → Visits d l pc a (pc :: v)
  | yes {pc : Nat} {a : BitVec 32} {i : SockFilter} {v : List Nat} (op : JOp) : l[pc]? = some i → i.code = jmpCode op → jumpTest op a.toNat i.k →
      Visits d l (pc + 1 + i.jt) a v → Visits d l pc a (pc :: v)
  | no {pc : Nat} {a : BitVec 32} {i : SockFilter} {v : List Nat} (op : JOp) : l[pc]? = some i → i.code = jmpCode op → ¬ jumpTest op a.toNat i.k →
      Visits d l (pc + 1 + i.jf) a v → Visits d l pc a (pc :: v)

end Minijail.Spec
