import Verif.Spec.CtxLang
import Verif.Model.OfflineParse
/-! The generated tables of system calls and constants, and the file that describes them to the offline compiler. -/
set_option autoImplicit false
namespace Minijail.Spec

/-- A name that occurs more than once has the same value each time. (The value of an entry is what its name stands for in C.) -/
def OneValue {α : Type} (l : List (List Char × α)) : Prop := ∀ k v v', (k, v) ∈ l → (k, v') ∈ l → v = v'

/-- What the offline compiler took from a file is what minijail was compiled with: the machine, the system calls, and the constants, of which some may be missing. -/
structure Describes (cx : Ctx) (nr : Nat) (a : Offline.Arch) : Prop where
  machine : nr = cx.t.archNr.toNat
  bits : a.bits = cx.t.longBits
  syscalls : ∀ n, a.syscalls n = cx.lang.syscall n
  constants : ∀ w i, a.constants w = some i → ∃ v : Nat, cx.lang.named w = some v ∧ (v : Int) = i % 2 ^ cx.t.longBits

/-- Letters, digits, underscores. -/
def NameLike (s : List Char) : Prop := ∀ c ∈ s, c.isAlphanum = true ∨ c = '_'

/-- A compiler prints the table of system calls. -/
def PrintsCalls (cx : Ctx) (printed : List (List Char × Option Int)) : Prop := printed = cx.syscalls.map fun e => (e.1, some (e.2 : Int))

/-- A compiler prints the table of constants: each value as a signed number, or as something else if it is the address of a string. -/
inductive PrintsConstants {w : Nat} : List (List Char × BitVec w) → List (List Char × Option Int) → Prop
  | nil : PrintsConstants [] []
  | number {n v l p} : PrintsConstants l p → PrintsConstants ((n, v) :: l) ((n, some v.toInt) :: p)
  | address {n v l p} : PrintsConstants l p → PrintsConstants ((n, v) :: l) ((n, none) :: p)

/-- The machines that have a name. -/
def machineNames : List (Int × List Char) :=
  [(0xC000003E, "x86_64".toList), (0x40000003, "x86".toList), (0xC00000B7, "arm64".toList), (0x40000028, "arm".toList), (0xC00000F3, "riscv64".toList)]

end Minijail.Spec
