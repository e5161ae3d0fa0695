import Verif.Model.RustStart
import Verif.Spec.Rust
import Verif.Spec.RunCall
/-! What the methods of the Rust interface that start programs promise, by their comments in rust/minijail/src/lib.rs:856-921, 957-984. -/
set_option autoImplicit false
namespace Minijail.Spec
open Minijail

/-- The program a method is to start: a path or a descriptor. -/
def programOf : RustStart → BStr ⊕ BitVec 32
  | .run p .. | .runRemap p .. | .runCommand p .. => .inl p
  | .runFd d .. | .runFdRemap d .. => .inr d

/-- Its arguments. -/
def argsOf : RustStart → List BStr
  | .run _ _ a | .runRemap _ _ a | .runFd _ _ a | .runFdRemap _ _ a | .runCommand _ _ a _ => a

/-- Its environment, if one is given. -/
def envOf : RustStart → Option (List BStr)
  | .runCommand _ _ _ v => v
  | _ => none

/-- The descriptors it is to have: for each a number of the caller, and the number under which the program is to find it. -/
def fdsOf : RustStart → List (BitVec 32 × BitVec 32)
  | .run _ l _ | .runFd _ l _ | .runCommand _ l _ _ => l.map fun n => (n, n)
  | .runRemap _ l _ | .runFdRemap _ l _ => l

/-- The jail was made with methods of the Rust interface, and was not used to start anything before. -/
def MadeInRust (j : Jail) : Prop := ∃ ms, rustCalls minijailNew ms = some j

/-- Opening `/dev/null` gives a number that is not in use, an `int` (and a file, which may be known to others). -/
def NullFds (env : RustStartEnv) : Prop := ∀ t n f, env.null t = some (n, f) → t n = none ∧ n < 2 ^ 31

/-- The program is to have the open file `file` under the number `dst`: it is in the list, or it is `/dev/null` for a standard stream which the list does not mention. `t` are
the descriptors of the caller. -/
def HasFd (fds : List (BitVec 32 × BitVec 32)) (t : FdTable) (null : Nat) (dst file : Nat) : Prop :=
  (∃ p ∈ fds, dst = p.2.toNat ∧ (t p.1.toNat).map (·.file) = some file) ∨ (dst ≤ 2 ∧ (∀ p ∈ fds, p.2.toNat ≠ dst) ∧ file = null)

/-- A process has finitely many descriptors: their numbers, and those of the files, are below some bound. -/
def Bounded (t : FdTable) : Prop := ∃ N, ∀ x f, t x = some f → x < N ∧ f.file < N

/-- The bytes of a string as characters. -/
def chars (s : BStr) : List Char := s.map fun b => Char.ofNat b.toNat

end Minijail.Spec
