import Verif.Model.Rust
import Verif.Spec.Api
import Verif.Spec.Fds
import Verif.Spec.Wait
/-! What the methods of the Rust interface are for. -/
set_option autoImplicit false
namespace Minijail.Spec
open Minijail

/-- An instruction in memory: two bytes of code, the two jump offsets, four bytes of operand, lowest byte first. -/
def insnBytes (i : Insn) : Bytes :=
  [BitVec.ofNat 8 i.code.toNat, BitVec.ofNat 8 (i.code.toNat / 256), i.jt, i.jf, BitVec.ofNat 8 i.k.toNat,
    BitVec.ofNat 8 (i.k.toNat / 256), BitVec.ofNat 8 (i.k.toNat / 65536), BitVec.ofNat 8 (i.k.toNat / 16777216)]

/-- The call of the C library that a method stands for: the one of its name with the same arguments; a mount without data has empty data,
a compiled program is given by its bytes or by a file that holds them. -/
def StandsFor (env : RustEnv) : RustMethod → Call → Prop
  | .changeUid u, c => c = .changeUid u
  | .changeGid g, c => c = .changeGid g
  | .changeUser u, c => c = .changeUser u
  | .changeGroup g, c => c = .changeGroup g
  | .setSupplementaryGids l, c => c = .setSupplementaryGids l
  | .keepSupplementaryGids, c => c = .keepSupplementaryGids
  | .setRlimit k x y, c => c = .rlimit k x y
  | .useSeccomp, c => c = .useSeccomp
  | .noNewPrivs, c => c = .noNewPrivs
  | .useSeccompFilter, c => c = .useSeccompFilter
  | .setSeccompFilterTsync, c => c = .setSeccompFilterTsync
  | .parseSeccompProgram p, c => ∃ b prog, env.read p = some b ∧ prog.flatMap insnBytes = b ∧ c = .setSeccompFilters prog
  | .parseSeccompBytes b, c => ∃ prog, prog.flatMap insnBytes = b ∧ c = .setSeccompFilters prog
  | .parseSeccompFilters p, c => c = .parseSeccompFilters p
  | .logSeccompFilterFailures, c => c = .logSeccompFilterFailures
  | .useCaps m, c => c = .useCaps m
  | .capbsetDrop m, c => c = .capbsetDrop m
  | .setAmbientCaps, c => c = .setAmbientCaps
  | .resetSignalMask, c => c = .resetSignalMask
  | .runAsInit, c => c = .runAsInit
  | .namespacePids, c => c = .namespacePids
  | .namespaceUser, c => c = .namespaceUser
  | .namespaceUserDisableSetgroups, c => c = .namespaceUserDisableSetgroups
  | .namespaceVfs, c => c = .namespaceVfs
  | .newSessionKeyring, c => c = .newSessionKeyring
  | .skipRemountPrivate, c => c = .skipRemountPrivate
  | .namespaceIpc, c => c = .namespaceIpc
  | .namespaceNet, c => c = .namespaceNet
  | .namespaceCgroups, c => c = .namespaceCgroups
  | .remountProcReadonly, c => c = .remountProcReadonly
  | .setRemountMode m, c => c = .remountMode m
  | .uidmap m, c => c = .uidmap m
  | .gidmap m, c => c = .gidmap m
  | .inheritUsergroups, c => c = .inheritUsergroups
  | .useAltSyscall t, c => c = .useAltSyscall t
  | .enterChroot d, c => c = .enterChroot d
  | .enterPivotRoot d, c => c = .enterPivotRoot d
  | .mount s d t f, c => c = .mountWithData s d t f (some [])
  | .mountWithData s d t f x, c => c = .mountWithData s d t f (some x)
  | .mountDev, c => c = .mountDev
  | .mountTmp, c => c = .mountTmp
  | .mountTmpSize s, c => c = .mountTmpSize s
  | .mountBind s d w, c => c = .bind s d w

/-- A user or group that a method names exists. -/
def Known (env : RustEnv) : RustMethod → Prop
  | .changeUser u => ∃ ids, env.api.userDb u = .ok ids
  | .changeGroup g => ∃ id, env.api.groupDb g = .ok id
  | _ => True

/-- Looking up a user or group that does not exist gives an error other than 0, and compiled policies fit `sock_fprog`. -/
def Sound (env : RustEnv) : Prop :=
  (∀ s rc, env.api.userDb s = .error rc → rc ≠ 0) ∧ (∀ s rc, env.api.groupDb s = .error rc → rc ≠ 0) ∧
  ∀ s, ∀ p ∈ env.api.compiled s, p.length ≤ 65535

/-- The descriptors that a program started with the list `fds` of pairs is to have: the second number of each pair, being the file of the
first, and 0, 1, 2 as `/dev/null` where the list does not mention them. -/
def GivenFd (fds : List (BitVec 32 × BitVec 32)) (null : Nat) (src dst : Nat) : Prop :=
  (∃ p ∈ fds, src = p.1.toNat ∧ dst = p.2.toNat) ∨ (dst ≤ 2 ∧ src = null ∧ ∀ p ∈ fds, p.2.toNat ≠ dst)

/-- What a caller is to be told about the end of a program. -/
def TellsEnd : Fate → RustWaited → Prop
  | .exited code, w => if code = 0#8 then w = .ok else w = .err (.returnCode code.toNat)
  | .killed signal _ _, w => if signal = 31 then ∃ n, w = .err (.seccompViolation n) else w = .err (.killed signal)

/-- The exit codes that stand for something else: 126 and 127 for a program that could not be executed, and 129 to 192 for a signal. -/
def Taken (code : BitVec 8) : Prop := code.toNat = 126 ∨ code.toNat = 127 ∨ (129 ≤ code.toNat ∧ code.toNat ≤ 192)

end Minijail.Spec
