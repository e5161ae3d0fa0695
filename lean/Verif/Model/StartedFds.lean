import Verif.Model.RunParent
import Verif.Model.Rust
/-! The descriptors of a program that was started, from those of the calling process. -/
set_option autoImplicit false
namespace Minijail

/-- Keeping a descriptor of a namespace, libminijail.c:3921-3924; what `minijail_preserve_fd` returns is ignored. -/
def keepNs (on : Bool) (fd : BitVec 32) (j : Jail) : Jail :=
  if on then
    match preserveFd j fd fd with
    | .ret _ j => j
    | .die => j
  else j

/-- The descriptors that the process redirects, libminijail.c:3921-3926, 3942. -/
def startedMaps (j : Jail) : List FdMap :=
  if j.flags.close_open_fds then preservedMaps (keepNs j.flags.enter_net j.netns_fd (keepNs j.flags.enter_vfs j.mountns_fd j)) else preservedMaps j

/-- The descriptor of the program, libminijail.c:3934, 3950; `none` if it is given by a path. -/
def startedElf (p : Started) : Option Nat :=
  match p.exec with
  | some (_, d, _, _) => if d ≥ 0 then some d.toNat else none
  | none => none

/-- The descriptors that the program of a started process finds, libminijail.c:3896-4035. `dir` and `entries`: what reading /proc/self/fd yields. -/
def startedFds (env : FdEnv) (dir : Option (Nat × OpenFile)) (entries : List (Option Nat)) (p : Started) : Option ChildFds :=
  if p.jail.flags.close_open_fds then childFdsAtExec env p.fds dir entries (startedMaps p.jail) p.pipes (startedElf p)
  else childFdsSetup env p.fds (startedMaps p.jail) p.pipes (startedElf p)

end Minijail
