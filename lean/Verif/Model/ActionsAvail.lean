import Verif.Model.ParsePolicy
/-! system.c:531-586: which actions the kernel knows. -/
set_option autoImplicit false
namespace Minijail

/-- `strstr(hay, needle) != NULL`, system.c:564. -/
def hasSubstring (needle : CStr) : CStr → Bool
  | [] => needle.isEmpty
  | c :: cs => needle.isPrefixOf (c :: cs) || hasSubstring needle cs

/-- `seccomp_action_is_available`, system.c:531-565; `line` is the first line of /proc/sys/kernel/seccomp/actions_avail, `none`
if it cannot be opened or read. -/
def actionAvailable (android : Bool) (line : Option CStr) (wanted : CStr) : Bool :=
  if android then false
  else match line with
    | none => false
    | some l => hasSubstring wanted l

/-- The two probes, `seccomp_ret_log_available` and `seccomp_ret_kill_process_available`, system.c:567-586, beside what the build
decides. The static variables that keep the first answer are not modelled: the file does not change while the kernel runs. -/
def probed (b : FilterBuild) (android : Bool) (line : Option CStr) : FilterBuild :=
  { b with
    retLog := actionAvailable android line "log".toList
    retKillProcess := actionAvailable android line "kill_process".toList }

end Minijail
