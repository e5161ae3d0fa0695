/-! How a kernel lists the actions it knows (seccomp(2), /proc/sys/kernel/seccomp/actions_avail). -/
set_option autoImplicit false
namespace Minijail.Spec

/-- The names of the actions. -/
def actionNames : List (List Char) :=
  ["kill_process".toList, "kill_thread".toList, "kill".toList, "trap".toList, "errno".toList, "user_notif".toList, "trace".toList, "log".toList, "allow".toList]

/-- The line: the names with a space between them. -/
def actionsLine : List (List Char) → List Char
  | [] => "\n".toList
  | [n] => n ++ "\n".toList
  | n :: rest => n ++ ' ' :: actionsLine rest

end Minijail.Spec
