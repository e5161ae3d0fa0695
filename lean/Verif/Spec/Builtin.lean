import Verif.Spec.PolicyText
/-! The rules a filter has before those of the policy file. -/
set_option autoImplicit false
namespace Minijail.Spec

/-- Rules allowing the given system calls. Undocumented: a name that is no system call of the architecture allows the
number -1. -/
def allowNames (L : Lang) (names : List (List Char)) : List (BitVec 32 × Rule) :=
  names.map fun n => ((match L.syscall n with | some nr => BitVec.ofNat 32 nr | none => BitVec.ofInt 32 (-1)), .allow)

end Minijail.Spec
