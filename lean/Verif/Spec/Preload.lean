import Verif.Spec.Env
/-! What the program should find in its environment. -/
set_option autoImplicit false
namespace Minijail.Spec

/-- The variable through which the configuration pipe is announced. -/
def fdVar : List Char := "__MINIJAIL_FD".toList
/-- The variable that names the libraries to preload, separated by spaces. -/
def preloadVar : List Char := "LD_PRELOAD".toList
/-- The variable that names the policy file, for messages. -/
def policyVar : List Char := "SECCOMP_POLICY_PATH".toList

/-- The caller's environment, with the name of the policy file if there is one, and without the variable for the pipe if the library was used. -/
def intended (env : List (List Char)) (policy : Option (List Char)) (preloaded : Bool) (x : List Char) : Option (List Char) :=
  if preloaded ∧ x = fdVar then none else if x = policyVar ∧ policy.isSome then policy else envValue env x

end Minijail.Spec
