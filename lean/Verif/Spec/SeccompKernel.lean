import Verif.Model.Enter
import Verif.Model.Api
/-! Kernels with and without seccomp filters: what they answer. -/
set_option autoImplicit false
namespace Minijail.Spec

/-- What a kernel knows: filters at all (since 3.5, if compiled in), the system call `seccomp` (since 3.17), its flag for all threads (TSYNC), and its flag that allows speculation (since 4.17). -/
structure SeccompKernel where
  filters : Bool
  call : Bool
  tsync : Bool
  spec : Bool
  deriving DecidableEq, Repr

/-- `prctl(PR_SET_SECCOMP, SECCOMP_MODE_FILTER, ...)` as man 2 seccomp has it: minus the error number. `null`: the program is a null pointer; otherwise it is one that can be installed. -/
def SeccompKernel.prctl (k : SeccompKernel) (null : Bool) : Int := if !k.filters then -22 else if null then -14 else 0

/-- `seccomp(SECCOMP_SET_MODE_FILTER, flags, ...)` likewise: a call or a flag that is not known comes before the program. -/
def SeccompKernel.seccomp (k : SeccompKernel) (tsync spec null : Bool) : Int :=
  if !k.call then -38
  else if !k.filters || (tsync && !k.tsync) || (spec && !k.spec) then -22
  else if null then -14 else 0

/-- The kernel can put a filter in force as it was asked for: for all threads, if that was asked for. -/
def Able (k : SeccompKernel) (tsync : Bool) : Prop := k.filters = true ∧ (tsync = true → k.call = true ∧ k.tsync = true)

/-- The filter of the jail is in force: the request for it was granted, with the flag for all threads if that was asked for. -/
def FilterInForce (j : Jail) (t : List Ev) : Prop := ∃ spec, (Sys.seccompFilter j.flags.seccomp_filter_tsync spec j.filter_prog, 0) ∈ t

/-- No filter at all is left in the jail. -/
def NoFilter (j : Jail) : Prop := j.flags.seccomp_filter = false ∧ j.filter_prog = none

end Minijail.Spec
