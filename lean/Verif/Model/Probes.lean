import Verif.Spec.SeccompKernel
/-! How the library finds out what the kernel knows of seccomp, and what it then asks of it. The requests go to a `SeccompKernel`. -/
set_option autoImplicit false
namespace Minijail.Probes
open Spec (SeccompKernel)

/-- The error number of a request, `none` if it succeeds, e.g. libminijail.c:1360, 1367. -/
def errnoOf (r : Int) : Option Nat := if r = 0 then none else some (-r).toNat

/-- `seccomp_filter_flags_available(SECCOMP_FILTER_FLAG_SPEC_ALLOW)`, system.c:602-606. -/
def specAvailable (k : SeccompKernel) : Bool := decide (k.seccomp false true true = 0) || decide (k.seccomp false true true ≠ -22)

/-- The answers that `seccomp_should_use_filters` gets, libminijail.c:1360, 1382-1383 and 1405-1406; `softfail` is `seccomp_can_softfail` (syscall_filter.c:27-33). -/
def envFor (k : SeccompKernel) (softfail : Bool) (env : ApiEnv) : ApiEnv :=
  { env with softfail, modeFilterErrno := errnoOf (k.prctl true), tsyncErrno := errnoOf (k.seccomp true false true), specAllow := specAvailable k }

/-- What the kernel answers to the request that installs the filter, libminijail.c:2704-2725: with a flag it is made by `seccomp` (syscall_wrapper.c:31-34), else by `prctl`. -/
def installAnswer (k : SeccompKernel) (tsync spec : Bool) : Int := if tsync || spec then k.seccomp tsync spec false else k.prctl false

/-- The requests for filters were answered by this kernel, libminijail.c:2704-2725. -/
def AnsweredBy (k : SeccompKernel) (t : List Ev) : Prop := ∀ tsync spec p r, (Sys.seccompFilter tsync spec (some p), r) ∈ t → r = installAnswer k tsync spec

/-- A system in which this kernel answers the requests for filters and signals can be set, libminijail.c:2679-2725. -/
structure Serves (k : SeccompKernel) (sys : Kernel) : Prop where
  filter : ∀ h tsync spec p, sys h (.seccompFilter tsync spec (some p)) = installAnswer k tsync spec
  handler : ∀ h, sys h .sigsysHandler = 0
  default : ∀ h, sys h .sigsysDefault = 0

end Minijail.Probes
