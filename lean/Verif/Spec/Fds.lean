import Verif.Model.Fds
/-! Vocabulary for descriptor tables. -/
set_option autoImplicit false
namespace Minijail

namespace Spec

/-- Logging may open descriptors; it leaves the open ones alone. -/
def LogSafe (env : FdEnv) : Prop := ∀ t n, t n ≠ none → env.warn t n = t n

/-- Descriptor `n` of table `t` refers to the same open file as descriptor `m` of table `t0`. -/
def SameFile (t : FdTable) (n : Nat) (t0 : FdTable) (m : Nat) : Prop :=
  ∃ f g, t n = some f ∧ t0 m = some g ∧ f.file = g.file

/-- The descriptor is open and survives `execve`. -/
def Inherited (t : FdTable) (n : Nat) : Prop := ∃ f, t n = some f ∧ f.cloexec = false

end Spec

end Minijail
