import Verif.Model.RunParent
/-! What the functions that start a program promise their caller, by the comments in libminijail.h:502-632. -/
set_option autoImplicit false
namespace Minijail
namespace Spec

/-- Where the number of the process is stored. -/
def pidTo : RunCall → Option Nat
  | .runPid _ _ p => p
  | .runPidPipes _ _ p _ _ _ => p
  | .runEnvPidPipes _ _ _ p _ _ _ => p
  | .runFdEnvPidPipes _ _ _ p _ _ _ => p
  | .runPidPipesNoPreload _ _ p _ _ _ => p
  | .runEnvPidPipesNoPreload _ _ _ p _ _ _ => p
  | _ => none

/-- Where a descriptor that allows writing to the program's standard input is stored. -/
def stdinTo : RunCall → Option Nat
  | .runPipe _ _ i => i
  | .runPidPipes _ _ _ i _ _ => i
  | .runEnvPidPipes _ _ _ _ i _ _ => i
  | .runFdEnvPidPipes _ _ _ _ i _ _ => i
  | .runPidPipesNoPreload _ _ _ i _ _ => i
  | .runEnvPidPipesNoPreload _ _ _ _ i _ _ => i
  | _ => none

/-- Where a descriptor that allows reading from the program's standard output is stored. -/
def stdoutTo : RunCall → Option Nat
  | .runPidPipes _ _ _ _ o _ => o
  | .runEnvPidPipes _ _ _ _ _ o _ => o
  | .runFdEnvPidPipes _ _ _ _ _ o _ => o
  | .runPidPipesNoPreload _ _ _ _ o _ => o
  | .runEnvPidPipesNoPreload _ _ _ _ _ o _ => o
  | _ => none

/-- Where a descriptor that allows reading from the program's standard error is stored. -/
def stderrTo : RunCall → Option Nat
  | .runPidPipes _ _ _ _ _ e => e
  | .runEnvPidPipes _ _ _ _ _ _ e => e
  | .runFdEnvPidPipes _ _ _ _ _ _ e => e
  | .runPidPipesNoPreload _ _ _ _ _ e => e
  | .runEnvPidPipesNoPreload _ _ _ _ _ _ e => e
  | _ => none

/-- The addresses at which results are stored. -/
def resultsTo (c : RunCall) : List Nat := [pidTo c, stdinTo c, stdoutTo c, stderrTo c].filterMap id

/-- Whether the library is preloaded into the program. -/
def preloads : RunCall → Bool
  | .runNoPreload .. | .runPidPipesNoPreload .. | .runEnvPidPipesNoPreload .. | .fork => false
  | _ => true

/-- What the process executes: a path or a descriptor, the arguments, and the environment if one is given; `none`: it returns to the caller. -/
def executes : RunCall → Option ((CStr ⊕ Int) × List CStr × Option Env)
  | .run f a => some (.inl f, a, none)
  | .runEnv f a v => some (.inl f, a, v)
  | .runPid f a _ => some (.inl f, a, none)
  | .runPipe f a _ => some (.inl f, a, none)
  | .runPidPipes f a _ _ _ _ => some (.inl f, a, none)
  | .runEnvPidPipes f a v _ _ _ _ => some (.inl f, a, v)
  | .runFdEnvPidPipes d a v _ _ _ _ => some (.inr d, a, v)
  | .runNoPreload f a => some (.inl f, a, none)
  | .runPidPipesNoPreload f a _ _ _ _ => some (.inl f, a, none)
  | .runEnvPidPipesNoPreload f a v _ _ _ _ => some (.inl f, a, v)
  | .fork => none

/-- What the system does with descriptors: new ones get numbers that are not in use, and a new pipe or ruleset is a file that nobody has. -/
structure KernelFds (env : RunEnv) : Prop where
  numbers : ∀ t p, env.pipe t = some p → t p.r = none ∧ t p.w = none ∧ p.r ≠ p.w
  files : ∀ t p, env.pipe t = some p → p.fr ≠ p.fw ∧ ∀ n f, t n = some f → f.file ≠ p.fr ∧ f.file ≠ p.fw
  ruleset : ∀ t, 0 ≤ (env.landlock t).ruleset.toInt → t (env.landlock t).ruleset.toNat = none ∧ ∀ n f, t n = some f → f.file ≠ env.rulesetFile

/-- A descriptor of a namespace that is to be entered. It belongs to the jail, which opened it (libminijail.c:790, 870). -/
def NamespaceFd (j : Jail) (m : Nat) : Prop :=
  (j.flags.enter_vfs = true ∧ 0 ≤ j.mountns_fd.toInt ∧ m = j.mountns_fd.toNat) ∨
  (j.flags.enter_net = true ∧ 0 ≤ j.netns_fd.toInt ∧ m = j.netns_fd.toNat)

/-- The numbers and files that the caller keeps of the pipes to standard input, from standard output and from standard error. -/
def callerEnds (i o e : Option NewPipe) : List (Nat × Nat) :=
  (i.map fun p => (p.w, p.fw)).toList ++ (o.map fun p => (p.r, p.fr)).toList ++ (e.map fun p => (p.r, p.fr)).toList

end Spec
end Minijail
