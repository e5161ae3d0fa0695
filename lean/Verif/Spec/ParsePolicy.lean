import Verif.Model.ParsePolicy
import Verif.Spec.Rust
import Verif.Spec.PolicyFits
/-! What parse_seccomp_policy is asked for, and what it should do. -/
set_option autoImplicit false
namespace Minijail.Spec

/-- A command as the usage message describes it: `[--dump[=<output>]] [<policy file>]`. -/
structure ToolCommand where
  dump : Option (Option (List Char))
  file : Option (List Char)

/-- Its words. -/
def ToolCommand.words (k : ToolCommand) : List (List Char) :=
  (match k.dump with
    | none => []
    | some none => ["--dump".toList]
    | some (some p) => ["--dump=".toList ++ p]) ++ k.file.toList

/-- The output has a name, and the policy file's name does not look like an option. -/
structure ToolCommand.Written (k : ToolCommand) : Prop where
  output : ∀ p, k.dump = some (some p) → p ≠ []
  file : ∀ f, k.file = some f → f = "-".toList ∨ f.head? ≠ some '-'

/-- "With no <policy file>, or when <policy file> is -, reads from standard input." -/
def ToolCommand.text (k : ToolCommand) (files : List Char → Option (List Char)) (stdin : List Char) : Option (List Char) :=
  match k.file with
  | none => some stdin
  | some f => if f = "-".toList then some stdin else files f

/-- The compiler's surroundings when the program calls it: blocked calls kill, nothing is logged, no call is allowed that the policy does not name. -/
def ToolEnv.compiler (env : ToolEnv) : Ctx := { env.cx with opts := ⟨.kill, false, false, env.allowDuplicates, false⟩ }

/-- There is room for a program of `n` instructions where the command sends it. -/
def ToolCommand.Room (k : ToolCommand) (env : ToolEnv) (n : Nat) : Prop :=
  ∀ dest, k.dump = some dest → ∃ room, env.room dest = some room ∧ 8 * n ≤ room

/-- The whole program where the command wants it. -/
def ToolCommand.output (k : ToolCommand) (prog : List Insn) : ToolEnd :=
  match k.dump with
  | none => .listed (printProgram prog)
  | some dest => .dumped dest (prog.flatMap insnBytes)

/-- What a call that no rule mentions leads to, when the library compiles the policy: it is logged and let through when logging is asked for (by the
jail, or by the build for every jail) and the build supports it; else it kills the thread, or with thread synchronisation the process. Where the kernel
does not know the wanted action, the call is trapped. -/
def blockedCall (b : FilterBuild) (logging tsync : Bool) : Action :=
  if b.debugLogging ∧ (logging ∨ b.defaultRetLog) then (if b.retLog then .log else .trap)
  else if tsync then (if b.retKillProcess then .killProcess else .trap)
  else .killThread

end Minijail.Spec
