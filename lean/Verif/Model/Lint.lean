import Verif.Model.OfflineParse
/-! tools/seccomp_policy_lint.py. Texts are ASCII; `re.match` is transcribed for the three expressions of the tool. -/
set_option autoImplicit false
namespace Minijail.Lint
open Minijail.Offline

/-- `DANGEROUS_SYSCALLS`, tools/seccomp_policy_lint.py:14-35. -/
def dangerousSyscalls : List CStr :=
  ["clone", "mount", "setns", "kill", "execve", "execveat", "getrandom", "bpf", "socket", "ptrace", "swapon", "swapoff", "prctl", "ioctl",
    "mmap", "mmap2", "mprotect"].map String.toList

/-- `SYSCALL_SAFE_RULES.get(syscall, ())`, tools/seccomp_policy_lint.py:38-56, 139. -/
def syscallSafeRules (syscall : CStr) : List CStr :=
  if syscall = "getrandom".toList then ["arg2 in ~GRND_RANDOM".toList]
  else if syscall = "mmap".toList ∨ syscall = "mmap2".toList ∨ syscall = "mprotect".toList then
    ["arg2 == PROT_READ || arg2 == PROT_NONE".toList, "arg2 in ~PROT_EXEC".toList, "arg2 in ~PROT_EXEC || arg2 in ~PROT_WRITE".toList]
  else []

/-- `GLOBAL_SAFE_RULES`, tools/seccomp_policy_lint.py:58-63. -/
def globalSafeRules : List CStr := ["kill", "kill-process", "kill-thread", "return 1"].map String.toList

/-- `re.match(r"^\s*#", line)`, tools/seccomp_policy_lint.py:120. -/
def isCommentLine (line : CStr) : Bool := (line.dropWhile isPySpace).head? == some '#'

/-- `re.match(r"^\s*$", line)`, tools/seccomp_policy_lint.py:122. -/
def isEmptyLine (line : CStr) : Bool := line.all isPySpace

/-- `re.match(r"^\s*(\w*)\s*:\s*(.*)\s*", line)` and its two groups, tools/seccomp_policy_lint.py:126-129. `line` has no newline, so that `.*` takes
all that is left. -/
def ruleLine (line : CStr) : Option (CStr × CStr) :=
  let s := line.dropWhile isPySpace
  match (s.dropWhile isPyWord).dropWhile isPySpace with
  | ':' :: rest => some (s.takeWhile isPyWord, rest.dropWhile isPySpace)
  | _ => none

/-- An element of `errors`, tools/seccomp_policy_lint.py:130-153; the number of the line and the system call are its `err_prefix`. -/
inductive LintError where
  | duplicate (line : Nat) (syscall : CStr)
  | useRules (line : Nat) (syscall : CStr)
  | needsComment (line : Nat) (syscall : CStr)
  deriving DecidableEq, Repr

/-- The variables of the loop, tools/seccomp_policy_lint.py:113-117. -/
structure LintState where
  found : List CStr := []
  errors : List LintError := []
  dangerous : Bool := false
  prevComment : Bool := false
  deriving DecidableEq, Repr

/-- The body of the loop, tools/seccomp_policy_lint.py:120-158. -/
def lintLine (dangerous : List CStr) (num : Nat) (line : CStr) (st : LintState) : LintState :=
  if isCommentLine line then { st with prevComment := true }
  else if isEmptyLine line then st
  else
    match ruleLine line with
    | none => st
    | some m =>
      if m.1 ∈ st.found then { st with errors := st.errors ++ [.duplicate num m.1], prevComment := false }
      else
        let st := { st with found := m.1 :: st.found }
        if m.1 ∈ dangerous then
          let st := { st with dangerous := true }
          if st.prevComment = false then
            if m.2 ∈ globalSafeRules ∨ m.2 ∈ syscallSafeRules m.1 then { st with prevComment := false }
            else if syscallSafeRules m.1 ≠ [] then { st with errors := st.errors ++ [.useRules num m.1], prevComment := false }
            else { st with errors := st.errors ++ [.needsComment num m.1], prevComment := false }
          else { st with prevComment := false }
        else { st with prevComment := false }

/-- `for line_num, line in enumerate(check_file)`, tools/seccomp_policy_lint.py:119. -/
def lintLines (dangerous : List CStr) : Nat → List CStr → LintState → LintState
  | _, [], st => st
  | num, line :: lines, st => lintLines dangerous (num + 1) lines (lintLine dangerous num line st)

/-- `check_seccomp_policy`, tools/seccomp_policy_lint.py:103-175: whether the message says that there are dangerous system calls, and the errors. -/
def checkSeccompPolicy (text : CStr) (dangerous : List CStr) : Bool × List LintError :=
  let st := lintLines dangerous 0 (pyLines text) {}
  (st.dangerous, st.errors)

/-- `main`, tools/seccomp_policy_lint.py:178-198: the status and what `check_seccomp_policy` returned. The option `--denylist` is parsed (80-84) and
not looked at. `dangerous` is the option `--dangerous-syscalls`, split at the commas. -/
def lintMain (_denylist : Bool) (dangerous : List CStr) (text : CStr) : Nat × Bool × List LintError :=
  let check := checkSeccompPolicy text dangerous
  (if check.2 ≠ [] then 1 else 0, check)

end Minijail.Lint
