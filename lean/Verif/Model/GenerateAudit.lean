import Verif.Model.Generate
/-!
The other half of the tool that makes policies: tools/generate_seccomp_policy.py, for logs of the audit subsystem, the guess which files are logs, and the checks of
the command line. (The library auparse, which reads the logs, is outside: `AuditLog` is what it finds in a file. `--verbose`, `--policy` and how `argparse` reads
the command line are not modelled. Exceptions and `parser.error` are `none`.)
-/
set_option autoImplicit false
namespace Minijail.Generate
open Offline

/-- A record as auparse shows it: its fields in their order, each with `get_field_name`, `get_field_str` and `interpret_field`.
tools/generate_seccomp_policy.py:252-257, 281, 305. -/
abbrev AuditRecord := List (CStr × CStr × CStr)

/-- A log: its events, each with its records. tools/generate_seccomp_policy.py:225, 259-262. -/
abbrev AuditLog := List (List AuditRecord)

/-- `_find_field_in_current_record`, tools/generate_seccomp_policy.py:251-257: the first field of this name, with what `interpret_field` then says about it. -/
def findField (r : AuditRecord) (name : CStr) : Option (CStr × CStr) := (r.find? fun f => f.1 == name).map Prod.snd

/-- `PRIVATE_ARM_SYSCALLS`, tools/generate_seccomp_policy.py:60-66. -/
def privateArmNumbers : List (Nat × CStr) :=
  [(983041, "ARM_breakpoint".toList), (983042, "ARM_cacheflush".toList), (983043, "ARM_usr26".toList), (983044, "ARM_usr32".toList), (983045, "ARM_set_tls".toList)]

/-- `unknown_syscall_re.match` and its group as a number, tools/generate_seccomp_policy.py:223, 287-289. -/
def unknownSyscall (s : CStr) : Option Nat :=
  let p := "unknown-syscall(".toList
  if p.isPrefixOf s then
    let ds := (s.drop p.length).takeWhile (isDigitIn 10)
    match (s.drop p.length).drop ds.length with
    | ')' :: _ => if ds = [] then none else some (digitsVal 10 ds)
    | _ => none
  else none

/-- The name of the system call that auparse shows as `syscall`, tools/generate_seccomp_policy.py:283-290. -/
def auditName (syscall : CStr) : CStr :=
  match unknownSyscall syscall with
  | some n => ((privateArmNumbers.find? fun e => e.1 == n).map Prod.snd).getD syscall
  | none => syscall

/-- One record, tools/generate_seccomp_policy.py:263-308. A field that is missing or empty is an exception. -/
def parseRecord (comm : CStr) (st : Seen) (r : AuditRecord) : Option Seen :=
  let type := (findField r "type".toList).map Prod.fst
  if (type ≠ some "SECCOMP".toList ∧ type ≠ some "SYSCALL".toList) ∨ (findField r "comm".toList).map Prod.fst ≠ some ('"' :: comm ++ ['"']) then some st
  else
    match findField r "syscall".toList with
    | none => none
    | some f =>
      if f.1 = [] then none
      else
        let syscall := auditName f.2
        match inspectedArg syscall with
        | some i =>
          if type = some "SECCOMP".toList then some st
          else
            match findField r ("a".toList ++ Nat.toDigits 10 i) with
            | none => none
            | some a => if a.1 = [] then none else some ⟨count syscall st.syscalls, addValue syscall a.2 st.values⟩
        | none => if type = some "SYSCALL".toList then some st else some ⟨count syscall st.syscalls, st.values⟩

/-- The search of auparse, tools/generate_seccomp_policy.py:231-237: some record of the event has the type and the name. -/
def searched (comm : CStr) (event : List AuditRecord) : Bool :=
  event.any fun r => r.any (fun f => f.1 == "type".toList && (f.2.1 == "SECCOMP".toList || f.2.1 == "SYSCALL".toList)) &&
    r.any fun f => f.1 == "comm".toList && f.2.1 == '"' :: comm ++ ['"']

/-- `parse_audit_log`, tools/generate_seccomp_policy.py:220-309. A log whose first event has no record, or that has no event, is an exception (225-229). -/
def parseAuditLog (comm : CStr) (st : Seen) (log : AuditLog) : Option Seen :=
  match log with
  | [] => none
  | [] :: _ => none
  | _ => (log.filter (searched comm)).foldlM (fun st event => event.foldlM (parseRecord comm) st) st

/-- The end of `strace_line_re`: `\) += ` somewhere in the text, tools/generate_seccomp_policy.py:88. -/
def callEnd : CStr → Bool
  | [] => false
  | c :: s => (c = ')' && s.head? = some ' ' && "= ".toList.isPrefixOf (s.dropWhile (· = ' '))) || callEnd s

/-- `strace_line_re` in the rest of a line. `after` tells whether what stands before it ends with `[a-z]+[0-9]*`. tools/generate_seccomp_policy.py:88. -/
def callFrom (after : Bool) : CStr → Bool
  | [] => false
  | c :: s =>
    (after && c = '(' && callEnd (s.drop 1)) ||
    callFrom (decide ('a' ≤ c ∧ c ≤ 'z') || (after && c.isDigit)) s

/-- `strace_line_re.search`, tools/generate_seccomp_policy.py:88, 96. -/
def looksStrace (line : CStr) : Bool := callFrom false line

/-- `audit_line_re.search`, tools/generate_seccomp_policy.py:89, 99. -/
def looksAudit (line : CStr) : Bool := contains "type=SYSCALL".toList line || contains "type=SECCOMP".toList line

/-- Whether a file is taken for a log, by its lines. tools/generate_seccomp_policy.py:95-105. -/
def isLog : List CStr → Bool
  | [] => false
  | line :: lines => if looksStrace line then false else if looksAudit line then true else isLog lines

/-- A file of the command line: its name, its text, and what auparse finds in it. tools/generate_seccomp_policy.py:91-94, 225. -/
abbrev InputFile := CStr × CStr × AuditLog

/-- `parse_args`, tools/generate_seccomp_policy.py:112-162, with `BucketInputFiles` (84-107): the traces and the logs. `files` has `none` for a file that does not
exist, `auparse` tells whether the library is there, `comm` is the value of `--audit-comm`. -/
def parseArgs (auparse : Bool) (comm : Option CStr) (files : List (Option InputFile)) : Option (List InputFile × List InputFile) := do
  let files ← files.mapM id
  let logs := files.filter fun f => isLog (pyLines f.2.1)
  let traces := files.filter fun f => !isLog (pyLines f.2.1)
  if logs ≠ [] ∧ auparse = false then none
  else if logs ≠ [] ∧ (comm = none ∨ comm = some []) then none
  else if logs = [] ∧ comm ≠ none ∧ comm ≠ some [] then none
  else return (traces, logs)

/-- `main`, tools/generate_seccomp_policy.py:312-391. -/
def generateMain (year : CStr) (order : List CStr → List CStr) (frequency auparse : Bool) (comm : Option CStr) (files : List (Option InputFile)) :
    Option (CStr × Option CStr) := do
  let x ← parseArgs auparse comm files
  let st ← x.1.foldlM (fun st f => parseTraceFile st (f.1, f.2.1)) ⟨[], fun _ => []⟩
  let st ← x.2.foldlM (fun st f => parseAuditLog (comm.getD []) st f.2.2) st
  return policyOf year order frequency st

end Minijail.Generate
