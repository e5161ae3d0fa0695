import Verif.Spec.Trace
import Mathlib.Data.List.Forall2
/-!
Logs of the audit subsystem, and which system calls they tell of. Nothing here refers to a model.

A record of a log has fields. A field has a name, something that is written there, and a meaning that the library auparse gives to it: `syscall=16` is `ioctl`,
`a1=5401` is `TCGETS`.
-/
set_option autoImplicit false
namespace Minijail.Spec

/-- A record: its fields in their order, each with its name, what is written there, and the meaning. -/
abbrev LogRecord := List (List Char × List Char × List Char)

/-- The first field of this name has this written in it, with this meaning. -/
def HasField (r : LogRecord) (name written meaning : List Char) : Prop :=
  ∃ before after, r = before ++ (name, written, meaning) :: after ∧ ∀ f ∈ before, f.1 ≠ name

/-- The record is of this type and of a process of this name. -/
def RecordOf (type comm : List Char) (r : LogRecord) : Prop :=
  (∃ m, HasField r "type".toList type m) ∧ ∃ m, HasField r "comm".toList ('"' :: comm ++ ['"']) m

/-- System calls of ARM that auparse has no names for. -/
def armNumbers : List (Nat × List Char) :=
  [(0xf0001, "ARM_breakpoint".toList), (0xf0002, "ARM_cacheflush".toList), (0xf0003, "ARM_usr26".toList), (0xf0004, "ARM_usr32".toList), (0xf0005, "ARM_set_tls".toList)]

/-- The text begins with `unknown-syscall(`, a number, and `)`. -/
def UnknownSyscall (s : List Char) (n : Nat) : Prop := ∃ ds rest, ds ≠ [] ∧ Digits 10 ds n ∧ s = "unknown-syscall(".toList ++ ds ++ ')' :: rest

/-- The system call that auparse calls `meaning`. -/
inductive AuditName (meaning : List Char) : List Char → Prop
  | arm {n name} : UnknownSyscall meaning n → (n, name) ∈ armNumbers → AuditName meaning name
  | plain : (∀ n name, UnknownSyscall meaning n → (n, name) ∉ armNumbers) → AuditName meaning meaning

/-- A record names the system call `syscall`. -/
def NamesCall (r : LogRecord) (syscall : List Char) : Prop := ∃ w m, HasField r "syscall".toList w m ∧ AuditName m syscall

/-- The names of the fields that have arguments. -/
def argFields : List (List Char) := ["a0".toList, "a1".toList, "a2".toList, "a3".toList]

/-- The arguments of the call: the meanings of the fields `a0` to `a3`, nothing where there is no such field. -/
def ArgsOf (r : LogRecord) (args : List (List Char)) : Prop :=
  List.Forall₂ (fun name arg => (∃ w, HasField r name w arg) ∨ (∀ w m, ¬HasField r name w m) ∧ arg = []) argFields args

/-- A record tells of a call of a process of this name: calls with arguments that are looked at are told of by records of type `SYSCALL`, others by records of type
`SECCOMP`, which have no arguments. -/
inductive RecordTells (comm : List Char) (r : LogRecord) : List Char → List (List Char) → Prop
  | bare {syscall} : RecordOf "SECCOMP".toList comm r → NamesCall r syscall → (∀ i, (syscall, i) ∉ lookedAt) → RecordTells comm r syscall []
  | full {syscall i args} : RecordOf "SYSCALL".toList comm r → NamesCall r syscall → (syscall, i) ∈ lookedAt → ArgsOf r args → RecordTells comm r syscall args

/-- Logs, which are lists of events, which are lists of records, tell of a call. -/
def LogTells (comm : List Char) (logs : List (List (List LogRecord))) (syscall : List Char) (args : List (List Char)) : Prop :=
  ∃ log ∈ logs, ∃ event ∈ log, ∃ r ∈ event, RecordTells comm r syscall args

/-- Logs that the tool can read: there is something in each; records of the process have their system call, which is known; arguments that are looked at are there and
are constants. -/
structure GoodLogs (T : CommonTables) (comm : List Char) (logs : List (List (List LogRecord))) : Prop where
  begun : ∀ log ∈ logs, ∃ r event rest, log = (r :: event) :: rest
  calls : ∀ log ∈ logs, ∀ event ∈ log, ∀ r ∈ event, RecordOf "SECCOMP".toList comm r ∨ RecordOf "SYSCALL".toList comm r → ∃ w m, w ≠ [] ∧ HasField r "syscall".toList w m
  args : ∀ log ∈ logs, ∀ event ∈ log, ∀ r ∈ event, ∀ (syscall : List Char) (i : Nat) (name : List Char), RecordOf "SYSCALL".toList comm r → NamesCall r syscall →
    (syscall, i) ∈ lookedAt → argFields[i]? = some name → ∃ w m v, w ≠ [] ∧ HasField r name w m ∧ CommonConst T m v
  known : ∀ syscall args, LogTells comm logs syscall args → (T.syscall syscall).isSome

/-- A line that looks like strace's: letters, digits, something in parentheses, ` = `. -/
def StraceLook (line : List Char) : Prop :=
  ∃ (before name digits inside : List Char) (n : Nat) (rest : List Char), line = before ++ name ++ digits ++ '(' :: inside ++ ')' :: List.replicate (n + 1) ' ' ++ "= ".toList ++ rest ∧
    name ≠ [] ∧ (∀ c ∈ name, 'a' ≤ c ∧ c ≤ 'z') ∧ (∀ c ∈ digits, c.isDigit = true) ∧ inside ≠ []

/-- A line that looks like a record of a log. -/
def AuditLook (line : List Char) : Prop := ∃ before type rest, line = before ++ "type=".toList ++ type ++ rest ∧ (type = "SYSCALL".toList ∨ type = "SECCOMP".toList)

/-- A text that looks like a log: the first line that looks like something looks like a record. -/
def LogLook (text : List Char) : Prop :=
  ∃ before line after, physicalLines text = before ++ line :: after ∧ AuditLook line ∧ ¬StraceLook line ∧ ∀ l ∈ before, ¬AuditLook l ∧ ¬StraceLook l

/-- Files, each with its name, its text, and the log that auparse finds in it, tell of a call: those that look like logs as logs, the others as traces of strace. -/
def FilesTell (comm : List Char) (files : List (List Char × List Char × List (List LogRecord))) (syscall : List Char) (args : List (List Char)) : Prop :=
  ∃ f ∈ files, (¬LogLook f.2.1 ∧ Tells [(f.1, f.2.1)] syscall args) ∨ (LogLook f.2.1 ∧ LogTells comm [f.2.2] syscall args)

/-- Files that the tool can read. -/
structure GoodFiles (T : CommonTables) (comm : List Char) (files : List (List Char × List Char × List (List LogRecord))) : Prop where
  noReturns : ∀ f ∈ files, '\r' ∉ f.2.1
  traces : ∀ f ∈ files, ¬LogLook f.2.1 → GoodTraces T [(f.1, f.2.1)]
  logs : ∀ f ∈ files, LogLook f.2.1 → GoodLogs T comm [f.2.2]

/-- The command line is in order: with logs, the library is there and `--audit-comm` names a process; without logs, it does not. -/
def LogOptions (auparse : Bool) (name : Option (List Char)) (comm : List Char) (files : List (List Char × List Char × List (List LogRecord))) : Prop :=
  ((∃ f ∈ files, LogLook f.2.1) ∧ auparse = true ∧ comm ≠ [] ∧ name = some comm) ∨ ((∀ f ∈ files, ¬LogLook f.2.1) ∧ name = none)

/-- How the kernel writes the name of a process into a record: it keeps fifteen characters, and puts them between quotes (names with blanks, quotes or other
characters than ASCII are written as hexadecimal digits, without quotes). -/
def commWritten (process : List Char) : List Char := '"' :: process.take 15 ++ ['"']

end Minijail.Spec
