import Verif.Spec.Common
/-!
Traces of strace(1), and which system calls they tell of. Nothing here refers to a model.
-/
set_option autoImplicit false
namespace Minijail.Spec

/-- Who made the call: nothing, a number and blanks (`strace -f -o`), or something in brackets (`strace -f`). -/
inductive TraceTag : List Char → Prop
  | none : TraceTag []
  | pid {s b} : s ≠ [] → (∀ c ∈ s, c.isDigit = true) → b ≠ [] → Blanks b → TraceTag (s ++ b)
  | brackets {s b} : ']' ∉ s → Blanks b → TraceTag ('[' :: s ++ ']' :: b)

/-- What follows the arguments: the end, a parenthesis, or `<unfinished ...>`. -/
inductive TraceTail : List Char → Prop
  | nil : TraceTail []
  | close {s} : TraceTail (')' :: s)
  | angle {s} : TraceTail ('<' :: s)

/-- A line that tells of a call: the name that strace gives the system call, and its arguments. (A string that is an argument counts up to the first parenthesis
that closes or angle bracket, and as many arguments if there are commas in it.) -/
inductive TraceRecord : List Char → List Char → List (List Char) → Prop
  | mk {b tag name args tail} : Blanks b → TraceTag tag → Word name → args ≠ [] → (∀ a ∈ args, ∀ c ∈ a, c ≠ ',' ∧ c ≠ ')' ∧ c ≠ '<') → TraceTail tail →
      TraceRecord (b ++ tag ++ name ++ '(' :: List.intercalate [','] args ++ tail) name (args.map trim)

/-- A line that tells of no call: `+++ exited with 0 +++`, `--- SIGCHLD {...} ---`, `<... read resumed>`, a blank line. -/
inductive TraceNoise : List Char → Prop
  | blank {b tag} : Blanks b → TraceTag tag → TraceNoise (b ++ tag)
  | mark {b tag c s} : Blanks b → TraceTag tag → c ∈ ['+', '-', '<'] → TraceNoise (b ++ tag ++ c :: s)

/-- The name of a file tells that it is the trace of a 32-bit x86 machine, where calls that deal with sockets are made through `socketcall`. -/
def SocketTrace (filename : List Char) : Prop :=
  (∃ a b, filename = a ++ "i386".toList ++ b) ∨ (∃ a b, filename = a ++ "x86".toList ++ b) ∧ ¬∃ a b, filename = a ++ "64".toList ++ b

/-- The calls that were system calls of their own only later. -/
def socketNames : List (List Char) :=
  ["accept", "bind", "connect", "getpeername", "getsockname", "getsockopt", "listen", "recv", "recvfrom", "recvmsg", "send", "sendmsg", "sendto", "setsockopt",
   "shutdown", "socket", "socketpair"].map String.toList

/-- The system calls of ARM that strace writes without their prefix. -/
def armNames : List (List Char) := ["breakpoint", "cacheflush", "usr26", "usr32", "set_tls"].map String.toList

/-- The system call that strace calls `name`. -/
inductive StraceName (filename name : List Char) : List Char → Prop
  | socket : SocketTrace filename → name ∈ socketNames → StraceName filename name "socketcall".toList
  | arm : ¬(SocketTrace filename ∧ name ∈ socketNames) → name ∈ armNames → StraceName filename name ("ARM_".toList ++ name)
  | plain : ¬(SocketTrace filename ∧ name ∈ socketNames) → name ∉ armNames → StraceName filename name name

/-- The arguments that a policy made of a trace looks at. -/
def lookedAt : List (List Char × Nat) :=
  [("socket".toList, 0), ("ioctl".toList, 1), ("prctl".toList, 0), ("mmap".toList, 2), ("mmap2".toList, 2), ("mprotect".toList, 2)]

/-- The system calls that map memory. -/
def mapping : List (List Char) := ["mmap".toList, "mmap2".toList, "mprotect".toList]

/-- The system calls that every program needs. -/
def basicNames : List (List Char) := ["restart_syscall", "exit", "exit_group", "rt_sigreturn"].map String.toList

/-- A line of a file tells of a system call and its arguments. -/
def Tells (files : List (List Char × List Char)) (syscall : List Char) (args : List (List Char)) : Prop :=
  ∃ file ∈ files, ∃ line ∈ physicalLines file.2, ∃ name, TraceRecord line name args ∧ StraceName file.1 name syscall

/-- The call `d` can be the one that was told of: it has the number, and the values of the arguments that are written as constants. -/
def MayBe (T : CommonTables) (syscall : List Char) (args : List (List Char)) (d : SeccompData) : Prop :=
  (∃ nr, T.syscall syscall = some nr ∧ d.nr.toNat = nr) ∧ ∀ (i : Nat) a v, args[i]? = some a → CommonConst T a v → argValue T.bits d i = v

/-- Traces that the tool can read: each line tells of a known system call or of none; arguments that are looked at are there and are constants. -/
structure GoodTraces (T : CommonTables) (files : List (List Char × List Char)) : Prop where
  noReturns : ∀ file ∈ files, '\r' ∉ file.2
  lines : ∀ file ∈ files, ∀ line ∈ physicalLines file.2, TraceNoise line ∨ ∃ name args, TraceRecord line name args
  known : ∀ syscall args, Tells files syscall args → (T.syscall syscall).isSome
  written : ∀ syscall args i, Tells files syscall args → (syscall, i) ∈ lookedAt → ∃ a v, args[i]? = some a ∧ CommonConst T a v

/-- What holds of the tables: system calls have names that the policy language can write, those that every program needs are there, and the protections have their
values. -/
structure TraceTables (T : CommonTables) : Prop where
  names : ∀ n, (T.syscall n).isSome → Word n ∧ ¬Reserved n
  basic : ∀ n ∈ basicNames, (T.syscall n).isSome
  exec : T.constant "PROT_EXEC".toList = some 4
  write : T.constant "PROT_WRITE".toList = some 2
  wide : 3 < T.bits
  apart : ∀ n m k, T.syscall n = some k → T.syscall m = some k → n = m
  small : ∀ n k, T.syscall n = some k → k < 2 ^ 32

/-- Memory that can be written and executed is asked for by name: if a protection has both bits then both names are in it. (`told` says which calls are told of.) -/
def ByName (T : CommonTables) (told : List Char → List (List Char) → Prop) : Prop :=
  ∀ syscall args a v, syscall ∈ mapping → told syscall args → args[2]? = some a → CommonConst T a v →
    v.testBit 1 = true → v.testBit 2 = true → "PROT_EXEC".toList ∈ fields '|' a ∧ "PROT_WRITE".toList ∈ fields '|' a

/-- Some mapping that is told of has both names in its protection. -/
def NamesBoth (told : List Char → List (List Char) → Prop) (syscall : List Char) : Prop :=
  ∃ args a, told syscall args ∧ args[2]? = some a ∧ "PROT_EXEC".toList ∈ fields '|' a ∧ "PROT_WRITE".toList ∈ fields '|' a

/-- What a policy made of what is told allows of the system call `syscall`: everything if no argument is looked at; memory that is not both writable and executable,
if no mapping that is told of names both; else the values that are told. -/
def Covered (T : CommonTables) (told : List Char → List (List Char) → Prop) (syscall : List Char) (d : SeccompData) : Prop :=
  ∀ i, (syscall, i) ∈ lookedAt →
    (syscall ∈ mapping ∧ ¬NamesBoth told syscall ∧ ¬((argValue T.bits d 2).testBit 1 = true ∧ (argValue T.bits d 2).testBit 2 = true)) ∨
    (¬(syscall ∈ mapping ∧ ¬NamesBoth told syscall) ∧ ∃ args a, told syscall args ∧ args[i]? = some a ∧ CommonConst T a (argValue T.bits d i))

/-- What a policy made of what is told allows. -/
def AllowedBy (T : CommonTables) (told : List Char → List (List Char) → Prop) (d : SeccompData) : Prop :=
  ∃ syscall, T.syscall syscall = some d.nr.toNat ∧ (syscall ∈ basicNames ∨ ∃ args, told syscall args) ∧ Covered T told syscall d

/-- What a policy made of traces allows. -/
def AllowedByTraces (T : CommonTables) (files : List (List Char × List Char)) (d : SeccompData) : Prop := AllowedBy T (Tells files) d

end Minijail.Spec
