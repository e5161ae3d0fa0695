/-! What signals do to a process (signal(7)): what it has blocked, what each signal does to it, and what becomes of both when it forks and when it executes a program. -/
set_option autoImplicit false
namespace Minijail.Sigs

/-- What a signal does to a process. Flags of handlers are left out. -/
inductive Does where
  | standard
  | ignored
  | caught
  deriving DecidableEq, Repr

/-- The signals a process has blocked, and what each does to it. -/
structure Sig where
  blocked : Nat → Bool
  does : Nat → Does

/-- fork(2): the child has what its parent has. -/
def Sig.fork (s : Sig) : Sig := s

/-- execve(2): what is caught does what it does by default; what is blocked or ignored stays so. -/
def Sig.exec (s : Sig) : Sig := { s with does := fun n => if s.does n = .caught then .standard else s.does n }

/-- The signals that wait for a process: for the thread, and for the process as a whole. -/
structure Waiting where
  thread : Nat → Bool
  process : Nat → Bool

/-- A signal waits. -/
def Waiting.has (w : Waiting) (n : Nat) : Prop := w.thread n = true ∨ w.process n = true

/-- The numbers of SIGPIPE, SIGTERM, SIGCHLD and SIGSYS (signal(7), most architectures). -/
def PIPE : Nat := 13
def TERM : Nat := 15
def CHLD : Nat := 17
def SYS : Nat := 31

end Minijail.Sigs
