import Verif.Model.Wait
/-! How processes end and what the system tells their parent (wait(2), _exit(2)). -/
set_option autoImplicit false
namespace Minijail.Spec
open Minijail

/-- How a process ends: it exits with a code, or a signal (1 to 64) kills it, perhaps leaving a core file. -/
inductive Fate where
  | exited (code : BitVec 8)
  | killed (signal : Nat) (core : Bool) (h : 1 ≤ signal ∧ signal ≤ 64)
  deriving DecidableEq

/-- The status word of the end of a process. -/
def word : Fate → BitVec 32
  | .exited c => BitVec.ofNat 32 (c.toNat * 256)
  | .killed s core _ => BitVec.ofNat 32 (s + if core then 128 else 0)

/-- A process that calls `_exit` exits with the lowest eight bits of the argument. -/
def exitFate (arg : Int) : Fate := .exited (BitVec.ofInt 8 arg)

/-- A child as its parent sees it. -/
inductive Child where
  | running
  | ended
  | reaped
  deriving DecidableEq

/-- `Answers f c l c'`: for a child that ends (or will end) as `f` says and is in state `c`, the calls of `waitpid` for it may be answered by `l`
one after the other, and leave it in state `c'`: 4 is EINTR, 10 is ECHILD. -/
inductive Answers (f : Fate) : Child → List WaitAns → Child → Prop
  | nil (c : Child) : Answers f c [] c
  | interrupted (c c' : Child) (l : List WaitAns) (h : Answers f c l c') : Answers f c (.err 4 :: l) c'
  | ends (c' : Child) (l : List WaitAns) (h : Answers f .ended l c') : Answers f .running l c'
  | reaps (c' : Child) (l : List WaitAns) (h : Answers f .reaped l c') : Answers f .ended (.status (word f) :: l) c'
  | none (c' : Child) (l : List WaitAns) (h : Answers f .reaped l c') : Answers f .reaped (.err 10 :: l) c'

/-- What a caller is told about the end of a process. -/
def report : Fate → Int
  | .exited c => c.toNat
  | .killed s _ _ => if s = 31 then 253 else 128 + s

/-- What an `init` should exit with, having seen the end of the program it runs: the code of the program, or 254 if a signal killed it. -/
def initReport : Fate → Int
  | .exited c => c.toNat
  | .killed _ _ _ => 254

/-- The children of an `init` die one after the other; each is reaped with its status, and in the end there are none left. -/
def deaths (l : List (Int × Fate)) : List InitEv := l.map (fun x => .reaped x.1 (word x.2)) ++ [.failed]

end Minijail.Spec
