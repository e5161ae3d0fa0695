import Verif.Model.Log
/-! Which messages are reported where, and what the lines of a text are. -/
set_option autoImplicit false
namespace Minijail.Spec
open Logs Blocked

/-- Where messages go: to the system's log, or to a descriptor those at least as urgent as a priority (a smaller number is more urgent). -/
inductive LogPlace where
  | syslog
  | fd (n : Int) (least : Int)

/-- The messages that a process which does `acts` reports, in order, with the place. -/
inductive Reported : LogPlace → List LogAct → List (Sink × Int × List Char) → Prop
  | done {place} : Reported place [] []
  | chosen {place fd least rest out} : Reported (.fd fd least) rest out → Reported place (.logToFd fd least :: rest) out
  | toSyslog {p text rest out} : Reported .syslog rest out → Reported .syslog (.log p text :: rest) ((.syslog, p, text) :: out)
  | toFd {fd least p text rest out} : p ≤ least → Reported (.fd fd least) rest out → Reported (.fd fd least) (.log p text :: rest) ((.fd fd, p, text) :: out)
  | tooLow {fd least p text rest out} : least < p → Reported (.fd fd least) rest out → Reported (.fd fd least) (.log p text :: rest) out
  /-- The last message of a process that gives up is reported whatever its priority; nothing follows. -/
  | lastSyslog {p text rest} : Reported .syslog (.fatal p text :: rest) [(.syslog, p, text)]
  | lastFd {fd least p text rest} : Reported (.fd fd least) (.fatal p text :: rest) [(.fd fd, p, text)]

/-- The texts of the messages that go to file `i` of a process with the descriptors `t`. -/
def textsFor (t : FdTable) (i : Nat) (out : List (Sink × Int × List Char)) : List (List Char) :=
  out.filterMap fun x => match x.1 with
    | .syslog => none
    | .fd n => if 0 ≤ n ∧ (t n.toNat).map (·.file) = some i then some x.2.2 else none

/-- The text in which every one of some lines is ended by a newline. -/
def asLines (l : List (List Char)) : List Char := l.flatMap fun x => x ++ ['\n']

/-- A text on one line. -/
def OneLine (text : List Char) : Prop := '\n' ∉ text

/-- The effects of several processes, in an order that keeps those of each. -/
inductive Mixed {α : Type} : List α → List α → List α → Prop
  | nil : Mixed [] [] []
  | left {x a b c} : Mixed a b c → Mixed (x :: a) b (x :: c)
  | right {x a b c} : Mixed a b c → Mixed a (x :: b) (x :: c)

/-- The C library writes the whole text. -/
def Whole (pieces : List Char → List (List Char)) : Prop := ∀ text, (pieces text).flatten = text

/-- The configuration is that place. -/
def atPlace : LogPlace → Logging → Prop
  | .syslog, cfg => cfg.logger = .syslog
  | .fd n least, cfg => cfg.logger = .fd n ∧ cfg.minPriority = least

end Minijail.Spec
