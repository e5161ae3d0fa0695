import Verif.Model.Jail
/-! The file `status` of a thread (proc_pid_status(5)), and valid UTF-8 (RFC 3629). -/
set_option autoImplicit false
namespace Minijail.Threads
open Minijail

/-- A thread: its name, any bytes; whether it is a kernel thread, if the kernel tells (since Linux 6.11); and the other lines of the file. -/
structure Thread where
  name : BStr
  before : List BStr
  kthread : Option Bool
  after : List BStr

/-- The kernel writes a line feed in a name as `\n` and a backslash as `\\`. -/
def escaped (name : BStr) : BStr := name.flatMap fun c => if c = 10#8 then [92#8, 110#8] else if c = 92#8 then [92#8, 92#8] else [c]

/-- The line about kernel threads. -/
def Thread.kthreadLine (t : Thread) : List BStr :=
  match t.kthread with
  | none => []
  | some k => [bstr "Kthread:\t" ++ bstr (if k then "1" else "0")]

/-- The lines of the file. -/
def Thread.lines (t : Thread) : List BStr := (bstr "Name:\t" ++ escaped t.name) :: (t.before ++ (t.kthreadLine ++ t.after))

/-- The file. -/
def Thread.text (t : Thread) : BStr := t.lines.flatMap fun l => l ++ [10#8]

/-- The other lines are lines, and say other things. -/
def Thread.Proper (t : Thread) : Prop := ∀ l ∈ t.before ++ t.after, 10#8 ∉ l ∧ ¬ bstr "Kthread:" <+: l

/-- The ranges of the bytes that follow a first byte, RFC 3629 section 4. -/
def following (a : Nat) : Option (List (Nat × Nat)) :=
  if a < 0x80 then some []
  else if a < 0xC2 then none
  else if a < 0xE0 then some [(0x80, 0xBF)]
  else if a = 0xE0 then some [(0xA0, 0xBF), (0x80, 0xBF)]
  else if a = 0xED then some [(0x80, 0x9F), (0x80, 0xBF)]
  else if a < 0xF0 then some [(0x80, 0xBF), (0x80, 0xBF)]
  else if a = 0xF0 then some [(0x90, 0xBF), (0x80, 0xBF), (0x80, 0xBF)]
  else if a < 0xF4 then some [(0x80, 0xBF), (0x80, 0xBF), (0x80, 0xBF)]
  else if a = 0xF4 then some [(0x80, 0x8F), (0x80, 0xBF), (0x80, 0xBF)]
  else none

/-- Valid UTF-8, from the middle of a character whose missing bytes are in these ranges. -/
def utf8From : List (Nat × Nat) → BStr → Bool
  | n, [] => n.isEmpty
  | [], a :: l =>
    match following a.toNat with
    | none => false
    | some n => utf8From n l
  | r :: n, a :: l => decide (r.1 ≤ a.toNat ∧ a.toNat ≤ r.2) && utf8From n l

/-- Valid UTF-8. -/
def Utf8 (s : BStr) : Prop := utf8From [] s = true

end Minijail.Threads
