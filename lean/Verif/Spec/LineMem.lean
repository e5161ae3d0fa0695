import Verif.Model.LineMem
/-! What the buffer of a line holds, and what else is in memory. -/
set_option autoImplicit false
namespace Minijail.Spec
open LineMem

/-- A buffer as `getline` wants it: there is none, or at least so many bytes are allocated. -/
def LineRoom (m : LMem) (line : Option Nat) (n : Nat) : Prop := ∀ a, line = some a → ∃ o, m.cells a = some o ∧ n ≤ o.length

/-- A buffer that can be freed. -/
def LineFreeable (m : LMem) (line : Option Nat) : Prop := ∀ a, line = some a → m.cells a ≠ none

/-- The buffer holds this text and a NUL behind it. -/
def LineHolds (m : LMem) (line : Option Nat) (text : List Char) : Prop :=
  ∃ a junk, line = some a ∧ m.cells a = some (text.map some ++ some '\x00' :: junk)

/-- Memory in which addresses that have not been given out are not in use. -/
def LineOrdinary (m : LMem) : Prop := ∀ x, m.brk ≤ x → m.cells x = none

/-- What is allocated apart from the buffer. -/
def OtherMemory (m : LMem) (line : Option Nat) (x : Nat) : Option (List (Option Char)) := if line = some x then none else m.cells x

/-- There is always memory. -/
def MemoryLasts (luck : Luck) : Prop := ∀ i, luck.fails i = false

/-- A file that is empty or ends with a newline, as files of text do. -/
def EndsInNewline (s : List Char) : Prop := s = [] ∨ s.getLast? = some '\n'

end Minijail.Spec
