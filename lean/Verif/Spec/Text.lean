/-! Splitting and trimming of texts, as the specifications use them. -/
set_option autoImplicit false
namespace Minijail.Spec

/-- Removes blanks at the start, and blanks and newlines at the end. -/
def trim (s : List Char) : List Char :=
  let blank (c : Char) : Bool := c == ' ' || c == '\t'
  let s := s.dropWhile blank
  (s.reverse.dropWhile (fun c => blank c || c == '\n')).reverse

/-- Puts a character in front of the first field. -/
def consHead (c : Char) : List (List Char) → List (List Char)
  | [] => [[c]]
  | f :: fs => (c :: f) :: fs

/-- The fields of `s` separated by `d`. -/
def fields (d : Char) : List Char → List (List Char)
  | [] => [[]]
  | c :: s => if c = d then [] :: fields d s else consHead c (fields d s)

/-- The non-empty fields of `s` separated by `d`. -/
def words (d : Char) (s : List Char) : List (List Char) := (fields d s).filter (· ≠ [])

/-- The fields of `s` separated by the two-character separator `ab`, leftmost separator first. -/
def fields2 (a b : Char) : List Char → List (List Char)
  | [] => [[]]
  | [c] => [[c]]
  | c :: c' :: s => if c = a ∧ c' = b then [] :: fields2 a b s else consHead c (fields2 a b (c' :: s))

/-- The lines of a file: a final newline does not start another line. -/
def physicalLines (s : List Char) : List (List Char) :=
  let fs := fields '\n' s
  if fs.getLast? = some [] then fs.dropLast else fs

/-- Joins a line that ends in a backslash with the next one by a blank. A continuation that runs into the end of the
file is dropped. -/
def joinLines : List (List Char) → List (List Char)
  | [] => []
  | l :: ls =>
    if l.getLast? = some '\\' then
      match joinLines ls with
      | [] => []
      | m :: ms => (l.dropLast ++ ' ' :: m) :: ms
    else l :: joinLines ls

/-- The logical lines of a file. -/
def logicalLines (s : List Char) : List (List Char) := joinLines (physicalLines s)

end Minijail.Spec

namespace Minijail.Spec

/-- The intended joining of lines: as `joinLines`, but nothing is dropped at the end of the file. -/
def joinAll : List (List Char) → List (List Char)
  | [] => []
  | l :: ls =>
    if l.getLast? = some '\\' then
      match joinAll ls with
      | [] => [l.dropLast]
      | m :: ms => (l.dropLast ++ ' ' :: m) :: ms
    else l :: joinAll ls

/-- `ts` are the fields of `s` when it is cut at the leftmost occurrence of `d`, then the rest likewise. -/
inductive SplitAt (d : List Char) : List Char → List (List Char) → Prop
  | last {s} : ¬ d <:+: s → SplitAt d s [s]
  | cut {a b ts} : (∀ k, k < a.length → ¬ d <+: (a ++ d ++ b).drop k) → SplitAt d b ts → SplitAt d (a ++ d ++ b) (a :: ts)

def isBlank (c : Char) : Prop := c = ' ' ∨ c = '\t'

/-- `t` is `s` without its leading blanks and its trailing blanks and newlines. -/
structure Stripped (s t : List Char) : Prop where
  parts : ∃ l r, s = l ++ t ++ r ∧ (∀ c ∈ l, isBlank c) ∧ (∀ c ∈ r, isBlank c ∨ c = '\n')
  first : ∀ c, t.head? = some c → ¬ isBlank c
  last : ∀ c, t.getLast? = some c → ¬ (isBlank c ∨ c = '\n')

end Minijail.Spec
