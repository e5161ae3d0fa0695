/-! The part of JSON (RFC 8259) that the file of an architecture uses: objects whose members are whole numbers, strings, or objects of whole numbers. -/
set_option autoImplicit false
namespace Minijail.Spec.Json

/-- White space. -/
def Ws (s : List Char) : Prop := ∀ c ∈ s, c = ' ' ∨ c = '\n' ∨ c = '\r' ∨ c = '\t'

/-- The characters that stand for themselves in a string. -/
def PlainChar (c : Char) : Prop := c ≠ '"' ∧ c ≠ '\\' ∧ 32 ≤ c.toNat

/-- A string without escapes. -/
def StrText (s t : List Char) : Prop := (∀ c ∈ s, PlainChar c) ∧ t = '"' :: s ++ ['"']

/-- A whole number in decimal. -/
def NumText (i : Int) (t : List Char) : Prop := t = (if i < 0 then '-' :: Nat.toDigits 10 i.natAbs else Nat.toDigits 10 i.toNat)

/-- `"name" : value`, with white space around everything. -/
def Member {α : Type} (R : α → List Char → Prop) (k : List Char) (v : α) (t : List Char) : Prop :=
  ∃ w0 tk w1 w2 tv w3, Ws w0 ∧ StrText k tk ∧ Ws w1 ∧ Ws w2 ∧ R v tv ∧ Ws w3 ∧ t = w0 ++ tk ++ w1 ++ ':' :: w2 ++ tv ++ w3

/-- Members with commas between them. -/
inductive Members {α : Type} (R : α → List Char → Prop) : List (List Char × α) → List Char → Prop
  | one {k v t} : Member R k v t → Members R [(k, v)] t
  | more {k v t l ts} : Member R k v t → Members R l ts → Members R ((k, v) :: l) (t ++ ',' :: ts)

/-- An object. -/
inductive ObjText {α : Type} (R : α → List Char → Prop) : List (List Char × α) → List Char → Prop
  | empty {w} : Ws w → ObjText R [] ('{' :: w ++ ['}'])
  | members {l t} : Members R l t → ObjText R l ('{' :: t ++ ['}'])

/-- The values of the file. -/
inductive Val where
  | num (i : Int)
  | str (s : List Char)
  | table (l : List (List Char × Int))
  deriving DecidableEq, Repr

inductive ValText : Val → List Char → Prop
  | num {i t} : NumText i t → ValText (.num i) t
  | str {s t} : StrText s t → ValText (.str s) t
  | table {l t} : ObjText NumText l t → ValText (.table l) t

/-- The text of a file, with its members in order. -/
def FileText (l : List (List Char × Val)) (text : List Char) : Prop := ∃ w0 t w1, Ws w0 ∧ ObjText ValText l t ∧ Ws w1 ∧ text = w0 ++ t ++ w1

end Minijail.Spec.Json
