/-!
Constant expressions of the policy language (minijail0.5 "Atom Syntax"; comment at util.c:320-334), as a relation
between texts and the values they denote.  Nothing here refers to the model.
-/
set_option autoImplicit false
namespace Minijail.Spec

/-- Value of a decimal, octal or hexadecimal digit. -/
def digit (c : Char) : Option Nat :=
  if '0' ≤ c ∧ c ≤ '9' then some (c.toNat - 48)
  else if 'a' ≤ c ∧ c ≤ 'f' then some (c.toNat - 97 + 10)
  else if 'A' ≤ c ∧ c ≤ 'F' then some (c.toNat - 65 + 10)
  else none

/-- `s` consists of digits of the given base and denotes `n`, most significant digit first. -/
inductive Digits (base : Nat) : List Char → Nat → Prop
  | nil : Digits base [] 0
  | snoc {s c n v} : Digits base s n → digit c = some v → v < base → Digits base (s ++ [c]) (n * base + v)

/-- An unsigned C integer literal without suffix: decimal, octal (leading 0) or hexadecimal (0x). -/
inductive Literal : List Char → Nat → Prop
  | dec {c s n} : c ≠ '0' → Digits 10 (c :: s) n → Literal (c :: s) n
  | oct {s n} : Digits 8 ('0' :: s) n → Literal ('0' :: s) n
  | hex {x s n} : x = 'x' ∨ x = 'X' → s ≠ [] → Digits 16 s n → Literal ('0' :: x :: s) n

/-- C white space. -/
def isWhite (c : Char) : Prop := c ∈ [' ', '\t', '\n', '\x0b', '\x0c', '\r']

/-- A number as C libraries read it: white space, an optional sign and a literal. -/
inductive Signed (lit : List Char → Nat → Prop) : List Char → Int → Prop
  | plain {ws s n} : (∀ c ∈ ws, isWhite c) → lit s n → Signed lit (ws ++ s) n
  | plus {ws s n} : (∀ c ∈ ws, isWhite c) → lit s n → Signed lit (ws ++ '+' :: s) n
  | minus {ws s n} : (∀ c ∈ ws, isWhite c) → lit s n → Signed lit (ws ++ '-' :: s) (-n)

/-- A number that fits a `bits`-bit word, signed or unsigned, and the word it denotes. -/
def Number (bits : Nat) (s : List Char) (v : Nat) : Prop :=
  ∃ i : Int, Signed Literal s i ∧ -2 ^ (bits - 1) ≤ i ∧ i < 2 ^ bits ∧ (v : Int) = i % 2 ^ bits

/-- A single constant: a name from the table, else a number. -/
def Single (named : List Char → Option Nat) (bits : Nat) (s : List Char) (v : Nat) : Prop :=
  s ≠ [] ∧ (named s = some v ∨ (named s = none ∧ Number bits s v))

/-- Every closing parenthesis has its opening one before it, and all are closed. -/
def Balanced (s : List Char) : Prop :=
  (∀ k, (s.take k).count ')' ≤ (s.take k).count '(') ∧ s.count '(' = s.count ')'

/-- `~` in front of a text, or nothing. -/
def tilde (neg : Bool) : List Char := if neg then ['~'] else []
/-- Bitwise complement of a `bits`-bit word, or the word itself. -/
def compl (bits : Nat) (neg : Bool) (v : Nat) : Nat := if neg then 2 ^ bits - 1 - v else v

/-- A token that is neither a list nor a group; the `~` before it (if any) is not part of it. -/
def PlainToken (neg : Bool) (tok : List Char) : Prop :=
  '|' ∉ tok ∧ tok.head? ≠ some '(' ∧ (neg = false → tok.head? ≠ some '~')

/-- Constant expressions: lists, separated by `|`, of plain constants and parenthesised expressions, each possibly
complemented with `~`. -/
inductive ConstExpr (named : List Char → Option Nat) (bits : Nat) : List Char → Nat → Prop
  | plain {neg tok v} : PlainToken neg tok → Single named bits tok v →
      ConstExpr named bits (tilde neg ++ tok) (compl bits neg v)
  | group {neg g v} : Balanced g → ConstExpr named bits g v →
      ConstExpr named bits (tilde neg ++ '(' :: g ++ [')']) (compl bits neg v)
  | plainOr {neg tok v rest u} : PlainToken neg tok → Single named bits tok v → ConstExpr named bits rest u →
      ConstExpr named bits (tilde neg ++ tok ++ '|' :: rest) (compl bits neg v ||| u)
  | groupOr {neg g v rest u} : Balanced g → ConstExpr named bits g v → ConstExpr named bits rest u →
      ConstExpr named bits (tilde neg ++ '(' :: g ++ ')' :: '|' :: rest) (compl bits neg v ||| u)
  /-- Not documented, but accepted: a `|` after a last plain constant. -/
  | trailingBar {neg tok v} : PlainToken neg tok → Single named bits tok v →
      ConstExpr named bits (tilde neg ++ tok ++ ['|']) (compl bits neg v)

end Minijail.Spec
