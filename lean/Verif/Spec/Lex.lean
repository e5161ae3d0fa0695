import Verif.Model.OfflineParse
import Verif.Spec.Text
import Verif.Spec.PolicyText
/-!
How the offline compiler cuts a text into tokens: the regular expressions of tools/parser.py:20-66, with the way in which Python tries them. Of the model only the
types of tokens are used.
-/
set_option autoImplicit false
namespace Minijail.Spec
open Minijail.Offline

/-! ### Regular expressions -/

/-- A place in a line: the character before it, if any, and the text behind it. -/
abbrev Place := Option Char × List Char

/-- `n` characters further. -/
def Place.advance (p : Place) (n : Nat) : Place := ((p.2.take n).getLast?.or p.1, p.2.drop n)

/-- Letters, digits and the underscore: `\w` of ASCII. -/
def wordChar (c : Char) : Bool := c.isAlpha || c.isDigit || c == '_'

/-- `\s` of ASCII. -/
def spaceChar (c : Char) : Bool := c == ' ' || (9 ≤ c.toNat && c.toNat ≤ 13) || (28 ≤ c.toNat && c.toNat ≤ 31)

/-- Regular expressions, as far as the table needs them. -/
inductive Re where
  /-- The text itself. -/
  | text (w : List Char)
  /-- A character of a class. -/
  | one (p : Char → Bool)
  /-- `[…]*`: as many characters of a class as there are, or fewer. -/
  | many (p : Char → Bool)
  | seq (a b : Re)
  /-- `a|b`. -/
  | alt (a b : Re)
  /-- `a?`. -/
  | opt (a : Re)
  /-- `\b`: there is a word on one side only. -/
  | edge
  /-- `$`: the end, or in front of the newline at the end. -/
  | stop

/-- The lengths of the matches at a place, in the order in which Python tries them. -/
def Re.lengths : Re → Place → List Nat
  | .text w, p => if w <+: p.2 then [w.length] else []
  | .one q, p => if (p.2.head?.map q).getD false then [1] else []
  | .many q, p => (List.range ((p.2.takeWhile q).length + 1)).reverse
  | .seq a b, p => (a.lengths p).flatMap fun n => (b.lengths (p.advance n)).map (n + ·)
  | .alt a b, p => a.lengths p ++ b.lengths p
  | .opt a, p => a.lengths p ++ [0]
  | .edge, p => if (p.1.map wordChar).getD false ≠ (p.2.head?.map wordChar).getD false then [0] else []
  | .stop, p => if p.2 = [] ∨ p.2 = ['\n'] then [0] else []

/-- The length of the match that `match` of Python finds at a place. -/
def Re.match (r : Re) (p : Place) : Option Nat := (r.lengths p).head?

@[inherit_doc] local infixr:70 " ⬝ " => Re.seq
@[inherit_doc] local infixr:60 " ∣ " => Re.alt

/-- `[…]+`. -/
def Re.some (q : Char → Bool) : Re := .one q ⬝ .many q

/-- A text. -/
def Re.lit (s : String) : Re := .text s.toList

/-- A whole word. -/
def Re.word (s : String) : Re := .edge ⬝ .lit s ⬝ .edge

/-- `[0-9a-fA-F]`. -/
def hexChar (c : Char) : Bool := c.isDigit || ('a' ≤ c && c ≤ 'f') || ('A' ≤ c && c ≤ 'F')

/-- `[0-7]`. -/
def octalChar (c : Char) : Bool := '0' ≤ c && c ≤ '7'

/-- `-?0[xX][0-9a-fA-F]+`. -/
def hexRe : Re := .opt (.lit "-") ⬝ .lit "0" ⬝ .one (fun c => c == 'x' || c == 'X') ⬝ .some hexChar

/-- `-?0[0-7]+`. -/
def octalRe : Re := .opt (.lit "-") ⬝ .lit "0" ⬝ .some octalChar

/-- `-?[0-9]+`. -/
def decimalRe : Re := .opt (.lit "-") ⬝ .some Char.isDigit

/-- The table, in its order. Comments, blanks and a backslash at the end of a line give no token. -/
def tokenTable : List (Option TokType × Re) :=
  [(none, .lit "#" ⬝ .many (· != '\n') ⬝ .stop),
   (none, .some spaceChar),
   (none, .lit "\\" ⬝ .stop),
   (some .default, .lit "@default" ⬝ .edge),
   (some .include, .lit "@include" ⬝ .edge),
   (some .frequency, .lit "@frequency" ⬝ .edge),
   (some .denylist, .lit "@denylist" ⬝ .stop),
   (some .path, .opt (.lit ".") ⬝ .lit "/" ⬝ .some fun c => !spaceChar c),
   (some .numeric, hexRe ∣ octalRe ∣ decimalRe),
   (some .colon, .lit ":"),
   (some .semicolon, .lit ";"),
   (some .comma, .lit ","),
   (some .complement, .lit "~"),
   (some .lparen, .lit "("),
   (some .rparen, .lit ")"),
   (some .lbrace, .lit "{"),
   (some .rbrace, .lit "}"),
   (some .rbracket, .lit "]"),
   (some .lbracket, .lit "["),
   (some .or, .lit "||"),
   (some .and, .lit "&&"),
   (some .bitOr, .lit "|"),
   (some .op, .lit "&" ∣ .word "in" ∣ .lit "==" ∣ .lit "!=" ∣ .lit "<=" ∣ .lit "<" ∣ .lit ">=" ∣ .lit ">"),
   (some .equal, .lit "="),
   (some .argument, .edge ⬝ .lit "arg" ⬝ .some Char.isDigit ⬝ .edge),
   (some .ret, .word "return"),
   (some .action, .word "allow" ∣ .word "kill-process" ∣ .word "kill-thread" ∣ .word "kill" ∣ .word "trap" ∣ .word "trace" ∣ .word "log" ∣ .word "user-notify"),
   (some .identifier, .one (fun c => c.isAlpha || c == '_') ⬝ .many fun c => c.isAlpha || c == '_' || c.isDigit || c == '-' || c == '@')]

/-! ### Tokens -/

/-- What the table finds at a place: the first entry that matches. -/
def tokenMatch (p : Place) : Option (Option TokType × Nat) :=
  tokenTable.findSome? fun e => (e.2.match p).map fun n => (e.1, n)

/-- The text behind a place is cut into tokens, without a gap. -/
inductive LexedT : Place → List Token → Prop
  | done {c} : LexedT (c, []) []
  | token {p n ty ts} : tokenMatch p = some (some ty, n) → LexedT (p.advance n) ts → LexedT p (⟨ty, p.2.take n⟩ :: ts)
  | skip {p n ts} : tokenMatch p = some (none, n) → LexedT (p.advance n) ts → LexedT p ts

/-- The tokens of lines. A statement goes on where a line ends in a backslash; the one that runs into the end is lost. -/
inductive StatementsT : List (List Char) → List (List Token) → Prop
  | nil : StatementsT [] []
  | statement {cont last tss rest out} : (∀ l ∈ cont, l.getLast? = some '\\') → last.getLast? ≠ some '\\' →
      All₂ (fun l ts => LexedT (none, l) ts) (cont ++ [last]) tss → StatementsT rest out →
      StatementsT (cont ++ last :: rest) (if tss.flatten = [] then out else tss.flatten :: out)
  | lost {cont tss} : (∀ l ∈ cont, l.getLast? = some '\\') → All₂ (fun l ts => LexedT (none, l) ts) cont tss → StatementsT cont []

/-- `\r\n` and `\r` end a line as `\n` does. -/
def newlines : List Char → List Char
  | '\r' :: '\n' :: s => '\n' :: newlines s
  | '\r' :: s => '\n' :: newlines s
  | c :: s => c :: newlines s
  | [] => []

/-- The statements of a text. -/
def TokensT (text : List Char) (lines : List (List Token)) : Prop := StatementsT (physicalLines (newlines text)) lines

end Minijail.Spec
