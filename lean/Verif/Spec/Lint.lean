import Verif.Spec.PolicyText
/-! What it means that a policy is reviewed: which lines name a system call, and which of them are documented. Nothing here refers to a model. -/
set_option autoImplicit false
namespace Minijail.Spec

/-- A white character of ASCII. -/
def White (c : Char) : Prop := c = ' ' ∨ (9 ≤ c.toNat ∧ c.toNat ≤ 13) ∨ (28 ≤ c.toNat ∧ c.toNat ≤ 31)

/-- `name: rule`, where the name consists of letters, digits and underscores (perhaps none), and the rule goes on to the end of the line. -/
def Names (line name rule : List Char) : Prop :=
  ∃ b b' b'', line = b ++ name ++ b' ++ ':' :: b'' ++ rule ∧ (∀ c ∈ b ++ b' ++ b'', White c) ∧ (∀ c ∈ name, c.isAlphanum = true ∨ c = '_') ∧
    ∀ c, rule.head? = some c → ¬ White c

/-- A line of comment. -/
def Remark (line : List Char) : Prop := ∃ b s, line = b ++ '#' :: s ∧ ∀ c ∈ b, White c

/-- After the last of the lines that names a system call, if any does, there is a comment. -/
def Documented (before : List (List Char)) : Prop :=
  ∃ a l b, before = a ++ l :: b ∧ Remark l ∧ ∀ l' ∈ b, ¬ ∃ name rule, Names l' name rule

/-- Rules that may stand without a comment: the system call is refused, or memory is not both writable and executable, or random numbers are not
taken from the pool that can be used up. -/
def Harmless (syscall rule : List Char) : Prop :=
  rule ∈ ["kill".toList, "kill-process".toList, "kill-thread".toList, "return 1".toList] ∨
  (syscall = "getrandom".toList ∧ rule = "arg2 in ~GRND_RANDOM".toList) ∨
  (syscall ∈ ["mmap".toList, "mmap2".toList, "mprotect".toList] ∧
    rule ∈ ["arg2 == PROT_READ || arg2 == PROT_NONE".toList, "arg2 in ~PROT_EXEC".toList, "arg2 in ~PROT_EXEC || arg2 in ~PROT_WRITE".toList])

/-- The line `l` comes after the lines `before`. -/
def ComesAfter (lines before : List (List Char)) (l : List Char) : Prop := ∃ after, lines = before ++ l :: after

/-- The line number `i` (from 0) names a system call that a line before it names. -/
def Again (lines : List (List Char)) (i : Nat) (name : List Char) : Prop :=
  ∃ before l rule, ComesAfter lines before l ∧ before.length = i ∧ Names l name rule ∧ ∃ l' ∈ before, ∃ rule', Names l' name rule'

/-- The line number `i` is the first to name a dangerous system call, is not documented, and its rule is not harmless. -/
def Unexplained (dangerous : List (List Char)) (lines : List (List Char)) (i : Nat) (name : List Char) : Prop :=
  ∃ before l rule, ComesAfter lines before l ∧ before.length = i ∧ Names l name rule ∧ (∀ l' ∈ before, ∀ rule', ¬ Names l' name rule') ∧
    name ∈ dangerous ∧ ¬ Documented before ∧ ¬ Harmless name rule

/-- The system calls that have rules of their own which are harmless. -/
def HasRules (name : List Char) : Prop := name ∈ ["getrandom".toList, "mmap".toList, "mmap2".toList, "mprotect".toList]

/-- What system calls that need no comment look like when they are made: `mmap` and its like not with PROT_WRITE (2) and PROT_EXEC (4), `getrandom`
not with GRND_RANDOM (2). -/
def Tame (bits : Nat) (d : SeccompData) (syscall : List Char) : Prop :=
  (syscall ∈ ["mmap".toList, "mmap2".toList, "mprotect".toList] ∧ ¬ ((argValue bits d 2).testBit 1 = true ∧ (argValue bits d 2).testBit 2 = true)) ∨
  (syscall = "getrandom".toList ∧ (argValue bits d 2).testBit 1 = false)

/-- A policy of one file, all of whose lines stand for themselves: printable ASCII and tabs, no line goes on in the next one, no file is included. -/
structure OneFile (text : List Char) : Prop where
  printable : ∀ c ∈ text, c = '\t' ∨ c = '\n' ∨ (32 ≤ c.toNat ∧ c.toNat < 127)
  whole : ∀ l ∈ physicalLines text, l.getLast? ≠ some '\\'
  alone : ∀ l ∈ physicalLines text, ¬ "@include".toList <+: trim l

end Minijail.Spec
