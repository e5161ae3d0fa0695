import Verif.Spec.PolicyText
/-!
The policies that minijail and the offline compiler have in common, as they are written: this is the part of the manual (minijail0.5, "SECCOMP_FILTER POLICY")
without the things that only one of the two knows, or that the two take for different things. Nothing here refers to a model.
-/
set_option autoImplicit false
namespace Minijail.Spec

/-- The tables of an architecture: the size of a word, the numbers of the system calls, the values of the constants, what files hold. -/
structure CommonTables where
  bits : Nat
  syscall : List Char → Option Nat
  constant : List Char → Option Int
  files : List Char → Option (List Char)

/-- Letters, digits and underscores; no digit comes first. -/
def Word (w : List Char) : Prop := ∃ c t, w = c :: t ∧ (c.isAlpha = true ∨ c = '_') ∧ ∀ x ∈ t, x.isAlphanum = true ∨ x = '_'

/-- Words of the language. -/
def Reserved (w : List Char) : Prop :=
  w ∈ ["in".toList, "return".toList, "allow".toList, "trap".toList, "trace".toList, "log".toList] ∨ ∃ s, w = "arg".toList ++ s ∧ s ≠ [] ∧ ∀ c ∈ s, c.isDigit = true

/-- A name or a number, that fits a word, signed or unsigned. -/
inductive CommonSingle (T : CommonTables) : List Char → Nat → Prop
  | name {w i} {v : Nat} : Word w → ¬Reserved w → w ≠ "kill".toList → T.constant w = some i → -2 ^ (T.bits - 1) ≤ i → i < 2 ^ T.bits → (v : Int) = i % 2 ^ T.bits →
      CommonSingle T w v
  | number {s n} : Literal s n → n < 2 ^ T.bits → CommonSingle T s n
  | negative {s n} {v : Nat} : Literal s n → n ≤ 2 ^ (T.bits - 1) → (v : Int) = (-(n : Int)) % 2 ^ T.bits → CommonSingle T ('-' :: s) v

/-- Constants: names, numbers and groups in parentheses, each possibly behind `~`, with `|` between them. No blanks. -/
inductive CommonConst (T : CommonTables) : List Char → Nat → Prop
  | single {neg s v} : CommonSingle T s v → CommonConst T (tilde neg ++ s) (compl T.bits neg v)
  | group {neg g v} : CommonConst T g v → CommonConst T (tilde neg ++ '(' :: g ++ [')']) (compl T.bits neg v)
  | singleOr {neg s v rest u} : CommonSingle T s v → CommonConst T rest u → CommonConst T (tilde neg ++ s ++ '|' :: rest) (compl T.bits neg v ||| u)
  | groupOr {neg g v rest u} : CommonConst T g v → CommonConst T rest u → CommonConst T (tilde neg ++ '(' :: g ++ ')' :: '|' :: rest) (compl T.bits neg v ||| u)

/-- Spaces. -/
def spaces (n : Nat) : List Char := List.replicate n ' '

/-- `arg0 == 1`: one of the six arguments, an operator, a constant, with spaces between them. -/
inductive CommonAtom (T : CommonTables) : List Char → Atom → Prop
  | mk {i op cmp c v} (n m : Nat) : i < 6 → OpText op cmp → CommonConst T c v →
      CommonAtom T ("arg".toList ++ Nat.digitChar i :: spaces (n + 1) ++ op ++ spaces (m + 1) ++ c) ⟨i, cmp, v⟩

/-- Phrases with a separator, and spaces, between them. -/
inductive Joined {α : Type} (sep : List Char) (R : List Char → α → Prop) : List Char → List α → Prop
  | one {s x} : R s x → Joined sep R s [x]
  | more {s x r xs} (n m : Nat) : R s x → Joined sep R r xs → Joined sep R (s ++ spaces n ++ sep ++ spaces m ++ r) (x :: xs)

/-- `1`, `return EPERM`, or a condition under which the system call is allowed. -/
inductive CommonRule (T : CommonTables) (dflt : Action) : List Char → Rule → Prop
  | allow : CommonRule T dflt "1".toList .allow
  | errno {c v} (n : Nat) : CommonSingle T c v → v % 2 ^ 32 ≠ 2 ^ 32 - 1 → CommonRule T dflt ("return".toList ++ spaces (n + 1) ++ c) (.block (.errno v))
  | filter {s f} : Joined "||".toList (Joined "&&".toList (CommonAtom T)) s f → CommonRule T dflt s (.filter f dflt)

/-- Spaces and tabs. -/
def Blanks (s : List Char) : Prop := ∀ c ∈ s, isBlank c

/-- `name: rule`. -/
inductive CommonStatement (T : CommonTables) (dflt : Action) : List Char → List Char × Rule → Prop
  | mk {b0 name b1 b2 rhs r b3} : Blanks b0 → Word name → ¬Reserved name → Blanks b1 → Blanks b2 → CommonRule T dflt rhs r → Blanks b3 →
      CommonStatement T dflt (b0 ++ name ++ b1 ++ ':' :: b2 ++ rhs ++ b3) (name, r)

/-- How a line may be written: a space can be a backslash and the end of the line. -/
inductive Written : List Char → List Char → Prop
  | plain {s} : Written s s
  | cut {a s p} : Written s p → Written (a ++ ' ' :: s) (a ++ '\\' :: '\n' :: p)

/-- An absolute path without blanks, dots and empty parts. -/
def StraightPath (path : List Char) : Prop :=
  ∃ parts, parts ≠ [] ∧ path = (parts.map ('/' :: ·)).flatten ∧
    ∀ p ∈ parts, p ≠ [] ∧ p ≠ ".".toList ∧ p ≠ "..".toList ∧ ∀ c ∈ p, c ≠ '/' ∧ c ≠ '\\' ∧ 33 ≤ c.toNat ∧ c.toNat < 127

/-- The lines of a file with the rules they add. `incl` is what an included file adds. -/
inductive CommonLines (T : CommonTables) (dflt : Action) (incl : List Char → List (List Char × Rule) → Prop) : List Char → List (List Char × Rule) → Prop
  | nil : CommonLines T dflt incl [] []
  | statement {s p x text rest} : CommonStatement T dflt s x → Written s p → CommonLines T dflt incl text rest →
      CommonLines T dflt incl (p ++ '\n' :: text) (x :: rest)
  | blank {b text rest} : Blanks b → CommonLines T dflt incl text rest → CommonLines T dflt incl (b ++ '\n' :: text) rest
  /-- A comment has a line of its own, which does not end in a backslash. -/
  | comment {b s text rest} : Blanks b → '\n' ∉ s → '\r' ∉ s → s.getLast? ≠ some '\\' → CommonLines T dflt incl text rest →
      CommonLines T dflt incl (b ++ '#' :: s ++ '\n' :: text) rest
  | include_ {path content added b text rest} : StraightPath path → T.files path = some content → incl content added → Blanks b →
      CommonLines T dflt incl text rest → CommonLines T dflt incl ("@include ".toList ++ path ++ b ++ '\n' :: text) (added ++ rest)

/-- A policy and its rules. Included files include no files. No system call has two rules, and all have numbers. -/
def CommonPolicy (T : CommonTables) (dflt : Action) (text : List Char) (rules : List (List Char × Rule)) : Prop :=
  CommonLines T dflt (CommonLines T dflt fun _ _ => False) text rules ∧ (rules.map Prod.fst).Nodup ∧ ∀ x ∈ rules, (T.syscall x.1).isSome

end Minijail.Spec
