import Verif.Spec.Policy
import Verif.Spec.Const
import Verif.Spec.Text
/-!
The policy language as text (minijail0.5 "SECCOMP_FILTER POLICY"), as relations between texts and their meaning.
Oddities that the compiler accepts beyond the manual are marked "undocumented".
-/
set_option autoImplicit false
namespace Minijail.Spec

/-- What the meaning of a policy depends on: word size, known system calls and constants, the action for calls that no
rule allows, whether unknown system calls are skipped, and what files contain. -/
structure Lang where
  bits : Nat
  syscall : List Char → Option Nat
  named : List Char → Option Nat
  dflt : Action
  skipUnknown : Bool
  files : List Char → Option (List Char)

/-- The operators. -/
inductive OpText : List Char → Cmp → Prop
  | eq : OpText "==".toList .eq
  | ne : OpText "!=".toList .ne
  | lt : OpText "<".toList .lt
  | le : OpText "<=".toList .le
  | gt : OpText ">".toList .gt
  | ge : OpText ">=".toList .ge
  | any : OpText "&".toList .anyFlag
  | subset : OpText "in".toList .subset

/-- `arg<index> <op> <constant>`. -/
inductive AtomText (L : Lang) : List Char → Atom → Prop
  | mk {s idx op c i cmp v} : words ' ' s = ["arg".toList ++ idx, op, c] →
      Signed (fun s n => s ≠ [] ∧ Digits 10 s n) idx i → OpText op cmp → ConstExpr L.named L.bits c v →
      AtomText L s ⟨i, cmp, v⟩

/-- Lists of texts and meanings related one by one. -/
inductive All₂ {α β : Type} (R : α → β → Prop) : List α → List β → Prop
  | nil : All₂ R [] []
  | cons {a b as bs} : R a b → All₂ R as bs → All₂ R (a :: as) (b :: bs)

/-- `atom && ... || ...`. -/
def DnfText (L : Lang) (s : List Char) (f : Dnf) : Prop :=
  All₂ (fun g conj => All₂ (AtomText L) (fields2 '&' '&' g) conj) (fields2 '|' '|' s) f

/-- `return`, `return <errno>`. Undocumented: any word that starts with "return" will do, words after the errno
are ignored. -/
inductive ReturnText (L : Lang) : List Char → Action → Prop
  | errno {s w c v rest} : words ' ' s = w :: c :: rest → "return".toList <+: w → ConstExpr L.named L.bits c v →
      v % 2 ^ 32 ≠ 2 ^ 32 - 1 → ReturnText L s (.errno v)
  | dflt {s w} : words ' ' s = [w] → "return".toList <+: w → L.dflt ≠ .log → ReturnText L s L.dflt

/-- The right-hand side of a rule. -/
inductive RuleText (L : Lang) : List Char → Rule → Prop
  | allow : RuleText L "1".toList .allow
  | block {s a} : "return".toList <+: s → ReturnText L s a → RuleText L s (.block a)
  | filter {s t f} : s ≠ "1".toList → ¬ "return".toList <+: s → words ';' s = [t] → DnfText L t f →
      RuleText L s (.filter f L.dflt)
  /-- Undocumented: what follows a second semicolon is ignored. -/
  | filterReturn {s t r rest f a} : s ≠ "1".toList → ¬ "return".toList <+: s → words ';' s = t :: r :: rest →
      DnfText L t f → ReturnText L r a → RuleText L s (.filter f a)
  /-- Undocumented: only semicolons is a filter that never holds. -/
  | never {s} : s ≠ [] → words ';' s = [] → RuleText L s (.filter [] L.dflt)

/-- A logical line without surrounding blanks and the rules it adds. `incl` gives the meaning of an included
file's content, if including is possible. -/
inductive LineText (L : Lang) (incl : List Char → List (BitVec 32 × Rule) → Prop) :
    List Char → List (BitVec 32 × Rule) → Prop
  | blank : LineText L incl [] []
  | comment {s} : LineText L incl ('#' :: s) []
  | frequency {s} : LineText L incl ("@frequency".toList ++ s) []
  | include_ {path content rules} : ("/".toList <+: path ∨ "./".toList <+: path) → L.files path = some content →
      incl content rules → LineText L incl ("@include ".toList ++ path) rules
  | rule {name rhs nr r} : name.head? ≠ some '#' → name.head? ≠ some '@' → ':' ∉ name →
      L.syscall (trim name) = some nr → RuleText L (trim rhs) r →
      LineText L incl (name ++ ':' :: rhs) [(BitVec.ofNat 32 nr, r)]
  | unknown {name rhs} : name.head? ≠ some '#' → name.head? ≠ some '@' → ':' ∉ name →
      L.syscall (trim name) = none → trim rhs ≠ [] → L.skipUnknown = true →
      LineText L incl (name ++ ':' :: rhs) []

/-- A file whose lines mean, in order, the given rules. -/
def FileText (L : Lang) (incl : List Char → List (BitVec 32 × Rule) → Prop) (content : List Char)
    (rules : List (BitVec 32 × Rule)) : Prop :=
  ∃ parts, All₂ (fun l rs => LineText L incl (trim l) rs) (logicalLines content) parts ∧ rules = parts.flatten

/-- A policy: the initial file may include others, which may not include further ones. -/
def PolicyText (L : Lang) (content : List Char) (rules : List (BitVec 32 × Rule)) : Prop :=
  FileText L (FileText L fun _ _ => False) content rules

end Minijail.Spec
