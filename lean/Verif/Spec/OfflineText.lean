import Verif.Model.OfflineParse
import Verif.Spec.Const
import Verif.Spec.Offline
/-!
The language of policies of the offline compiler: the grammar in the comments of tools/parser.py:262-776, over tokens, with what each phrase means. Of the model
only the types of tokens, actions and comparisons, and the tables (`Arch`, `Settings`) are used.
-/
set_option autoImplicit false
namespace Minijail.Spec
open Minijail.Offline

/-- Phrases with a separator between them. -/
inductive SepBy {α : Type} (sep : TokType) (Item : List Token → α → Prop) : List Token → List α → Prop
  | one {ts x} : Item ts x → SepBy sep Item ts [x]
  | more {ts t rest x xs} : Item ts x → t.type = sep → SepBy sep Item rest xs → SepBy sep Item (ts ++ t :: rest) (x :: xs)

/-- A number as the offline compiler reads it: hexadecimal behind `0x`, octal behind a `0` and an octal digit, else decimal. -/
inductive PyNumeral : List Char → Nat → Prop
  | hex {x s n} : x = 'x' ∨ x = 'X' → s ≠ [] → Digits 16 s n → PyNumeral ('0' :: x :: s) n
  | oct {s n} : s ≠ [] → Digits 8 s n → PyNumeral ('0' :: s) n
  | dec {s n} : s ≠ [] → Digits 10 s n → (∀ c t, s = '0' :: c :: t → ∀ v, digit c = some v → ¬v < 8) → PyNumeral s n

/-- A number with its sign. -/
inductive PySigned : List Char → Int → Prop
  | plain {s n} : PyNumeral s n → PySigned s n
  | minus {s n} : PyNumeral s n → PySigned ('-' :: s) (-n)

/-- single-constant: a name of the table or a number, that fits the word of the machine, signed or unsigned. -/
def SingleT (a : Arch) (t : Token) (v : Nat) : Prop :=
  ∃ i : Int, (t.type = .identifier ∧ a.constants t.value = some i ∨ t.type = .numeric ∧ PySigned t.value i) ∧
    -2 ^ (a.bits - 1) ≤ i ∧ i < 2 ^ a.bits ∧ (v : Int) = i % 2 ^ a.bits

mutual
/-- constant = [ '~' ] , '(' , value , ')' | [ '~' ] , single-constant -/
inductive ConstantT (a : Arch) : List Token → Nat → Prop
  | single {t v} : SingleT a t v → ConstantT a [t] v
  | complement {c t v} : c.type = .complement → SingleT a t v → ConstantT a [c, t] (2 ^ a.bits - 1 - v)
  | group {l ts r v} : l.type = .lparen → ValueT a ts v → r.type = .rparen → ConstantT a (l :: ts ++ [r]) v
  | complementGroup {c l ts r v} : c.type = .complement → l.type = .lparen → ValueT a ts v → r.type = .rparen →
      ConstantT a (c :: l :: ts ++ [r]) (2 ^ a.bits - 1 - v)
/-- value = constant , [ { '|' , constant } ] -/
inductive ValueT (a : Arch) : List Token → Nat → Prop
  | one {ts v} : ConstantT a ts v → ValueT a ts v
  | more {ts b rest v u} : ConstantT a ts v → b.type = .bitOr → ValueT a rest u → ValueT a (ts ++ b :: rest) (v ||| u)
end

/-- The text of an operator. -/
def opText : PyOp → List Char
  | .eq => "==".toList
  | .ne => "!=".toList
  | .gt => ">".toList
  | .le => "<=".toList
  | .ge => ">=".toList
  | .lt => "<".toList
  | .band => "&".toList
  | .isIn => "in".toList

/-- atom = argument , op , value, where an argument is `arg` and a number. (There are six arguments. The parser also takes `arg6`.) -/
inductive AtomT (a : Arch) : List Token → PAtom → Prop
  | mk {x o ts s i op v} : x.type = .argument → x.value.drop 3 = s → s ≠ [] → Digits 10 s i → i < 7 → o.type = .op → o.value = opText op →
      ValueT a ts v → AtomT a (x :: o :: ts) ⟨i, op, v⟩

/-- clause = atom , [ { '&&' , atom } ] -/
def ClauseT (a : Arch) : List Token → List PAtom → Prop := SepBy .and (AtomT a)

/-- argument-expression = clause , [ { '||' , clause } ] -/
def ExpressionT (a : Arch) : List Token → List (List PAtom) → Prop := SepBy .or (ClauseT a)

/-- The words for actions, but for `kill`. -/
def actionText : List (List Char × Offline.Action) :=
  [("allow".toList, .allow), ("kill-process".toList, .killProcess), ("kill-thread".toList, .killThread), ("trap".toList, .trap),
   ("trace".toList, .trace), ("log".toList, .log), ("user-notify".toList, .userNotify)]

/-- action = 'allow' | '1' | 'kill-process' | ... | 'return' , single-constant. In a denylist only the last; with `--use-ret-log` it logs. -/
inductive ActionT (g : Settings) : List Token → Offline.Action → Prop
  | kill {t} : g.denylist = false → t.type = .action → t.value = "kill".toList → ActionT g [t] g.kill.act
  | word {t act} : g.denylist = false → t.type = .action → (t.value, act) ∈ actionText → ActionT g [t] act
  | one {t} : g.denylist = false → t.type = .numeric → SingleT g.arch t 1 → ActionT g [t] .allow
  | errno {t u v} : t.type = .ret → g.retLog = false → SingleT g.arch u v → ActionT g [t, u] (.returnErrno v)
  | logged {t u} : t.type = .ret → g.retLog = true → ActionT g [t, u] .log

/-- A filter: a condition (`none`: always) and what happens if it holds. -/
abbrev Guarded := Option (List (List PAtom)) × Offline.Action

/-- single-filter = action | argument-expression , [ ';' , action ] -/
inductive SingleFilterT (g : Settings) : List Token → Guarded → Prop
  | always {ts act} : ActionT g ts act → SingleFilterT g ts (none, act)
  | allow {ts e} : ExpressionT g.arch ts e → SingleFilterT g ts (some e, .allow)
  | act {ts t us e act} : ExpressionT g.arch ts e → t.type = .semicolon → ActionT g us act → SingleFilterT g (ts ++ t :: us) (some e, act)

/-- filter = '{' , single-filter , [ { ',' , single-filter } ] , '}' | single-filter -/
inductive FilterT (g : Settings) : List Token → List Guarded → Prop
  | one {ts f} : SingleFilterT g ts f → FilterT g ts [f]
  | braces {l ts r fs} : l.type = .lbrace → SepBy .comma (SingleFilterT g) ts fs → r.type = .rbrace → FilterT g (l :: ts ++ [r]) fs

/-- An identifier and its text. -/
inductive IdentifierT : List Token → List Char → Prop
  | mk {t} : t.type = .identifier → IdentifierT [t] t.value

/-- key-value-pair = identifier , '=', identifier , [ { ',' , identifier } ] -/
inductive KeyValueT : List Token → List Char × List (List Char) → Prop
  | mk {k e ts vs} : k.type = .identifier → e.type = .equal → SepBy .comma IdentifierT ts vs → KeyValueT (k :: e :: ts) (k.value, vs)

/-- metadata = '[' , key-value-pair , [ { ';' , key-value-pair } ] , ']'; no key comes twice. -/
inductive MetadataT : List Token → List (List Char × List (List Char)) → Prop
  | mk {l ts r kvs} : l.type = .lbracket → SepBy .semicolon KeyValueT ts kvs → (kvs.map Prod.fst).Nodup → r.type = .rbracket → MetadataT (l :: ts ++ [r]) kvs

/-- The statement is for another architecture. -/
def OtherArch (a : Arch) (m : List (List Char × List (List Char))) : Prop := ∃ l, ("arch".toList, l) ∈ m ∧ a.name ∉ l

/-- The system calls of a name: itself, or the members of the group `group@namespace`. -/
def NamedT (a : Arch) (v : List Char) (cs : List Syscall) : Prop :=
  ('@' ∉ v ∧ ∃ n, a.syscalls v = some n ∧ cs = [⟨v, n⟩]) ∨
  ∃ group ns m names, v = group ++ '@' :: ns ∧ '@' ∉ group ∧ '@' ∉ ns ∧ a.groups ns = some m ∧ m group = some names ∧
    cs.map Syscall.name = names ∧ ∀ c ∈ cs, a.syscalls c.name = some c.number

/-- syscall-descriptor = syscall-name , [ metadata ] | syscall-group-name , [ metadata ] -/
inductive DescriptorT (a : Arch) : List Token → List Syscall → Prop
  | plain {t cs} : t.type = .identifier ∨ t.value = "kill".toList → NamedT a t.value cs → DescriptorT a [t] cs
  | here {t ts m cs} : t.type = .identifier ∨ t.value = "kill".toList → MetadataT ts m → ¬OtherArch a m → NamedT a t.value cs → DescriptorT a (t :: ts) cs
  | elsewhere {t ts m} : t.type = .identifier ∨ t.value = "kill".toList → MetadataT ts m → OtherArch a m → DescriptorT a (t :: ts) []

/-- The part of a filter-statement before the colon. -/
inductive SubjectsT (a : Arch) : List Token → List Syscall → Prop
  | one {ts cs} : DescriptorT a ts cs → SubjectsT a ts cs
  | braces {l ts r css} : l.type = .lbrace → SepBy .comma (DescriptorT a) ts css → r.type = .rbrace → SubjectsT a (l :: ts ++ [r]) css.flatten

/-- filter-statement = '{' , syscall-descriptor , [ { ',', syscall-descriptor } ] , '}' , ':' , filter | syscall-descriptor , ':' , filter -/
inductive StatementT (g : Settings) : List Token → List Syscall → List Guarded → Prop
  | mk {ts c us cs fs} : SubjectsT g.arch ts cs → c.type = .colon → FilterT g us fs → StatementT g (ts ++ c :: us) cs fs

/-- default-action: nothing permissive. -/
inductive DefaultT (g : Settings) : List Token → Offline.Action → Prop
  | kill {t} : t.type = .action → t.value = "kill".toList → DefaultT g [t] g.kill.act
  | word {t act} : t.type = .action → (t.value, act) ∈ actionText → act ∈ [Offline.Action.killProcess, .killThread, .trap, .userNotify] → DefaultT g [t] act

end Minijail.Spec
