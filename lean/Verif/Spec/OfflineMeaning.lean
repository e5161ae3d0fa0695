import Verif.Spec.OfflineText
import Verif.Spec.Lex
/-!
What a policy file means to the offline compiler: the statements of the file and of the files it includes, in their order, and what they prescribe for a system
call. Of the model only types and tables are used, with where an included file is.
-/
set_option autoImplicit false
namespace Minijail.Spec
open Minijail.Offline

/-- A statement: filters for some system calls, or another default action. -/
inductive PyEntry where
  | rule (calls : List Syscall) (filters : List Guarded)
  | default (act : Offline.Action)

/-- A number in a frequency file: not below zero, and not octal. -/
def FrequencyNumberT (v : List Char) : Prop :=
  ∃ (s : List Char) (k : Nat), (v = s ∨ v = '-' :: s ∧ k = 0) ∧ PyNumeral s k ∧ ∀ x t, s = '0' :: x :: t → x = 'x' ∨ x = 'X' ∨ ∀ c ∈ s, c = '0'

/-- A frequency file: system calls with how often they are made. With `lax` a line may go on behind the number. -/
def FrequencyT (lax : Bool) (a : Arch) (text : List Char) : Prop :=
  ∃ lines, TokensT text lines ∧ ∀ l ∈ lines, ∃ ts cs c n extra, l = ts ++ c :: n :: extra ∧ DescriptorT a ts cs ∧ c.type = .colon ∧ n.type = .numeric ∧
    FrequencyNumberT n.value ∧ (extra = [] ∨ lax = true)

/-- The tokens of a statement and what it adds. The flag tells a `@denylist` header. `incl` is what a file means that is included. Undocumented: where all system
calls of a statement are for other architectures, what follows the filters is not looked at; the language with these lines is `lax`. -/
inductive PyLineT (fs : List Char → Option (List Char)) (g : Settings) (lax : Bool) (incl : List Char → List PyEntry → Prop) (filename : List Char) :
    List Token → List PyEntry → Bool → Prop
  | rule {ts cs l} : StatementT g ts cs l → cs ≠ [] → PyLineT fs g lax incl filename ts [.rule cs l] false
  /-- All system calls are for other architectures. -/
  | skipped {ts extra l} : StatementT g ts [] l → extra = [] ∨ lax = true → PyLineT fs g lax incl filename (ts ++ extra) [] false
  | default {t ts act} : t.type = .default → DefaultT g ts act → PyLineT fs g lax incl filename (t :: ts) [.default act] false
  | include_ {t p es} : t.type = .include → p.type = .path → incl (resolve filename p.value) es → PyLineT fs g lax incl filename [t, p] es false
  | frequency {t p text} : t.type = .frequency → p.type = .path → fs (resolve filename p.value) = some text → FrequencyT lax g.arch text →
      PyLineT fs g lax incl filename [t, p] [] false
  | denylist {t} : t.type = .denylist → g.denylist = true → PyLineT fs g lax incl filename [t] [] true

/-- The statements of a file, with those of the files it includes at their place; `depth` levels of files may be included. A denylist has its header. -/
def PyFileT (fs : List Char → Option (List Char)) (g : Settings) (lax : Bool) : Nat → List Char → List PyEntry → Prop
  | depth, filename, es =>
    let incl := match depth with
      | 0 => fun _ _ => False
      | depth + 1 => PyFileT fs g lax depth
    ∃ text lines parts, fs filename = some text ∧ TokensT text lines ∧
      All₂ (fun l (p : List PyEntry × Bool) => PyLineT fs g lax incl filename l p.1 p.2) lines parts ∧
      es = (parts.map Prod.fst).flatten ∧ (g.denylist = true → ∃ p ∈ parts, p.2 = true)

/-- The filters for a system call, in the order of the file. -/
def filtersFor (nr : Nat) (es : List PyEntry) : List Guarded :=
  es.flatMap fun e => match e with
    | .rule cs fs => if ∃ c ∈ cs, c.number = nr then fs else []
    | .default _ => []

/-- Some statement is about the system call. -/
def Mentioned (nr : Nat) (es : List PyEntry) : Prop := ∃ cs fs, .rule cs fs ∈ es ∧ ∃ c ∈ cs, c.number = nr

/-- The default action: the last one of the file, or the one from the start. -/
def lastDefault (start : Offline.Action) (es : List PyEntry) : Offline.Action :=
  es.foldl (fun d e => match e with | .default act => act | .rule _ _ => d) start

open Classical in
/-- Filters are tried in order: the first whose condition is true decides. -/
noncomputable def firstTrue (bits : Nat) (d : SeccompData) : List Guarded → Option Offline.Action
  | [] => none
  | f :: l => if condition bits d f.1 then some f.2 else firstTrue bits d l

open Classical in
/-- What statements prescribe for a system call, given the options and the default action. -/
noncomputable def verdict (o : Options) (dflt : Offline.Action) (es : List PyEntry) (d : SeccompData) : Offline.Action :=
  if d.arch.toNat ≠ o.archNr then o.kill.act
  else if Mentioned d.nr.toNat es then (firstTrue o.bits d (filtersFor d.nr.toNat es)).getD dflt
  else if o.denylist then .allow
  else dflt

/-- No comparison is of a seventh argument. -/
def SixArguments (es : List PyEntry) : Prop :=
  ∀ cs fs, PyEntry.rule cs fs ∈ es → ∀ f ∈ fs, ∀ e, f.1 = some e → ∀ c ∈ e, ∀ a ∈ c, a.arg < 6

/-- In an allowlist, a system call that is allowed in the end has no filter with another action. -/
def NoDroppedFilters (o : Options) (dflt : Offline.Action) (es : List PyEntry) : Prop :=
  o.denylist = false → ∀ nr, ((none, Offline.Action.allow) ∈ filtersFor nr es ∨ ((∀ f ∈ filtersFor nr es, f.1 ≠ none) ∧ dflt = .allow)) →
    ∀ f ∈ filtersFor nr es, f.2 = .allow

/-- Nothing follows a filter without a condition, and no statement names a system call twice. (The parser rejects filters that cannot be reached.) -/
def Reachable (es : List PyEntry) : Prop :=
  (∀ nr pre f post, filtersFor nr es = pre ++ f :: post → f.1 = none → post = []) ∧ ∀ cs l, PyEntry.rule cs l ∈ es → cs.Nodup

/-- A table of system calls: names are told apart by their numbers, which the machine can compare. -/
structure GoodArch (a : Arch) : Prop where
  bits : a.bits = 32 ∨ a.bits = 64
  apart : ∀ n m k, a.syscalls n = some k → a.syscalls m = some k → n = m
  small : ∀ n k, a.syscalls n = some k → k < 2 ^ 32 - 1

/-! ### The command -/

/-- What `kill` stands for, and what happens to a system call the policy does not name: logged with `--use-ret-log`, EPERM for a denylist, else the process is
killed with `--use-kill-process`, or the thread. -/
inductive KillT (c : Command) : Offline.Action → Prop
  | log : c.retLog = true → KillT c .log
  | errno {e : Int} : c.retLog = false → c.denylist = true → c.arch.constants "EPERM".toList = some e → KillT c (.returnErrno e.toNat)
  | process : c.retLog = false → c.denylist = false → c.killProcess = true → KillT c .killProcess
  | thread : c.retLog = false → c.denylist = false → c.killProcess = false → KillT c .killThread

/-- The action of `--default-action`. There `kill` is `kill-process`. (Undocumented: what follows the action is not looked at, and `--use-ret-log` and
`--denylist` have no influence.) Newlines at the end do not count. -/
inductive OverrideT (c : Command) : Option Offline.Action → Prop
  | none : c.defaultAction = none ∨ c.defaultAction = some [] → OverrideT c none
  | some {text body nl ts extra act} : c.defaultAction = some text → text = body ++ nl → (∀ c ∈ nl, c = '\r' ∨ c = '\n') →
      (∀ c, body.getLast? = some c → c ≠ '\r' ∧ c ≠ '\n') → StatementsT [body] [ts ++ extra] → ActionT ⟨c.arch, ⟨1, .killProcess⟩, false, false⟩ ts act → OverrideT c (some act)

/-- How the command reads the policy, where `kill` is `k`. -/
def settingsOf (c : Command) (k : Offline.Action) : Settings := ⟨c.arch, ⟨0, k⟩, c.denylist, c.retLog⟩

/-- The options of the program. -/
def optionsOf (c : Command) (k : Offline.Action) : Options := ⟨c.arch.bits, c.archNr, c.bst, ⟨0, k⟩, c.denylist⟩

/-- The default action: of the command line, else the last of the policy, else `allow` for a denylist and `kill` otherwise. -/
def defaultOf (c : Command) (k : Offline.Action) (ov : Option Offline.Action) (es : List PyEntry) : Offline.Action :=
  ov.getD (lastDefault (if c.denylist then .allow else k) es)

end Minijail.Spec
