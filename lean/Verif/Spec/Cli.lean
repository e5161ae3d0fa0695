import Verif.Model.Cli
import Verif.Spec.Api
/-! What the manual (minijail0.1) and the messages of minijail0 say about which options go together. Options are numbered as by `getopt`: the letter, or
the value of a long option. -/
set_option autoImplicit false
namespace Minijail.Spec

/-- Options with their arguments, as they were given. -/
abbrev Options := List (Nat × Option CStr)

/-- The option with this letter was given. -/
def Given (opts : Options) (letter : Char) : Prop := ∃ a, (letter.toNat, a) ∈ opts

/-- The long option was given. -/
def GivenLong (opts : Options) (name : String) : Prop := ∃ n a, (name.toList, n) ∈ longOptions ∧ (n, a) ∈ opts

/-- How often an option was given. -/
def times (opts : Options) (letter : Char) : Nat := (opts.filter fun o => o.1 == letter.toNat).length

/-- The options may be combined. `static`: the program is statically linked. -/
structure Compatible (opts : Options) (static : Prop) : Prop where
  one_user : times opts 'u' ≤ 1
  one_group : times opts 'g' ≤ 1
  one_root : ¬ (Given opts 'C' ∧ (Given opts 'P' ∨ GivenLong opts "profile"))
  groups : ¬ (Given opts 'G' ∧ Given opts 'y')
  more_groups : GivenLong opts "add-suppl-group" → ¬ Given opts 'G' ∧ ¬ Given opts 'y'
  strict_filter : ¬ (Given opts 's' ∧ Given opts 'S')
  strict_binary : ¬ (Given opts 's' ∧ GivenLong opts "seccomp-bpf-binary")
  filter_binary : ¬ (Given opts 'S' ∧ GivenLong opts "seccomp-bpf-binary")
  log_binary : ¬ (Given opts 'L' ∧ GivenLong opts "seccomp-bpf-binary")
  ambient : GivenLong opts "ambient" → Given opts 'c'
  static_caps : Given opts 'c' → static → GivenLong opts "ambient"
  binds : Given opts 'b' → Given opts 'C' ∨ Given opts 'P' ∨ GivenLong opts "profile" ∨ Given opts 'v'
  remount : Given opts 'K' → Given opts 'v'
  fs : GivenLong opts "no-fs-restrictions" → ¬ GivenLong opts "fs-default-paths" ∧ ¬ GivenLong opts "fs-path-rx" ∧ ¬ GivenLong opts "fs-path-ro" ∧
    ¬ GivenLong opts "fs-path-rw" ∧ ¬ GivenLong opts "fs-path-advanced-rw"

/-- The options of a configuration file: each line names an option by its letter or long name. -/
def FileOptions (text : CStr) (opts : Options) : Prop :=
  ∃ entries, parseConfigFile text = (true, entries) ∧ optsFromConf entries = some opts

/-- The options of the command line with the options of each configuration file behind the option that names it; such a file does not name another. -/
inductive Expanded (readFile : CStr → Option CStr) : Options → Options → Prop where
  | nil : Expanded readFile [] []
  | plain {o : Nat} {a : Option CStr} {rest all : Options} (h : ("config".toList, o) ∉ longOptions) (hr : Expanded readFile rest all) :
      Expanded readFile ((o, a) :: rest) ((o, a) :: all)
  | file {o : Nat} {path text : CStr} {rest all inner : Options} (h : ("config".toList, o) ∈ longOptions) (hf : readFile path = some text)
      (hi : FileOptions text inner) (hn : ¬ GivenLong inner "config") (hr : Expanded readFile rest all) :
      Expanded readFile ((o, some path) :: rest) ((o, some path) :: inner ++ all)

/-- The letters of the options that need an argument (minijail0.1). -/
def needArgument : List Char := ['a', 'b', 'c', 'f', 'g', 'k', 'u', 'B', 'C', 'P', 'R', 'S', 'T', 'V']

/-- The long options that need an argument (minijail0.1). -/
def needArgumentLong : List String :=
  ["logging", "profile", "preload-library", "seccomp-bpf-binary", "add-suppl-group", "config", "gen-config", "env-add", "mount", "bind-mount", "fs-path-rx",
   "fs-path-ro", "fs-path-rw", "fs-path-advanced-rw", "preserve-fd"]

/-- No option lacks the argument it needs; `getopt_long` sees to this on the command line. -/
def Complete1 (o : Nat × Option CStr) : Prop :=
  o.2 = none → (∀ ch ∈ needArgument, o.1 ≠ ch.toNat) ∧ ∀ name ∈ needArgumentLong, (name.toList, o.1) ∉ longOptions

/-- A string of bytes other than NUL. -/
def IsText (s : CStr) : Prop := ∀ ch ∈ s, ch.toNat % 256 ≠ 0

/-- What the front end finds is proper: a failed lookup reports an error, programs fit, files and names are text. -/
structure GoodCliEnv (env : CliEnv) : Prop where
  user : ∀ s rc, env.api.userDb s = .error rc → rc ≠ 0
  group : ∀ s rc, env.api.groupDb s = .error rc → rc ≠ 0
  compiled : ∀ f, ∀ p ∈ env.api.compiled f, p.length ≤ 65535
  conf : ∀ p text, env.readConf p = some text → IsText text
  pivot : CString env.pivotRoot

/-- An argument is text. -/
def TextArg (a : Option CStr) : Prop := ∀ s, a = some s → IsText s

/-- The entries of a configuration file have the arguments they need. -/
def CompleteEntries (es : List ConfigEntry) : Prop := ∀ e ∈ es, ∀ o, optFromKey e.key = some o → Complete1 (o, e.value)

end Minijail.Spec
