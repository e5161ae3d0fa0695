import Verif.Model.Util
/-! config_parser.c, and the parts of minijail0_cli.c that read options from and write them to a config file. -/
set_option autoImplicit false
namespace Minijail

/-- `struct config_entry` (config_parser.h:15-20); a `none` value is NULL. -/
structure ConfigEntry where
  key : CStr
  value : Option CStr
  deriving DecidableEq, Repr

/-- `parse_config_line`, config_parser.c:58-86; `none` is false. -/
def parseConfigLine (configLine : CStr) : Option ConfigEntry :=
  match tokenize (some configLine) "=".toList with
  | none => none
  | some (key, value) =>
    let key := strip key
    let value := value.map strip
    if key = [] ∨ value = some [] then none
    else some ⟨key, value⟩

/-- `match_special_directive`, config_parser.c:88-91. -/
def matchSpecialDirective (line : CStr) : Bool := line == "% minijail-config-file v0\n".toList

/-- The loop of `parse_config_file`, config_parser.c:105-132: the return value so far, and the entries added to the
list. The growth of the array (realloc) is not modelled. -/
def parseConfigLines : List CStr → Bool × List ConfigEntry
  | [] => (true, [])
  | l :: ls =>
    let s := strip l
    if s = [] ∨ s.head? = some '#' then parseConfigLines ls
    else match parseConfigLine s with
      | none => (false, [])
      | some e => let r := parseConfigLines ls; (r.1, e :: r.2)

/-- `parse_config_file`, config_parser.c:93-153, on a file with the given content: the return value and the entries
added to the list. The reading loop ends at the end of the file (`feof`, config_parser.c:142), read errors are not
modelled. -/
def parseConfigFile (content : CStr) : Bool × List ConfigEntry :=
  match getline content with
  | none => (false, [])
  | some (line, rest) =>
    if !matchSpecialDirective line then (false, [])
    else parseConfigLines (readLines rest)

/-- `OPT_*`, minijail0_cli.c:484-510: the long-only options in the order of the enumeration. -/
def longOnly : List String :=
  ["ADD_SUPPL_GROUP", "ALLOW_SPECULATIVE_EXECUTION", "AMBIENT", "CONFIG", "ENV_ADD", "ENV_RESET",
   "ENABLE_PROFILE_FS_RESTRICTIONS", "FS_DEFAULT_PATHS", "FS_PATH_RX", "FS_PATH_RO", "FS_PATH_RW", "FS_PATH_ADVANCED_RW",
   "GEN_CONFIG", "LOGGING", "NO_DEFAULT_RUNTIME", "NO_FS_RESTRICTIONS", "NO_NEW_SESSIONS", "PRELOAD_LIBRARY",
   "PRESERVE_FD", "PROFILE", "SECCOMP_BPF_BINARY", "UTS"]

/-- The value of a long-only option, minijail0_cli.c:484-510 (`LONG_OPTION_BASE` is 0x100). -/
def optVal (name : String) : Nat := 0x101 + longOnly.idxOf name

/-- `long_options`, minijail0_cli.c:520-551: name and value (`has_arg` is not used when reading a config file). -/
def longOptions : List (CStr × Nat) :=
  [("help".toList, 'h'.toNat), ("mount-dev".toList, 'd'.toNat), ("ambient".toList, optVal "AMBIENT"),
   ("uts".toList, optVal "UTS"), ("logging".toList, optVal "LOGGING"), ("profile".toList, optVal "PROFILE"),
   ("preload-library".toList, optVal "PRELOAD_LIBRARY"), ("seccomp-bpf-binary".toList, optVal "SECCOMP_BPF_BINARY"),
   ("add-suppl-group".toList, optVal "ADD_SUPPL_GROUP"),
   ("allow-speculative-execution".toList, optVal "ALLOW_SPECULATIVE_EXECUTION"),
   ("config".toList, optVal "CONFIG"), ("gen-config".toList, optVal "GEN_CONFIG"),
   ("env-add".toList, optVal "ENV_ADD"), ("env-reset".toList, optVal "ENV_RESET"),
   ("mount".toList, 'k'.toNat), ("bind-mount".toList, 'b'.toNat), ("ns-mount".toList, 'v'.toNat),
   ("enable-profile-fs-restrictions".toList, optVal "ENABLE_PROFILE_FS_RESTRICTIONS"),
   ("fs-default-paths".toList, optVal "FS_DEFAULT_PATHS"), ("fs-path-rx".toList, optVal "FS_PATH_RX"),
   ("fs-path-ro".toList, optVal "FS_PATH_RO"), ("fs-path-rw".toList, optVal "FS_PATH_RW"),
   ("fs-path-advanced-rw".toList, optVal "FS_PATH_ADVANCED_RW"),
   ("no-default-runtime-environment".toList, optVal "NO_DEFAULT_RUNTIME"),
   ("no-fs-restrictions".toList, optVal "NO_FS_RESTRICTIONS"), ("no-new-sessions".toList, optVal "NO_NEW_SESSIONS"),
   ("preserve-fd".toList, optVal "PRESERVE_FD")]

/-- `optstring`, minijail0_cli.c:517-518. -/
def optstring : CStr := "+a:b:c:de::f:g:hik:lm::nprst::u:vwyzB:C:GHIK::LM::NP:R:S:T:UV:Y".toList

/-- `isalpha(3)` in the C locale (minijail0_cli.c:762). -/
def isalpha (c : Char) : Bool := ('a' ≤ c && c ≤ 'z') || ('A' ≤ c && c ≤ 'Z')

/-- The option a config entry stands for, `getopt_from_conf`, minijail0_cli.c:747-768; `none` is the exit with an
error message. -/
def optFromKey (key : CStr) : Option Nat :=
  match longOptions.find? (fun o => o.1 == key) with
  | some o => some o.2
  | none =>
    match key with
    | [c] => if isalpha c && optstring.contains c then some c.toNat else none
    | _ => none

/-- The options that reading a whole config file delivers: repeated `getopt_from_conf`, minijail0_cli.c:734-773,
until all entries are consumed. -/
def optsFromConf : List ConfigEntry → Option (List (Nat × Option CStr))
  | [] => some []
  | e :: es => do
    let o ← optFromKey e.key
    let rest ← optsFromConf es
    pure ((o, e.value) :: rest)

/-- The name recorded for an option: `getname_from_opt` (minijail0_cli.c:794-806), else the option character
(minijail0_cli.c:900-903). -/
def optName (opt : Nat) : CStr :=
  match longOptions.find? (fun o => o.2 == opt) with
  | some o => o.1
  | none => [Char.ofNat opt]

/-- One line of a generated config file, minijail0_cli.c:1348-1358: nothing for `--config` and `--gen-config`. -/
def genConfigLine (o : Nat × Option CStr) : CStr :=
  if optName o.1 = "config".toList ∨ optName o.1 = "gen-config".toList then []
  else match o.2 with
    | none => optName o.1 ++ "\n".toList
    | some args => optName o.1 ++ " = ".toList ++ args ++ "\n".toList

/-- What `--gen-config` writes, minijail0_cli.c:1338-1362, for the recorded options and arguments. -/
def genConfig (opts : List (Nat × Option CStr)) : CStr :=
  "% minijail-config-file v0\n\n".toList ++ opts.flatMap genConfigLine

end Minijail
