import Verif.Model.Api
import Verif.Model.Config
import Verif.Model.Env
import Verif.Model.ParseSize
import Verif.Model.Util
import Verif.Model.OriginalPath
import Verif.Model.Elf
/-! minijail0_cli.c: from the options of the command line to a jail. -/
set_option autoImplicit false
namespace Minijail

/-- How a part of `parse_args` (minijail0_cli.c:844-1502) ends: it goes on, the process exits with a status (`err`, `errx`, `exit`), the library makes it
die, or the behaviour is undefined. -/
inductive CliOut (α : Type) where
  | ok (a : α)
  | exit (code : Nat)
  | die
  | ub
  deriving DecidableEq, Repr

/-- One part after the other, as in minijail0_cli.c:844-1502. -/
def CliOut.bind {α β : Type} (x : CliOut α) (f : α → CliOut β) : CliOut β :=
  match x with
  | .ok a => f a
  | .exit n => .exit n
  | .die => .die
  | .ub => .ub

instance : Monad CliOut where
  pure := .ok
  bind := CliOut.bind

/-- `errx(1, …)` under a condition, e.g. minijail0_cli.c:918. -/
def refuseIf (b : Bool) : CliOut Unit := if b then .exit 1 else .ok ()

/-- An argument that the code dereferences; from a config file it may be missing (NULL), e.g. minijail0_cli.c:69. -/
def need (arg : Option CStr) : CliOut CStr :=
  match arg with
  | some a => .ok a
  | none => .ub

/-- The bytes of a string of the front end; its characters stand for bytes (e.g. `optarg`, minijail0_cli.c:965). -/
def bytesOf (s : CStr) : BStr := s.map fun c => BitVec.ofNat 8 c.toNat

/-- What the front end finds in its environment. `api`: the environment of the library calls. `capText`: `cap_from_text` followed by `cap_get_flag`
(minijail0_cli.c:154-182), with `none` for capabilities it does not know. `lastCap`: `get_last_valid_cap` (system.c:196-222). `consts`: the constants.
`uid`, `gid`, `setgidCap`, `tty`: minijail0_cli.c:340, 356, 303-322, 1319. `readConf`: the file of `--config`. `bpfFile`: the instructions of a compiled
filter and the number of bytes behind them (436-459). `exists_`, `writable`: the target of `--gen-config` (1340-1347). `defaultPolicy`: 1444.
`executable`, `linkage`: 1480, 1486. `environ`: the environment of the process. `pivotRoot`: DEFAULT_PIVOT_ROOT (Makefile:16). -/
structure CliEnv where
  api : ApiEnv := {}
  capText : CStr → Option (Nat → Option Bool) := fun _ => none
  lastCap : Nat := 40
  consts : ConstTable 64 := []
  uid : BitVec 32 := 0#32
  gid : BitVec 32 := 0#32
  setgidCap : Bool := true
  tty : Bool := false
  readConf : CStr → Option CStr := fun _ => none
  bpfFile : CStr → Option (List Insn × Nat) := fun _ => none
  exists_ : CStr → Bool := fun _ => false
  writable : CStr → Bool := fun _ => true
  defaultPolicy : Bool := false
  executable : BStr → Bool := fun _ => true
  linkage : BStr → ElfType := fun _ => .dynamic
  environ : Env := []
  pivotRoot : BStr := bstr "/var/empty"

/-- `enum seccomp_type`, minijail0_cli.c:848-853. -/
inductive SeccompKind where
  | none
  | strict
  | filter
  | bpfBinary
  deriving DecidableEq, Repr

/-- The local variables of `parse_args` (minijail0_cli.c:854-890), the jail and what the caller passes in (844-846). `entries` is the list of options kept
for `--gen-config`. `confs` is `conf_entry_list` from `conf_index` on. `log_to_stderr` is `none` for -1, `elftype` is `none` for ELFERROR. `preload_path` is
`none` while it is what the caller passed in. The lists and
strings stand for what their pointers point to. -/
structure Cli where
  j : Jail
  seccomp : SeccompKind := .none
  use_seccomp_filter : Bool := false
  use_seccomp_filter_binary : Bool := false
  use_seccomp_log : Bool := false
  forward_signals : Bool := true
  have_bind_mounts : Bool := false
  chroot : Bool := false
  pivot_root : Bool := false
  use_mount_ns : Bool := false
  change_remount : Bool := false
  remount_mode : Option CStr := none
  inherit_suppl_gids : Bool := false
  keep_suppl_gids : Bool := false
  caps : Bool := false
  use_ambient_caps : Bool := false
  use_uid : Bool := false
  use_gid : Bool := false
  uid : BitVec 32 := 0#32
  gid : BitVec 32 := 0#32
  suppl_gids : List (BitVec 32) := []
  uidmap : Option CStr := none
  gidmap : Option CStr := none
  set_uidmap : Bool := false
  set_gidmap : Bool := false
  tmp_size : BitVec 64 := 0#64
  filter_path : CStr := []
  log_to_stderr : Option Bool := none
  confs : Option (List ConfigEntry) := none
  parse_mode : Bool := false
  config_path : CStr := []
  fs_path_flag_used : Bool := false
  fs_path_rules_enabled : Bool := true
  entries : List (Nat × Option CStr) := []
  exit_immediately : Bool := false
  elftype : Option ElfType := none
  preload_path : Option (Option CStr) := none
  envp : Option Env := none

/-- The labels of the `switch`, minijail0_cli.c:915-1314. -/
inductive Opt where
  | u | g | n | s | S | l | L | b | B | c | C | k | K | P | f | t | v | V | r | G | y | N | p | e | i | H | I | U | m | M | a | R | T | w | Y | z | d | h
  | ambient | uts | logging | profile | preloadLibrary | enableProfileFsRestrictions | fsDefaultPaths | fsPathRx | fsPathRo | fsPathRw
  | fsPathAdvancedRw | noFsRestrictions | noDefaultRuntime | noNewSessions | preserveFd | seccompBpfBinary | addSupplGroup
  | allowSpeculativeExecution | config | genConfig | envAdd | envReset
  deriving DecidableEq, Repr

/-- All labels and the numbers they stand for, minijail0_cli.c:484-551 and 915-1314. -/
def optNumbers : List (Opt × Nat) :=
  [(.u, 'u'.toNat), (.g, 'g'.toNat), (.n, 'n'.toNat), (.s, 's'.toNat), (.S, 'S'.toNat), (.l, 'l'.toNat), (.L, 'L'.toNat), (.b, 'b'.toNat),
   (.B, 'B'.toNat), (.c, 'c'.toNat), (.C, 'C'.toNat), (.k, 'k'.toNat), (.K, 'K'.toNat), (.P, 'P'.toNat), (.f, 'f'.toNat), (.t, 't'.toNat),
   (.v, 'v'.toNat), (.V, 'V'.toNat), (.r, 'r'.toNat), (.G, 'G'.toNat), (.y, 'y'.toNat), (.N, 'N'.toNat), (.p, 'p'.toNat), (.e, 'e'.toNat),
   (.i, 'i'.toNat), (.H, 'H'.toNat), (.I, 'I'.toNat), (.U, 'U'.toNat), (.m, 'm'.toNat), (.M, 'M'.toNat), (.a, 'a'.toNat), (.R, 'R'.toNat),
   (.T, 'T'.toNat), (.w, 'w'.toNat), (.Y, 'Y'.toNat), (.z, 'z'.toNat), (.d, 'd'.toNat), (.h, 'h'.toNat),
   (.ambient, optVal "AMBIENT"), (.uts, optVal "UTS"), (.logging, optVal "LOGGING"), (.profile, optVal "PROFILE"),
   (.preloadLibrary, optVal "PRELOAD_LIBRARY"), (.enableProfileFsRestrictions, optVal "ENABLE_PROFILE_FS_RESTRICTIONS"),
   (.fsDefaultPaths, optVal "FS_DEFAULT_PATHS"), (.fsPathRx, optVal "FS_PATH_RX"), (.fsPathRo, optVal "FS_PATH_RO"),
   (.fsPathRw, optVal "FS_PATH_RW"), (.fsPathAdvancedRw, optVal "FS_PATH_ADVANCED_RW"), (.noFsRestrictions, optVal "NO_FS_RESTRICTIONS"),
   (.noDefaultRuntime, optVal "NO_DEFAULT_RUNTIME"), (.noNewSessions, optVal "NO_NEW_SESSIONS"), (.preserveFd, optVal "PRESERVE_FD"),
   (.seccompBpfBinary, optVal "SECCOMP_BPF_BINARY"), (.addSupplGroup, optVal "ADD_SUPPL_GROUP"),
   (.allowSpeculativeExecution, optVal "ALLOW_SPECULATIVE_EXECUTION"), (.config, optVal "CONFIG"), (.genConfig, optVal "GEN_CONFIG"),
   (.envAdd, optVal "ENV_ADD"), (.envReset, optVal "ENV_RESET")]

/-- The label a number selects, minijail0_cli.c:915-1314; `none` is `default`. -/
def optOfNat (n : Nat) : Option Opt := (optNumbers.find? fun p => p.2 == n).map (·.1)

/-- A library call whose result is ignored, e.g. minijail0_cli.c:929. -/
def lib (env : CliEnv) (c : Cli) (k : Call) : CliOut Cli :=
  match call env.api c.j k with
  | .die => .die
  | .ret _ j => .ok { c with j := j }

/-- A library call that must return 0, else `errx(1, …)`, e.g. minijail0_cli.c:979. -/
def libMust (env : CliEnv) (c : Cli) (k : Call) : CliOut Cli :=
  match call env.api c.j k with
  | .die => .die
  | .ret rc j => if rc ≠ 0 then .exit 1 else .ok { c with j := j }

/-- `strtoul(arg, &end, 10)` into 32 bits with the test `!*end && *arg`, minijail0_cli.c:69-70, 93-94, 116-118. -/
def decimalId (arg : CStr) : Option (BitVec 32) :=
  match strtoul 64 10 arg with
  | some r => if r.rest = [] then some (BitVec.ofInt 32 r.val) else none
  | none => none

/-- `set_user`, minijail0_cli.c:65-87. `lookup_user` writes both ids only if it succeeds. -/
def setUser (env : CliEnv) (c : Cli) (arg : CStr) : CliOut Cli :=
  match decimalId arg with
  | some uid => lib env { c with uid := uid } (.changeUid uid)
  | none =>
    match env.api.userDb (bytesOf arg) with
    | .error _ => .exit 1
    | .ok (uid, gid) => libMust env { c with uid := uid, gid := gid } (.changeUser (bytesOf arg))

/-- `set_group`, minijail0_cli.c:89-106. -/
def setGroup (env : CliEnv) (c : Cli) (arg : CStr) : CliOut Cli :=
  match decimalId arg with
  | some gid => lib env { c with gid := gid } (.changeGid gid)
  | none =>
    match env.api.groupDb (bytesOf arg) with
    | .error _ => .exit 1
    | .ok gid => lib env { c with gid := gid } (.changeGid gid)

/-- `suppl_group_add`, minijail0_cli.c:112-139. -/
def supplGroupAdd (env : CliEnv) (c : Cli) (arg : CStr) : CliOut Cli :=
  match decimalId arg with
  | some gid => .ok { c with suppl_gids := c.suppl_gids ++ [gid] }
  | none =>
    match env.api.groupDb (bytesOf arg) with
    | .error _ => .exit 1
    | .ok gid => .ok { c with suppl_gids := c.suppl_gids ++ [gid] }

/-- The optional "0x" that `strtoull(3)` skips in base 16 (minijail0_cli.c:145, 184). -/
def skipHex (s : CStr) : CStr :=
  match s with
  | '0' :: 'x' :: d :: t => if isDigitIn 16 d then d :: t else s
  | '0' :: 'X' :: d :: t => if isDigitIn 16 d then d :: t else s
  | _ => s

/-- `strtoull(arg, &end, 16)` with the test `*end`, minijail0_cli.c:145-147, 184-186: `none` is the error. -/
def hexMask (arg : CStr) : Option (BitVec 64) :=
  let p := strtolSign (arg.dropWhile isspace)
  match strtolMag 16 (skipHex p.2) with
  | none => if arg = [] then some 0#64 else none
  | some (m, rest) =>
    if rest ≠ [] then none
    else if m < 2 ^ 64 then some (BitVec.ofInt 64 (if p.1 then -(m : Int) else m))
    else some (-1#64)

/-- The loop of `use_caps`, minijail0_cli.c:162-181. -/
def capMask (has : Nat → Option Bool) (lastCap : Nat) : CliOut (BitVec 64) :=
  if lastCap ≥ 64 ∧ (List.range (lastCap + 1)).any (fun i => 64 ≤ i && has i == some true) then .ub
  else .ok ((List.range (lastCap + 1)).foldl (fun caps i => if has i = some true then caps ||| 1#64 <<< i else caps) 0#64)

/-- The set that `use_caps` reads, minijail0_cli.c:153-187. An error of `cap_get_flag` other than EINVAL is not modelled. -/
def capsOf (env : CliEnv) (arg : CStr) : CliOut (BitVec 64) :=
  match env.capText arg with
  | some has => capMask has env.lastCap
  | none => match hexMask arg with
    | none => .exit 1
    | some m => .ok m

/-- `use_caps`, minijail0_cli.c:151-190. -/
def useCapsArg (env : CliEnv) (c : Cli) (arg : CStr) : CliOut Cli := do
  let caps ← capsOf env arg
  lib env c (.useCaps caps)

/-- `add_binding` behind the tokens, minijail0_cli.c:197-209. `more`: something follows the third token. -/
def addBindingOf (env : CliEnv) (c : Cli) (src : CStr) (dest flags : Option CStr) (more : Bool) : CliOut Cli :=
  if src = [] ∨ more = true then .exit 1
  else
    let dest := if dest.getD [] = [] then src else dest.getD []
    let flags := flags.getD []
    if flags = [] ∨ flags = "0".toList then libMust env c (.bind (bytesOf src) (bytesOf dest) false)
    else if flags = "1".toList then libMust env c (.bind (bytesOf src) (bytesOf dest) true)
    else .exit 1

/-- `add_binding`, minijail0_cli.c:192-210. -/
def addBinding (env : CliEnv) (c : Cli) (arg : Option CStr) : CliOut Cli :=
  match tokenize arg ",".toList with
  | none => .exit 1
  | some (src, arg) =>
    let t2 := tokenize arg ",".toList
    let t3 := tokenize (t2.bind (·.2)) ",".toList
    addBindingOf env c src (t2.map (·.1)) (t3.map (·.1)) (t3.bind (·.2)).isSome

/-- A limit of `add_rlimit`, minijail0_cli.c:224-240; RLIM_INFINITY is all ones. `none` is the error. -/
def limitArg (s : CStr) : Option (BitVec 64) :=
  if s = "unlimited".toList then some (-1#64)
  else match strtoul 64 0 s with
    | none => none -- not empty, so `*end` is a character
    | some r => if r.rest ≠ [] then none else some (BitVec.ofInt 64 r.val)

/-- `add_rlimit`, minijail0_cli.c:212-248. -/
def addRlimitArg (env : CliEnv) (c : Cli) (arg : Option CStr) : CliOut Cli :=
  let t1 := tokenize arg ",".toList
  let t2 := tokenize (t1.bind (·.2)) ",".toList
  let t3 := tokenize (t2.bind (·.2)) ",".toList
  match t1, t2, t3 with
  | some (type, _), some (cur, _), some (max, rest) =>
    if type = [] ∨ cur = [] ∨ max = [] ∨ rest ≠ none then .exit 1
    else match limitArg cur, limitArg max, parseSingleConstant env.consts type with
      | some cur, some max, some t => libMust env c (.rlimit (t.truncate 32) cur max)
      | _, _, _ => .exit 1
  | _, _, _ => .exit 1

/-- `add_mount`, minijail0_cli.c:250-289. -/
def addMountArg (env : CliEnv) (c : Cli) (arg : Option CStr) : CliOut Cli :=
  let t1 := tokenize arg ",".toList
  let t2 := tokenize (t1.bind (·.2)) ",".toList
  let t3 := tokenize (t2.bind (·.2)) ",".toList
  let t4 := tokenize (t3.bind (·.2)) ",".toList
  let t5 := tokenize (t4.bind (·.2)) ",".toList
  match t1, t2, t3 with
  | some (src, _), some (dest, _), some (type, _) =>
    if src = [] ∨ dest = [] ∨ type = [] then .exit 1
    else
      let data := match t5 with
        | some (d, some more) => some (d ++ ',' :: more)
        | some (d, none) => some d
        | none => none
      let flags := match t4 with
        | none => some 0#64
        | some (f, _) => if f = [] then some 0#64 else parseConstant env.consts f
      match flags with
      | none => .exit 1
      | some flags => libMust env c (.mountWithData (bytesOf src) (bytesOf dest) (bytesOf type) flags (data.map bytesOf))
  | _, _, _ => .exit 1

/-- `use_chroot`, minijail0_cli.c:371-379. -/
def useChroot (env : CliEnv) (c : Cli) (path : BStr) : CliOut Cli := do
  refuseIf c.pivot_root
  let c ← libMust env c (.enterChroot path)
  pure { c with chroot := true }

/-- `use_pivot_root`, minijail0_cli.c:381-390. -/
def usePivotRoot (env : CliEnv) (c : Cli) (path : BStr) : CliOut Cli := do
  refuseIf c.chroot
  let c ← libMust env c (.enterPivotRoot path)
  let c ← lib env c .namespaceVfs
  pure { c with pivot_root := true }

/-- DEFAULT_TMP_SIZE, minijail0_cli.c:36. -/
def DEFAULT_TMP_SIZE : BitVec 64 := BitVec.ofNat 64 (64 * 1024 * 1024)

/-- The devices of the profile, minijail0_cli.c:404-408. -/
def profileDev (env : CliEnv) (c : Cli) (profile : CStr) : CliOut Cli :=
  if profile = "minimalistic-mountns".toList then do
    let c ← libMust env c (.bind (bstr "/dev/log") (bstr "/dev/log") false)
    lib env c .mountDev
  else pure c

/-- A size for /tmp unless there is one, minijail0_cli.c:409-412 and 996-1002. -/
def defaultTmp (c : Cli) : Cli := { c with tmp_size := if c.tmp_size = 0#64 then DEFAULT_TMP_SIZE else c.tmp_size }

/-- `use_profile`, minijail0_cli.c:392-418. -/
def useProfile (env : CliEnv) (c : Cli) (profile : CStr) : CliOut Cli := do
  refuseIf (profile ≠ "minimalistic-mountns".toList && profile ≠ "minimalistic-mountns-nodev".toList)
  let c ← lib env c .namespaceVfs
  let c ← libMust env c (.bind (bstr "/") (bstr "/") false)
  let c ← libMust env c (.bind (bstr "/proc") (bstr "/proc") false)
  let c ← profileDev env c profile
  let c ← lib env (defaultTmp c) .remountProcReadonly
  let c ← lib env c .setUsingMinimalisticMountns
  usePivotRoot env c env.pivotRoot

/-- `set_child_env`, minijail0_cli.c:819-842. -/
def setChildEnv (env : CliEnv) (c : Cli) (arg : CStr) : CliOut Cli :=
  match strstr "=".toList arg with
  | none => .exit 1
  | some (name, value) =>
    match minijailSetenv (some (c.envp.getD (minijailCopyEnv (some env.environ)))) (some name) (some value) true with
    | (.ok, e) => .ok { c with envp := e }
    | (.einval, _) => .exit 1

/-- The `switch` of `parse_args`, minijail0_cli.c:915-1314. The checks of configuration files that depend on build options (1239-1266) are left out. -/
def optStep (env : CliEnv) (c : Cli) (o : Opt) (arg : Option CStr) : CliOut Cli :=
  match o with
  | .u => do
    refuseIf c.use_uid
    if c.parse_mode then pure { c with use_uid := true } else do
      let a ← need arg
      setUser env { c with use_uid := true } a
  | .g => do
    refuseIf c.use_gid
    if c.parse_mode then pure { c with use_gid := true } else do
      let a ← need arg
      setGroup env { c with use_gid := true } a
  | .n => lib env c .noNewPrivs
  | .s => do
    refuseIf (c.seccomp != .none && c.seccomp != .strict)
    lib env { c with seccomp := .strict } .useSeccomp
  | .S => do
    refuseIf (c.seccomp != .none && c.seccomp != .filter)
    let c ← lib env { c with seccomp := .filter } .useSeccompFilter
    pure { c with filter_path := ← need arg, use_seccomp_filter := true }
  | .l => lib env c .namespaceIpc
  | .L => do
    refuseIf (c.seccomp == .bpfBinary)
    lib env { c with use_seccomp_log := true } .logSeccompFilterFailures
  | .b => if c.parse_mode then pure { c with have_bind_mounts := true } else addBinding env { c with have_bind_mounts := true } arg
  | .B => do
    match hexMask (← need arg) with
    | none => .exit 1
    | some m => lib env c (.skipSettingSecurebits m)
  | .c => do useCapsArg env { c with caps := true } (← need arg)
  | .C => do useChroot env c (bytesOf (← need arg))
  | .k => if c.parse_mode then pure c else addMountArg env c arg
  | .K => pure { c with remount_mode := arg, change_remount := true }
  | .P => do usePivotRoot env c (bytesOf (← need arg))
  | .f => if c.parse_mode then pure c else do
    let a ← need arg
    libMust env c (.writePidFile (bytesOf a))
  | .t => do
    let c ← lib env c .namespaceVfs
    match arg with
    | none => pure (defaultTmp c)
    | some a => match parseSize a with
      | .error _ => .exit 1
      | .ok size => pure { c with tmp_size := size }
  | .v => do
    let c ← lib env c .namespaceVfs
    let c ← lib env c (.remountMode MS_SLAVE)
    pure { c with use_mount_ns := true }
  | .V =>
    if c.parse_mode then pure c else match arg with
      | none => .die -- `open` of NULL fails
      | some a => lib env c (.namespaceEnterVfs (bytesOf a))
  | .r => lib env c .remountProcReadonly
  | .G => do
    refuseIf c.keep_suppl_gids
    let c ← lib env c .inheritUsergroups
    pure { c with inherit_suppl_gids := true }
  | .y => do
    refuseIf c.inherit_suppl_gids
    let c ← lib env c .keepSupplementaryGids
    pure { c with keep_suppl_gids := true }
  | .N => lib env c .namespaceCgroups
  | .p => lib env c .namespacePids
  | .e => if c.parse_mode then pure c else match arg with
      | some a => lib env c (.namespaceEnterNet (bytesOf a))
      | none => lib env c .namespaceNet
  | .i => pure { c with exit_immediately := true }
  | .H => .exit 0
  | .I => do
    let c ← lib env c .namespacePids
    lib env c .runAsInit
  | .U => do
    let c ← lib env c .namespaceUser
    lib env c .namespacePids
  | .m => pure { c with set_uidmap := true, uidmap := arg }
  | .M => pure { c with set_gidmap := true, gidmap := arg }
  | .a => do libMust env c (.useAltSyscall (bytesOf (← need arg)))
  | .R => addRlimitArg env c arg
  | .T => do
    let a ← need arg
    if a = "static".toList then pure { c with elftype := some .static }
    else if a = "dynamic".toList then pure { c with elftype := some .dynamic }
    else .exit 1
  | .w => lib env c .newSessionKeyring
  | .Y => lib env c .setSeccompFilterTsync
  | .z => pure { c with forward_signals := false }
  | .d => do
    let c ← lib env c .namespaceVfs
    lib env c .mountDev
  | .h => .exit 0
  | .ambient => lib env { c with use_ambient_caps := true } .setAmbientCaps
  | .uts => do
    let c ← lib env c .namespaceUts
    match arg with
    | some a => lib env c (.namespaceSetHostname (bytesOf a))
    | none => pure c
  | .logging => do
    let a ← need arg
    if a = "auto".toList then pure { c with log_to_stderr := none }
    else if a = "syslog".toList then pure { c with log_to_stderr := some false }
    else if a = "stderr".toList then pure { c with log_to_stderr := some true }
    else .exit 1
  | .profile => do useProfile env c (← need arg)
  | .preloadLibrary => pure { c with preload_path := some arg }
  | .enableProfileFsRestrictions => lib env c .setEnableProfileFsRestrictions
  | .fsDefaultPaths => lib env { c with fs_path_flag_used := true } .enableDefaultFsRestrictions
  | .fsPathRx => do lib env { c with fs_path_flag_used := true } (.addFsRestrictionRx (bytesOf (← need arg)))
  | .fsPathRo => do lib env { c with fs_path_flag_used := true } (.addFsRestrictionRo (bytesOf (← need arg)))
  | .fsPathRw => do lib env { c with fs_path_flag_used := true } (.addFsRestrictionRw (bytesOf (← need arg)))
  | .fsPathAdvancedRw => do lib env { c with fs_path_flag_used := true } (.addFsRestrictionAdvancedRw (bytesOf (← need arg)))
  | .noFsRestrictions => lib env { c with fs_path_rules_enabled := false } .disableFsRestrictions
  | .noDefaultRuntime => lib env c (.setEnableDefaultRuntime false)
  | .noNewSessions => lib env c (.setEnableNewSessions false)
  | .preserveFd => do
    let a ← need arg
    match strtol 64 10 a with
    | none => if a = [] then lib env c (.preserveFd 0#32 0#32) else .exit 1
    | some r => if r.rest ≠ [] then .exit 1 else lib env c (.preserveFd (BitVec.ofInt 32 r.val) (BitVec.ofInt 32 r.val))
  | .seccompBpfBinary => do
    refuseIf (c.seccomp != .none && c.seccomp != .bpfBinary)
    refuseIf c.use_seccomp_log
    let c ← lib env { c with seccomp := .bpfBinary } .useSeccompFilter
    pure { c with filter_path := ← need arg, use_seccomp_filter_binary := true }
  | .addSupplGroup => do supplGroupAdd env c (← need arg)
  | .allowSpeculativeExecution => lib env c .setSeccompFilterAllowSpeculation
  | .config => do
    refuseIf c.confs.isSome
    let a ← need arg
    match env.readConf a with
    | none => .exit 1
    | some text =>
      let r := parseConfigFile text
      if !r.1 then .exit 1 else pure { c with confs := some r.2 }
  | .genConfig => do pure { c with parse_mode := true, config_path := ← need arg }
  | .envAdd => do setChildEnv env c (← need arg)
  | .envReset => pure { c with envp := some [] }

/-- One round of the loop, minijail0_cli.c:892-1315: the option is recorded and handled. -/
def cliStep (env : CliEnv) (c : Cli) (opt : Nat) (arg : Option CStr) : CliOut Cli :=
  let c := { c with entries := c.entries ++ [(opt, arg)] }
  match optOfNat opt with
  | some o => optStep env c o arg
  | none => .exit 1

/-- The rounds in which options come from a configuration file, minijail0_cli.c:734-792. An entry that names a configuration file is refused, so the list
does not change on the way. -/
def confLoop (env : CliEnv) (c : Cli) : List ConfigEntry → CliOut Cli
  | [] => .ok { c with confs := none }
  | e :: rest =>
    match optFromKey e.key with
    | none => .exit 1
    | some o => (cliStep env { c with confs := some rest } o e.value).bind fun c => confLoop env c rest

/-- The loop of `parse_args`, minijail0_cli.c:892-1315. `opts` is what `getopt_long` returns one after the other with its `optarg` (`'?'` for what it does
not know). -/
def optLoop (env : CliEnv) (c : Cli) : List (Nat × Option CStr) → CliOut Cli
  | [] => .ok c
  | (o, arg) :: rest =>
    (cliStep env c o arg).bind fun c =>
      (match c.confs with
        | some es => confLoop env c es
        | none => .ok c).bind fun c => optLoop env c rest

/-- `%d` of an `id_t`, minijail0_cli.c:295: the number is taken as signed. -/
def signedDecimal (id : BitVec 32) : BStr := bstr (toString id.toInt)

/-- `build_idmap`, minijail0_cli.c:291-301. The text always fits (IDMAP_LEN is 32). -/
def buildIdmap (id lowerid : BitVec 32) : BStr := signedDecimal id ++ bstr " " ++ signedDecimal lowerid ++ bstr " 1"

/-- The uid part of `set_ugid_mapping`, minijail0_cli.c:328-344. -/
def setUidMapping (env : CliEnv) (c : Cli) : CliOut Cli :=
  if c.set_uidmap then do
    let c ← lib env c .namespaceUser
    let c ← lib env c .namespacePids
    libMust env c (.uidmap (match c.uidmap with
      | some m => bytesOf m
      | none => buildIdmap c.uid env.uid))
  else pure c

/-- The test of `has_cap_setgid`, minijail0_cli.c:357-366. -/
def maybeDisableSetgroups (env : CliEnv) (c : Cli) : CliOut Cli :=
  if env.setgidCap then pure c else lib env c .namespaceUserDisableSetgroups

/-- The gid part of `set_ugid_mapping`, minijail0_cli.c:345-368. -/
def setGidMapping (env : CliEnv) (c : Cli) : CliOut Cli :=
  if c.set_gidmap then do
    let c ← lib env c .namespaceUser
    let c ← lib env c .namespacePids
    let c ← maybeDisableSetgroups env c
    libMust env c (.gidmap (match c.gidmap with
      | some m => bytesOf m
      | none => buildIdmap c.gid env.gid))
  else pure c

/-- MS_UNBINDABLE, minijail0_cli.c:430. -/
def MS_UNBINDABLE : BitVec 64 := 0x20000#64

/-- `set_remount_mode`, minijail0_cli.c:420-434. -/
def setRemountMode (env : CliEnv) (c : Cli) (mode : CStr) : CliOut Cli :=
  if mode = "shared".toList then lib env c (.remountMode MS_SHARED)
  else if mode = "private".toList then lib env c (.remountMode MS_PRIVATE)
  else if mode = "slave".toList then lib env c (.remountMode MS_SLAVE)
  else if mode = "unbindable".toList then lib env c (.remountMode MS_UNBINDABLE)
  else .exit 1

/-- `set_seccomp_filters` with `read_seccomp_filter`, minijail0_cli.c:436-467. `len` is an `unsigned short`. -/
def setSeccompFile (env : CliEnv) (c : Cli) (path : CStr) : CliOut Cli :=
  match env.bpfFile path with
  | none => .exit 1
  | some (prog, extra) =>
    if extra ≠ 0 then .exit 1 else lib env c (.setSeccompFilters (prog.take (prog.length % 65536)))

/-- default_policy_path, minijail0_cli.c:470. -/
def defaultPolicyPath : CStr := "/etc/security/minijail/v0.bin".toList

/-- Signals are forwarded unless -z was given, minijail0_cli.c:1383-1385. -/
def settleSignals (env : CliEnv) (c : Cli) : CliOut Cli := if c.forward_signals then lib env c .forwardSignals else pure c

/-- Option -K, minijail0_cli.c:1407-1414. -/
def settleRemount (env : CliEnv) (c : Cli) : CliOut Cli :=
  if c.change_remount then
    match c.remount_mode with
    | some m => setRemountMode env c m
    | none => lib env c .skipRemountPrivate
  else pure c

/-- Option add-suppl-group, minijail0_cli.c:1420-1424. -/
def settleGroups (env : CliEnv) (c : Cli) : CliOut Cli :=
  if c.suppl_gids ≠ [] then lib env c (.setSupplementaryGids c.suppl_gids) else pure c

/-- The default policy, minijail0_cli.c:1435-1440. -/
def defaultSeccomp (env : CliEnv) (c : Cli) : CliOut Cli :=
  if env.defaultPolicy then do
    let c ← lib env c .useSeccompFilter
    setSeccompFile env c defaultPolicyPath
  else pure c

/-- Filters, minijail0_cli.c:1430-1443. -/
def settleSeccomp (env : CliEnv) (c : Cli) : CliOut Cli :=
  if c.use_seccomp_filter then lib env c (.parseSeccompFilters (bytesOf c.filter_path))
  else if c.use_seccomp_filter_binary then setSeccompFile env c c.filter_path
  else if c.j.flags.enable_default_runtime then do
    let c ← defaultSeccomp env c
    lib env c .noNewPrivs
  else pure c

/-- The size of /tmp, minijail0_cli.c:1446-1447. -/
def settleTmp (env : CliEnv) (c : Cli) : CliOut Cli := if c.tmp_size ≠ 0#64 then lib env c (.mountTmpSize c.tmp_size) else pure c

/-- `parse_args` behind the generation of a configuration file and up to the program, minijail0_cli.c:1370-1460. -/
def settle (env : CliEnv) (c : Cli) : CliOut Cli := do
  let c ← setUidMapping env c
  let c ← setGidMapping env c
  refuseIf (c.use_ambient_caps && !c.caps)
  let c ← settleSignals env c
  refuseIf (c.have_bind_mounts && !(c.chroot || c.pivot_root || c.use_mount_ns))
  refuseIf (c.change_remount && !c.use_mount_ns)
  let c ← settleRemount env c
  let c ← settleGroups env c
  let c ← settleSeccomp env c
  let c ← settleTmp env c
  let c ← lib env c .addMinimalisticMountnsFsRules
  pure { c with envp := some (c.envp.getD (minijailCopyEnv (some env.environ))) }

/-- The linkage of the program unless -T was given, minijail0_cli.c:1472-1488. -/
def programType (env : CliEnv) (c : Cli) (p : CStr) : CliOut ElfType :=
  match c.elftype with
  | some t => pure t
  | none =>
    if env.executable (getOriginalPath c.j (bytesOf p)) then pure (env.linkage (getOriginalPath c.j (bytesOf p))) else .exit 1

/-- The program, minijail0_cli.c:1464-1501. -/
def checkProgram (env : CliEnv) (c : Cli) (program : Option CStr) : CliOut Cli :=
  match program with
  | none => .exit 1
  | some p => do
    let t ← programType env c p
    refuseIf (c.caps && t == .static && !c.use_ambient_caps)
    pure { c with elftype := some t }

/-- How `parse_args` ends when it does not exit with an error: with a jail to run, or with a configuration file written. -/
inductive CliEnd where
  | run (c : Cli)
  | wrote (path text : CStr)

/-- Logging to standard error, minijail0_cli.c:1317-1331. -/
def keepStderr (env : CliEnv) (c : Cli) : CliOut Cli :=
  if c.log_to_stderr.getD env.tty then libMust env c (.preserveFd 2#32 2#32) else pure c

/-- `parse_args`, minijail0_cli.c:844-1502. `program` is the first argument behind the options. -/
def parseArgs (env : CliEnv) (j : Jail) (opts : List (Nat × Option CStr)) (program : Option CStr) : CliOut CliEnd := do
  let c ← optLoop env { j := j } opts
  let c ← keepStderr env c
  refuseIf (c.fs_path_flag_used && !c.fs_path_rules_enabled)
  if c.parse_mode then do
    refuseIf (env.exists_ c.config_path)
    refuseIf (!env.writable c.config_path)
    pure (.wrote c.config_path (genConfig c.entries))
  else do
    let c ← settle env c
    let c ← checkProgram env c program
    pure (.run c)

end Minijail
