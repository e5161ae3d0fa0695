import Verif.Model.SyscallFilter
import Verif.Model.Marshal
/-!
parse_seccomp_policy.cc: the program that compiles a policy ahead of time, and libminijail.c:1451-1502: the options with
which the library compiles one.

Simplifications: messages are dropped; files are what `fopen` and reading give for a path (`Ctx.fs`).
-/
set_option autoImplicit false
namespace Minijail

/-- What `getopt_long` returns at parse_seccomp_policy.cc:61: 'h', 'd' with its `optarg` (which may be NULL), or '?'. -/
inductive ToolOpt where
  | help
  | dump (optarg : Option CStr)
  | unknown
  deriving DecidableEq, Repr

/-- An argument that begins with "--" (`body` is what follows), for the table at parse_seccomp_policy.cc:51-55:
getopt_long(3) takes a name or an unambiguous prefix of one; "help" takes no argument, "dump" an optional one. -/
def toolLong (body : CStr) : ToolOpt :=
  let name := body.takeWhile (· ≠ '=')
  let value := if name.length < body.length then some (body.drop (name.length + 1)) else none
  if name = [] then .unknown
  else if name.isPrefixOf "help".toList then (if value.isSome then .unknown else .help)
  else if name.isPrefixOf "dump".toList then .dump value
  else .unknown

/-- An argument that begins with a single "-" (the characters that follow it), for "d:h", parse_seccomp_policy.cc:50: the
options, and whether a "d" still waits for its argument, which is then the next word (getopt(3)). -/
def toolShort : CStr → List ToolOpt × Bool
  | [] => ([], false)
  | c :: cs =>
    if c = 'd' then (if cs = [] then ([], true) else ([.dump (some cs)], false))
    else if c = 'h' then (.help :: (toolShort cs).1, (toolShort cs).2)
    else (.unknown :: (toolShort cs).1, (toolShort cs).2)

/-- The loop over `getopt_long`, parse_seccomp_policy.cc:61-72: the options one after the other, and the words from
`argv[optind]` on after the last. `waits`: the previous word was an option that takes its argument from this one.
GNU's getopt_long(3) moves the words that are no options to the end (POSIXLY_CORRECT is not modelled). -/
def toolWords : (waits : Bool) → List CStr → List ToolOpt × List CStr
  | true, [] => ([.unknown], [])
  | true, a :: rest => (.dump (some a) :: (toolWords false rest).1, (toolWords false rest).2)
  | false, [] => ([], [])
  | false, a :: rest =>
    match a with
    | '-' :: '-' :: [] => ([], rest)
    | '-' :: '-' :: body => (toolLong body :: (toolWords false rest).1, (toolWords false rest).2)
    | '-' :: c :: cs =>
      let r := toolWords (toolShort (c :: cs)).2 rest
      ((toolShort (c :: cs)).1 ++ r.1, r.2)
    | _ => ((toolWords false rest).1, a :: (toolWords false rest).2)

/-- `dump` and `dump_path` after the options, parse_seccomp_policy.cc:58-72; `none`: 'h' was among them. '?' is ignored. -/
def toolSettings : List ToolOpt → (dump : Bool) → (dumpPath : CStr) → Option (Bool × CStr)
  | [], dump, dumpPath => some (dump, dumpPath)
  | .help :: _, _, _ => none
  | .dump (some p) :: os, _, _ => toolSettings os true p
  | .dump none :: os, _, dumpPath => toolSettings os true dumpPath
  | .unknown :: os, dump, dumpPath => toolSettings os dump dumpPath

/-- `fopts`, parse_seccomp_policy.cc:82-86; the field that is not named is 0. -/
def toolFilterOpts (allowDuplicates : Bool) : FilterOpts := ⟨.kill, false, false, allowDuplicates, false⟩

/-- The rule of a file whose name is NULL, syscall_filter.c:650-700: `insert_and_check_duplicate_syscall` (174-195) copies the name
with `strdup` (`copy_parser_state`, 164-172) unless the system call has been seen. NULL for "%s" in a warning is "(null)". -/
def namelessRule (cx : Ctx) (line : CStr) (st : CState) (bad : Bool) : Res (CState × Bool) :=
  match strsep ':' line with
  | (_, none) => .fail
  | (name, some policyLine) =>
    if strip policyLine = [] then .fail else
    match lookupSyscall cx.syscalls (strip name) with
    | none => compileRule cx line st bad
    | some (_, ind) => if st.seen.contains ind then compileRule cx line st bad else .ub

/-- One iteration of the loop in `compile_file` for the initial file, when its name is NULL, syscall_filter.c:595-746.
Included files have names. -/
def namelessLine (cx : Ctx) (line : CStr) (st : CState) (bad : Bool) : Res (CState × Bool) :=
  match strip line with
  | [] => .ok (st, bad)
  | c :: cs => if c = '#' ∨ c = '@' then compileLine cx 0 (compileFile1 cx) line st bad else namelessRule cx (c :: cs) st bad

/-- The loop of `compile_file` for the initial file, when its name is NULL, syscall_filter.c:595-746. -/
def namelessLines (cx : Ctx) : List CStr → CState → (bad : Bool) → Res (CState × Bool)
  | [], st, bad => .ok (st, bad)
  | l :: ls, st, bad =>
    match namelessLine cx l st bad with
    | .ok (st', bad') => namelessLines cx ls st' bad'
    | .fail => .fail
    | .die => .die
    | .ub => .ub

/-- `compile_filter(argv[1], f, &fp, &fopts)`, parse_seccomp_policy.cc:89. `named`: `argv[1]` is not NULL. Without a name
and a rule the rest of `compile_filter` (syscall_filter.c:813-889) is as in `compileFilter`. -/
def toolCompile (cx : Ctx) (named : Bool) (text : CStr) : Res (List Insn) :=
  if named then compileFilter cx text
  else
    match namelessLines cx (readLines text) ⟨filterPrefix cx, [], [], []⟩ false with
    | .ub => .ub
    | _ => compileFilter cx text

/-- What the program reads and writes, parse_seccomp_policy.cc:74-106: standard input, and how many bytes an output takes (`none` for
a path: `fopen` fails; the path `none` is standard output). -/
structure ToolEnv where
  cx : Ctx
  stdin : CStr
  allowDuplicates : Bool
  room : Option CStr → Option Nat

/-- How the program ends, parse_seccomp_policy.cc:47-109: after the usage message with status 0; with status 0 and the output
(a listing, or bytes to standard output or a file); by `abort`, after what it has written to the dump; or undefined. -/
inductive ToolEnd where
  | usage
  | listed (text : CStr)
  | dumped (dest : Option CStr) (bytes : Bytes)
  | aborted (left : Option (Option CStr × Bytes))
  | ub
  deriving DecidableEq, Repr

/-- The size of a stream's buffer. glibc's `fwrite` hands whole blocks to the kernel at once and keeps the rest for
`fclose`, parse_seccomp_policy.cc:100-102. -/
def STDIO_BLOCK : Nat := 4096

/-- `fopen`, `fwrite` and `fclose` of the dump, parse_seccomp_policy.cc:94-102. What `fclose` returns is not tested. -/
def toolDump (env : ToolEnv) (dumpPath : CStr) (prog : List Insn) : ToolEnd :=
  let dest := if dumpPath = [] then none else some dumpPath
  match env.room dest with
  | none => .aborted none
  | some room =>
    let bytes := prog.flatMap encInsn
    if bytes.length - bytes.length % STDIO_BLOCK > room then .aborted (some (dest, bytes.take room))
    else .dumped dest (bytes.take room)

/-- "%u" and "%zu", parse_seccomp_policy.cc:25. -/
def printDec (n : Nat) : CStr := Nat.toDigits 10 n

/-- "%#x", parse_seccomp_policy.cc:25: no prefix before zero. -/
def printHex (n : Nat) : CStr := if n = 0 then "0".toList else "0x".toList ++ Nat.toDigits 16 n

/-- One line of `DumpBpfProg`, parse_seccomp_policy.cc:24-27. -/
def printInsn (i : Nat) (x : Insn) : CStr :=
  printDec i ++ ": \t{ code=".toList ++ printHex x.code.toNat ++ ", jt=".toList ++ printDec x.jt.toNat ++ ", jf=".toList ++
    printDec x.jf.toNat ++ ", k=".toList ++ printHex x.k.toNat ++ " \t}\n".toList

/-- The loop of `DumpBpfProg`, parse_seccomp_policy.cc:24-27. -/
def printInsns : Nat → List Insn → CStr
  | _, [] => []
  | i, x :: xs => printInsn i x ++ printInsns (i + 1) xs

/-- `DumpBpfProg`, parse_seccomp_policy.cc:18-28. -/
def printProgram (prog : List Insn) : CStr :=
  "len == ".toList ++ printDec prog.length ++ "\nfilter:\n".toList ++ printInsns 0 prog

/-- `main` after the options, parse_seccomp_policy.cc:74-109. `die` and `pdie` end in `abort` (util.h:135-139). -/
def toolRun (env : ToolEnv) (named dump : Bool) (dumpPath : CStr) (operands : List CStr) : ToolEnd :=
  let text := match operands with
    | [] => some env.stdin
    | f :: _ => if f = "-".toList then some env.stdin else env.cx.fs f
  match text with
  | none => .aborted none
  | some text =>
    match toolCompile { env.cx with opts := toolFilterOpts env.allowDuplicates } named text with
    | .ub => .ub
    | .fail | .die => .aborted none
    | .ok prog => if dump then toolDump env dumpPath prog else .listed (printProgram prog)

/-- `main`, parse_seccomp_policy.cc:47-109; `args` are the words after the program's name. -/
def toolMain (env : ToolEnv) (args : List CStr) : ToolEnd :=
  let w := toolWords false args
  match toolSettings w.1 false [] with
  | none => .usage
  | some (dump, dumpPath) => toolRun env (!args.isEmpty) dump dumpPath w.2

/-- `read_seccomp_filter`, minijail0_cli.c:436-459, on the bytes of the file; `none` ends the program. `len` is an
`unsigned short`. -/
def readFilter (bytes : Bytes) : Option (List Insn) :=
  if bytes.length % 8 ≠ 0 then none
  else (rdArray rdInsn ((bytes.length / 8) % 65536) bytes).map Prod.fst

/-- What the build and the kernel decide about the library's options, libminijail.c:1464-1496: ALLOW_DEBUG_LOGGING,
SECCOMP_DEFAULT_RET_LOG (util.h:218-234), `seccomp_ret_log_available` and `seccomp_ret_kill_process_available` (system.c:567-586),
`allow_libc_compatibility_syscalls` and `allow_duplicate_syscalls` (util.h). -/
structure FilterBuild where
  debugLogging : Bool
  defaultRetLog : Bool
  retLog : Bool
  retKillProcess : Bool
  libcCompatibility : Bool
  allowDuplicates : Bool
  deriving DecidableEq, Repr

/-- The options of `parse_seccomp_filters`, libminijail.c:1458-1496, with `seccomp_is_logging_allowed` (234-237); `logging` and
`tsync` are the jail's flags. -/
def jailFilterOpts (b : FilterBuild) (logging tsync : Bool) : FilterOpts :=
  let allowLogging := b.debugLogging && (b.defaultRetLog || logging)
  { action :=
      if allowLogging then (if b.retLog then .log else .trap)
      else if tsync then (if b.retKillProcess then .killProcess else .trap)
      else .kill
    allowLogging := allowLogging
    allowSyscallsForLogging := allowLogging && !b.retLog
    allowDuplicateSyscalls := b.allowDuplicates
    includeLibcCompatibilityAllowlist := b.libcCompatibility }

end Minijail
