# Formal model of google/minijail — design

## 1. Layout

| Path | Content |
|---|---|
| `properties.jsonl` | the semantic properties (C01…), generated by `tools/gen_properties.py` |
| `MANIFEST.json` | property → status, theorem names |
| `lean/Verif/Model/*.lean` | the model: one definition per C function, each citing file:lines in /repo |
| `lean/Verif/Spec/*.lean` | small specifications, written without using the model's helpers |
| `lean/Verif/Proof/*.lean` | helper lemmas |
| `lean/Verif/Props/*.lean` | the property theorems, and beside each an `example` meeting its hypotheses |
| `seeded/LOG.jsonl` | mutation experiments: bugs put in a scratch copy and which theorems noticed |

## 2. Trusted base

* Lean 4.33 kernel; the axioms `propext`, `Classical.choice`, `Quot.sound` only (checked by `vcheck` and `#print axioms`).
* The transcription C → Lean (this is manual: every definition cites the lines it transcribes).
* The parts of the environment that are specified rather than modelled from source: the classic-BPF machine of the
  kernel (`Model/BpfMachine.lean`), Linux system call effects on file descriptors, credentials and mounts (stated
  where used), libc string functions (`strtol`, `strtok_r`, `strsep`, `strstr`, `getline`).
* C strings are `List Char` (texts) or lists of bytes (serialised data, paths of a jail), without NUL. Memory is assumed to suffice except where its exhaustion is an outcome of the model
  (`Model/Api`: every configuration call; C43, C68, C72: compiling, receiving and destroying).
* Undefined behaviour is a distinct outcome (`ub`) wherever the C code can reach it.
* Generated tables (system calls, constants), build options and the answers of the kernel are parameters: the theorems hold for all of them unless a hypothesis says otherwise.

Modelled, by source file (each definition cites the lines):

| Source | Model |
|---|---|
| `bpf.c`, `bpf.h` | `Bpf`, `BpfLabels` (label table as memory); the kernel's machine is `BpfMachine` |
| `syscall_filter.c` | `SyscallFilter` (what is compiled), `Blocks` (the same with its memory), `Complaints` (the same with its messages), `Tables` (the memory of labels and of `previous_syscalls`, also for `bpf.c`) |
| `util.c` | `CString`, `Util`, `ParseSize`, `Path`, `Env`, `EnvMem`, `LineMem`, `Log`, and in `Report` the logger as far as the SIGSYS handler needs it |
| `config_parser.c` | `Config`, `ConfigMem` |
| `elfparse.c` | `Elf` |
| `landlock_util.c` | `Landlock` |
| `signal_handler.c` | `Report`, `SignalState` |
| `system.c` | `ActionsAvail`, `BindPath`, `MkdirP`, `ParentSetup`, `Probes` (with `syscall_wrapper.c`), `Loopback`, and the requests of `Enter` |
| `libminijail.c`, configuration calls | `Jail`, `Api`, `Ownership` (the same with its memory), `Cleanup` |
| `libminijail.c`, serialising | `Marshal`, `Pipe`, `Delivery` |
| `libminijail.c`, entering | `Enter`, `OriginalPath`, `Landlock`, `BindPath` |
| `libminijail.c`, running, waiting | `Run`, `RunParent`, `ParentSetup`, `Fds`, `StartedFds`, `Preload`, `Sync`, `Wait`, `Lifecycle`, `SignalState`, `KillTarget` |
| `libminijailpreload.c` | `Preload` (the environment, the announced descriptor), `Run` |
| `minijail0_cli.c`, `minijail0.c` | `Cli`, `Config`, `Main` |
| `parse_seccomp_policy.cc` | `ParsePolicy` |
| `dump_constants.cc`, `tools/arch.py`, `tools/generate_constants_json.py` | `Constants` |
| `gen_syscalls.sh`, `gen_constants.sh` | `GenTables` |
| `rust/minijail/src/lib.rs` | `Rust`, `RustStart`, `Threads`, `RustLog` |
| `tools/bpf.py`, `compiler.py`, `parser.py`, `compile_seccomp_policy.py` | `Offline`, `OfflineParse`, `Simulate` |
| `tools/seccomp_policy_lint.py` | `Lint` |
| `tools/generate_seccomp_policy.py` | `Generate`, `GenerateAudit` |

Not modelled: other threads of the caller; signals that arrive at arbitrary points beyond what C70, C75 and C90 state; messages (except what C75, C80 and C85 state: the wording of messages, and which are reported when outside the policy compiler);
the interposed `__libc_start_main` beyond what C40, C45 and C47 state; the printed usage; the C preprocessor, whose lines and macro values are parameters of C79; what clang prints and what Python's `json.dump` writes (assumed by `Spec/Llvm` and `Spec/Json`);
`rust/minijail-sys`; the test programs; Android and ChromeOS build files except for options that are parameters.

## 3. Plan per property

* **C01–C06** Classic BPF interpreter `exec` over program suffixes (`Model/BpfMachine`), `bpf.c` generators
  (`Model/Bpf`), label table and backward resolution (`Model/BpfLabels`), `syscall_filter.c` on text
  (`Model/SyscallFilter`). Independent policy semantics in `Spec/Policy`. Proof: per-atom correctness by case split on
  hi/lo words; symbolic (labelled) semantics; resolution preserves it; induction over groups, lines, files.
* **C07** violated by the code: `compile_file` does not test `bpf_label_id`'s −1. Prove the negation with a witness and
  a `_partial` theorem under "fewer than 512 labels".
* **C08** violated (`arg-1`, `arg6`): prove the negation; `_partial` for plain decimal indices 0..5.
* **C09, C10** over the same model, induction over logical lines with one include level.
* **C11** grammar AST for constant expressions with a renderer; theorem: parse(render e) = eval e, plus error theorems.
* **C12** exact characterisation of accepted strings.
* **C13, C14, C15, C16, C17, C18** functions on `List Char`; induction.
* **C14** is violated at end of file (line ending in `\` at EOF is dropped): negation + `_partial`.
* **C19–C21, C43** byte-level marshal/unmarshal over `List (BitVec 8)`. The struct image is encoded field by field in
  declaration order for the LP64 little-endian layout (2176 bytes, padding not transferred as data). Pointers of the
  sender are an arbitrary non-zero address function. C43 tracks each pointer field (null, stale, live, freed) through the
  error path.
* **C22, C23, C45, C46** descriptor table as a function from numbers; the passes as list loops; invariants by induction. The kernel's
  refusals of `dup2` and the effect of logging on the table are parameters. What `minijail_enter` does to descriptors and the
  reading of `/proc/self/fd` as text are not modelled.
* **C24, C26, C29, C30, C38** `minijail_enter` (`Model/Enter`) as a program that makes requests; the system is an arbitrary function from
  the history and the request to an answer. `Proof/EnterShape` gives the exact trace of every run that returns, `Proof/EnterStops`
  what a run of any outcome may do after a failure.
* **C25** and the process-level parts of the others: `Spec/Process` says what a granted request does to the credentials of a process. A hook
  may change everything; of a change of user only the parts needed are assumed. Trusted here: a request that was answered with
  success took effect (a filter installed earlier could fake this: without `no_new_privs` the filter is installed before the
  ids change).
* **C27** two-process transition system with a pipe; invariant over all interleavings.
* **C28, C48** API state machine (`Model/Api`, one constructor per public configuration function), invariant by induction over
  op lists. Name lookups, `/proc` opens, seccomp support, exhausted memory are parameters of each call. A call that runs out of
  memory fails at its first allocation.
* **C34** the same, plus `populate_ruleset`/`apply_landlock` with the kernel's rule check (`Model/Landlock`).
* **C39** invariants of the loop about the ids the front end keeps beside the jail (`Proof/CliMaps`); `Spec/IdMap` reads the text of a map as
  user_namespaces(7) does.
* **C31, C32** `waitpid` answers as a list constrained by a small automaton of the child (`Spec/Wait`). Stop and continue reports are not asked for
  by the code and so not answered.
* **C33** byte-level parser with explicit bounds outcome (`Model/Elf`), on a little-endian host.
* **C35** `mkdir_p` and `setup_mount_destination` over system calls on an arbitrary state; `Spec/Files` says what is expected of a file system (links,
  refusals and limits are possible), `Proof/SimpleFs` gives one.
* **C36, C40** string functions.
* **C37** the front end (`Model/Cli`) from what `getopt_long` returns to the jail; one lemma says what each option does to the local variables, an
  invariant over both loops relates them to the options given, and the jail is reached by library calls, so C28 applies.
* **C50** one predicate per option (`Done`) that the option establishes and that every later call keeps (the lemmas of C48), carried through the loop
  over command line and configuration files, then through `settle`; `Spec/CliEffect` states it with option letters and the manual's implications.
* **C51** per option a lemma that reads its argument against the specification (`Proof/CliArgs`), a frame lemma that says which settings an option reaches
  (`Proof/CliFrame`), and per setting an invariant of the loop about the last, first, only or all arguments (`Proof/CliValues`); `Spec/CliValues` states the values.
* **C47** `Model/Run` splits a run into child and library as the code does; the traces of both (`EnterTrace`) are put side by side, with C19 and C21 for the way between.
* **C52, C53** `Spec/Asked` lists for each call and each option what it is documented to turn on or off or give a value; one lemma per call (`Proof/ApiOn`) and per
  option (`Proof/CliOn`, `Proof/CliOnFinal`) bounds what changes; the sequences by induction.
* **C54** `Model/Main` (minijail0.c) on top of `Model/Cli`, `Model/Preload` and `Model/Wait`. `Spec/Main` folds the options over the value of one variable. One invariant
  of the loop over the options ties the local variables to the options read so far; the end-to-end statements then compose C16, C31, C32 and C40.
* **C55** `Spec/Forever` states the system's rules for what a process may do to its own ids and privileges (`Act`, each rule at least as permissive as the kernel; part of the
  trusted base, like `Granted` in `Spec/Process`), `Later` is its closure. The record `Jailed` (what the jail wants of the process, proved from the trace of `minijail_enter` in
  `Proof/Jailed`) implies that each missing capability is missing from all five sets, which every rule preserves. New user namespaces are left out: capabilities in them are over
  that namespace only. `C47_jailed_partial` and `C47_jailed_direct` carry `Jailed` over to programs started by `minijail_run`.
* **C56** `Spec/Confined` says for each option what it means for the process that runs the program, in terms of requests that the system granted (`Requested`), of the process
  (`Identity`) and of its future (`Lasting`). The proof (`Proof/Confined`) joins what the options make of the jail (C50, C51, C53) with what a run does with a jail (C47) and
  what stays (C55). Nothing of the jail appears in the conclusion. `Spec/SetFor` says the same of what is done for the process from outside: the file of -f, the limits of -R
  and the maps of -m and -M, one after the other and nothing else (C39, C51 and C53 joined with C69).
* **C57** `Model/OfflineParse` is tools/parser.py and the command line tool: tokens (the regular expressions of the table as functions that give the length of the
  match), the recursive descent, the files and the collection of filters by system call. `Spec/Lex` is the table of regular expressions itself, with ordered choice
  and `\b`, `$` as in Python; `Proof/Lex` shows that the tokenizer follows it (`C57_tokens`). `Spec/Included` says where paths lead (`C57_included`: included files are found beside the file that includes them). `Spec/OfflineText` is the grammar of the comments of tools/parser.py as
  inductive relations between tokens and meanings, `Spec/OfflineMeaning` what files, statements and the command mean. Soundness (`Proof/OfflineParse`), completeness
  (`Proof/OfflineComplete`: each phrase is read back, if what follows cannot belong to it) and hence uniqueness (`Proof/OfflineUnique`) of the grammar; numbering of
  action objects (`Proof/OfflineObjects`), so that C41 applies.
* **C58** `Spec/Common` is the part of the policy language that minijail and the offline compiler share, as written texts with their meaning; it refers to no model.
  Each such text is shown to be in both languages (`Spec/PolicyText` of C01, `Spec/OfflineText` of C57) with the same meaning, so that C01 and C57 give the result
  of both programs: `C58_minijail`, `C58_offline`, hence `C58_partial`. `SameTask` (in `Props/C58`) lists what the two runs must have in common: tables
  (`Spec/CommonFits`), files, way to kill. `C58_accepted`: the offline compiler takes all these texts.
* **C59** `Spec/Trace` says what lines of strace(1) tell of, by the shape of the line, and what a policy made of traces is to allow (`AllowedByTraces`). The loop over
  lines and files keeps the invariant `Knows` (`Proof/GenerateSeen`): the names and values that the tool has are those told of so far. The policy it writes is in the common
  language of C58, and its rules allow exactly that (`C59_exact`), so both compilers do (`C59_minijail`, `C59_offline`). `C59_covers_partial`: the traced calls are
  among them. `order` stands for the order of Python's sets, any permutation.
* **C41, C42** `Model/Offline`: blocks of tools/bpf.py as trees whose nodes carry the number that stands for the identity of the Python object, so that sharing is
  visible to the visitors; lowering and flattening with their tables; ranges, linear search and the memoised search for the cheapest tree (tools/compiler.py). A
  heap invariant (numbers tell blocks apart) makes the tables sound; the meaning of a block is a verdict, kept by lowering and by flattening; the search keeps the
  invariant that every memoised block decides all numbers inside its bounds. A machine on unbounded numbers (`execN`) stands between, so that the widths of the fields
  matter only at the end. Trusted here: the transcription Python → Lean (exceptions and failed assertions are `none`). The parser (tools/parser.py) is the subject of C57; here its
  result is the input, and `GoodPolicy` says what it guarantees. Of tools/: parser.py, compiler.py, bpf.py, compile_seccomp_policy.py and generate_seccomp_policy.py (audit logs as the library auparse shows them) are modelled; seccomp_policy_lint.py in C63.
* **C60–C62** the Rust crate (rust/minijail/src/lib.rs), `Model/Rust`: each method as what it checks and the call of the library (`Model/Api`) it makes; `Spec/Rust` says which call a method
  stands for. The rest is carried over: C60 from C28 and C48 (sequences of calls) and C19 (`try_clone`), C61 from C22 and C23 (descriptors of the child), C62 from C31. Trusted here: the
  transcription Rust → Lean; the ownership of buffers and the generated bindings are not modelled, nor is `log_to_fd` or `minijail-sys`.
* **C63** the policy linter (tools/seccomp_policy_lint.py), `Model/Lint`: its regular expressions as functions on a line, its loop as a fold with its state; `Spec/Lint` says which lines name a
  system call and which are documented. An invariant over the lines read so far (`After`) gives the errors exactly. That a policy which passes allows nothing dangerous undocumented follows with C02's
  language of policies: each rule comes from a line, the linter sees that line, and the harmless rules are tame for all arguments. Trusted: the constants of the machine (`LintTables`).
* **C64** the converse of C01: `Spec/PolicySize` counts instructions, `Spec/PolicyFits` says what fits. Each step of the compiler is shown to succeed on the texts of the language
  (`Proof/Accept`, `Proof/AcceptLines`) with code that is a function of the final label table (`Piece`); the jumps of the pieces then have their labels, once and ahead
  (`Proof/AcceptResolve`), so that C06 gives the resolution. Conversely (`Proof/AcceptLabels`) the blocks define as many labels as the rules need, resolution succeeds only if they are different and in
  the table, and the table has at most 512.
* **C65** `Model/RunParent` is the calling process of the eleven functions that start something: descriptors, memory, signal mask, what is started. `Spec/RunCall` says for each function what it is asked to store,
  execute and preload, and what the system does with descriptors. `C65_failed` and `C65_started_partial` follow the pipes that are opened (`PipesIn`) through all paths; `C65_streams_partial` continues in the
  child (`Model/StartedFds`, over `setup_spec`, C23 and C46): moved ends of pipes stay above 2 because few numbers are in use (`findUnused_far`), and the files of new pipes occur only once.
  `C65_executes_partial` joins the environment with C40.
* **C66** `Model/ParsePolicy` is parse_seccomp_policy.cc with getopt_long(3) for its two options, the null file name, fwrite(3) with its buffer, the listing, and minijail0's reading of the file. `Spec/ParsePolicy` has
  the documented commands. C64 and C01 give acceptance and meaning; the round trip of the bytes is that of C20; the listing is injective (`printProgram_inj`).
* **C67** `jailFilterOpts` (in `Model/ParsePolicy`) is the choice of options in `parse_seccomp_filters`; `Model/ActionsAvail` the search of the kernel's list. `Spec.blockedCall` is the table. C01 carries it to the program, the
  trace of C24 to the signal's disposition.
* **C68** `Model/Blocks` is the compiler with its linked lists in memory: blocks and arrays are cells, pointers addresses, `free` removes a cell, and using a cell that is not there is undefined. `Proof/Blocks` describes a list
  in memory by the list of its blocks (`ListAt`, `Good`) and each operation by the addresses it owns before and after (`Moves`, with a frame rule); `Proof/BlocksSim` and `Proof/BlocksFile` follow the compiler and show
  that it does what `compileFilter` does. So the lists of instructions in `Model/SyscallFilter`, on which C01-C07, C13, C14, C58, C64 rest, are no simplification of the linked lists.
* **C69** `Model/ParentSetup` is what the parent does for the child call by call, with the answer of every call a parameter that may depend on all that happened before, short writes, and `errno` after logging.
  `Spec/ParentSetup` has the list of deeds a jail asks for. `C69_plan` ties it to the plan of C27.
* **C70** `Model/Lifecycle` is a system of processes whose numbers are used again, with jails run, waited for and killed in any order, and `install_signal_handlers`. `Spec/Lifecycle` tells from the log which program a
  jail stands for. An invariant over all sequences of events: the number of a jail is its program's until someone has been told how that has ended.
* **C71** Nothing new is modelled: the options (C37, C50-C53), the rules of the jail and what the kernel makes of them (C34) are put together. `Spec/PathRules` gives the paths and rights of each option and of
  the profile, and what a process under landlock may do. The rules are carried through all options and configuration files in order; the landlock version that decides about right 13 is an invariant over all calls.
* **C72** `Model/Ownership`: memory as a map from addresses to blocks, the pointers of the jail, and every function of libminijail.c that allocates, frees or goes through them; which allocation fails is an
  arbitrary function. Addresses are not used again. The invariant is a multiset: what the jail owns, element by element of its four lists, and what was lost, is exactly what is allocated beyond the caller's memory.
  Every function is shown to keep it; `minijail_destroy` frees the jail's part. The spec says only which settings can be made again and which calls take filters back.
* **C73** `Model/GenerateAudit`: the audit half of the generator. What the library auparse finds in a file (events, records, fields with their meanings) is input. `Spec/Audit` says which records tell of
  which calls, and by which lines a file looks like a log. The proofs of C59 are stated over an arbitrary predicate for what is told, and are used for traces and logs together.
* **C74** `Spec/Frequency` counts the lines and records that tell of a call (`Occurs`). One step of the generator either leaves the counts as they are or adds one to one name, whatever they are
  (`Bumps`), and which name it is follows from what `Knows` (C59, C73) says of that step made from nothing. The text is read by the tokenizer lemmas of C58.
* **C75** `Spec/Trapped` is the kernel: what it does with each action word and with SIGSYS (`story`). `Model/Report` is the handler; the calls that functions of the C library make are a parameter
  (`Libc`), and each of them goes through the same filter. `C01_filter_means_policy` gives the action of every call, `C67_beyond` the calls that reporting allows.
* **C76** `Spec/Links` is path resolution in a tree with symbolic links, as a relation (`Leads`), and what a true answer of realpath(3) is. Whatever a path leads to is `Direct`
  (invariant of `Leads`); a path that spells a direct place leads to it only. `mountRun_checked` (on the traces of C24/C29) puts a successful check before each bind mount.
* **C77** `Model/RustStart` joins `Model/Rust` (C61) to `Model/RunParent` (C65): the method's arrays are read as the C library reads them (a missing terminator is undefined behaviour), and the
  descriptor of /dev/null is open until the end of the method. `MadeInRust` (a jail after any list of methods) gives what C61 and C65 need, by C60: a full table of descriptors, no hooks,
  no landlock rules, no other network or mount namespace.
* **C78** `Model/Constants` has dump_constants.cc, a reader of JSON for the part of it that occurs, load_from_json, and the regular expressions of generate_constants_json.py as functions. `Spec/Json`
  is a grammar of texts (with any white space), `Spec/Llvm` one of the lines of LLVM. The reader is complete for the grammar, hence a text has one reading. `Describes` is what C58 asks of the tables.
* **C79** `Model/GenTables` has the `sed` and `grep` expressions of the two scripts as functions on the lines the preprocessor prints. `Spec/Headers` says which lines define a system call or a
  constant, as a grammar. The tables are characterised by membership; C79_library carries this to what names stand for in policies, and removes the hypotheses of C78_dump about tables.
* **C80** `Model/Log` turns messages into writes, and writes into file contents through a descriptor table; how the C library cuts a text is a parameter. `Spec/Log` says which messages are reported,
  as a relation, and what lines are. The jailed process has the table of C22 and C23, from which C80_child and C80_violated_lost follow.
* **C81** `Model/Simulate` is the loop of `simulate` over bytes that are packed and unpacked as Python's struct does; it is compared with the machine of C41 (`Model/BpfMachine`), and the costs with
  an inductive relation of the instructions that are executed (`Spec/Simulate`).
* **C82** `Model/ConfigMem` has the list, its array and its strings as allocated objects, and a function that says which allocations fail. Memory that is used wrongly is an outcome of its own.
  The invariant names all addresses that belong to a list; the entries are those of `Model/Config`.
* **C83** `Model/EnvMem` has arrays and strings as allocated objects; names and values are pointers into memory, read when the code reads them, so that they may be parts of the environment.
  `Spec.EnvOwned` says that an environment has memory of its own and the rest is that of the caller; every call keeps it. The strings are those of `Model/Env` (C16).
* **C84** `Model/LineMem` has the buffers of `getmultiline` as allocated bytes, some of them never written; `getline` is a model of what POSIX and glibc say of it (how much more memory than needed
  it asks for and how much it has read when memory runs out is left open, `Luck`), and using a buffer that is smaller than `*n` says is undefined behaviour. `Spec.OtherMemory` is what is allocated
  apart from the buffer; every call keeps it. The lines are the `Spec.logicalLines` of C14.
* **C85** `Model/Complaints` repeats `compile_file` with the messages of `compiler_warn` (file, line and subject; not the wording) and `previous_syscalls`; `C85_outcome` ties it to the compiler of the
  other properties. `Spec.Deserved` says of each message what it claims of its line. Several messages of one failing rule body are one here.
* **C86** `Model/Tables` has the strings of labels, the array `previous_syscalls`, its states and their file names as cells; any request may fail. What a policy asks of the tables is any list of
  `Use`s, so the theorems do not depend on the rest of the compiler. `Proof/Tables` follows who owns which address. `Spec/Tables`: `firstRule` is the first rule in the list.
* **C87** `Spec/SeccompKernel` is what a kernel answers to `prctl` and `seccomp`, by what it knows; `Model/Probes` hands these answers to the calls of `Model/Api` and to the requests of `Model/Enter`,
  where they were parameters.
* **C88** `Spec/NetDevices` has the devices of each network namespace, `Model/Loopback` the function and the effect of the requests of `Model/Enter` on them; `Proof/Loopback` shows that
  every other part of `minijail_enter` makes no such request.
* **C89** `Model/Delivery` is a transition system: a pipe of some capacity, the writes of the sender, the two reads of the receiver. The proofs are invariants over all interleavings. C21 has the
  same functions with given results of `read` and `write`; here the results come from the pipe.
* **C90** `Spec/SignalState` has what a process blocks and what signals do to it, and what fork and execve make of both. `Model/SignalState` runs the child through it. The theorems follow from one
  description of the result for every signal (`program_some`).
* **C91** The same child when it stays behind as `init`; what `wait` tells it depends on SIGCHLD (`Spec/InitSignals`), the loop of `init` is that of C32.
* **C92** Who has the number that `minijail_kill` signals is decided as in `minijail_run_internal` (`Model/KillTarget`), its signals are those of C90 and C91, and `Spec/KillSignal` has what SIGTERM
  does to a process, in particular to a process 1.
* **C93** `Spec/TaskStatus` writes the file about a thread as the kernel does, with the escaped name, and has valid UTF-8; `Model/Threads` reads it. The proof is that the string looked for is found
  exactly if it is one of the lines behind the first.
* **C94** `Spec/LogOwner` says where messages are expected after each action; `Model/RustLog` has the descriptors and the one `logging_config` of the process. The proof is an invariant: each jail
  that was given a file has it open under a number of its own, and `logging_config` has the number of the jail that was asked for last.

## 4. Disagreements between code and expectation

Each entry: what the code does, the theorem that shows it, the theorem that keeps the provable part.

* **C03** `allow_selected_syscalls` (syscall_filter.c:197-208) does not test `lookup_syscall`'s −1. An allowlist name that the
  architecture does not have (util.c:67-71 lists `send` on aarch64) allows call number 0xffffffff. `C03_violated`;
  `C03_default_partial`, `C03_allow_justified_partial` assume the enabled names exist or the call number is not −1.
* **C04** bpf.h:26-52: on 32-bit big-endian targets `LO_ARG` is the offset of the high word of the argument, so every
  comparison looks at the wrong half. `C04_be32_violated`; the `_partial` theorems cover all little-endian targets.
* **C07** `compile_file` (syscall_filter.c:718) stores `bpf_label_id`'s −1 unchecked; with 512 labels in use the next argument
  rule gets label 0xffffffff and `bpf_resolve_jumps` reads `labels[0xffffffff]`. `C07_violated` (a 510-alternative rule
  followed by any argument rule); `C07_in_bounds_partial` shows this needs a policy with more than 512 labels.
* **C08** `compile_atom` (syscall_filter.c:237-320) does not validate the index: `arg-1`, `arg6`, `arg9999` compile. `C08_violated`,
  `C08_index_exact` (what is inspected for any index), `C08_inspects_only_named_partial`.
* **C14** `getmultiline` (util.c:644-678) drops a last line that ends in a backslash: `C14_violated`, `C14_lines_exact`,
  `C14_lines_partial`.
* **C15** `path_is_parent` (util.c:496-510) with an empty parent reads `parent[-1]`: `C15_violated`; exact otherwise
  (`C15_parent_exact_partial`).
* **C16** `minijail_setenv` (util.c:601-639) accepts names containing `=`, so setting `A=B` sets `A`: `C16_name_violated`.
  `minijail_unsetenv` (util.c:693-711) removes only the first of repeated variables and moves the last entry to its place,
  which can change the value of another repeated variable: `C16_unset_violated`. `C16_*_partial` exclude both.
* **C17** a config file whose last line ends in a backslash loses that option silently: `C17_violated`,
  `C17_config_exact`, `C17_config_partial`.
* **C19** the receiver refuses a path rule that grants nothing although the sender records it (libminijail.c:1862):
  `C19_violated`; `minijail_copy_jail` loses the per-mount remount modes, the id maps, the pid file path, hooks and
  preload path although documented as "two identical jails": `C19_identical_violated`. `Spec.received` says exactly what
  arrives, `C19_roundtrip_partial`/`C19_copy_partial` prove it for every `Transferable` jail.
* **C20** `consumebytes` results are passed to `memcpy` untested (libminijail.c:1860, 1873), so truncation at those places reads
  through NULL: `C20_violated`. `cgroup_count` from the buffer is not compared with `MAX_CGROUPS`: `C20_cgroups_violated`.
  `rlimit_count` and `preserved_fd_count` are not validated at all: `C20_counts_violated`. `C20_ub_partial`: these are the
  only ways.
* **C22** a program given by descriptor that is also preserved under another number is closed by `redirect_fds`
  (libminijail.c:3333-3335) before `fexecve`: `C22_elf_violated`, `C22_elf_partial`.
* **C45** `setup_pipe` (libminijail.c:3131) announces the number of the configuration pipe before `avoid_pipe_conflicts`
  (libminijail.c:3946) may move it; the preload library then reads its configuration from the caller's preserved file:
  `C45_violated`, `C45_partial`.
* **C46** `setup_child_std_fds` closes all pipe ends, also one that is the standard stream itself (libminijail.c:3371, 3378-3384):
  `C46_violated`, `C46_partial`.
* **C43** after `bad_mounts` and above, `filter_prog` is freed but not reset (libminijail.c:1903-1908), so `minijail_destroy`
  frees it again: `C43_filter_double_free`, `C43_violated`. `bad_fs_rules` does not free the cgroup strings.
* **C44** `getopt_from_conf` (minijail0_cli.c:734-773) delivers an option that requires an argument with a NULL one when the
  line has only a key: `C44_violated`.
* **C28** `minijail_preserve_fd` (libminijail.c:1321-1331) accepts a child number twice: `C28_duplicate_violated`. Calls that run
  out of memory may already have changed the jail (e.g. libminijail.c:507-525): `C28_oom_violated`.
* **C34** `minijail_add_fs_restriction_access_rights` (libminijail.c) takes any mask; the kernel then refuses the rule and the
  refusal is ignored (libminijail.c:2624-2651), so nothing is granted: `C34_violated`, `C34_handled_partial`, `C34_confined`. The
  text of C34 first also said that "edit" rules do not grant removal; header and code both grant it, so the text was corrected.
* **C24, C29** `mount_one` (libminijail.c:2150-2153, 2178-2181) returns 0 when the source of a bind mount fails one of its checks: the
  mount and all later ones are silently left out and entering goes on. `C29_violated`, `C24_violated`; `C29_first` says exactly what is
  mounted, `C24_stops_partial` that nothing else is survived.
* **C38** `lock_securebits` (system.c:91-149) writes the whole word, so bits in the skip mask that are set and unlocked are cleared, although
  minijail0(1) says they are preserved: `C38_violated`, `C38_skip_partial`.
* **C48** `clear_seccomp_options` (libminijail.c), reached when seccomp is missing and soft failure is compiled in, also clears an
  explicit `minijail_no_new_privs`: `C48_violated`, `C48_partial`.
* **C31** the report is total but several ends share a number (exit code 143 and SIGTERM): `C31_ambiguous`. Not promised by the header, so the
  property text was corrected.
* **C32** the SIGTERM handler of `init` passes the raw status word to `_exit` (libminijail.c:2996-2999), so the report is 0 for every exit code, and 0
  if the program still runs: `C32_violated_term`, `C32_violated_early`. A later process with the program's old number replaces its status
  (libminijail.c:3011-3014): `C32_violated_reuse`. `C32_report_partial` excludes both.
* **C33** the type of a program header is not converted to the host's byte order (elfparse.c), so programs of the other byte order that name an
  interpreter count as static: `C33_violated_order`, `C33_order`. Files shorter than 128 bytes count as scripts: `C33_violated_short`.
* **C36** `minijail_get_original_path` (libminijail.c:966-1006) compares by `strncmp`, takes the first match and does not look at the mount
  type: `C36_violated_prefix`, `C36_violated_shadow`, `C36_violated_tmpfs`, `C36_original_partial`.
* **C35** `mkdir_p` (system.c:305, 321) takes EEXIST for success also when what is there is no directory: `C35_violated_target`,
  `C35_violated_parent`. For an empty path it reads behind its copy (system.c:302): `C35_violated_empty`; no caller passes one.
  `setup_mount_destination` notices both later (`C35_destination`).
* **C40** `setup_preload` and `truncate_preload_env` (libminijail.c:3082-3107, libminijailpreload.c:27-45): an empty LD_PRELOAD becomes unset, a library
  path with a space is not removed whole: `C40_violated_empty`, `C40_violated_space`; repeated variables may change places:
  `C40_violated_repeated`.
* **C27** `wait_for_parent_setup` (libminijail.c:2469-2479) reads end-of-file when the parent is killed during its setup, just as when the setup is
  complete, so the child enters the jail without its limits, groups or id maps: `C27_violated`; `C27_waits_partial`, `C27_after` exclude
  that. Modelled assumptions: `kill` of the child succeeds, and only parent and child hold the write end.
* **C37** `parse_args` (minijail0_cli.c:844-1502) accepts -G without a user name, against minijail0(1); `minijail_enter` (libminijail.c:2815) then dies:
  `C37_violated`, `C37_groups`, `C37_compatible_partial`. A configuration line without the argument its option needs leads to a null pointer:
  `C37_violated_argument`, `C37_safe`. The model starts from what `getopt_long` returns; messages, the build options that restrict configuration files
  (minijail0_cli.c:1239-1266) and errors of `cap_get_flag` other than EINVAL are left out.
* **C50** `-t 0` is accepted and mounts nothing (minijail0_cli.c:996-1002, 1446): `C50_violated_tmp`, `C50_tmp_partial`. The results of
  `minijail_namespace_set_hostname` and `minijail_preserve_fd` are ignored (minijail0_cli.c:1150, 1209), so a second --uts=NAME and a negative --preserve-fd
  are dropped silently: `C50_violated_uts`, `C50_violated_preserve`. `C50_partial` covers all other options.
* **C26** `minijail_change_uid`, `minijail_change_gid` (libminijail.c:499-513) and -u, -g of the front end accept 4294967295 (also written -1), and `drop_ugid`
  (libminijail.c:2481-2512) passes it to `setresuid`/`setresgid`, for which it means "leave the id as it is": the process goes on with the ids of the caller,
  e.g. as root, and nothing reports it. `C26_violated_ids`; `C26_ids_partial` covers all other ids.
* **C51** `set_user`, `set_group` and `suppl_group_add` put the result of `strtoul` in 32 bits without a test (minijail0_cli.c:69, 93, 116): `-u 4294967297` is
  user 1 and `-u -1` is 4294967295 (`C51_violated_uid`, `C51_violated_negative`). `use_caps`, `skip_securebits` and `add_rlimit` do not test for ERANGE (145, 184,
  227): a mask of more than 64 bits gives all capabilities, a limit of more than 64 bits gives none (`C51_violated_caps`, `C51_violated_limit`).
  `read_seccomp_filter` puts the number of instructions in an `unsigned short` (436-459): of 65537 instructions one is used (`C51_violated_filter`).
  `C51_partial` covers all other values.
* **C39** `build_idmap` prints ids with `%d` (minijail0_cli.c:295), so a default map for 2147483648 or more is negative and the kernel refuses it:
  `C39_violated_large`, `C39_violated_large_text`. `set_user` overwrites the group of an earlier -g with that of the user (minijail0_cli.c:79), so
  `-g 5 -u bob -M` maps bob's group although the jail's group is 5: `C39_violated_order`. `C39_partial` covers all other cases. The manual says that
  -m without a map makes the caller root; with -u it is the user chosen there.
* **C47** With the preload library the child mounts the read-only /proc (`minijail_preexec` keeps `remount_proc_ro`, libminijail.c:462) and the library changes the root
  afterwards (`minijail_preenter` clears it, :321), so nothing is mounted on the /proc of the new root: `C47_violated_proc`. Entering directly mounts it behind the
  change. `C47_applied_partial` says that all that was asked for happened in one of the two. Also: with `enter_net` and `net` both set (a later `minijail_namespace_enter_net`)
  the child makes a new network namespace that the library leaves at once.
* **C41** `compile_filter_statement` (tools/compiler.py:360-362) returns without a filter as soon as the *last* action of a system call is Allow, so in an allowlist
  all conditions before it are dropped: `read: { arg0 == 1; return EPERM, allow }` allows every `read`. `C41_violated_dropped`, both strategies. (With a
  denylist the filters are kept.) The parser lets `arg6` pass (tools/bpf.py:14 says 7 arguments), and the program then loads beyond `struct seccomp_data`, which the
  kernel refuses: `C41_violated_arg6`. `C41_partial` excludes both. Not covered by a theorem: `return N` keeps the low 16 bits of N only (`actionWord` says so); offsets of
  arguments are those of little-endian machines; two statements for one system call end in a failed assertion or in the first one found; system call number 2³²−1
  cannot be encoded.
* **C54** `main` runs static programs with `minijail_run_no_preload` (minijail0.c:52), which takes no environment: --env-add and --env-reset are accepted and lost:
  `C54_violated_static`. The results of `minijail_run*` and of `minijail_set_preload_path` are ignored (:52, :65-70): with -i the status is 0 although nothing was
  started (`C54_violated_status`; without -i `minijail_wait` then fails and the status is 246), and if `strdup` fails the built-in library is used instead of the
  given one (`C54_violated_library`). A configuration file may name `preload-library` without a value; `strdup(NULL)` then is undefined (`mainRun`).
* **C57** `C57_violated_dropped` is C41's from the text on. `--use-ret-log` ("change all seccomp failures to return SECCOMP_RET_LOG instead of killing"; the environment
  variable prints "policy will not have any effect") changes `kill`, `return` and the default, but not `kill-process`, `kill-thread` and `trap` (tools/parser.py:457-472):
  `C57_violated_ret_log`. Where all system calls of a statement are for other architectures, and behind the numbers of a frequency file, the rest of the line is not
  looked at (tools/parser.py:712-731, 807-810); so is what follows the action of `--default-action`. `--include-depth-limit N` is a string and switches the limit
  off (the model takes it as a number). The parser is case sensitive and knows the white space of ASCII in the model only.
* **C58** The two compilers take some texts for different things. `read: arg0 == 1; return EPERM`: the manual (minijail0.5:146-158) and minijail return the error if
  the condition does *not* hold; the offline compiler returns it if it does (tools/parser.py:493-506), so that what the policy allows is refused:
  `C58_violated_return`. A comment line that ends in a backslash swallows the next line in minijail (the lines are joined before comments are looked for) but not
  offline: `C58_violated_comment`. `return<TAB>EPERM` kills in minijail (strtok of spaces only): `C58_violated_tab`. A system call of another architecture gets
  SECCOMP_RET_KILL_THREAD from minijail even where the process is to be killed: `C58_violated_architecture`. Further differences seen, not proved: a lone carriage
  return ends a line offline only; a relative `@include` is relative to the including file offline, to the working directory in minijail; minijail refuses two lines
  for one system call by default, the offline compiler merges them.
* **C59** tools/README.md tells to trace with `strace -f -e raw=all`, so that protections are numbers; the tool looks for the names `PROT_EXEC` and `PROT_WRITE` only
  (tools/generate_seccomp_policy.py:174-182), finds no mapping with both, and writes the rule that forbids writable and executable memory, also for a program whose trace
  shows that it maps such memory: the traced program is killed by its own policy (`C59_violated_raw`). Without `raw=all` a request that strace writes as a macro,
  `_IOC(_IOC_READ, 0x54, ...)`, is cut at the comma and makes a policy that cannot be compiled, and with `-y` the tool ends with an exception (`C59_violated_nested`).
  Lines with a time stamp (`-t`) match nothing and are left out without a message.
* **C60** `Minijail::change_user` and `change_group` ignore what the library returns (rust/minijail/src/lib.rs:471-489): for a name that does not exist they return `Ok` and the program keeps the
  identity of its parent (`C60_user_violated`). So do `uidmap` and `gidmap` when memory is exhausted (`C60_memory_violated`). An empty program is accepted although the error says that the size
  should be non-zero (`C60_empty_violated`). `try_clone` copies by `minijail_copy_jail`, which does not transfer id maps, remounts, hooks, limits of descriptors and so on (C19), so a copy of a jail with
  a user namespace has no maps (`C60_clone_violated`), nor a program set before `use_seccomp_filter` (`C60_clone_filter_violated`).
* **C61** `run` adds its descriptors to those of the jail (rust/minijail/src/lib.rs:923-956) and never removes them, so that a second run of the same `Minijail` asks for 0, 1 and 2 twice;
  redirecting then fails and the child dies before it executes anything, while `run` returns a process id (`C61_twice_violated`).
* **C62** `Error::SeccompViolation` is never made: a death by SIGSYS arrives as 253 and is reported as `ReturnCode(253)` (`C62_policy_violated`). A program that exits with 126, 127 or 129 to 192
  is reported as not run or killed by a signal (`C62_code_violated`).
* **C63** The linter looks at lines as they are written: it does not see a system call in a line that is continued (`C63_continued_violated`), in an included file (`C63_include_violated`) or in a group
  of the offline compiler (`C63_group_violated`). `--denylist` is parsed and never looked at (tools/seccomp_policy_lint.py:80-84), so that a denylist which lets everything dangerous through passes
  (`C63_denylist_violated`). The message asks for a comment on the preceding line; any comment since the last rule will do, also a notice of copyright (`C63_comment_violated`).
* **C65** With path rules, the descriptor of the ruleset that `minijail_run_internal` makes stays open in the caller; nothing closes it, nor does `minijail_destroy` (`C65_violated_ruleset`). `minijail_fork`
  returns ENOMEM, a positive number, if the environment cannot be copied (`C65_violated_fork`); also the other functions return errors as 12, 14 or -14. The first use of a jail that enters a namespace closes the
  namespace's descriptor but keeps its number: the second use enters and closes whatever has that number then, such as the pipe that the caller asked for (`C65_violated_twice`).
* **C66** parse_seccomp_policy without arguments, which its usage message allows, passes `argv[1]`, a null pointer, as the name of the policy file; `copy_parser_state` copies it at the first rule
  (`C66_violated_no_arguments`). The usage message says `-d[<output>]`, but the option string is "d:": `-d POLICY` reads standard input and overwrites POLICY (`C66_violated_short`). The result of `fclose` is not
  tested: a dump may be cut short on a full disk with status 0 (`C66_violated_full`). The dump kills the thread where -S with thread synchronisation kills the process (`C66_violated_tsync`), and lacks the calls that
  a build may allow in every policy (`C66_violated_libc`).
* **C69** `write_proc_file` and `write_pid_to_path` return `-errno` after `pwarn` has logged the error; nothing makes the logging functions keep `errno`. If it becomes ENOENT (no socket of the system log), a refusal to
  deny `setgroups` counts as "old kernel" and the process goes on with `setgroups` not denied (`C69_setgroups_violated`).
* **C70** `minijail_wait` leaves `initpid` as it is. Once the number is given to another process, `minijail_kill` signals that process (`C70_kill_violated`), and `minijail_wait` reaps another jail's program
  (`C70_wait_violated`). `forward_pid` is also kept (`C70_forward_violated`) and is one for all jails (`C70_forward_violated_two`).
* **C71** The results of `minijail_add_fs_restriction_*` are ignored by minijail0 (and are 1 for success, 0 for failure): if memory runs out, the program is started without the restriction (`C71_violated`). Rights
  newer than landlock's version 2 (truncate, ioctl on devices) are not among the handled ones: they are never restricted, which C71 states.
* **C72** Memory is lost when a setting is made twice (`minijail_change_user`, `minijail_set_supplementary_gids`, `minijail_uidmap`, `minijail_gidmap`, `minijail_write_pid_file`, `minijail_use_alt_syscall`, and the
  file name of a second run: `C72_again_violated`), and when a filter that was set is dropped because filters are tolerated to be missing (`clear_seccomp_options` does not free it: `C72_clear_violated`).
  `add_fs_restriction_path` does not look whether `strdup` failed: the NULL is read by `strlen` when the jail is sent (`C72_send_violated`).
* **C73** `--audit-comm` is compared with the whole field `comm`, which the kernel cuts after fifteen characters (and writes as hexadecimal digits if there are blanks in it): for a program with a longer name
  the tool finds no record, says nothing, and writes a policy that allows only what every program needs (`C73_violated_long`). tools/README.md tells to give the name of the program.
* C75: the list of calls that -L allows for reporting (`log_syscalls`) has no `getpid`, which the handler calls for the prefix of its message and which is a system call in glibc since 2.25
  (`C75_violated_pid`); it has no `write`, which messages to a descriptor need (`C75_violated_fd`); and a program started without the preload library has lost the handler at execve
  (`C75_violated_exec`). In these cases the program is killed and nothing is reported, where minijail0(1) says that the first failing call is logged.
  Where the headers do not define `si_syscall`, the substitute (signal_handler.c:24-36) reads the beginning of the `siginfo_t` instead of its fields for SIGSYS, and names the same call every time
  (`C75_violated_number`).
* C76: BINDMOUNT_ALLOWED_PREFIXES exempts paths by their letters: `/dev/../home/user/link` is below `/dev` for `path_is_parent` (`C76_violated_prefix`). An empty list or item, as in Android.bp,
  makes `path_is_parent` read before the string (`C76_violated_empty`). The check before the mount jumps to `error` while `ret` is 0, so that entering goes on without this and all later mounts
  (`C76_violated_skipped`, as `C29_violated`).
* C77: `run_internal` and `fork_remap` take only negative results of the C library for failures, but `minijail_run_internal` returns `ENOMEM` (12) if it cannot copy the environment. The run methods
  then return `Ok(0)` (`C77_violated_memory`), and `fork` returns `Ok(12)` (`C77_violated_fork`), a process that may exist and has nothing to do with the jail.
* C78: a constant that is a string (`FS_KEY_DESC_PREFIX`) is its address, for minijail and in what dump_constants prints, and is missing in what generate_constants_json.py writes
  (`C78_files_differ`; with the form of older compilers it is 0). The code says so. Names of architectures that arch.h has and the script does not (mips, ppc, parisc, s390, ...) end the
  script with an exception (`C78_unnamed`).
* C79: gen_constants.sh says that it prints all definitions in capital letters; those whose value begins with a sign or a parenthesis are missing (`C79_violated_sign`), among them `AT_FDCWD`
  (-100), the example of its own comment (`C79_violated_AT_FDCWD`). A policy that uses such a name does not load. `__NR_syscalls`, the count of system calls in some headers, becomes a system
  call `syscalls` (`C79_violated_count`).
* C80: text and newline are written by two calls (util.c:153-154, 187-189), so that messages of two processes can share a line (`C80_violated_merged`); newlines within a message are not escaped, and
  messages quote names of files and programs (`C80_violated_forged`). The child logs to the same number as its parent after its descriptors have been replaced: with close_open_fds the
  reason why it gives up is lost unless the caller preserved the descriptor (`C80_violated_lost`; minijail0 preserves stderr), and if another file was asked for at that number it is
  written into that file (`C80_violated_foreign`).
* C81: the simulator takes loads the kernel refuses (`C81_violated_unaligned`) and a seventh argument, which the kernel does not show to filters (bpf.py:14; `C81_violated_arg6`: the tests confirm a policy that
  no kernel loads), does not look at instructions that are not executed (`C81_violated_accepted`) and does not know the
  scratch memory (`C81_violated_scratch`). `SyscallPolicyRange.simulate` (compiler.py:80-84) calls a method that blocks do not have; nothing calls it.
* C82: `parse_config_file` shrinks the array to the number of entries, to nothing for a file without entries; for the next file it doubles that, which is nothing, and writes behind the array
  (`C82_violated_reuse`; minijail0 makes a new list for every file). It overwrites the pointer to the array with the result of `realloc` (config_parser.c:117, 146) without keeping the old one:
  when growing fails, freeing the list reads through NULL (`C82_violated_growth`; minijail0 exits instead), and a failure to shrink goes unnoticed (`C82_violated_shrink`).
* C83: `minijail_unsetenv` (util.c:707) overwrites the pointer to the string it takes out without freeing the string, so that it can be freed no more (`C83_violated`; it is also used on arrays whose
  strings were not allocated). util.h:419 says that it returns false on success; it returns true (`C83_unset_partial`).
* C84: `getmultiline` (util.c:669-673) returns -1 when there is no memory to join lines, as it does at the end of the file; callers tell the two apart by `feof` (config_parser.c:139, syscall_filter.c:748).
  When the last of the joined lines has no newline, the end of the file has been seen by then, and the file is taken for completely read without its last line (`C84_violated`): a config file
  loses an option, a policy a rule, unnoticed. It has also stored a size that the buffer does not have (util.c:670), so that the buffer must not be used again (`C84_violated_again`; the callers free it).
* C85: `compile_file` counts joined lines (syscall_filter.c:602), so behind a continued line the messages name too early a line of the file (`C85_violated_line`). A line without a colon
  (syscall_filter.c:656-661) and something other than `return` behind the semicolon (328-329, reached from 500-507) are refused with a message that has no file and line, or with none but
  "could not allocate filter block" (`C85_violated_silent`).
* C86: `compile_filter` does not look at whether `calloc` gave it the array `previous_syscalls` (syscall_filter.c:781-782). Without it, the first rule (186) or `free_previous_syscalls` (927) reads through NULL
  (`C86_violated`); all other requests are checked. `bpf_label_id` returns -1 when there is no memory for a name as it does for a full table; the caller in `compile_file` (718) does not test it (C07).
* C87: `seccomp_filter_flags_available` (system.c:602-606) takes every error but EINVAL for knowing the flag, ENOSYS too. On kernels with filters and without the call `seccomp` (3.5 to 3.16) a jail that
  allows speculation then ends the process when the filter is installed, where the code means to leave the wish out (libminijail.c:1403-1411; `C87_violated`).
* C88: the result of `config_net_loopback` is not looked at (libminijail.c:2884-2885): where bringing up the loopback device is refused, the program runs without it after a warning
  (`C88_violated`).
* C89: `minijail_from_fd` reads the jail with one `read` (libminijail.c:3036-3038), the sender writes until all is written. A jail for which the pipe has no room (two pages when the user has many
  pipes, pipe-user-pages-soft) never arrives although it is far from the limit of 65535 bytes, and near the capacity it depends on timing (`C89_violated`, `C89_race`). The program then does
  not run.
* C90: the signals that the C library refuses to set (32 and 33 with glibc) stay ignored if the caller ignores them (`C90_violated`). A SIGPIPE that waits for the caller because it has it blocked is
  taken away while the jail is sent (libminijail.c:3844-3856, `C90_violated_pending`).
* C91: `init` inherits the caller's signals. If SIGCHLD is ignored there, `wait` never tells `init` about the program, and it exits with 0 (libminijail.c:3011-3020). A caller with forwarding, as
  minijail0 by default, resets its own SIGCHLD (2755) but only after the fork, so that its `waitpid` works and it reports success for a program that failed (`C91_violated`). If SIGTERM is blocked there,
  `minijail_kill` sends a signal that nobody takes, and waits (`C91_violated_term`).
* C92: `minijail_kill` sends SIGTERM once (libminijail.c:4160) and then waits for ever. A program that is process 1 (`minijail_run_as_init`) and does not catch SIGTERM never gets it (`C92_process_one`);
  a program whose caller had SIGTERM blocked or ignored inherits that (`C92_blocked`, `C92_ignored`).
* C93: `task_is_kthread` reads the file about a thread as UTF-8 (rust/minijail/src/lib.rs:1068). The kernel cuts names to 15 bytes, perhaps in the middle of a letter; then `fork` fails in a caller
  with one thread (`C93_violated`).
* C94: `logging_config` belongs to the process (util.c:113-126), but its descriptor to one `Minijail` (rust/minijail/src/lib.rs:385, 696-704). `try_clone` moves the messages to a descriptor of the clone
  (452-457). When the clone is dropped, messages are lost (`C94_violated_lost`) or are written into whatever file gets the number (`C94_violated`), although the first jail lives and has its file open.
