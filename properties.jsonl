{"id": "C01", "title": "A compiled seccomp filter means exactly what the policy says", "statement": "Whenever compiling a policy file succeeds, running the produced BPF program on any system call gives exactly the verdict the policy text prescribes: the first rule naming the call decides; a rule '1' allows; a DNF rule allows iff some conjunction has all its argument comparisons true, and otherwise gives the rule's 'return' verdict or the configured default action; 'return X' rules give errno X.", "quantifier": "every little-endian target (big-endian: C04), every policy text that compiles and compares arguments 0..5 (other indices: C08), every syscall table / constant table / option set, every seccomp_data (nr, arch, ip, six 64-bit args)", "why_tests_cant": "The space is (all policies) x 2^(32+32+64+6*64) inputs; tests sample a few dozen pairs.", "anchors": ["syscall_filter.c: compile_filter, compile_file, compile_policy_line, compile_atom, compile_errno", "bpf.c: bpf_arg_comp, bpf_resolve_jumps"]}
{"id": "C02", "title": "Foreign-architecture system calls are always killed", "statement": "A successfully compiled filter returns KILL for every system call whose seccomp architecture tag differs from the architecture the filter was compiled for, no matter what the policy, the allowlists and the options are.", "quantifier": "every policy that compiles, every option set, every seccomp_data with a different arch", "why_tests_cant": "2^32-1 foreign arch values times all policies and calls.", "anchors": ["bpf.c: bpf_validate_arch", "syscall_filter.c: compile_filter"]}
{"id": "C03", "title": "Unlisted system calls get the default action", "statement": "A system call that no rule names (and that is in no enabled built-in allowlist) gets exactly the configured default action, never ALLOW; and a filter never allows a call that is not justified by a rule or an enabled allowlist.", "quantifier": "every policy that compiles, every syscall number not named", "why_tests_cant": "Negative statement over all unlisted numbers and all policies.", "anchors": ["syscall_filter.c: compile_filter, allow_selected_syscalls", "util.c: log_syscalls, libc_compatibility_syscalls"]}
{"id": "C04", "title": "Argument comparisons are exact 64-bit unsigned relations", "statement": "Each comparison ==, !=, <, <=, >, >=, &, in on a syscall argument decides exactly the unsigned 64-bit relation (on 64-bit targets) or the low-32-bit relation (on 32-bit targets), although the BPF machine only compares 32-bit words.", "quantifier": "every operator, every argument index 0..5, every 64-bit constant, every 64-bit argument value, both word sizes", "why_tests_cant": "2^128 value pairs per operator; boundary bugs between hi and lo words are exactly what sampling misses.", "anchors": ["bpf.c: bpf_load_arg, bpf_comp_jeq64, bpf_comp_jgt64, bpf_comp_jge64, bpf_comp_jset64, bpf_comp_jin, bpf_arg_comp"]}
{"id": "C05", "title": "Compiled filters are acceptable to the kernel and always return a verdict", "statement": "Every successfully compiled program (whose atoms use argument indices 0..5) is non-empty, has at most 4096 instructions, has only in-range forward jumps, only aligned loads inside seccomp_data, only initialised scratch-memory reads, ends in a return, and therefore reaches a RET on every input.", "quantifier": "every policy that compiles, every input", "why_tests_cant": "Needs all programs and all paths through them.", "anchors": ["syscall_filter.c: compile_filter, flatten_block_list", "bpf.c: bpf_resolve_jumps"]}
{"id": "C06", "title": "Label resolution sends every jump to its label or fails", "statement": "Jump resolution either fails or replaces each symbolic jump by a forward jump that lands exactly on the unique later definition of the same label, replaces each label by a no-op, and leaves every other instruction untouched; it fails on duplicate, missing or backward labels and on programs over 4096 instructions.", "quantifier": "every instruction sequence up to any length, every label table", "why_tests_cant": "All programs; offsets near 2^32 and label ordering cannot be enumerated.", "anchors": ["bpf.c: bpf_resolve_jumps"]}
{"id": "C07", "title": "The label table is never accessed out of bounds", "statement": "Compiling a policy never indexes the 512-entry label table outside its allocated entries.", "quantifier": "every policy file (any number of rules and groups)", "why_tests_cant": "Needs policies that exactly fill the table; there is no test near 512 labels.", "anchors": ["bpf.c: bpf_label_id, bpf_resolve_jumps", "syscall_filter.c: compile_file:718, get_label_id"]}
{"id": "C08", "title": "Atoms can only inspect the six syscall arguments", "statement": "An accepted atom 'argN op C' always inspects syscall argument N with 0 <= N <= 5.", "quantifier": "every atom text that compiles", "why_tests_cant": "All index spellings, including negative and overflowing ones.", "anchors": ["syscall_filter.c: compile_atom", "bpf.h: LO_ARG, HI_ARG"]}
{"id": "C09", "title": "One rule per system call unless duplicates are enabled", "statement": "With duplicate rules disabled, a policy (including its included files) that has two rules for the same syscall name never compiles; with duplicates enabled, the earlier rule decides.", "quantifier": "every policy text and include set", "why_tests_cant": "All pairs of positions in all files.", "anchors": ["syscall_filter.c: insert_and_check_duplicate_syscall, compile_file"]}
{"id": "C10", "title": "@include splices exactly one level and always terminates", "statement": "Including a file has exactly the effect of its lines appearing in place of the @include line; an @include inside an included file, an implicit relative path or an unreadable file makes compilation fail. Compilation terminates even for files that include themselves.", "quantifier": "every policy file and every file system content", "why_tests_cant": "All file systems, including cyclic includes.", "anchors": ["syscall_filter.c: parse_include_statement, compile_file"]}
{"id": "C11", "title": "Constant expressions evaluate to their documented value", "statement": "Every documented constant expression (named constants, C-style numbers that fit in 64 bits, '|' lists, '~' complement, nested parentheses) evaluates to the bitwise value it denotes; malformed, overflowing or unbalanced expressions are reported as errors.", "quantifier": "every expression of any nesting depth and length, every constant table", "why_tests_cant": "Recursive grammar of unbounded size.", "anchors": ["util.c: parse_constant, parse_single_constant, tokenize_parenthesized_expression"]}
{"id": "C12", "title": "Size strings parse exactly or are rejected", "statement": "parse_size accepts exactly 'digits[KMGTPE]' and returns digits*1024^k when that fits in 64 bits; everything else is an error and leaves the result untouched; overflow is never silent.", "quantifier": "every string", "why_tests_cant": "Unbounded digit strings; overflow boundary for each suffix.", "anchors": ["util.c: parse_size"]}
{"id": "C13", "title": "Splitting and trimming lose nothing but delimiters and blanks", "statement": "Repeated tokenize by a delimiter yields fields none of which contains the delimiter and whose join is the original string; strip removes exactly the leading blanks and the trailing blanks/newlines.", "quantifier": "every string, every non-empty delimiter", "why_tests_cant": "All strings.", "anchors": ["util.c: tokenize, strip"]}
{"id": "C14", "title": "Logical lines are physical lines joined at backslashes", "statement": "Reading a policy or config file yields exactly its physical lines with 'backslash newline' continuations joined by one space, in order, without dropping any text.", "quantifier": "every file content", "why_tests_cant": "All texts; unbounded continuation chains; end-of-file corner case.", "anchors": ["util.c: getmultiline", "config_parser.c: parse_config_file", "syscall_filter.c: compile_file"]}
{"id": "C15", "title": "Path-parent test is the component-wise prefix relation", "statement": "path_is_parent(p,c) is true exactly when c is a strict extension of p at a path-component boundary; joining a base and a further component gives a path for which the base is a parent.", "quantifier": "all pairs of strings", "why_tests_cant": "All strings; boundary cases like /foo vs /foobar.", "anchors": ["util.c: path_is_parent, path_join"]}
{"id": "C16", "title": "Child environment editing behaves as a finite map", "statement": "setenv/getenv/unsetenv on a child environment obey map laws: get after set returns the value, other variables are unaffected, unset removes, no-overwrite keeps, invalid names are rejected without change, for any environment array.", "quantifier": "every environment array, every name/value, every operation sequence", "why_tests_cant": "All arrays, including entries sharing prefixes or lacking '='.", "anchors": ["util.c: minijail_setenv, minijail_getenv, minijail_unsetenv, getenv_index, minijail_copy_env"]}
{"id": "C17", "title": "Config files parse to exactly their option list", "statement": "A config file is accepted iff its first line is the directive and every other logical line is blank, a comment, 'key' or 'key=value' with non-empty value; the result is the ordered list of those entries; any other file is rejected.", "quantifier": "every file content", "why_tests_cant": "All texts.", "anchors": ["config_parser.c: parse_config_file, parse_config_line, match_special_directive"]}
{"id": "C18", "title": "Generated configuration reproduces the options", "statement": "A configuration written by --gen-config and read back yields the same option/argument sequence, for every argument that the format can represent.", "quantifier": "every option list", "why_tests_cant": "All argument strings (with '=', '#', blanks, backslashes).", "anchors": ["minijail0_cli.c: parse_args (gen-config)", "config_parser.c"]}
{"id": "C19", "title": "Serialising and deserialising a jail preserves its restrictions", "statement": "For every jail built through the API, marshalling then unmarshalling (as done for the preloaded library and minijail_copy_jail) succeeds and restores every field that the receiving side uses; the buffer has exactly the predicted size.", "quantifier": "every jail configuration", "why_tests_cant": "Unbounded lists of mounts, cgroups, fs rules, filter instructions and strings.", "anchors": ["libminijail.c: minijail_marshal, minijail_unmarshal, minijail_size, minijail_copy_jail"]}
{"id": "C20", "title": "Truncated or malformed jail buffers never yield a jail", "statement": "Deserialising never reads outside the given buffer, and any strict prefix of a valid serialised jail is rejected.", "quantifier": "every byte buffer; every strict prefix of every valid buffer", "why_tests_cant": "All byte strings.", "anchors": ["libminijail.c: minijail_unmarshal", "util.c: consumebytes, consumestr"]}
{"id": "C21", "title": "Jail transfer over the pipe is all-or-nothing", "statement": "However the kernel splits or interrupts writes and reads on the pipe, the receiver either obtains exactly the bytes the sender serialised or reports an error; a transfer is never truncated silently.", "quantifier": "every schedule of partial writes/reads and EINTRs, every jail", "why_tests_cant": "Schedules are unbounded.", "anchors": ["libminijail.c: write_exactly, minijail_to_fd, minijail_from_fd"]}
{"id": "C22", "title": "Preserved file descriptors reach their requested numbers", "statement": "After child fd setup, each requested child fd refers to the open file that the corresponding parent fd referred to before, whatever permutation, overlap or cycle the requests form, including conflicts with minijail's internal pipes.", "quantifier": "every set of open fds, every list of (parent, child) pairs with distinct child fds, every internal pipe placement", "why_tests_cant": "All permutations/overlaps of unbounded fd numbers.", "anchors": ["libminijail.c: minijail_preserve_fd, ensure_no_fd_conflict, prepare_preserved_fds, avoid_pipe_conflicts, redirect_fds"]}
{"id": "C23", "title": "With close_open_fds only the allowed descriptors survive", "statement": "When asked to close open descriptors, exactly the descriptors in the inheritable list remain open.", "quantifier": "every open-fd set, every inheritable list", "why_tests_cant": "All fd sets.", "anchors": ["libminijail.c: close_open_fds"]}
{"id": "C24", "title": "Entering a jail applies every requested restriction or dies", "statement": "If minijail_enter returns, then every restriction requested in the jail has been applied (modulo the documented soft-fail cases), in an order that keeps earlier ones effective: mounts before chroot, uid/gid change before capability drop, and with no_new_privs the filter after all of these. Any failing system call aborts the process at once instead of continuing less restricted.", "quantifier": "every jail configuration, every pattern of system call failures", "why_tests_cant": "2^(flags) configurations times every failure position.", "anchors": ["libminijail.c: minijail_enter"]}
{"id": "C25", "title": "Capability dropping leaves exactly the requested set", "statement": "After the capability step the effective and permitted (and inheritable / ambient if requested) sets equal the requested mask restricted to valid capabilities, and every valid capability outside the mask is gone from the bounding set (unless the caller asked to leave SECURE_NOROOT or its lock alone, as documented in the code).", "quantifier": "every 64-bit mask, every last-valid-cap, every prior capability state", "why_tests_cant": "2^64 masks.", "anchors": ["libminijail.c: drop_caps, drop_capbset", "system.c: get_last_valid_cap"]}
{"id": "C26", "title": "User/group change order and completeness", "statement": "Supplementary groups are set (or explicitly kept/inherited) before the gid change, and the gid before the uid change; no path changes the uid while leaving caller groups in place unless requested, and afterwards the process has the ids that were asked for.", "quantifier": "every jail configuration and failure pattern", "why_tests_cant": "All flag combinations.", "anchors": ["libminijail.c: drop_ugid"]}
{"id": "C27", "title": "The child waits for the parent's setup", "statement": "The jailed program never runs before the parent has finished its setup (pid file, cgroups, rlimits, uid/gid maps); if any parent setup step fails the child is killed, and if the parent dies the child aborts.", "quantifier": "every interleaving of parent and child, every failing step", "why_tests_cant": "All schedules.", "anchors": ["libminijail.c: minijail_run_internal, parent_setup_complete, wait_for_parent_setup, kill_child_and_die"]}
{"id": "C28", "title": "API calls keep the jail configuration consistent", "statement": "After any sequence of configuration calls: at most 32 rlimits with distinct types, at most 10 cgroups, at most 128 preserved fds with distinct child fds and no negative fd, use_caps and capbset_drop never both in force, chroot and pivot_root never both, every mount implies a mount namespace, a pid namespace implies a mount namespace, rejected calls change nothing.", "quantifier": "every finite sequence of API calls with arbitrary arguments", "why_tests_cant": "All call histories.", "anchors": ["libminijail.c: minijail_use_caps, minijail_capbset_drop, minijail_enter_chroot, minijail_enter_pivot_root, minijail_rlimit, minijail_add_to_cgroup, minijail_preserve_fd, minijail_mount_with_data, minijail_namespace_*"]}
{"id": "C29", "title": "All requested mounts are performed, in order, or entering dies", "statement": "Entering a jail performs every configured mount in the order requested, or aborts.", "quantifier": "every list of mounts, every failure pattern", "why_tests_cant": "All lists and failure positions.", "anchors": ["libminijail.c: mount_one, process_mounts_or_die"]}
{"id": "C30", "title": "Mount defaults are safe", "statement": "A mount with flags 0 is recorded with nodev|noexec|nosuid, an explicit non-zero flag word is kept, tmpfs without data gets mode=0755,size=10M, other data is kept; a mount requested with minijail_bind is read-only in the jail exactly if requested so, and keeps nosuid, nodev and noexec of its source.", "quantifier": "every source, destination, type, flag word and data string", "why_tests_cant": "All values.", "anchors": ["libminijail.c: minijail_mount_with_data, minijail_bind, mount_one"]}
{"id": "C31", "title": "Wait status mapping is total", "statement": "minijail_wait maps every possible wait status to: exit code for normal exits, 128+n for death by signal n, 253 for SIGSYS; and negative errno only when waiting failed or was already done.", "quantifier": "every wait status word, every pid state", "why_tests_cant": "All 32-bit status words.", "anchors": ["libminijail.c: minijail_wait_internal, minijail_wait, minijail_kill"]}
{"id": "C32", "title": "The in-jail init reaps everything and reports the program's status", "statement": "The init process of a pid namespace keeps reaping until no children remain and then exits with the root program's exit code, or 254 if a signal killed it.", "quantifier": "every order of child deaths, every status", "why_tests_cant": "All schedules.", "anchors": ["libminijail.c: init, init_term"]}
{"id": "C33", "title": "ELF linkage detection is memory safe and correct", "statement": "For every file content, linkage detection only reads inside the mapped file and for an ELF file reports 'dynamic' iff its program header table is valid and contains PT_INTERP; a malformed table is an error, a file without the ELF magic counts as a dynamically linked script.", "quantifier": "every byte sequence", "why_tests_cant": "All binaries.", "anchors": ["elfparse.c: get_elf_linkage, parseElf32, parseElf64"]}
{"id": "C34", "title": "Landlock path rules grant exactly the documented rights", "statement": "Read-only rules never grant write, create or remove; read-exec adds only execute; edit never grants creating files; every recorded rule mask is within the handled access set; and once the jail is entered the kernel grants only what some rule asks for.", "quantifier": "every path and access mask, every sequence of configuration calls, every file system", "why_tests_cant": "All masks.", "anchors": ["libminijail.c: minijail_add_fs_restriction_*, minijail_add_fs_restriction_path, setup_fs_rules_fd", "landlock_util.h"]}
{"id": "C35", "title": "Directory creation creates every missing ancestor", "statement": "Making the target of a mount (mkdir_p, setup_mount_destination) leaves all ancestor directories existing (and the last component if requested) or reports the first failing component; nothing that exists is removed or replaced.", "quantifier": "every path, every initial file system", "why_tests_cant": "All paths.", "anchors": ["system.c: mkdir_p, setup_mount_destination"]}
{"id": "C36", "title": "Original path lookup respects mounts", "statement": "minijail_get_original_path maps a path under a bind mount to the corresponding path under the mount's source, else under the chroot, component-wise.", "quantifier": "every mount list, every path", "why_tests_cant": "All strings.", "anchors": ["libminijail.c: minijail_get_original_path"]}
{"id": "C37", "title": "The command line front end refuses contradictory options", "statement": "Any accepted minijail0 command line satisfies the documented compatibility constraints (e.g. not both -C and -P or a profile, -G requires a user name given to -u, --ambient requires -c, -K requires -v, -b requires a new root or mount namespace), also when options come from configuration files, and no command line leads to undefined behaviour.", "quantifier": "every option sequence", "why_tests_cant": "All sequences.", "anchors": ["minijail0_cli.c: parse_args"]}
{"id": "C38", "title": "Securebits are locked as requested", "statement": "When capabilities are restricted, every securebit and lock outside the skip mask is set, except those for raising ambient capabilities (and, on kernels that refuse them, the newest four), and the bits in the skip mask are preserved (minijail0(1), -B).", "quantifier": "every skip mask, every initial securebits word", "why_tests_cant": "All masks.", "anchors": ["system.c: lock_securebits"]}
{"id": "C39", "title": "Generated identity maps are valid", "statement": "A default uid/gid map built by the front end maps exactly the requested id to the caller's id with length 1, and user supplied triplets are passed unchanged.", "quantifier": "every id", "why_tests_cant": "All ids.", "anchors": ["minijail0_cli.c: build_idmap, set_ugid_mapping"]}
{"id": "C40", "title": "The preload mechanism restores the child's LD_PRELOAD", "statement": "Injecting the preload library and removing it again in the child restores the LD_PRELOAD value that the caller supplied, and the program finds every other variable as the caller set it (except those for the pipe and the policy path).", "quantifier": "every environment and every preload path", "why_tests_cant": "All strings.", "anchors": ["libminijail.c: setup_preload", "libminijailpreload.c: truncate_preload_env"]}
{"id": "C41", "title": "The offline (Python) policy compiler agrees with the policy's meaning", "statement": "For every parsed policy, the BPF produced by tools/compile_seccomp_policy.py with either optimisation strategy (linear or binary search tree) gives each system call the action the policy prescribes.", "quantifier": "every list of filter statements with distinct syscall numbers, every frequency assignment, every seccomp_data", "why_tests_cant": "All policies and all tree shapes.", "anchors": ["tools/compiler.py: _compile_entries_linear, _compile_entries_bst, _compile_single_range, _convert_to_ranges", "tools/bpf.py: LoweringVisitor, FlatteningVisitor"]}
{"id": "C42", "title": "The offline compiler's long-jump encoding is exact", "statement": "Every conditional branch emitted by the offline compiler reaches its intended targets for all distances, including those that need extra unconditional jumps.", "quantifier": "every pair of jump distances", "why_tests_cant": "All distances; boundary at 255.", "anchors": ["tools/bpf.py: FlatteningVisitor._emit_jmp"]}
{"id": "C43", "title": "A jail whose deserialisation failed can still be destroyed", "statement": "When deserialising or copying a jail fails, the error path frees only what it allocated, and minijail_destroy may then be called on the jail: nothing is freed twice, no pointer of the sending process is freed, and nothing stays allocated.", "quantifier": "every byte buffer that is rejected, every jail whose copy fails", "why_tests_cant": "Depends on where in an unbounded buffer the failure happens and on which optional parts were present.", "anchors": ["libminijail.c: minijail_unmarshal, minijail_destroy, minijail_copy_jail, minijail_from_fd"]}
{"id": "C44", "title": "Configuration file entries are delivered as the command line options they name", "statement": "Entries of a configuration file are delivered in order as exactly the options they name: a key is accepted only if it is an option letter or a long option name, and an option that requires an argument is never delivered without one.", "quantifier": "every parsed configuration file", "why_tests_cant": "All files, all keys.", "anchors": ["minijail0_cli.c: getopt_from_conf"]}
{"id": "C45", "title": "The preloaded library finds its configuration at the announced descriptor", "statement": "When a jail is run with the preload library, the descriptor number announced to the program in its environment refers, when the program starts, to the pipe over which the configuration is sent, whatever descriptors the caller asked to preserve.", "quantifier": "every set of open fds, every list of preserved descriptors", "why_tests_cant": "Depends on which numbers the kernel hands out and on all combinations of preserved descriptors.", "anchors": ["libminijail.c: setup_pipe, avoid_pipe_conflicts, minijail_run_internal", "libminijailpreload.c: fake_main"]}
{"id": "C46", "title": "Requested standard streams are the pipes handed to the caller", "statement": "When the caller asks for pipes to the program's standard input, output or error, the program starts with exactly those streams connected to the pipes, the others unchanged, and no other copy of a pipe end open.", "quantifier": "every set of open fds, every placement of the pipe ends", "why_tests_cant": "Depends on which descriptors are open when the call is made, including callers with closed standard streams.", "anchors": ["libminijail.c: setup_child_std_fds"]}
{"id": "C47", "title": "A program run with the preload library is under every configured restriction", "statement": "When a program is run in a jail with the preload library, then by the time its main function is called every restriction configured in the jail is in force: part of it is put in place by the child before the program is executed, the rest by the library from the configuration it receives; together they amount to what entering the jail directly does, none is lost between the two, and user, groups, capabilities and filter are the configured ones. Without the library all of it is in place when the program is executed.", "quantifier": "every jail, every environment and system answers, every way the configuration's bytes travel", "why_tests_cant": "Which flag is handled before and which behind execve is split over two functions of which each clears what the other should do; a test of one combination shows nothing about the 46 others.", "anchors": ["libminijail.c: minijail_preexec, minijail_preenter, minijail_run_internal, minijail_from_fd", "libminijailpreload.c: fake_main"]}
{"id": "C48", "title": "A requested restriction stays in force through later configuration calls", "statement": "When a configuration call that asks for a restriction (namespace, user, group, capability set, root directory, mount, resource limit, seccomp, ...) reports success, the restriction is recorded, and no later configuration call silently removes it.", "quantifier": "every finite sequence of API calls with arbitrary arguments", "why_tests_cant": "All call histories.", "anchors": ["libminijail.c: the configuration functions", "libminijail.h"]}
{"id": "C49", "title": "The value last given to a setting is the one used", "statement": "For every setting that carries a value (user, group, supplementary groups, capability masks, securebits skip mask, mount propagation, /tmp size, filter program, id maps, pid file, namespaces to enter): after a call giving it a value reports success, the recorded value is that one until another call gives the same setting; no call changes a setting it does not name.", "quantifier": "every finite sequence of API calls with arbitrary arguments", "why_tests_cant": "All call histories.", "anchors": ["libminijail.c: the configuration functions"]}
{"id": "C50", "title": "Every option of an accepted command line takes effect", "statement": "When the front end accepts a command line, each option given there or in a configuration file has the effect the manual states, including what it implies (-p a mount namespace and a read-only /proc, -I a pid namespace, -m a user namespace, ...), whatever options come before or after it.", "quantifier": "every sequence of options and arguments, every configuration file", "why_tests_cant": "All orders and combinations of some sixty options.", "anchors": ["minijail0_cli.c: parse_args", "minijail0.1"]}
{"id": "C51", "title": "The values of an accepted command line are those its arguments stand for", "statement": "When the front end accepts a command line, ids, groups, capability sets, masks, limits, sizes, mounts, paths, filters and file descriptors in the jail are exactly those that the arguments of the options (or of their last or only occurrence) denote, nothing is altered, dropped or added, also for options from configuration files.", "quantifier": "every sequence of options and arguments, every configuration file", "why_tests_cant": "Arguments are free text of any length, and every value passes through a loop, a settling phase and other options that touch the same jail.", "anchors": ["minijail0_cli.c: parse_args, set_user, set_group, use_caps, add_binding, add_mount, add_rlimit", "minijail0.1"]}
{"id": "C52", "title": "Configuration calls turn on and off nothing else", "statement": "Behind any sequence of configuration calls, whatever they return, a jail does nothing but what a new jail does and what one of the calls is documented to request; and nothing that was on is off unless one of the calls is documented to turn it off.", "quantifier": "every finite sequence of API calls with arbitrary arguments, every one of the 46 features", "why_tests_cant": "All call histories, all features at once: a test looks at the feature it asked for.", "anchors": ["libminijail.c: the configuration functions", "libminijail.h"]}
{"id": "C53", "title": "The front end does nothing that no option asks for", "statement": "When the front end accepts a command line, every feature of the jail that is on and every setting that has a value is one that an option, on the command line or in a configuration file, asks for according to the manual, or one of the documented defaults.", "quantifier": "every sequence of options and arguments, every configuration file, every environment", "why_tests_cant": "All orders and combinations of some sixty options; tests look for the effect of an option, not for the absence of all others.", "anchors": ["minijail0_cli.c: parse_args", "minijail0.1"]}
{"id": "C54", "title": "minijail0 starts the program as the command line says", "statement": "When minijail0 starts a program, it is the one named on the command line, with its arguments; it is run with the preload library exactly if the last -T, or else the file itself, says that it is dynamically linked; the library is the last one given with --preload-library or else the built-in one; the program sees the caller's environment as edited by --env-reset and --env-add in their order; with -i minijail0 returns 0 at once, and otherwise with the status of the program.", "quantifier": "every sequence of options and arguments, every configuration file, every environment, every end of the program", "why_tests_cant": "The outcome depends on the order of options of four kinds, on the caller's environment and on the linkage of the file; the tests of main start one program with one option.", "anchors": ["minijail0.c: main", "minijail0_cli.c: parse_args, set_child_env", "libminijail.c: minijail_run_internal, setup_preload", "libminijailpreload.c: fake_main", "minijail0.1"]}
{"id": "C55", "title": "What was given up stays given up", "statement": "Once a process has entered a jail, then whatever it does and whatever it executes, for however long: a capability outside the mask given to minijail_use_caps is in none of its capability sets (unless the caller asked to leave SECURE_NOROOT alone), the filter stays installed and no_new_privs stays set; with no_new_privs and without CAP_SETUID it stays the requested user, without CAP_SETGID it stays in the requested groups. A program without privileges of its own that it executes has exactly the requested capabilities if they were made ambient, and never more than those.", "quantifier": "every jail, every system, every later sequence of capset, prctl, seccomp, setuid, setgid, setgroups and execve calls of any files", "why_tests_cant": "Unbounded histories of the jailed program, including executing set-user-id files; a test runs one program once.", "anchors": ["libminijail.c: minijail_enter, drop_caps, drop_capbset, drop_ugid, lock_securebits", "capabilities(7)", "execve(2)"]}
{"id": "C56", "title": "The program runs within what the command line asks for", "statement": "If minijail0 starts the program, then when the program gets control everything that the options (configuration files included) ask for has been asked of the system and granted: the namespaces of -v -e -l -N --uts and those of -V and -e FILE, the root of -C or -P, the device directory of -d, exactly the mounts of -b and -k at their places, /tmp of -t, the read-only /proc of -r and -p, the keyring of -w, the table of -a, the strict mode of -s. The process is the user of -u, in the groups of -g, --add-suppl-group or -G, has the capabilities of -c, no_new_privs of -n and the filter of -S or --seccomp-bpf-binary, and keeps within them whatever it does.", "quantifier": "every command line and every configuration file, every system, every program, with the preload library and without, every later history of the program", "why_tests_cant": "Joins parsing, configuration, transfer between processes and entering over an unbounded set of command lines and program histories; a test sees one command line and one run.", "anchors": ["minijail0_cli.c: parse_args", "minijail0.c: main", "libminijail.c: minijail_run_internal, minijail_enter", "libminijailpreload.c: fake_main", "minijail0.1"]}
{"id": "C57", "title": "The offline compiler reads policies as they are written", "statement": "The program that compile_seccomp_policy.py writes gives each system call the action that the text of the policy prescribes: the first filter of the system call, in the order of the file and of the files it includes, whose condition holds; else the default action of --default-action, of the last @default or of the kind of list. Each text has one meaning only, what is compiled is in the documented grammar, and what is in the grammar is compiled. With --use-ret-log nothing is killed.", "quantifier": "every policy text, every tree of included files, every combination of options, every table of system calls and constants, every system call", "why_tests_cant": "Unbounded texts, nesting and files; the unit tests of the parser and of the compiler each look at fixed phrases and never run the program for all arguments.", "anchors": ["tools/parser.py", "tools/compile_seccomp_policy.py: main", "tools/compiler.py: compile_file", "minijail0.5"]}
{"id": "C58", "title": "A policy acts the same whichever compiler is used", "statement": "A policy file given to minijail0 -S, and the same file compiled beforehand with compile_seccomp_policy.py and given to minijail0 --seccomp-bpf-binary, have the same effect: for every system call with every arguments both filters return the same, which is what the manual says: allowed, refused with the given error, or killed. This holds for comments, blank lines, lines continued with a backslash, included files, names and numbers in every base and sign, complements, alternatives, all eight comparisons.", "quantifier": "every policy in the common part of the two languages, every tree of included files one level deep, every table of system calls and constants, both shapes of the offline program, every system call", "why_tests_cant": "Two compilers in two languages; the tests of each never run the other, and none runs the programs on all arguments.", "anchors": ["tools/parser.py", "tools/compiler.py", "syscall_filter.c: compile_filter, compile_file, compile_policy_line", "util.c: parse_constant", "minijail0.5"]}
{"id": "C59", "title": "A policy made of traces allows what the traces show", "statement": "The policy that generate_seccomp_policy.py writes for traces of strace allows every system call that a line of the traces tells of, with the values that the trace has for the arguments of ioctl, socket, prctl, mmap, mmap2 and mprotect that the tool looks at, and the four system calls that every program needs; it allows no system call that is in no trace; of mappings it allows all that are not both writable and executable, unless a mapping of the trace was. minijail and the offline compiler both take the policy and act on it so.", "quantifier": "every set of trace files, with any tags of processes, unfinished and resumed calls, signals and exits; every order of Python's sets; with and without frequency file; every table of system calls and constants; every system call", "why_tests_cant": "Unbounded traces; the tests of the tool compare the parsed data of a few lines, and no test runs a generated policy.", "anchors": ["tools/generate_seccomp_policy.py: main, parse_trace_file, get_seccomp_bpf_filter", "tools/README.md"]}
{"id": "C60", "title": "The methods of the Rust crate configure the jail they are named for", "statement": "Each configuration method of minijail::Minijail makes the one call of the library that it is named for, with the arguments it was given: when it returns Ok, what it asks for is in force in the jail, whatever other methods are called before and after; when it returns Err, the jail is as it was. A compiled program given as bytes or as a file becomes the filter instruction for instruction, or is refused. try_clone yields a jail of the same configuration.", "quantifier": "every sequence of methods with every arguments (also strings with NUL, paths that are not UTF-8, users that do not exist), every answer of the system, every buffer of bytes", "why_tests_cant": "Unbounded sequences and arguments; the tests of the crate call a few methods with fixed arguments and mostly ignore what the jail then contains.", "anchors": ["rust/minijail/src/lib.rs: impl Minijail", "libminijail.h"]}
{"id": "C61", "title": "A program started by the Rust crate has the descriptors it was given and no others", "statement": "When run, run_remap, run_command, fork and their variants execute a program, it finds each descriptor of the given pairs open under its second number, being the file of the first, and inherited; 0, 1 and 2 are /dev/null where the pairs do not name them; no other descriptor of the parent is open. A Minijail can be used for several runs. fork does nothing in a process with several threads, unless the check is disabled. Arguments and environment arrive as they were given.", "quantifier": "every list of pairs (also with swaps, cycles and duplicates), every table of open descriptors of the parent, every list of strings, every set of threads, every number of runs", "why_tests_cant": "Permutations of descriptors and tables of the parent are unbounded; the tests of the crate look at two or three descriptors of one process.", "anchors": ["rust/minijail/src/lib.rs: run_internal, fork_remap, to_execve_cstring_array, is_single_threaded", "libminijail.c: minijail_preserve_fd, redirect_fds, close_open_fds"]}
{"id": "C62", "title": "Waiting in Rust tells how the program ended", "statement": "Minijail::wait and Minijail::kill return Ok exactly for a program that exits with 0; else the error tells how it ended: the code it exited with, the signal that killed it, that it was killed for violating the policy, that the command was not found or could not be run, or why waiting failed. They never panic.", "quantifier": "every end of a process, every order of interrupted calls, every answer of waitpid and kill, jails that were run, waited for or neither", "why_tests_cant": "All exit codes, signals and interruptions; the tests of the crate let a few programs exit or be killed.", "anchors": ["rust/minijail/src/lib.rs: translate_wait_error, wait, kill", "libminijail.c: minijail_wait, minijail_kill", "libminijail.h: MINIJAIL_ERR_*"]}
{"id": "C63", "title": "A policy that the linter finds nothing wrong with allows dangerous system calls only where that is documented", "statement": "seccomp_policy_lint.py exits with 0 exactly if no system call is named twice and every line that names a dangerous one has a comment or one of the rules that are known to be harmless; its errors name exactly the lines where that fails, and its message says whether there are dangerous system calls. A policy that passes, loaded by minijail or compiled offline, allows a dangerous system call only if the line for it is documented, or the call is harmless: memory that is not both writable and executable, random numbers not from the pool that can be used up.", "quantifier": "every text of a policy, every list of dangerous system calls, every table of system calls and constants with the usual values, every system call with every arguments", "why_tests_cant": "Unbounded texts and calls; the tool has no tests of what a policy that passes allows.", "anchors": ["tools/seccomp_policy_lint.py", "tools/compiler.py", "syscall_filter.c: compile_filter"]}
{"id": "C64", "title": "Exactly the policies that fit are accepted", "statement": "minijail accepts a policy if every line of it and of the files it includes is of the policy language, no system call has two rules (or, where duplicates are allowed, two rules other than 1), blocked calls are not let through for logging unless logging is allowed, and the rules need at most 512 labels and at most 4096 instructions; it accepts nothing else. The number of instructions of the program follows from the rules: five, two for a system call that is allowed, four for one that is blocked, six and two for each alternative for one with conditions, and for each comparison three (on 32 bits) or eight or nine (on 64 bits).", "quantifier": "every text of a policy and of included files, every table of system calls and constants, all options", "why_tests_cant": "Unbounded texts, numbers of rules, alternatives and comparisons; the tests compile a few short policies and compare the programs.", "anchors": ["syscall_filter.c: compile_filter, compile_file, compile_policy_line, compile_atom", "bpf.c: bpf_resolve_jumps, bpf_label_id", "minijail0.5"]}
{"id": "C65", "title": "What starting a program leaves in the caller and gives to the program", "statement": "Each of the functions that start a program, and minijail_fork, either fails, and then the caller's descriptors, memory and signals are as before and no process was started; or starts one process. Then it returns 0 (minijail_fork: the number of the process), stores that number and one descriptor for each stream that was asked for, and leaves no other descriptor behind but closes those of namespaces to enter. Each descriptor that is stored is one end of a pipe whose other end is that stream of the program, and neither process has a further descriptor for it, so that the reader sees the end of what is written. The process executes the given program with the given arguments and environment. The caller is never ended by SIGPIPE, and its signal mask is as before.", "quantifier": "every function, every combination of results asked for, every table of descriptors, every jail, every answer of the system", "why_tests_cant": "Depends on which numbers are free, which are kept for the program, and on failures of pipe, memory and the program itself in between; leaks and missing ends of files are not seen by tests that run one program.", "anchors": ["libminijail.h:502-632", "libminijail.c: minijail_run_config_internal, minijail_run_internal, minijail_free_run_state, setup_child_std_fds, minijail_fork"]}
{"id": "C66", "title": "A policy compiled ahead of time means what it says", "statement": "parse_seccomp_policy [--dump[=OUTPUT]] [POLICY] reads POLICY, or standard input if there is none or it is '-'. It ends with status 0 exactly if the policy is one that minijail takes, and then has written the whole program: as instructions to OUTPUT or standard output, or as a listing that shows all of it. Otherwise nothing is written. minijail0 --seccomp-bpf-binary OUTPUT gives the jail exactly this program, and under it every call gets the action that the policy gives to it, as with -S POLICY.", "quantifier": "every command line the usage message allows, every policy, every set of files, every system call with all its arguments, every option of -S", "why_tests_cant": "Tests compare a few dumps with expected files; that a dump read back acts as the policy does for every policy and every call, and what happens when no name is given or the disk is full, is not sampled.", "anchors": ["parse_seccomp_policy.cc: main, DumpBpfProg, Usage", "minijail0_cli.c: read_seccomp_filter, set_seccomp_filters", "libminijail.c: parse_seccomp_filters", "syscall_filter.c: compile_filter, copy_parser_state"]}
{"id": "C67", "title": "What a blocked call leads to", "statement": "Under a policy that minijail compiles, a call that the policy does not mention, or whose condition is not met and that has no error number, kills the thread; with thread synchronisation it kills the process; if logging is asked for and the build supports it, it is logged and let through. If the kernel does not know the wanted action, the call raises a signal, for which entering the jail has installed the handler that reports it (logging), or restored the default of ending the process (thread synchronisation), right before the filter. No action is used that the kernel does not list. Calls are allowed beyond the policy only if the build says so (C library) or if the handler needs them to report.", "quantifier": "every combination of the options and of the build's settings, every list of actions a kernel may show, every policy and call", "why_tests_cant": "The combinations depend on the kernel and on the build; one test machine has one kernel and one build.", "anchors": ["libminijail.c: parse_seccomp_filters, set_seccomp_filter, seccomp_is_logging_allowed", "system.c: seccomp_action_is_available, seccomp_ret_log_available, seccomp_ret_kill_process_available", "syscall_filter.c: compile_filter"]}
{"id": "C68", "title": "Compiling a policy leaks no memory and misuses none", "statement": "Compiling a policy reads and writes only memory that is allocated at that time and large enough, and frees nothing twice. If the policy compiles, the program is complete in memory of its own and all else that was allocated meanwhile has been freed. If it does not, for whatever reason and at whatever line, all that was allocated has been freed. Programs that were compiled before stay as they are.", "quantifier": "every policy text with every included file, every set of options, every state of memory before", "why_tests_cant": "A leak or a use after free appears only for the policies that reach it, e.g. those that fail after several conditions of several rules; memory checkers see only the policies tests run.", "anchors": ["syscall_filter.c: append_filter_block, extend_filter_block_list, flatten_block_list, free_block_list, compile_policy_line, compile_file, compile_filter", "bpf.c: bpf_arg_comp"]}
{"id": "C69", "title": "What is set up for a new process is complete and exact, or the process is killed", "statement": "Before the new process goes on, the caller's process writes its number, in decimal with a line feed, to the file given to minijail_write_pid_file and to the tasks file of each control group, sets each resource limit, and writes the maps of ids in full; with minijail_namespace_user_disable_setgroups, setgroups is denied before the map of group ids is written, unless the kernel has no such file. All of it once and in this order, nothing else. If any of it fails or is done only in part, the new process is killed and the caller's process ends, doing nothing further. If nothing fails it goes on, whatever the process's number.", "quantifier": "every jail, every process number, every answer of open, write, fclose and prlimit at every point", "why_tests_cant": "A test would need every call to fail at every point, files that take only some bytes, and old kernels; the tests of the library write one file.", "anchors": ["libminijail.c: write_pid_file_or_die, add_to_cgroups_or_die, set_rlimits_or_die, write_ugid_maps_or_die, kill_child_and_die, minijail_run_internal", "system.c: write_pid_to_path, write_proc_file"]}
{"id": "C70", "title": "Waiting, killing and forwarding concern the program that was started", "statement": "minijail_kill signals the program that the jail was last run with and no other process; minijail_wait waits for that program, and tells how it has ended, once. A jail that has not been run has nothing to kill or to wait for. With minijail_forward_signals every signal that can be caught, except SIGCHLD, is passed on to the program. All this whatever other processes are started and end, and whichever numbers the system gives to them.", "quantifier": "every sequence of runs, waits, kills and signals with any number of jails, interleaved with any other processes, and every choice of process numbers by the system", "why_tests_cant": "That the system gives a number again takes thousands of processes; a test sees one order of events.", "anchors": ["libminijail.c: minijail_wait, minijail_kill, minijail_wait_internal, minijail_run_internal, install_signal_handlers, forward_signal"]}
{"id": "C71", "title": "The paths named on the command line decide which files the program can use", "statement": "If minijail0 is given --fs-path-ro, --fs-path-rx, --fs-path-rw, --fs-path-advanced-rw, --fs-default-paths or --profile, on the command line or in a configuration file, and the kernel has landlock, then the program has exactly the rights that the manual names for these options: a file can be used in a way if it is at or below a path for which an option allows this, and in no other way. Without such an option, or with --no-fs-restrictions, nothing is restricted.", "quantifier": "every command line and configuration file, every landlock version, every set of paths that exist, files and directories, every file and every right", "why_tests_cant": "A test has a few options and files and the kernel it runs on; that no other option adds or takes away a right, in whatever order they come, takes all command lines.", "anchors": ["minijail0_cli.c: parse_args", "libminijail.c: minijail_add_fs_restriction_*, minijail_add_minimalistic_mountns_fs_rules, minijail_enable_default_fs_restrictions, setup_fs_rules_fd, apply_landlock_restrictions", "landlock_util.c: populate_ruleset_internal"]}
{"id": "C72", "title": "A jail gives back all memory, and never uses memory it does not have", "statement": "Whatever functions are called on a jail between minijail_new and minijail_destroy, in whatever order and wherever an allocation fails: no memory is freed twice, no memory is used that is not allocated, memory that the caller allocated is left alone, and after minijail_destroy all memory that was allocated for the jail has been freed.", "quantifier": "every sequence of configuration calls and runs, and every choice of the allocations that fail", "why_tests_cant": "A test has a few sequences of calls and, with a checker for leaks, sees those; allocations hardly ever fail in tests. That no sequence of any length leaks or frees twice, with any of its allocations failing, takes an invariant of the jail.", "anchors": ["libminijail.c: minijail_new, minijail_change_user, minijail_set_supplementary_gids, minijail_namespace_set_hostname, minijail_uidmap, minijail_gidmap, minijail_enter_chroot, minijail_enter_pivot_root, minijail_write_pid_file, minijail_add_to_cgroup, add_fs_restriction_path, minijail_mount_with_data, minijail_add_remount, minijail_add_hook, minijail_set_preload_path", "libminijail.c: clear_seccomp_options, set_seccomp_filters_internal, parse_seccomp_filters, minijail_parse_seccomp_filters, minijail_parse_seccomp_filters_from_fd, minijail_set_seccomp_filters", "libminijail.c: minijail_marshal_helper, minijail_preenter, minijail_preexec, free_mounts_list, free_remounts_list, free_fs_rules_list, minijail_destroy"]}
{"id": "C73", "title": "One policy is made of traces and audit logs, and allows what they tell of", "statement": "Given any number of strace traces and audit logs, and the name of a process, generate_seccomp_policy.py writes one policy, which minijail and the offline compiler both take. It allows exactly the system calls that the traces and the log's records of this process tell of and those that every program needs; of socket, ioctl, prctl and mappings of memory it allows the arguments that are told of. Other processes' records allow nothing. Without a name for logs, with a name but no log, or with a file missing, there is no policy.", "quantifier": "all files, all records that the audit library can find in them, all process names, every order in which Python goes through its sets, with and without a frequency file", "why_tests_cant": "There is no unit test for audit logs. A test would have one log of one machine; that every record of every log lands in the policy, that records of others do not, and that the text so produced is always a valid policy with that meaning, quantifies over all of them.", "anchors": ["tools/generate_seccomp_policy.py: BucketInputFiles, parse_args, parse_audit_log, main", "tools/README.md: Using linux audit logs to generate policy"]}
{"id": "C74", "title": "The frequency file says how often each system call was made", "statement": "With --frequency, generate_seccomp_policy.py writes a second file that has, for every system call in the policy, the number of lines of the traces and records of the logs that tell of it (1 for those that every program needs and that are not told of). The offline compiler reads exactly these numbers from it when a policy names it with @frequency. Without --frequency there is no such file, and the rules of the policy come in the order of how often they were told of, the most frequent first.", "quantifier": "all traces and logs that the tool can read, all tables of system calls, all years in the notice", "why_tests_cant": "The unit tests of the parser read frequency files written by hand, and nothing tests the generator. That the numbers written are the numbers of occurrences, for inputs of any length and numbers of any size, and that the other program reads back the same numbers, is a round trip over all inputs.", "anchors": ["tools/generate_seccomp_policy.py: parse_trace_file, parse_audit_log, main", "tools/parser.py: _parse_frequency_file, parse_frequency_statement", "tools/README.md: frequency"]}
{"id": "C75", "title": "With -L blocked system calls are reported", "statement": "With minijail_log_seccomp_filter_failures (-L), on a kernel that has SECCOMP_RET_LOG the program goes on and the kernel records exactly the blocked calls, in their order. On other kernels the first blocked call is not made and ends the program, and one line that names the call (or gives its number if it has no name) is sent to syslog; the name is one that a policy can use to allow the call.", "quantifier": "all policies that compile, all sequences of system calls of a program, all builds with debug logging", "why_tests_cant": "What a trapped call leads to depends on the kernel, on the C library and on which calls the handler itself makes under the filter it reports about. Tests run on one kernel, which has SECCOMP_RET_LOG, and never reach the handler.", "anchors": ["signal_handler.c: log_sigsys_handler, install_sigsys_handler", "util.c: log_syscalls, lookup_syscall_name, do_fatal_log", "libminijail.c: set_seccomp_filter, parse_seccomp_filters, minijail_log_to_fd", "minijail0.1: -L"]}
{"id": "C76", "title": "Bind mounts do not follow symbolic links", "statement": "In a build with BLOCK_SYMLINKS_IN_BINDMOUNT_PATHS, minijail_bind refuses, and entering a jail does not make, a bind mount whose source is not the literal name of an existing place: absolute, without '.', '..' or double slashes, and without a symbolic link as any of its components (one slash at the end is allowed). Sources below one of BINDMOUNT_ALLOWED_PREFIXES, directories that only root can modify, are exempt. Every literal source is accepted.", "quantifier": "all trees of files and links, all paths, all lists of prefixes, all jails, however their mounts were configured", "why_tests_cant": "The unit tests try a few paths against the file system of the machine. That the comparison of the path with realpath(3) excludes every link at every position, and that no mount is made without the check, is about all trees and all mounts.", "anchors": ["libminijail.c: is_valid_bind_path, minijail_bind, mount_one", "system.c: is_canonical_path", "util.c: path_is_parent, tokenize", "Makefile: BINDMOUNT_ALLOWED_PREFIXES", "system.h: is_canonical_path"]}
{"id": "C77", "title": "Starting a program through the Rust interface starts what was named, and says so", "statement": "Each of run, run_remap, run_fd, run_fd_remap and run_command, on a jail made through the crate, starts the program that was named, by path or by descriptor, with exactly the arguments given and with the environment given, or the caller's if none was. The program has the descriptors that were listed, at the numbers that were listed, /dev/null for standard streams not listed, and no other but the library's own pipe and the program's file. The number returned is that of the process, and is the one wait and kill mean. If nothing is started, an error is returned. The caller's own descriptors and blocked signals are as before in either case; strings with a NUL are refused before anything is changed; the library never reads beyond the arrays passed to it. fork makes a process only if there is a single thread or the check was disabled.", "quantifier": "all jails made by any sequence of the crate's methods, all programs, arguments, variables and lists of descriptors, all answers of the system", "why_tests_cant": "The crate's tests start a few programs. That the arrays are always terminated and in the right order, that no descriptor leaks in any path through the function, and that every failure is reported, is about all inputs and all answers of the system.", "anchors": ["rust/minijail/src/lib.rs: Command, Runnable, run_command, run, run_remap, run_fd, run_fd_remap, run_internal, fork, fork_remap, to_execve_cstring_array", "libminijail.c: minijail_run_pid_pipes, minijail_run_env_pid_pipes, minijail_run_fd_env_pid_pipes, minijail_run_internal, minijail_fork, redirect_fds"]}
{"id": "C78", "title": "The file of an architecture says to the offline compiler what minijail was compiled with", "statement": "What dump_constants prints is a JSON text that can be read in one way only. Read by the offline compiler, it gives the number and name of the machine, the size of a word, and for every name the number of the system call or the value of the constant that minijail itself would use, and nothing else. generate_constants_json.py finds in the LLVM files, whichever comes first, the same system calls, and all constants that are numbers; what is negative there stands for the same word. With such a file a policy of the common language acts in the same way whichever compiler is used.", "quantifier": "all tables, all machines, all JSON texts of the file, all LLVM files with such tables in the forms of older and newer compilers", "why_tests_cant": "The tests of the tools use a checked-in constants file and a few lines. That no name or value is lost or changed, for any table, and that two programs in different languages end up with the same tables, is not about a sample.", "anchors": ["dump_constants.cc: main", "tools/generate_constants_json.py: parse_llvm_ir, main", "tools/arch.py: load_from_json", "libconstants.h", "libsyscalls.h", "util.c: lookup_syscall, parse_single_constant"]}
{"id": "C79", "title": "The names a policy may use are those the headers define", "statement": "A policy may name exactly the system calls whose numbers the system's headers define (those of ARM with the prefix ARM_), and the constants in capital letters that the headers define, except the signal functions, the real-time signals and NULL. Each name stands for the value the C compiler gives it when minijail is compiled; a definition that was taken back is not there; a name that is defined several times has one value. The file dump_constants prints says the same.", "quantifier": "all sequences of lines the preprocessor may print, all values of the macros", "why_tests_cant": "The tests use whatever headers the build machine has, and compare a handful of names. Which names of other machines are lost or wrong only shows when a policy there fails to load or allows something else.", "anchors": ["gen_syscalls.sh: SED_MULTILINE", "gen_constants.sh: SED_MULTILINE, grep, sort", "gen_syscalls-inl.h", "gen_constants-inl.h", "util.c: lookup_syscall, parse_single_constant", "dump_constants.cc: main"]}
{"id": "C80", "title": "Messages reach the place chosen for them, each on a line", "statement": "Before minijail_log_to_fd is called all messages go to syslog. After it, the messages at least as urgent as the given priority are appended to the given descriptor, each on a line of its own, in order, and nothing else is written anywhere. The reason why a process gives up is reported whatever its priority, and is the last thing reported. The same holds for the messages of the jailed process, which are in the same file as those of the process that started it.", "quantifier": "all sequences of messages and of calls of minijail_log_to_fd, all ways in which the C library cuts a text, all orders of the writes of two processes, all descriptor tables and mappings", "why_tests_cant": "The tests look for a few messages. That none is lost, merged with another or written to another file depends on the order of writes of several processes and on which descriptors were asked for.", "anchors": ["util.c: do_log, do_fatal_log, init_logging", "util.h: die, pdie, warn, pwarn, info", "libminijail.c: minijail_log_to_fd, minijail_run_internal, close_open_fds, redirect_fds", "minijail0_cli.c: parse_args"]}
{"id": "C81", "title": "The simulator of filters tells what the kernel would do", "statement": "For every program and system call bpf.simulate reports the action that the kernel would take, and the number of instructions it would execute to find it. It raises an exception exactly if the kernel would refuse the program or find a verdict that has no name. For a program of the offline compiler the action is the one the policy prescribes.", "quantifier": "all programs, numbers of system calls, architectures and arguments; all policies the offline compiler accepts", "why_tests_cant": "The tests of the compiler are written in terms of the simulator. If it disagrees with the kernel, they confirm programs that do something else.", "anchors": ["tools/bpf.py: simulate", "tools/compiler.py: PolicyCompiler.compile_file"]}
{"id": "C82", "title": "Reading config files misuses no memory and leaks none", "statement": "A list made with new_config_entry_list can be given to parse_config_file for any number of files of any length and then be freed with free_config_entry_list, also when a file cannot be read or memory runs out. Only memory that is allocated at that time, written and large enough is used, nothing is freed twice, the list can be read after every call and holds the entries of the files, and after it has been freed nothing is left.", "quantifier": "all sequences of files, all contents and lengths, all sets of allocations that fail", "why_tests_cant": "The tests read a few short files. The array grows only for files of more than a hundred entries, and tests do not make allocations fail.", "anchors": ["config_parser.c: new_config_entry_list, parse_config_line, parse_config_file, clear_config_entry, free_config_entry_list", "config_parser.h: config_entry_list"]}
{"id": "C83", "title": "Editing an environment misuses no memory and leaks none", "statement": "An environment copied with minijail_copy_env can be changed with minijail_setenv and minijail_unsetenv and read with minijail_getenv as often as one likes and then be freed with minijail_free_env. Only memory that is allocated at that time, written and large enough is used, and nothing is freed twice, also when name or value are strings of the environment itself. The environment holds the strings that these calls are to leave; when memory runs out, this is said and the environment is as before. After it has been freed nothing is left, and all memory of the caller is untouched.", "quantifier": "all environments of any length, all sequences of calls, all names and values, all sets of allocations that fail", "why_tests_cant": "The tests make a few calls on small environments, and do not make allocations fail or look at what is allocated.", "anchors": ["util.c: minijail_free_env, minijail_copy_env, getenv_index, minijail_setenv, minijail_getenv, minijail_unsetenv", "util.h: minijail_setenv, minijail_unsetenv"]}
{"id": "C84", "title": "Lines of any length are read without misusing memory, and none is lost unnoticed", "statement": "Policies and config files are read line by line, and lines that end with a backslash are joined. However long the lines are and however many are joined, only memory that is allocated, written and large enough is used, the buffer holds the joined line with a NUL behind it, and nothing stays allocated when the file has been read. When memory runs out, at any point, reading stops with what was read so far being the first lines of the file; and a file that is taken for completely read has had all of its lines read.", "quantifier": "all files, all lengths of lines and numbers of joined lines, all sets of requests for memory that fail, all buffer sizes the C library may choose", "why_tests_cant": "The tests read a handful of short lines and do not make allocations fail; which requests come when depends on the sizes the C library chooses.", "anchors": ["util.c: getmultiline", "config_parser.c: parse_config_file", "syscall_filter.c: compile_file"]}
{"id": "C85", "title": "Messages about a policy name the file and line that they are about", "statement": "When something is wrong with a policy, the messages say in which file and on which line. The named file is the policy or a file that it includes, the line is there, and what is said is so: the system call of that line is unknown, its rule is empty or does not compile, the included file cannot be read, the call has a rule in the other place that is named. Every policy that is refused because of its lines has such a message for the fault.", "quantifier": "all policies with all contents of included files, all options", "why_tests_cant": "The tests look at whether a policy is refused, not at the messages; whether numbers stay right behind comments, continued lines and included files depends on everything that comes before.", "anchors": ["syscall_filter.c: compiler_warn", "syscall_filter.c: compile_file", "syscall_filter.c: compile_policy_line", "syscall_filter.c: compile_errno", "syscall_filter.c: insert_and_check_duplicate_syscall"]}
{"id": "C86", "title": "The policy compiler's tables of labels and earlier rules are right and give back their memory", "statement": "While it compiles a policy, the compiler keeps the names of its jump targets and where each system call had its first rule. Whatever the policy, each rule for a system call that already has one is told the file and line of the first, no other rule is; jump targets get the same number exactly if they have the same name, and numbers stay below 512. Memory is never misused, also when it runs out, and when compiling is over, in success or failure, none of it is left allocated.", "quantifier": "all sequences of rules and jump targets, all numbers of system calls, all sets of requests for memory that fail", "why_tests_cant": "The tests compile small policies and do not make allocations fail; leaks and reads through NULL do not change what a test sees.", "anchors": ["syscall_filter.c: insert_and_check_duplicate_syscall", "syscall_filter.c: copy_parser_state", "syscall_filter.c: free_previous_syscalls", "syscall_filter.c: compile_filter", "bpf.c: bpf_label_id", "bpf.c: free_label_strings"]}
{"id": "C87", "title": "On kernels of all ages a filter is in force as asked for, or the program does not run", "statement": "Setting a filter asks the kernel what it knows. Unless the build says that missing filters are no error, no kernel makes the library drop a filter or its synchronisation of threads, and a program runs only with its filter in force, for all threads if that was asked for. If the build does say so, the filter is dropped only on kernels that cannot put it in force. On a kernel that can, the program runs; allowing speculation is asked for where the kernel knows it, and left out elsewhere.", "quantifier": "all kernels (any combination of filters, the call seccomp and its flags), all jails and filters, both kinds of builds", "why_tests_cant": "Tests run on one kernel, which has all of this.", "anchors": ["libminijail.c: seccomp_should_use_filters", "libminijail.c: minijail_set_seccomp_filters", "libminijail.c: set_seccomp_filter", "system.c: seccomp_filter_flags_available", "syscall_wrapper.c: sys_seccomp", "syscall_filter.c: seccomp_can_softfail"]}
{"id": "C88", "title": "A jail with a network of its own has a working loopback device of its own and touches no other", "statement": "A jail with a network of its own runs in a network that did not exist before and whose only device is the loopback device. The device is up if and only if that was asked for. Bringing it up changes no other flag of it but the one for running, and no other device; the devices of every network that existed before, also of one that is joined, stay as they are. No socket is left open.", "quantifier": "all jails, all kernels and refusals, all networks and devices", "why_tests_cant": "Unit tests do not make network namespaces, and cannot see the devices of others.", "anchors": ["system.c: config_net_loopback", "libminijail.c: minijail_enter", "libminijail.c: minijail_namespace_net", "libminijail.c: minijail_namespace_net_loopback"]}
{"id": "C89", "title": "A jail arrives in the process that is to enter it, whatever turns the two processes take", "statement": "While the caller sends a jail to the new process, the two run at the same time and the pipe between them holds what the kernel lets it hold. A jail that is not too large for the receiver arrives, whatever turns the two processes take; sending never gets stuck. What arrives is the whole jail; a part of it, or the bytes of its size, are never taken for a jail.", "quantifier": "all jails, all interleavings of writing and reading, all capacities of the pipe", "why_tests_cant": "Tests send small jails through large pipes, and see one interleaving.", "anchors": ["libminijail.c: minijail_to_fd", "libminijail.c: minijail_from_fd", "libminijail.c: write_exactly", "libminijail.c: minijail_run_internal", "libminijailpreload.c: fake_main"]}
{"id": "C90", "title": "Signals of a started program and of its caller", "statement": "With minijail_reset_signal_mask a program starts with no signal blocked, with minijail_reset_signal_handlers each signal does what it does by default, whatever the caller has blocked, ignored or caught; without these calls it starts with what the caller has blocked and ignored. Nothing is caught but SIGSYS where that reports blocked calls, and then it is not blocked. Starting a program does not change what the caller has blocked, nor what waits for it, and a program that goes away does not kill its caller.", "quantifier": "all signals, all states of the caller, all jails, with and without the preload library", "why_tests_cant": "Tests have one state of the caller; what a C library refuses and what is pending does not come up.", "anchors": ["libminijail.c: minijail_run_internal", "libminijail.c: set_seccomp_filter", "libminijail.c: minijail_preexec", "signal_handler.c: install_sigsys_handler", "libminijail.c: minijail_reset_signal_mask", "libminijail.c: minijail_reset_signal_handlers"]}
{"id": "C91", "title": "The process that is init for a program tells its status and ends on SIGTERM, whatever signals its caller has blocked or ignored", "statement": "A program that runs in a new pid namespace has a process that is init for it. The caller is told the status of the program, and can end it with SIGTERM, whatever the caller has blocked or ignored when it started the program.", "quantifier": "all signals of the caller, all jails, all orders in which the processes in the namespace end", "why_tests_cant": "Tests are started with SIGCHLD and SIGTERM as they are by default.", "anchors": ["libminijail.c: init", "libminijail.c: init_term", "libminijail.c: minijail_run_internal", "libminijail.c: install_signal_handlers", "libminijail.c: minijail_wait_internal"]}
{"id": "C92", "title": "minijail_kill ends the program", "statement": "minijail_kill ends the program that a jail has started, if the program has not changed what SIGTERM does to it: whichever namespaces the jail has, and whatever the caller has blocked or ignored.", "quantifier": "all jails, all signals of the caller, with and without the preload library", "why_tests_cant": "Tests kill a program with default signals in no namespace.", "anchors": ["libminijail.c: minijail_kill", "libminijail.c: minijail_run_internal", "libminijail.c: init", "libminijail.c: init_term", "libminijail.c: minijail_run_as_init"]}
{"id": "C93", "title": "Minijail::fork of the Rust crate forks a caller with one thread and no other, whatever threads are called", "statement": "Unless the check is disabled, Minijail::fork forks if and only if the caller has one thread beside the kernel's threads. A thread counts as the kernel's if and only if the kernel says so: no name that a thread takes makes it pass for one, and no name keeps a caller with one thread from forking.", "quantifier": "all numbers of threads, all names, all other contents of the files about them", "why_tests_cant": "Tests always have more than one thread and make an exception for it; hostile names do not come up.", "anchors": ["rust/minijail/src/lib.rs: task_is_kthread", "rust/minijail/src/lib.rs: num_threads", "rust/minijail/src/lib.rs: is_single_threaded", "rust/minijail/src/lib.rs: fork_remap"]}
{"id": "C94", "title": "Messages of the Rust crate go where they were asked for last, and into no other file", "statement": "A program gives jails files for messages with log_to_fd, clones and drops jails, and asks for standard error with init_default_logging, in any order. Messages of the priority go to the place asked for last (a clone asks for the file of its origin), a jail that lives keeps its file open, a jail that is dropped closes it and nothing else, and no message is lost or goes into a file that was not given for messages.", "quantifier": "all sequences of making, cloning and dropping jails, of asking for places, and of opening and closing other files", "why_tests_cant": "It needs a clone that is dropped before a message, and a descriptor number that is used again; tests look at one jail.", "anchors": ["rust/minijail/src/lib.rs: log_to_fd", "rust/minijail/src/lib.rs: try_clone", "rust/minijail/src/lib.rs: init_default_logging", "rust/minijail/src/lib.rs: Drop for Minijail", "util.c: do_log", "util.c: init_logging"]}
