"""Writes MANIFEST.json: property -> status, theorems, note."""
import json, os
C = []
def claim(p, status, theorems, note=""):
    C.append({"property": p, "status": status, "theorems": ["Minijail." + t for t in theorems], "note": note})

claim("C01", "proved", ["C01_filter_means_policy", "C01_compiles_meaningful", "C01_meaning_unique", "C01_first_rule_decides"],
      "Little-endian targets and rules on arguments 0..5, as the property says; big-endian 32 bit is C04, other indices C08.")
claim("C02", "proved", ["C02_foreign_arch_killed"])
claim("C03", "partial", ["C03_default_partial", "C03_allow_justified_partial", "C03_violated"],
      "False for call number -1 when an enabled built-in name is no system call of the architecture (aarch64: send).")
claim("C04", "partial", ["C04_atom_exact_partial", "C04_atom_verdict_partial", "C04_atom_length", "C04_be32_violated"],
      "Exact for every little-endian target (32 and 64 bit); false on 32-bit big-endian targets, shown by C04_be32_violated.")
claim("C05", "proved", ["C05_kernel_accepts", "C05_always_returns", "C05_accepted_returns"],
      "Acceptance is the kernel's own check (Spec/KernelCheck); C05_accepted_returns: any accepted program returns on any input.")
claim("C06", "proved", ["C06_resolve_sound", "C06_resolve_iff", "C06_resolve_safe"])
claim("C07", "partial", ["C07_in_bounds_partial", "C07_small_safe_partial", "C07_violated"],
      "False: the label id -1 is not tested. It holds for every policy whose rules need at most 512 labels.")
claim("C08", "partial", ["C08_inspects_only_named_partial", "C08_index_exact", "C08_violated"],
      "The index is not validated: C08_violated shows three accepted bad indices, C08_index_exact what happens to any.")
claim("C09", "proved", ["C09_no_duplicates", "C09_first_wins"])
claim("C10", "proved", ["C10_splice", "C10_bad_path_fails", "C10_nested_fails", "C10_terminates"])
claim("C11", "proved", ["C11_constant_exact", "C11_error_exact", "C11_value_unique", "C11_name", "C11_or", "C11_not",
      "C11_overflow", "C11_malformed"])
claim("C12", "proved", ["C12_exact", "C12_overflow", "C12_unique"])
claim("C13", "proved", ["C13_tokenize", "C13_tokenize_join", "C13_tokenize_step", "C13_strip"])
claim("C14", "partial", ["C14_physical", "C14_lines_exact", "C14_lines_partial", "C14_violated"],
      "Exact behaviour for every file; the property is false for files whose last line ends in a backslash.")
claim("C15", "partial", ["C15_parent_exact_partial", "C15_join", "C15_violated"],
      "Exact for every non-empty parent; with an empty parent and a non-empty child the code reads parent[-1].")
claim("C16", "partial", ["C16_get", "C16_set", "C16_set_distinct", "C16_rejected", "C16_copy", "C16_unset_partial",
      "C16_sequence_partial", "C16_name_violated", "C16_unset_violated"],
      "Holds for names without '=' and, for unset, arrays without repeated variables; both conditions are needed.")
claim("C17", "partial", ["C17_config_exact", "C17_config_partial", "C17_rejected_partial", "C17_violated"],
      "False for files whose last line ends in a backslash: that line is silently dropped (see C14).")
claim("C18", "proved", ["C18_roundtrip"])
claim("C19", "partial", ["C19_size", "C19_roundtrip_partial", "C19_copy_partial", "C19_violated", "C19_identical_violated"],
      "Exact result for every well-formed jail that is Transferable (rules grant something, at most 65536 groups, ...); both kinds of exception are shown.")
claim("C20", "partial", ["C20_prefix_rejected", "C20_trailing", "C20_short", "C20_ub_partial", "C20_violated", "C20_cgroups_violated", "C20_counts_violated"],
      "No strict prefix is accepted, but some make the code read through NULL, and counts in the buffer are not validated.")
claim("C21", "proved", ["C21_sender", "C21_exact", "C21_limit", "C21_success"])
claim("C22", "partial", ["C22_preserved", "C22_duplicates", "C22_others", "C22_pipes", "C22_succeeds", "C22_elf_partial", "C22_elf_violated"],
      "Holds in full for preserved fds and pipes; a program given by descriptor that is also preserved under another number is closed before it is executed.")
claim("C23", "proved", ["C23_exact", "C23_unreadable", "C23_array", "C23_program", "C23_requested"])
claim("C27", "partial", ["C27_waits_partial", "C27_after", "C27_limits", "C27_failed", "C27_killed", "C27_direct", "C27_progress",
      "C27_completes", "C27_violated"],
      "Every interleaving. Missing: if something else kills the parent during the setup the child takes the closed pipe for its end (C27_violated).")
claim("C28", "partial", ["C28_consistent", "C28_good", "C28_refused", "C28_rlimit", "C28_cgroup", "C28_preserve", "C28_root",
      "C28_mount", "C28_caps", "C28_hook", "C28_filter_options", "C28_duplicate_violated", "C28_oom_violated"],
      "Invariant over every call sequence; two preserved descriptors may get the same child number, and calls refused for lack of memory change the jail.")
claim("C24", "partial", ["C24_applied_partial", "C24_stops_partial", "C24_order", "C24_new_root", "C24_inside", "C24_filtered", "C24_violated"],
      "A failing check of a bind source is not fatal and skips that and all later mounts; everything else holds for every jail and every pattern of failures.")
claim("C25", "proved", ["C25_last", "C25_sets", "C25_ambient", "C25_bounding", "C25_requested_bounding", "C25_bounding_exact", "C25_able"])
claim("C26", "partial", ["C26_ids_partial", "C26_violated_ids", "C26_groups", "C26_rest", "C26_order"],
      "False for the ids 4294967295, which are accepted and leave the ids of the process unchanged; everything else holds.")
claim("C29", "partial", ["C29_all_partial", "C29_first", "C29_violated"],
      "False when a check of a bind source fails; otherwise exactly the configured mounts are made, in order.")
claim("C30", "proved", ["C30_recorded", "C30_bind"])
claim("C31", "proved", ["C31_wait", "C31_again", "C31_never_run", "C31_waits", "C31_error", "C31_kill", "C31_total", "C31_ambiguous"])
claim("C32", "partial", ["C32_waits", "C32_report_partial", "C32_wait_partial", "C32_violated_term", "C32_violated_early", "C32_violated_reuse"],
      "False after SIGTERM (raw status word) and when the program's number is used again; holds for every other order of deaths.")
claim("C33", "partial", ["C33_safe", "C33_script", "C33_unknown", "C33_malformed", "C33_linkage_partial", "C33_order", "C33_violated_order", "C33_violated_short"],
      "Memory safe for every file. The answer is wrong for the most significant byte first and for files shorter than 128 bytes.")
claim("C35", "partial", ["C35_made_partial", "C35_parents_partial", "C35_requests", "C35_destination", "C35_kept", "C35_safe",
      "C35_directory", "C35_file", "C35_relative",
      "C35_violated_empty", "C35_violated_target", "C35_violated_parent"],
      "EEXIST for something that is no directory counts as success; holds in full for mount targets (C35_destination).")
claim("C36", "partial", ["C36_original_partial", "C36_violated_prefix", "C36_violated_shadow", "C36_violated_tmpfs"],
      "False for targets that are only textual prefixes, for nested mounts and for mounts that are not bind mounts.")
claim("C37", "partial", ["C37_compatible_partial", "C37_calls", "C37_safe", "C37_groups", "C37_violated", "C37_violated_argument"],
      "The front end accepts -G without a user name (entering then kills the process, C37_groups) and uses a null pointer for a line of a "
      "configuration file that lacks its argument; all other combinations are refused as documented.")
claim("C38", "partial", ["C38_locked", "C38_requests", "C38_word", "C38_skip_partial", "C38_violated"],
      "Bits in the skip mask that are set and not locked are cleared; the rest holds.")
claim("C34", "partial", ["C34_rights", "C34_excluded", "C34_mask", "C34_handled_partial", "C34_violated", "C34_confined", "C34_granted", "C34_enforced", "C34_disabled"],
      "The call taking an explicit mask records rights the ruleset does not handle; everything else holds.")
claim("C40", "partial", ["C40_same_partial", "C40_restored_partial", "C40_value", "C40_direct", "C40_announced", "C40_violated_empty",
      "C40_violated_space", "C40_violated_repeated"],
      "False for an empty LD_PRELOAD and for a library path with a space in it; the whole environment is restored otherwise.")
claim("C43", "partial", ["C43_cleanup", "C43_partial", "C43_nothing_lost", "C43_filter_double_free", "C43_violated"],
      "Double free whenever the failure comes after the filter was received; otherwise safe (cgroup strings leak when a path rule is bad).")
claim("C44", "partial", ["C44_keys", "C44_order", "C44_argument_partial", "C44_violated"],
      "A line with only a key delivers an option without its required argument.")
claim("C45", "partial", ["C45_partial", "C45_violated"],
      "False when a requested child fd has the number of the configuration pipe; holds otherwise.")
claim("C46", "partial", ["C46_partial", "C46_violated"],
      "False when a pipe end is numbered 0, 1 or 2 (caller's standard streams closed); holds otherwise.")
claim("C48", "partial", ["C48_partial", "C48_violated"],
      "False for no_new_privs (and seccomp options) when a later filter call finds no seccomp support and soft failure is compiled in.")
claim("C49", "proved", ["C49_last", "C49_frame"])
claim("C50", "partial", ["C50_partial", "C50_tmp_partial", "C50_violated_tmp", "C50_violated_uts", "C50_violated_preserve"],
      "-t 0 mounts no /tmp, a second host name and a negative descriptor to preserve are dropped silently; everything else takes effect.")
claim("C39", "partial", ["C39_partial", "C39_violated_large", "C39_violated_large_text", "C39_violated_order"],
      "All option lists, also from configuration files; maps that are given and default maps. Violated for ids from 2147483648 on and for -g before -u NAME; the rest is C39_partial.")
claim("C51", "partial", ["C51_partial", "C51_violated_uid", "C51_violated_negative", "C51_violated_caps", "C51_violated_limit", "C51_violated_filter"],
      "Ids of more than 32 bits are truncated, masks and limits of more than 64 bits become all ones, filters of more than 65535 instructions are cut; all other values are exact.")
claim("C47", "partial", ["C47_transfer_partial", "C47_received", "C47_truncated", "C47_applied_partial", "C47_identity_partial", "C47_jailed_partial", "C47_jailed_direct", "C47_mounts_partial", "C47_mounts_direct_partial", "C47_direct", "C47_violated_proc"],
      "With the library the read-only /proc is mounted before the root changes; the configured mounts are not part of Applied (C29); the jail must be transferable (C19).")
claim("C52", "proved", ["C52_on", "C52_off", "C52_new"])
claim("C53", "proved", ["C53_on", "C53_values"])
claim("C41", "partial", ["C41_partial", "C41_total", "C41_violated_dropped", "C41_violated_arg6"],
      "Both strategies, all parsed policies, all system calls; encodable, and accepted by the kernel up to 4096 instructions. Violated for allowlist statements that end in allow after other actions, and for arg6.")
claim("C42", "proved", ["C42_exact", "C42_encodes", "C42_short"])
claim("C54", "partial", ["C54_environment_partial", "C54_linkage", "C54_library_partial", "C54_status", "C54_status_init_partial", "C54_violated_static",
      "C54_violated_library", "C54_violated_status"],
      "All command lines and configuration files. Violated: environment options are lost for static programs, -i hides that nothing was started, memory exhaustion changes the library; the exceptions of C40 and C32 carry over.")
claim("C55", "partial", ["C55_capabilities", "C55_filter", "C55_user_partial", "C55_groups_partial", "C55_executed", "C55_run_partial", "C55_run_direct_partial", "C55_skip_needed"],
      "For ever and for every program, under the system's own rules (Spec/Forever). Ids of 4294967295 are C26's exception; hooks and programs started by minijail_run as in C47.")

claim("C56", "partial", ["C56_library_partial", "C56_static", "C56_setup_partial"],
      "End to end, from the command line to any later state of the program. With the library the jail must be transferable (C19: at most 65536 groups, rules that grant something, a descriptor other than 0) and no empty filter set; "
      "/proc is then mounted in the old root (C47_violated_proc). Limits, the file with the process's number and id maps are followed to what is written and set from outside (C56_setup_partial, under C69's condition on errno); path rules to what landlock allows (C71).")

claim("C57", "partial", ["C57_partial", "C57_in_language", "C57_unambiguous", "C57_accepted", "C57_tokens", "C57_tokens_unique", "C57_included", "C57_violated_dropped", "C57_violated_ret_log"],
      "From the text of the files to the run of the program. Violated: filters before an unconditional allow are dropped, --use-ret-log does not reach actions that are named; "
      "arg6 is excluded (C41_violated_arg6). The lines of a statement for other architectures may go on with anything (lax).")

claim("C58", "partial", ["C58_partial", "C58_minijail", "C58_offline", "C58_accepted", "C58_violated_return", "C58_violated_comment", "C58_violated_tab",
      "C58_violated_architecture", "C64_common"],
      "For the texts of Spec/Common. Violated outside of them: `return` behind a condition has opposite meanings, comments that end in a backslash, a tab behind `return`; "
      "and for system calls of another architecture when the process is to be killed. Both compilers take these texts: C58_accepted, and C64_common where the program fits.")

claim("C59", "partial", ["C59_exact", "C59_minijail", "C59_offline", "C59_covers_partial", "C59_violated_raw", "C59_violated_nested"],
      "C59_exact says exactly what is allowed. That this covers the traces fails where a writable and executable mapping has its protection as a number, which is how the manual says to trace "
      "(C59_violated_raw), and where an argument is not a constant (C59_violated_nested). Audit logs are in C73.")

claim("C60", "partial", ["C60_one", "C60_ok_partial", "C60_err", "C60_die", "C60_calls", "C60_consistent", "C60_in_force_partial", "C60_program", "C60_refused", "C60_not_refused", "C60_clone_none_violated",
      "C60_user_violated", "C60_memory_violated", "C60_empty_violated", "C60_clone_partial", "C60_clone_violated", "C60_clone_filter_violated"],
      "All 43 configuration methods. Violated: users and groups that do not exist are accepted and ignored, exhausted memory likewise for id maps, an empty program is accepted, copies lose the id maps and "
      "a program set before filters were asked for. log_to_fd is not modelled.")
claim("C61", "partial", ["C61_descriptors_partial", "C61_accepted", "C61_twice_violated", "C61_threads", "C61_count", "C61_arguments"],
      "For a jail that was not run before. Violated: no second run of the same Minijail starts a program, because the first one leaves its descriptors in the jail (C61_twice_violated).")
claim("C62", "partial", ["C62_ok", "C62_tells_partial", "C62_total", "C62_command", "C62_wait_fails", "C62_kill", "C62_policy_violated", "C62_code_violated"],
      "Violated: a program killed for violating the policy is said to have exited with 253, and exit codes 126, 127 and 129 to 192 are taken for other ends.")

claim("C63", "partial", ["C63_errors", "C63_message", "C63_status", "C63_minijail_partial", "C63_offline_partial", "C63_none_partial", "C63_continued_violated",
      "C63_include_violated", "C63_group_violated", "C63_denylist_violated", "C63_comment_violated"],
      "What the tool prints and its status: exactly. What a policy that passes allows: for policies of one file without continued lines, and for the texts that both compilers take (Spec/Common) offline. "
      "Violated for continued lines, included files, groups of system calls and denylists, none of which the tool sees.")

claim("C64", "proved", ["C64_accepted", "C64_only", "C64_exactly", "C64_common"],
      "From the text of the files to the program. The table of system calls must have names of at most 32 characters that begin with no digit (as the generated ones do); for C64_only and C64_exactly also "
      "no two names with the same number (32-bit ARM has such a pair). Memory and the reading of files do not fail.")

claim("C65", "partial", ["C65_failed", "C65_started_partial", "C65_executes_partial", "C65_streams_partial", "C65_never_killed", "C65_violated_ruleset", "C65_violated_fork", "C65_violated_twice"],
      "Violations: with path rules the descriptor of the ruleset stays open in the caller; minijail_fork may fail with the positive number 12; a jail that enters a namespace closes its descriptor "
      "when it is first used, and what has that number at the second use. The environment is as in C40. Streams: the caller's own streams are open, and it has at most 700 descriptors or closes the others in the child.")

claim("C66", "partial", ["C66_output_partial", "C66_refused_partial", "C66_read_back", "C66_reads_only", "C66_option", "C66_listing", "C66_same_partial", "C66_same_others", "C66_no_arguments", "C66_order", "C66_help", "C66_violated_no_arguments",
      "C66_violated_short", "C66_violated_full", "C66_violated_tsync", "C66_violated_libc"],
      "Violations: without arguments the name of the policy file is a null pointer that is copied at the first rule; -d takes the next word as its argument, so -d POLICY overwrites POLICY; a dump that does not fit on the disk "
      "can be cut short with status 0; with thread synchronisation, or in a build with calls that every policy allows, -S makes a different program. A refused policy: where the compiler is defined (C07).")

claim("C67", "proved", ["C67_probes", "C67_unreadable", "C67_blocked", "C67_condition", "C67_known", "C67_beyond", "C67_signal"],
      "Little endian, as C01. The library's answers to the probes are those of the kernel's list; the build's options are parameters.")

claim("C68", "proved", ["C68_program", "C68_refused", "C68_others", "C68_no_misuse", "C68_kept"],
      "The blocks and the arrays of instructions; allocations succeed (the code calls die otherwise). The strings of labels and lines are not part of the memory. The table of labels: C07.")

claim("C69", "partial", ["C69_done_partial", "C69_killed_partial", "C69_goes_on", "C69_decimal", "C69_pid_file_partial", "C69_plan", "C69_setgroups_violated"],
      "Violation: errno is read after the warning has been logged; if logging changes it, a refusal to deny setgroups may be taken for a kernel without that file. The theorems marked partial need that logging keeps errno.")

claim("C70", "partial", ["C70_kill_partial", "C70_wait_partial", "C70_not_run", "C70_told", "C70_careful", "C70_forward_partial", "C70_which", "C70_stays", "C70_kill_violated",
      "C70_wait_violated", "C70_forward_violated", "C70_forward_violated_two"],
      "Violations: the jail and the forwarding of signals keep the program's number after its end has been reported, so that a later kill, wait or signal concerns whichever process has that number; "
      "signals are forwarded to one program only, the last.")

claim("C71", "partial", ["C71_partial", "C71_violated"],
      "Complete except when memory runs out while a path is noted: then nobody looks at the result and the program runs without the rule, or without any restriction (C71_violated). The process that makes the "
      "ruleset and the one that enforces it have the same kernel.")

claim("C72", "partial", ["C72_safe_partial", "C72_freed_partial", "C72_nothing_sane", "C72_again_violated", "C72_clear_violated", "C72_send_violated"],
      "All memory is freed exactly once unless a setting is made twice (C72_again_violated) or a filter is taken back (C72_clear_violated), which leak. No undefined behaviour, except that a rule whose path could "
      "not be copied is read as NULL when the jail is sent (C72_send_violated). A jail that was received is not covered here (C43 covers failing to receive one), nor is the memory inside compile_filter (C68).")

claim("C73", "partial", ["C73_exact", "C73_minijail", "C73_offline", "C73_refused", "C73_covers_partial", "C73_violated_long"],
      "C73_exact says exactly what is allowed, of traces and logs together. That this covers what the process did fails as in C59, and where the name of the process has more than fifteen characters: "
      "the kernel writes fifteen, the tool looks for the whole name and silently finds nothing (C73_violated_long). What auparse finds in a log, and the meanings it gives to fields, are input of the model.")

claim("C74", "proved", ["C74_counts", "C74_used", "C74_order"],
      "Counts of lines and records, for all traces and logs that the tool can read (as in C73). C74_used is about the line @frequency of a policy; that the numbers do not change what a compiled policy allows is in C41.")

claim("C75", "partial", ["C75_records", "C75_first_partial", "C75_name", "C75_never", "C75_installed", "C75_number", "C75_violated_pid", "C75_violated_fd", "C75_violated_exec", "C75_violated_number"],
      "On kernels with SECCOMP_RET_LOG proved in full (C75_records). On other kernels the report of the first blocked call needs a C library that makes no getpid call, messages to syslog, a program that keeps the handler, and headers that define si_syscall; the four violations show what happens otherwise. That the call is never made is proved without these conditions (C75_never). That the handler is asked for before the filter is C67_signal.")

claim("C76", "partial", ["C76_literal", "C76_exact", "C76_bind", "C76_mounts", "C76_violated_prefix", "C76_violated_empty", "C76_violated_skipped"],
      "Proved for sources that are not below an allowed prefix. Below one, nothing is guaranteed, and a path can leave it by '..' (C76_violated_prefix); an empty prefix is undefined behaviour (C76_violated_empty). The files are those at the time of the check; a link made between the check and the mount is not seen. A failing check does not end the process (C76_violated_skipped).")

claim("C77", "partial", ["C77_started_partial", "C77_failed_partial", "C77_strings", "C77_arrays", "C77_descriptors", "C77_starts", "C77_forked", "C77_fork_descriptors", "C77_fork_list", "C77_not_forked_partial", "C77_violated_memory", "C77_violated_fork"],
      "Proved for jails made with Minijail::new and any methods of the crate. The environment of the program is that of C40, with its exceptions. When there is no memory for the copy of the environment, the method returns Ok without having started anything (C77_violated_memory, C77_violated_fork): the C library returns +ENOMEM and the crate tests for negative numbers only.")

claim("C78", "partial", ["C78_reading", "C78_text", "C78_dump", "C78_generated", "C78_unnamed", "C78_compilers_partial", "C78_files_differ"],
      "C78_dump and C78_generated are complete for tables in which a repeated name has one value. That Python writes its dictionary as JSON is assumed. C78_compilers_partial has the limits of C58, and needs that no two names stand for one system call. Constants that are addresses are left out by generate_constants_json.py and are an address in what dump_constants prints (C78_files_differ).")

claim("C79", "partial", ["C79_calls", "C79_constants_partial", "C79_tables", "C79_library", "C79_violated_sign", "C79_violated_AT_FDCWD", "C79_violated_count"],
      "C79_calls is complete. C79_constants_partial says exactly which constants are in the table; constants whose value begins with a sign or a parenthesis are not (C79_violated_sign, C79_violated_AT_FDCWD), and a count of the system calls becomes a system call (C79_violated_count). The preprocessor and the values of macros are parameters.")

claim("C80", "partial", ["C80_messages", "C80_total", "C80_lines_partial", "C80_levels", "C80_shared_partial", "C80_child", "C80_violated_merged", "C80_violated_forged", "C80_violated_lost", "C80_violated_foreign"],
      "C80_messages, C80_total and C80_levels are complete for one process. C80_lines_partial needs messages without newlines (C80_violated_forged). For two processes lines can merge (C80_violated_merged). The messages of the jailed process go where the caller's go only if the caller asked for the descriptor of the log (C80_child); otherwise they are lost or end up in the program's files (C80_violated_lost, C80_violated_foreign). Every write is complete or fails.")

claim("C81", "partial", ["C81_action", "C81_cost", "C81_compiled_partial", "C81_refused", "C81_violated_accepted", "C81_violated_unaligned", "C81_violated_arg6", "C81_violated_scratch"],
      "C81_action and C81_cost are complete for programs of loads the kernel allows, jumps and returns; C81_violated_unaligned, C81_violated_arg6 and C81_violated_scratch show that the conditions are needed. C81_compiled_partial has the hypotheses of C41_partial. That every call can be simulated does not mean that the kernel accepts the program (C81_violated_accepted). Little-endian machines only; SyscallPolicyEntry.simulate and SyscallPolicyRange.simulate are not modelled.")

claim("C82", "partial", ["C82_partial", "C82_one", "C82_null", "C82_violated_reuse", "C82_violated_growth", "C82_violated_shrink"],
      "C82_partial covers every sequence of files and every failure of calloc and strdup. It excludes failures of realloc (C82_violated_growth, C82_violated_shrink) and a list that is used again after a file without entries (C82_violated_reuse: write behind the array). realloc(p, 0) is that of glibc.")

claim("C83", "partial", ["C83_copy", "C83_empty", "C83_set", "C83_refused", "C83_get", "C83_free", "C83_unset_partial", "C83_partial", "C83_no_leak", "C83_violated"],
      "All sequences of copying, setting, unsetting and freeing, with any allocations failing. The one thing that does not hold: a string that minijail_unsetenv takes out is never freed (C83_violated); C83_partial says that this is all that is left.")

claim("C84", "partial", ["C84_line", "C84_end", "C84_file", "C84_complete_partial", "C84_violated", "C84_violated_again"],
      "All files, lines of any length joined from any number of physical lines, any requests for memory failing. Memory is never misused and none is left. What does not hold: a file whose last line has no newline can be taken for completely read although there was no memory for its last line (C84_violated); C84_complete_partial is the claim for all other files. After such a failure the buffer can be freed but not used again (C84_violated_again).")

claim("C85", "partial", ["C85_outcome", "C85_places", "C85_places_partial", "C85_told_partial", "C85_violated_line", "C85_violated_silent"],
      "All policies with all included files. C85_places: the named line, counted after joining continued lines, is one of which the message is so. As lines of the file this holds without continued lines (C85_places_partial), and not behind them (C85_violated_line). A refused policy has a message with a place about a fault unless a line lacks its colon or misspells return (C85_told_partial, C85_violated_silent).")

claim("C86", "partial", ["C86_memory_partial", "C86_ends", "C86_rules", "C86_labels", "C86_labels_room", "C86_violated"],
      "Any sequence of uses of the two tables (more than policies lead to), any requests for memory failing except the first. That first request, for the array of places, is not checked: when it fails, even an empty policy makes the compiler read through NULL (C86_violated).")

claim("C87", "partial", ["C87_kept", "C87_soft", "C87_enforced", "C87_runs_partial", "C87_violated"],
      "All kernels that have some of: filters, the call seccomp, its flags for threads and for speculation; all jails. C87_kept, C87_soft and C87_enforced are complete. C87_runs_partial excludes kernels without the call seccomp when speculation is to be allowed: there the process ends although the wish could be ignored (C87_violated).")

claim("C88", "partial", ["C88_device", "C88_others", "C88_own", "C88_unasked", "C88_loopback_partial", "C88_violated"],
      "All jails, kernels and states of the network; hooks are not counted. C88_device, C88_others, C88_own and C88_unasked are complete. C88_loopback_partial: the device works exactly if bringing it up was not refused. That the program is not run where it was refused is false (C88_violated).")

claim("C89", "partial", ["C89_arrives_partial", "C89_whole", "C89_lost", "C89_race", "C89_violated"],
      "All interleavings of the two processes, all sizes of the pipe, all jails of at most 65535 bytes (larger ones are refused, C21_limit). C89_whole is complete. C89_arrives_partial: the jail arrives if the pipe has room for it and its size, or if it has at most 4096 bytes. Otherwise it never arrives (C89_lost, C89_violated) or it depends on the interleaving (C89_race), because the receiver reads once only. The capacity of a pipe is counted in bytes, the kernel counts pages.")

claim("C90", "partial", ["C90_mask", "C90_handlers_partial", "C90_caught", "C90_reporting", "C90_kept_mask", "C90_kept_ignored", "C90_entered", "C90_starts", "C90_caller_partial", "C90_accepts", "C90_violated", "C90_violated_pending"],
      "All signals of the caller, all jails, with and without the preload library, all answers of the C library. Complete for the mask. C90_handlers_partial: all signals but those the C library refuses to set (C90_violated) and SIGSYS where a handler reports blocked calls. C90_caller_partial: the caller keeps its mask, its handlers and all waiting signals but a SIGPIPE (C90_violated_pending). Hooks and flags of handlers are not modelled.")
claim("C91", "partial", ["C91_status_partial", "C91_lost", "C91_term_partial", "C91_term_lost", "C91_violated", "C91_violated_term"],
      "All signals of the caller, all jails, all orders of deaths. The status gets through unless the caller ignores SIGCHLD and handlers are not reset: then it is lost, always (C91_lost), and a caller that forwards signals is told of success (C91_violated). SIGTERM gets through unless the caller blocks it and the mask is not reset (C91_term_lost).")

claim("C92", "partial", ["C92_ends_partial", "C92_process_one", "C92_blocked", "C92_ignored", "C92_violated"],
      "All jails, all signals of the caller, programs that have not changed what SIGTERM does to them. C92_ends_partial names the cases in which the program ends; C92_process_one, C92_blocked and C92_ignored prove that it does not in each of the others.")

claim("C93", "partial", ["C93_kthread", "C93_safe", "C93_refuses", "C93_allows_partial", "C93_violated"],
      "All threads, all names, all files of the kernel's format. C93_kthread, C93_safe and C93_refuses are complete. C93_allows_partial needs names that are valid UTF-8: otherwise a caller with one thread is refused (C93_violated). Threads that start while the files are read are not modelled.")

claim("C94", "partial", ["C94_told_partial", "C94_open", "C94_closed", "C94_astray", "C94_own_partial", "C94_violated", "C94_violated_lost"],
      "All that a program can do with jails and files, of any length. C94_open and C94_closed are complete; C94_astray says what happens in the case that the partial theorems leave out. C94_told_partial and C94_own_partial need that the jail that was asked for last lives: when it is dropped, the library keeps the number of its closed descriptor (C94_violated, C94_violated_lost). Failing of dup(2) and a program that closes standard error are not modelled.")

json.dump({"claims": C}, open(os.path.join(os.path.dirname(__file__), "..", "MANIFEST.json"), "w"), indent=1)
