{
 "claims": [
  {
   "property": "C01",
   "status": "proved",
   "theorems": [
    "Minijail.C01_filter_means_policy",
    "Minijail.C01_compiles_meaningful",
    "Minijail.C01_meaning_unique",
    "Minijail.C01_first_rule_decides"
   ],
   "note": "Little-endian targets and rules on arguments 0..5, as the property says; big-endian 32 bit is C04, other indices C08."
  },
  {
   "property": "C02",
   "status": "proved",
   "theorems": [
    "Minijail.C02_foreign_arch_killed"
   ],
   "note": ""
  },
  {
   "property": "C03",
   "status": "partial",
   "theorems": [
    "Minijail.C03_default_partial",
    "Minijail.C03_allow_justified_partial",
    "Minijail.C03_violated"
   ],
   "note": "False for call number -1 when an enabled built-in name is no system call of the architecture (aarch64: send)."
  },
  {
   "property": "C04",
   "status": "partial",
   "theorems": [
    "Minijail.C04_atom_exact_partial",
    "Minijail.C04_atom_verdict_partial",
    "Minijail.C04_atom_length",
    "Minijail.C04_be32_violated"
   ],
   "note": "Exact for every little-endian target (32 and 64 bit); false on 32-bit big-endian targets, shown by C04_be32_violated."
  },
  {
   "property": "C05",
   "status": "proved",
   "theorems": [
    "Minijail.C05_kernel_accepts",
    "Minijail.C05_always_returns",
    "Minijail.C05_accepted_returns"
   ],
   "note": "Acceptance is the kernel's own check (Spec/KernelCheck); C05_accepted_returns: any accepted program returns on any input."
  },
  {
   "property": "C06",
   "status": "proved",
   "theorems": [
    "Minijail.C06_resolve_sound",
    "Minijail.C06_resolve_iff",
    "Minijail.C06_resolve_safe"
   ],
   "note": ""
  },
  {
   "property": "C07",
   "status": "partial",
   "theorems": [
    "Minijail.C07_in_bounds_partial",
    "Minijail.C07_small_safe_partial",
    "Minijail.C07_violated"
   ],
   "note": "False: the label id -1 is not tested. It holds for every policy whose rules need at most 512 labels."
  },
  {
   "property": "C08",
   "status": "partial",
   "theorems": [
    "Minijail.C08_inspects_only_named_partial",
    "Minijail.C08_index_exact",
    "Minijail.C08_violated"
   ],
   "note": "The index is not validated: C08_violated shows three accepted bad indices, C08_index_exact what happens to any."
  },
  {
   "property": "C09",
   "status": "proved",
   "theorems": [
    "Minijail.C09_no_duplicates",
    "Minijail.C09_first_wins"
   ],
   "note": ""
  },
  {
   "property": "C10",
   "status": "proved",
   "theorems": [
    "Minijail.C10_splice",
    "Minijail.C10_bad_path_fails",
    "Minijail.C10_nested_fails",
    "Minijail.C10_terminates"
   ],
   "note": ""
  },
  {
   "property": "C11",
   "status": "proved",
   "theorems": [
    "Minijail.C11_constant_exact",
    "Minijail.C11_error_exact",
    "Minijail.C11_value_unique",
    "Minijail.C11_name",
    "Minijail.C11_or",
    "Minijail.C11_not",
    "Minijail.C11_overflow",
    "Minijail.C11_malformed"
   ],
   "note": ""
  },
  {
   "property": "C12",
   "status": "proved",
   "theorems": [
    "Minijail.C12_exact",
    "Minijail.C12_overflow",
    "Minijail.C12_unique"
   ],
   "note": ""
  },
  {
   "property": "C13",
   "status": "proved",
   "theorems": [
    "Minijail.C13_tokenize",
    "Minijail.C13_tokenize_join",
    "Minijail.C13_tokenize_step",
    "Minijail.C13_strip"
   ],
   "note": ""
  },
  {
   "property": "C14",
   "status": "partial",
   "theorems": [
    "Minijail.C14_physical",
    "Minijail.C14_lines_exact",
    "Minijail.C14_lines_partial",
    "Minijail.C14_violated"
   ],
   "note": "Exact behaviour for every file; the property is false for files whose last line ends in a backslash."
  },
  {
   "property": "C15",
   "status": "partial",
   "theorems": [
    "Minijail.C15_parent_exact_partial",
    "Minijail.C15_join",
    "Minijail.C15_violated"
   ],
   "note": "Exact for every non-empty parent; with an empty parent and a non-empty child the code reads parent[-1]."
  },
  {
   "property": "C16",
   "status": "partial",
   "theorems": [
    "Minijail.C16_get",
    "Minijail.C16_set",
    "Minijail.C16_set_distinct",
    "Minijail.C16_rejected",
    "Minijail.C16_copy",
    "Minijail.C16_unset_partial",
    "Minijail.C16_sequence_partial",
    "Minijail.C16_name_violated",
    "Minijail.C16_unset_violated"
   ],
   "note": "Holds for names without '=' and, for unset, arrays without repeated variables; both conditions are needed."
  },
  {
   "property": "C17",
   "status": "partial",
   "theorems": [
    "Minijail.C17_config_exact",
    "Minijail.C17_config_partial",
    "Minijail.C17_rejected_partial",
    "Minijail.C17_violated"
   ],
   "note": "False for files whose last line ends in a backslash: that line is silently dropped (see C14)."
  },
  {
   "property": "C18",
   "status": "proved",
   "theorems": [
    "Minijail.C18_roundtrip"
   ],
   "note": ""
  },
  {
   "property": "C19",
   "status": "partial",
   "theorems": [
    "Minijail.C19_size",
    "Minijail.C19_roundtrip_partial",
    "Minijail.C19_copy_partial",
    "Minijail.C19_violated",
    "Minijail.C19_identical_violated"
   ],
   "note": "Exact result for every well-formed jail that is Transferable (rules grant something, at most 65536 groups, ...); both kinds of exception are shown."
  },
  {
   "property": "C20",
   "status": "partial",
   "theorems": [
    "Minijail.C20_prefix_rejected",
    "Minijail.C20_trailing",
    "Minijail.C20_short",
    "Minijail.C20_ub_partial",
    "Minijail.C20_violated",
    "Minijail.C20_cgroups_violated",
    "Minijail.C20_counts_violated"
   ],
   "note": "No strict prefix is accepted, but some make the code read through NULL, and counts in the buffer are not validated."
  },
  {
   "property": "C21",
   "status": "proved",
   "theorems": [
    "Minijail.C21_sender",
    "Minijail.C21_exact",
    "Minijail.C21_limit",
    "Minijail.C21_success"
   ],
   "note": ""
  },
  {
   "property": "C22",
   "status": "partial",
   "theorems": [
    "Minijail.C22_preserved",
    "Minijail.C22_duplicates",
    "Minijail.C22_others",
    "Minijail.C22_pipes",
    "Minijail.C22_succeeds",
    "Minijail.C22_elf_partial",
    "Minijail.C22_elf_violated"
   ],
   "note": "Holds in full for preserved fds and pipes; a program given by descriptor that is also preserved under another number is closed before it is executed."
  },
  {
   "property": "C23",
   "status": "proved",
   "theorems": [
    "Minijail.C23_exact",
    "Minijail.C23_unreadable",
    "Minijail.C23_array",
    "Minijail.C23_program",
    "Minijail.C23_requested"
   ],
   "note": ""
  },
  {
   "property": "C27",
   "status": "partial",
   "theorems": [
    "Minijail.C27_waits_partial",
    "Minijail.C27_after",
    "Minijail.C27_limits",
    "Minijail.C27_failed",
    "Minijail.C27_killed",
    "Minijail.C27_direct",
    "Minijail.C27_progress",
    "Minijail.C27_completes",
    "Minijail.C27_violated"
   ],
   "note": "Every interleaving. Missing: if something else kills the parent during the setup the child takes the closed pipe for its end (C27_violated)."
  },
  {
   "property": "C28",
   "status": "partial",
   "theorems": [
    "Minijail.C28_consistent",
    "Minijail.C28_good",
    "Minijail.C28_refused",
    "Minijail.C28_rlimit",
    "Minijail.C28_cgroup",
    "Minijail.C28_preserve",
    "Minijail.C28_root",
    "Minijail.C28_mount",
    "Minijail.C28_caps",
    "Minijail.C28_hook",
    "Minijail.C28_filter_options",
    "Minijail.C28_duplicate_violated",
    "Minijail.C28_oom_violated"
   ],
   "note": "Invariant over every call sequence; two preserved descriptors may get the same child number, and calls refused for lack of memory change the jail."
  },
  {
   "property": "C24",
   "status": "partial",
   "theorems": [
    "Minijail.C24_applied_partial",
    "Minijail.C24_stops_partial",
    "Minijail.C24_order",
    "Minijail.C24_new_root",
    "Minijail.C24_inside",
    "Minijail.C24_filtered",
    "Minijail.C24_violated"
   ],
   "note": "A failing check of a bind source is not fatal and skips that and all later mounts; everything else holds for every jail and every pattern of failures."
  },
  {
   "property": "C25",
   "status": "proved",
   "theorems": [
    "Minijail.C25_last",
    "Minijail.C25_sets",
    "Minijail.C25_ambient",
    "Minijail.C25_bounding",
    "Minijail.C25_requested_bounding",
    "Minijail.C25_bounding_exact",
    "Minijail.C25_able"
   ],
   "note": ""
  },
  {
   "property": "C26",
   "status": "partial",
   "theorems": [
    "Minijail.C26_ids_partial",
    "Minijail.C26_violated_ids",
    "Minijail.C26_groups",
    "Minijail.C26_rest",
    "Minijail.C26_order"
   ],
   "note": "False for the ids 4294967295, which are accepted and leave the ids of the process unchanged; everything else holds."
  },
  {
   "property": "C29",
   "status": "partial",
   "theorems": [
    "Minijail.C29_all_partial",
    "Minijail.C29_first",
    "Minijail.C29_violated"
   ],
   "note": "False when a check of a bind source fails; otherwise exactly the configured mounts are made, in order."
  },
  {
   "property": "C30",
   "status": "proved",
   "theorems": [
    "Minijail.C30_recorded",
    "Minijail.C30_bind"
   ],
   "note": ""
  },
  {
   "property": "C31",
   "status": "proved",
   "theorems": [
    "Minijail.C31_wait",
    "Minijail.C31_again",
    "Minijail.C31_never_run",
    "Minijail.C31_waits",
    "Minijail.C31_error",
    "Minijail.C31_kill",
    "Minijail.C31_total",
    "Minijail.C31_ambiguous"
   ],
   "note": ""
  },
  {
   "property": "C32",
   "status": "partial",
   "theorems": [
    "Minijail.C32_waits",
    "Minijail.C32_report_partial",
    "Minijail.C32_wait_partial",
    "Minijail.C32_violated_term",
    "Minijail.C32_violated_early",
    "Minijail.C32_violated_reuse"
   ],
   "note": "False after SIGTERM (raw status word) and when the program's number is used again; holds for every other order of deaths."
  },
  {
   "property": "C33",
   "status": "partial",
   "theorems": [
    "Minijail.C33_safe",
    "Minijail.C33_script",
    "Minijail.C33_unknown",
    "Minijail.C33_malformed",
    "Minijail.C33_linkage_partial",
    "Minijail.C33_order",
    "Minijail.C33_violated_order",
    "Minijail.C33_violated_short"
   ],
   "note": "Memory safe for every file. The answer is wrong for the most significant byte first and for files shorter than 128 bytes."
  },
  {
   "property": "C35",
   "status": "partial",
   "theorems": [
    "Minijail.C35_made_partial",
    "Minijail.C35_parents_partial",
    "Minijail.C35_requests",
    "Minijail.C35_destination",
    "Minijail.C35_kept",
    "Minijail.C35_safe",
    "Minijail.C35_directory",
    "Minijail.C35_file",
    "Minijail.C35_relative",
    "Minijail.C35_violated_empty",
    "Minijail.C35_violated_target",
    "Minijail.C35_violated_parent"
   ],
   "note": "EEXIST for something that is no directory counts as success; holds in full for mount targets (C35_destination)."
  },
  {
   "property": "C36",
   "status": "partial",
   "theorems": [
    "Minijail.C36_original_partial",
    "Minijail.C36_violated_prefix",
    "Minijail.C36_violated_shadow",
    "Minijail.C36_violated_tmpfs"
   ],
   "note": "False for targets that are only textual prefixes, for nested mounts and for mounts that are not bind mounts."
  },
  {
   "property": "C37",
   "status": "partial",
   "theorems": [
    "Minijail.C37_compatible_partial",
    "Minijail.C37_calls",
    "Minijail.C37_safe",
    "Minijail.C37_groups",
    "Minijail.C37_violated",
    "Minijail.C37_violated_argument"
   ],
   "note": "The front end accepts -G without a user name (entering then kills the process, C37_groups) and uses a null pointer for a line of a configuration file that lacks its argument; all other combinations are refused as documented."
  },
  {
   "property": "C38",
   "status": "partial",
   "theorems": [
    "Minijail.C38_locked",
    "Minijail.C38_requests",
    "Minijail.C38_word",
    "Minijail.C38_skip_partial",
    "Minijail.C38_violated"
   ],
   "note": "Bits in the skip mask that are set and not locked are cleared; the rest holds."
  },
  {
   "property": "C34",
   "status": "partial",
   "theorems": [
    "Minijail.C34_rights",
    "Minijail.C34_excluded",
    "Minijail.C34_mask",
    "Minijail.C34_handled_partial",
    "Minijail.C34_violated",
    "Minijail.C34_confined",
    "Minijail.C34_granted",
    "Minijail.C34_enforced",
    "Minijail.C34_disabled"
   ],
   "note": "The call taking an explicit mask records rights the ruleset does not handle; everything else holds."
  },
  {
   "property": "C40",
   "status": "partial",
   "theorems": [
    "Minijail.C40_same_partial",
    "Minijail.C40_restored_partial",
    "Minijail.C40_value",
    "Minijail.C40_direct",
    "Minijail.C40_announced",
    "Minijail.C40_violated_empty",
    "Minijail.C40_violated_space",
    "Minijail.C40_violated_repeated"
   ],
   "note": "False for an empty LD_PRELOAD and for a library path with a space in it; the whole environment is restored otherwise."
  },
  {
   "property": "C43",
   "status": "partial",
   "theorems": [
    "Minijail.C43_cleanup",
    "Minijail.C43_partial",
    "Minijail.C43_nothing_lost",
    "Minijail.C43_filter_double_free",
    "Minijail.C43_violated"
   ],
   "note": "Double free whenever the failure comes after the filter was received; otherwise safe (cgroup strings leak when a path rule is bad)."
  },
  {
   "property": "C44",
   "status": "partial",
   "theorems": [
    "Minijail.C44_keys",
    "Minijail.C44_order",
    "Minijail.C44_argument_partial",
    "Minijail.C44_violated"
   ],
   "note": "A line with only a key delivers an option without its required argument."
  },
  {
   "property": "C45",
   "status": "partial",
   "theorems": [
    "Minijail.C45_partial",
    "Minijail.C45_violated"
   ],
   "note": "False when a requested child fd has the number of the configuration pipe; holds otherwise."
  },
  {
   "property": "C46",
   "status": "partial",
   "theorems": [
    "Minijail.C46_partial",
    "Minijail.C46_violated"
   ],
   "note": "False when a pipe end is numbered 0, 1 or 2 (caller's standard streams closed); holds otherwise."
  },
  {
   "property": "C48",
   "status": "partial",
   "theorems": [
    "Minijail.C48_partial",
    "Minijail.C48_violated"
   ],
   "note": "False for no_new_privs (and seccomp options) when a later filter call finds no seccomp support and soft failure is compiled in."
  },
  {
   "property": "C49",
   "status": "proved",
   "theorems": [
    "Minijail.C49_last",
    "Minijail.C49_frame"
   ],
   "note": ""
  },
  {
   "property": "C50",
   "status": "partial",
   "theorems": [
    "Minijail.C50_partial",
    "Minijail.C50_tmp_partial",
    "Minijail.C50_violated_tmp",
    "Minijail.C50_violated_uts",
    "Minijail.C50_violated_preserve"
   ],
   "note": "-t 0 mounts no /tmp, a second host name and a negative descriptor to preserve are dropped silently; everything else takes effect."
  },
  {
   "property": "C39",
   "status": "partial",
   "theorems": [
    "Minijail.C39_partial",
    "Minijail.C39_violated_large",
    "Minijail.C39_violated_large_text",
    "Minijail.C39_violated_order"
   ],
   "note": "All option lists, also from configuration files; maps that are given and default maps. Violated for ids from 2147483648 on and for -g before -u NAME; the rest is C39_partial."
  },
  {
   "property": "C51",
   "status": "partial",
   "theorems": [
    "Minijail.C51_partial",
    "Minijail.C51_violated_uid",
    "Minijail.C51_violated_negative",
    "Minijail.C51_violated_caps",
    "Minijail.C51_violated_limit",
    "Minijail.C51_violated_filter"
   ],
   "note": "Ids of more than 32 bits are truncated, masks and limits of more than 64 bits become all ones, filters of more than 65535 instructions are cut; all other values are exact."
  },
  {
   "property": "C47",
   "status": "partial",
   "theorems": [
    "Minijail.C47_transfer_partial",
    "Minijail.C47_received",
    "Minijail.C47_truncated",
    "Minijail.C47_applied_partial",
    "Minijail.C47_identity_partial",
    "Minijail.C47_jailed_partial",
    "Minijail.C47_jailed_direct",
    "Minijail.C47_mounts_partial",
    "Minijail.C47_mounts_direct_partial",
    "Minijail.C47_direct",
    "Minijail.C47_violated_proc"
   ],
   "note": "With the library the read-only /proc is mounted before the root changes; the configured mounts are not part of Applied (C29); the jail must be transferable (C19)."
  },
  {
   "property": "C52",
   "status": "proved",
   "theorems": [
    "Minijail.C52_on",
    "Minijail.C52_off",
    "Minijail.C52_new"
   ],
   "note": ""
  },
  {
   "property": "C53",
   "status": "proved",
   "theorems": [
    "Minijail.C53_on",
    "Minijail.C53_values"
   ],
   "note": ""
  },
  {
   "property": "C41",
   "status": "partial",
   "theorems": [
    "Minijail.C41_partial",
    "Minijail.C41_total",
    "Minijail.C41_violated_dropped",
    "Minijail.C41_violated_arg6"
   ],
   "note": "Both strategies, all parsed policies, all system calls; encodable, and accepted by the kernel up to 4096 instructions. Violated for allowlist statements that end in allow after other actions, and for arg6."
  },
  {
   "property": "C42",
   "status": "proved",
   "theorems": [
    "Minijail.C42_exact",
    "Minijail.C42_encodes",
    "Minijail.C42_short"
   ],
   "note": ""
  },
  {
   "property": "C54",
   "status": "partial",
   "theorems": [
    "Minijail.C54_environment_partial",
    "Minijail.C54_linkage",
    "Minijail.C54_library_partial",
    "Minijail.C54_status",
    "Minijail.C54_status_init_partial",
    "Minijail.C54_violated_static",
    "Minijail.C54_violated_library",
    "Minijail.C54_violated_status"
   ],
   "note": "All command lines and configuration files. Violated: environment options are lost for static programs, -i hides that nothing was started, memory exhaustion changes the library; the exceptions of C40 and C32 carry over."
  },
  {
   "property": "C55",
   "status": "partial",
   "theorems": [
    "Minijail.C55_capabilities",
    "Minijail.C55_filter",
    "Minijail.C55_user_partial",
    "Minijail.C55_groups_partial",
    "Minijail.C55_executed",
    "Minijail.C55_run_partial",
    "Minijail.C55_run_direct_partial",
    "Minijail.C55_skip_needed"
   ],
   "note": "For ever and for every program, under the system's own rules (Spec/Forever). Ids of 4294967295 are C26's exception; hooks and programs started by minijail_run as in C47."
  },
  {
   "property": "C56",
   "status": "partial",
   "theorems": [
    "Minijail.C56_library_partial",
    "Minijail.C56_static",
    "Minijail.C56_setup_partial"
   ],
   "note": "End to end, from the command line to any later state of the program. With the library the jail must be transferable (C19: at most 65536 groups, rules that grant something, a descriptor other than 0) and no empty filter set; /proc is then mounted in the old root (C47_violated_proc). Limits, the file with the process's number and id maps are followed to what is written and set from outside (C56_setup_partial, under C69's condition on errno); path rules to what landlock allows (C71)."
  },
  {
   "property": "C57",
   "status": "partial",
   "theorems": [
    "Minijail.C57_partial",
    "Minijail.C57_in_language",
    "Minijail.C57_unambiguous",
    "Minijail.C57_accepted",
    "Minijail.C57_tokens",
    "Minijail.C57_tokens_unique",
    "Minijail.C57_included",
    "Minijail.C57_violated_dropped",
    "Minijail.C57_violated_ret_log"
   ],
   "note": "From the text of the files to the run of the program. Violated: filters before an unconditional allow are dropped, --use-ret-log does not reach actions that are named; arg6 is excluded (C41_violated_arg6). The lines of a statement for other architectures may go on with anything (lax)."
  },
  {
   "property": "C58",
   "status": "partial",
   "theorems": [
    "Minijail.C58_partial",
    "Minijail.C58_minijail",
    "Minijail.C58_offline",
    "Minijail.C58_accepted",
    "Minijail.C58_violated_return",
    "Minijail.C58_violated_comment",
    "Minijail.C58_violated_tab",
    "Minijail.C58_violated_architecture",
    "Minijail.C64_common"
   ],
   "note": "For the texts of Spec/Common. Violated outside of them: `return` behind a condition has opposite meanings, comments that end in a backslash, a tab behind `return`; and for system calls of another architecture when the process is to be killed. Both compilers take these texts: C58_accepted, and C64_common where the program fits."
  },
  {
   "property": "C59",
   "status": "partial",
   "theorems": [
    "Minijail.C59_exact",
    "Minijail.C59_minijail",
    "Minijail.C59_offline",
    "Minijail.C59_covers_partial",
    "Minijail.C59_violated_raw",
    "Minijail.C59_violated_nested"
   ],
   "note": "C59_exact says exactly what is allowed. That this covers the traces fails where a writable and executable mapping has its protection as a number, which is how the manual says to trace (C59_violated_raw), and where an argument is not a constant (C59_violated_nested). Audit logs are in C73."
  },
  {
   "property": "C60",
   "status": "partial",
   "theorems": [
    "Minijail.C60_one",
    "Minijail.C60_ok_partial",
    "Minijail.C60_err",
    "Minijail.C60_die",
    "Minijail.C60_calls",
    "Minijail.C60_consistent",
    "Minijail.C60_in_force_partial",
    "Minijail.C60_program",
    "Minijail.C60_refused",
    "Minijail.C60_not_refused",
    "Minijail.C60_clone_none_violated",
    "Minijail.C60_user_violated",
    "Minijail.C60_memory_violated",
    "Minijail.C60_empty_violated",
    "Minijail.C60_clone_partial",
    "Minijail.C60_clone_violated",
    "Minijail.C60_clone_filter_violated"
   ],
   "note": "All 43 configuration methods. Violated: users and groups that do not exist are accepted and ignored, exhausted memory likewise for id maps, an empty program is accepted, copies lose the id maps and a program set before filters were asked for. log_to_fd is not modelled."
  },
  {
   "property": "C61",
   "status": "partial",
   "theorems": [
    "Minijail.C61_descriptors_partial",
    "Minijail.C61_accepted",
    "Minijail.C61_twice_violated",
    "Minijail.C61_threads",
    "Minijail.C61_count",
    "Minijail.C61_arguments"
   ],
   "note": "For a jail that was not run before. Violated: no second run of the same Minijail starts a program, because the first one leaves its descriptors in the jail (C61_twice_violated)."
  },
  {
   "property": "C62",
   "status": "partial",
   "theorems": [
    "Minijail.C62_ok",
    "Minijail.C62_tells_partial",
    "Minijail.C62_total",
    "Minijail.C62_command",
    "Minijail.C62_wait_fails",
    "Minijail.C62_kill",
    "Minijail.C62_policy_violated",
    "Minijail.C62_code_violated"
   ],
   "note": "Violated: a program killed for violating the policy is said to have exited with 253, and exit codes 126, 127 and 129 to 192 are taken for other ends."
  },
  {
   "property": "C63",
   "status": "partial",
   "theorems": [
    "Minijail.C63_errors",
    "Minijail.C63_message",
    "Minijail.C63_status",
    "Minijail.C63_minijail_partial",
    "Minijail.C63_offline_partial",
    "Minijail.C63_none_partial",
    "Minijail.C63_continued_violated",
    "Minijail.C63_include_violated",
    "Minijail.C63_group_violated",
    "Minijail.C63_denylist_violated",
    "Minijail.C63_comment_violated"
   ],
   "note": "What the tool prints and its status: exactly. What a policy that passes allows: for policies of one file without continued lines, and for the texts that both compilers take (Spec/Common) offline. Violated for continued lines, included files, groups of system calls and denylists, none of which the tool sees."
  },
  {
   "property": "C64",
   "status": "proved",
   "theorems": [
    "Minijail.C64_accepted",
    "Minijail.C64_only",
    "Minijail.C64_exactly",
    "Minijail.C64_common"
   ],
   "note": "From the text of the files to the program. The table of system calls must have names of at most 32 characters that begin with no digit (as the generated ones do); for C64_only and C64_exactly also no two names with the same number (32-bit ARM has such a pair). Memory and the reading of files do not fail."
  },
  {
   "property": "C65",
   "status": "partial",
   "theorems": [
    "Minijail.C65_failed",
    "Minijail.C65_started_partial",
    "Minijail.C65_executes_partial",
    "Minijail.C65_streams_partial",
    "Minijail.C65_never_killed",
    "Minijail.C65_violated_ruleset",
    "Minijail.C65_violated_fork",
    "Minijail.C65_violated_twice"
   ],
   "note": "Violations: with path rules the descriptor of the ruleset stays open in the caller; minijail_fork may fail with the positive number 12; a jail that enters a namespace closes its descriptor when it is first used, and what has that number at the second use. The environment is as in C40. Streams: the caller's own streams are open, and it has at most 700 descriptors or closes the others in the child."
  },
  {
   "property": "C66",
   "status": "partial",
   "theorems": [
    "Minijail.C66_output_partial",
    "Minijail.C66_refused_partial",
    "Minijail.C66_read_back",
    "Minijail.C66_reads_only",
    "Minijail.C66_option",
    "Minijail.C66_listing",
    "Minijail.C66_same_partial",
    "Minijail.C66_same_others",
    "Minijail.C66_no_arguments",
    "Minijail.C66_order",
    "Minijail.C66_help",
    "Minijail.C66_violated_no_arguments",
    "Minijail.C66_violated_short",
    "Minijail.C66_violated_full",
    "Minijail.C66_violated_tsync",
    "Minijail.C66_violated_libc"
   ],
   "note": "Violations: without arguments the name of the policy file is a null pointer that is copied at the first rule; -d takes the next word as its argument, so -d POLICY overwrites POLICY; a dump that does not fit on the disk can be cut short with status 0; with thread synchronisation, or in a build with calls that every policy allows, -S makes a different program. A refused policy: where the compiler is defined (C07)."
  },
  {
   "property": "C67",
   "status": "proved",
   "theorems": [
    "Minijail.C67_probes",
    "Minijail.C67_unreadable",
    "Minijail.C67_blocked",
    "Minijail.C67_condition",
    "Minijail.C67_known",
    "Minijail.C67_beyond",
    "Minijail.C67_signal"
   ],
   "note": "Little endian, as C01. The library's answers to the probes are those of the kernel's list; the build's options are parameters."
  },
  {
   "property": "C68",
   "status": "proved",
   "theorems": [
    "Minijail.C68_program",
    "Minijail.C68_refused",
    "Minijail.C68_others",
    "Minijail.C68_no_misuse",
    "Minijail.C68_kept"
   ],
   "note": "The blocks and the arrays of instructions; allocations succeed (the code calls die otherwise). The strings of labels and lines are not part of the memory. The table of labels: C07."
  },
  {
   "property": "C69",
   "status": "partial",
   "theorems": [
    "Minijail.C69_done_partial",
    "Minijail.C69_killed_partial",
    "Minijail.C69_goes_on",
    "Minijail.C69_decimal",
    "Minijail.C69_pid_file_partial",
    "Minijail.C69_plan",
    "Minijail.C69_setgroups_violated"
   ],
   "note": "Violation: errno is read after the warning has been logged; if logging changes it, a refusal to deny setgroups may be taken for a kernel without that file. The theorems marked partial need that logging keeps errno."
  },
  {
   "property": "C70",
   "status": "partial",
   "theorems": [
    "Minijail.C70_kill_partial",
    "Minijail.C70_wait_partial",
    "Minijail.C70_not_run",
    "Minijail.C70_told",
    "Minijail.C70_careful",
    "Minijail.C70_forward_partial",
    "Minijail.C70_which",
    "Minijail.C70_stays",
    "Minijail.C70_kill_violated",
    "Minijail.C70_wait_violated",
    "Minijail.C70_forward_violated",
    "Minijail.C70_forward_violated_two"
   ],
   "note": "Violations: the jail and the forwarding of signals keep the program's number after its end has been reported, so that a later kill, wait or signal concerns whichever process has that number; signals are forwarded to one program only, the last."
  },
  {
   "property": "C71",
   "status": "partial",
   "theorems": [
    "Minijail.C71_partial",
    "Minijail.C71_violated"
   ],
   "note": "Complete except when memory runs out while a path is noted: then nobody looks at the result and the program runs without the rule, or without any restriction (C71_violated). The process that makes the ruleset and the one that enforces it have the same kernel."
  },
  {
   "property": "C72",
   "status": "partial",
   "theorems": [
    "Minijail.C72_safe_partial",
    "Minijail.C72_freed_partial",
    "Minijail.C72_nothing_sane",
    "Minijail.C72_again_violated",
    "Minijail.C72_clear_violated",
    "Minijail.C72_send_violated"
   ],
   "note": "All memory is freed exactly once unless a setting is made twice (C72_again_violated) or a filter is taken back (C72_clear_violated), which leak. No undefined behaviour, except that a rule whose path could not be copied is read as NULL when the jail is sent (C72_send_violated). A jail that was received is not covered here (C43 covers failing to receive one), nor is the memory inside compile_filter (C68)."
  },
  {
   "property": "C73",
   "status": "partial",
   "theorems": [
    "Minijail.C73_exact",
    "Minijail.C73_minijail",
    "Minijail.C73_offline",
    "Minijail.C73_refused",
    "Minijail.C73_covers_partial",
    "Minijail.C73_violated_long"
   ],
   "note": "C73_exact says exactly what is allowed, of traces and logs together. That this covers what the process did fails as in C59, and where the name of the process has more than fifteen characters: the kernel writes fifteen, the tool looks for the whole name and silently finds nothing (C73_violated_long). What auparse finds in a log, and the meanings it gives to fields, are input of the model."
  },
  {
   "property": "C74",
   "status": "proved",
   "theorems": [
    "Minijail.C74_counts",
    "Minijail.C74_used",
    "Minijail.C74_order"
   ],
   "note": "Counts of lines and records, for all traces and logs that the tool can read (as in C73). C74_used is about the line @frequency of a policy; that the numbers do not change what a compiled policy allows is in C41."
  },
  {
   "property": "C75",
   "status": "partial",
   "theorems": [
    "Minijail.C75_records",
    "Minijail.C75_first_partial",
    "Minijail.C75_name",
    "Minijail.C75_never",
    "Minijail.C75_installed",
    "Minijail.C75_number",
    "Minijail.C75_violated_pid",
    "Minijail.C75_violated_fd",
    "Minijail.C75_violated_exec",
    "Minijail.C75_violated_number"
   ],
   "note": "On kernels with SECCOMP_RET_LOG proved in full (C75_records). On other kernels the report of the first blocked call needs a C library that makes no getpid call, messages to syslog, a program that keeps the handler, and headers that define si_syscall; the four violations show what happens otherwise. That the call is never made is proved without these conditions (C75_never). That the handler is asked for before the filter is C67_signal."
  },
  {
   "property": "C76",
   "status": "partial",
   "theorems": [
    "Minijail.C76_literal",
    "Minijail.C76_exact",
    "Minijail.C76_bind",
    "Minijail.C76_mounts",
    "Minijail.C76_violated_prefix",
    "Minijail.C76_violated_empty",
    "Minijail.C76_violated_skipped"
   ],
   "note": "Proved for sources that are not below an allowed prefix. Below one, nothing is guaranteed, and a path can leave it by '..' (C76_violated_prefix); an empty prefix is undefined behaviour (C76_violated_empty). The files are those at the time of the check; a link made between the check and the mount is not seen. A failing check does not end the process (C76_violated_skipped)."
  },
  {
   "property": "C77",
   "status": "partial",
   "theorems": [
    "Minijail.C77_started_partial",
    "Minijail.C77_failed_partial",
    "Minijail.C77_strings",
    "Minijail.C77_arrays",
    "Minijail.C77_descriptors",
    "Minijail.C77_starts",
    "Minijail.C77_forked",
    "Minijail.C77_fork_descriptors",
    "Minijail.C77_fork_list",
    "Minijail.C77_not_forked_partial",
    "Minijail.C77_violated_memory",
    "Minijail.C77_violated_fork"
   ],
   "note": "Proved for jails made with Minijail::new and any methods of the crate. The environment of the program is that of C40, with its exceptions. When there is no memory for the copy of the environment, the method returns Ok without having started anything (C77_violated_memory, C77_violated_fork): the C library returns +ENOMEM and the crate tests for negative numbers only."
  },
  {
   "property": "C78",
   "status": "partial",
   "theorems": [
    "Minijail.C78_reading",
    "Minijail.C78_text",
    "Minijail.C78_dump",
    "Minijail.C78_generated",
    "Minijail.C78_unnamed",
    "Minijail.C78_compilers_partial",
    "Minijail.C78_files_differ"
   ],
   "note": "C78_dump and C78_generated are complete for tables in which a repeated name has one value. That Python writes its dictionary as JSON is assumed. C78_compilers_partial has the limits of C58, and needs that no two names stand for one system call. Constants that are addresses are left out by generate_constants_json.py and are an address in what dump_constants prints (C78_files_differ)."
  },
  {
   "property": "C79",
   "status": "partial",
   "theorems": [
    "Minijail.C79_calls",
    "Minijail.C79_constants_partial",
    "Minijail.C79_tables",
    "Minijail.C79_library",
    "Minijail.C79_violated_sign",
    "Minijail.C79_violated_AT_FDCWD",
    "Minijail.C79_violated_count"
   ],
   "note": "C79_calls is complete. C79_constants_partial says exactly which constants are in the table; constants whose value begins with a sign or a parenthesis are not (C79_violated_sign, C79_violated_AT_FDCWD), and a count of the system calls becomes a system call (C79_violated_count). The preprocessor and the values of macros are parameters."
  },
  {
   "property": "C80",
   "status": "partial",
   "theorems": [
    "Minijail.C80_messages",
    "Minijail.C80_total",
    "Minijail.C80_lines_partial",
    "Minijail.C80_levels",
    "Minijail.C80_shared_partial",
    "Minijail.C80_child",
    "Minijail.C80_violated_merged",
    "Minijail.C80_violated_forged",
    "Minijail.C80_violated_lost",
    "Minijail.C80_violated_foreign"
   ],
   "note": "C80_messages, C80_total and C80_levels are complete for one process. C80_lines_partial needs messages without newlines (C80_violated_forged). For two processes lines can merge (C80_violated_merged). The messages of the jailed process go where the caller's go only if the caller asked for the descriptor of the log (C80_child); otherwise they are lost or end up in the program's files (C80_violated_lost, C80_violated_foreign). Every write is complete or fails."
  },
  {
   "property": "C81",
   "status": "partial",
   "theorems": [
    "Minijail.C81_action",
    "Minijail.C81_cost",
    "Minijail.C81_compiled_partial",
    "Minijail.C81_refused",
    "Minijail.C81_violated_accepted",
    "Minijail.C81_violated_unaligned",
    "Minijail.C81_violated_arg6",
    "Minijail.C81_violated_scratch"
   ],
   "note": "C81_action and C81_cost are complete for programs of loads the kernel allows, jumps and returns; C81_violated_unaligned, C81_violated_arg6 and C81_violated_scratch show that the conditions are needed. C81_compiled_partial has the hypotheses of C41_partial. That every call can be simulated does not mean that the kernel accepts the program (C81_violated_accepted). Little-endian machines only; SyscallPolicyEntry.simulate and SyscallPolicyRange.simulate are not modelled."
  },
  {
   "property": "C82",
   "status": "partial",
   "theorems": [
    "Minijail.C82_partial",
    "Minijail.C82_one",
    "Minijail.C82_null",
    "Minijail.C82_violated_reuse",
    "Minijail.C82_violated_growth",
    "Minijail.C82_violated_shrink"
   ],
   "note": "C82_partial covers every sequence of files and every failure of calloc and strdup. It excludes failures of realloc (C82_violated_growth, C82_violated_shrink) and a list that is used again after a file without entries (C82_violated_reuse: write behind the array). realloc(p, 0) is that of glibc."
  },
  {
   "property": "C83",
   "status": "partial",
   "theorems": [
    "Minijail.C83_copy",
    "Minijail.C83_empty",
    "Minijail.C83_set",
    "Minijail.C83_refused",
    "Minijail.C83_get",
    "Minijail.C83_free",
    "Minijail.C83_unset_partial",
    "Minijail.C83_partial",
    "Minijail.C83_no_leak",
    "Minijail.C83_violated"
   ],
   "note": "All sequences of copying, setting, unsetting and freeing, with any allocations failing. The one thing that does not hold: a string that minijail_unsetenv takes out is never freed (C83_violated); C83_partial says that this is all that is left."
  },
  {
   "property": "C84",
   "status": "partial",
   "theorems": [
    "Minijail.C84_line",
    "Minijail.C84_end",
    "Minijail.C84_file",
    "Minijail.C84_complete_partial",
    "Minijail.C84_violated",
    "Minijail.C84_violated_again"
   ],
   "note": "All files, lines of any length joined from any number of physical lines, any requests for memory failing. Memory is never misused and none is left. What does not hold: a file whose last line has no newline can be taken for completely read although there was no memory for its last line (C84_violated); C84_complete_partial is the claim for all other files. After such a failure the buffer can be freed but not used again (C84_violated_again)."
  },
  {
   "property": "C85",
   "status": "partial",
   "theorems": [
    "Minijail.C85_outcome",
    "Minijail.C85_places",
    "Minijail.C85_places_partial",
    "Minijail.C85_told_partial",
    "Minijail.C85_violated_line",
    "Minijail.C85_violated_silent"
   ],
   "note": "All policies with all included files. C85_places: the named line, counted after joining continued lines, is one of which the message is so. As lines of the file this holds without continued lines (C85_places_partial), and not behind them (C85_violated_line). A refused policy has a message with a place about a fault unless a line lacks its colon or misspells return (C85_told_partial, C85_violated_silent)."
  },
  {
   "property": "C86",
   "status": "partial",
   "theorems": [
    "Minijail.C86_memory_partial",
    "Minijail.C86_ends",
    "Minijail.C86_rules",
    "Minijail.C86_labels",
    "Minijail.C86_labels_room",
    "Minijail.C86_violated"
   ],
   "note": "Any sequence of uses of the two tables (more than policies lead to), any requests for memory failing except the first. That first request, for the array of places, is not checked: when it fails, even an empty policy makes the compiler read through NULL (C86_violated)."
  },
  {
   "property": "C87",
   "status": "partial",
   "theorems": [
    "Minijail.C87_kept",
    "Minijail.C87_soft",
    "Minijail.C87_enforced",
    "Minijail.C87_runs_partial",
    "Minijail.C87_violated"
   ],
   "note": "All kernels that have some of: filters, the call seccomp, its flags for threads and for speculation; all jails. C87_kept, C87_soft and C87_enforced are complete. C87_runs_partial excludes kernels without the call seccomp when speculation is to be allowed: there the process ends although the wish could be ignored (C87_violated)."
  },
  {
   "property": "C88",
   "status": "partial",
   "theorems": [
    "Minijail.C88_device",
    "Minijail.C88_others",
    "Minijail.C88_own",
    "Minijail.C88_unasked",
    "Minijail.C88_loopback_partial",
    "Minijail.C88_violated"
   ],
   "note": "All jails, kernels and states of the network; hooks are not counted. C88_device, C88_others, C88_own and C88_unasked are complete. C88_loopback_partial: the device works exactly if bringing it up was not refused. That the program is not run where it was refused is false (C88_violated)."
  },
  {
   "property": "C89",
   "status": "partial",
   "theorems": [
    "Minijail.C89_arrives_partial",
    "Minijail.C89_whole",
    "Minijail.C89_lost",
    "Minijail.C89_race",
    "Minijail.C89_violated"
   ],
   "note": "All interleavings of the two processes, all sizes of the pipe, all jails of at most 65535 bytes (larger ones are refused, C21_limit). C89_whole is complete. C89_arrives_partial: the jail arrives if the pipe has room for it and its size, or if it has at most 4096 bytes. Otherwise it never arrives (C89_lost, C89_violated) or it depends on the interleaving (C89_race), because the receiver reads once only. The capacity of a pipe is counted in bytes, the kernel counts pages."
  },
  {
   "property": "C90",
   "status": "partial",
   "theorems": [
    "Minijail.C90_mask",
    "Minijail.C90_handlers_partial",
    "Minijail.C90_caught",
    "Minijail.C90_reporting",
    "Minijail.C90_kept_mask",
    "Minijail.C90_kept_ignored",
    "Minijail.C90_entered",
    "Minijail.C90_starts",
    "Minijail.C90_caller_partial",
    "Minijail.C90_accepts",
    "Minijail.C90_violated",
    "Minijail.C90_violated_pending"
   ],
   "note": "All signals of the caller, all jails, with and without the preload library, all answers of the C library. Complete for the mask. C90_handlers_partial: all signals but those the C library refuses to set (C90_violated) and SIGSYS where a handler reports blocked calls. C90_caller_partial: the caller keeps its mask, its handlers and all waiting signals but a SIGPIPE (C90_violated_pending). Hooks and flags of handlers are not modelled."
  },
  {
   "property": "C91",
   "status": "partial",
   "theorems": [
    "Minijail.C91_status_partial",
    "Minijail.C91_lost",
    "Minijail.C91_term_partial",
    "Minijail.C91_term_lost",
    "Minijail.C91_violated",
    "Minijail.C91_violated_term"
   ],
   "note": "All signals of the caller, all jails, all orders of deaths. The status gets through unless the caller ignores SIGCHLD and handlers are not reset: then it is lost, always (C91_lost), and a caller that forwards signals is told of success (C91_violated). SIGTERM gets through unless the caller blocks it and the mask is not reset (C91_term_lost)."
  },
  {
   "property": "C92",
   "status": "partial",
   "theorems": [
    "Minijail.C92_ends_partial",
    "Minijail.C92_process_one",
    "Minijail.C92_blocked",
    "Minijail.C92_ignored",
    "Minijail.C92_violated"
   ],
   "note": "All jails, all signals of the caller, programs that have not changed what SIGTERM does to them. C92_ends_partial names the cases in which the program ends; C92_process_one, C92_blocked and C92_ignored prove that it does not in each of the others."
  },
  {
   "property": "C93",
   "status": "partial",
   "theorems": [
    "Minijail.C93_kthread",
    "Minijail.C93_safe",
    "Minijail.C93_refuses",
    "Minijail.C93_allows_partial",
    "Minijail.C93_violated"
   ],
   "note": "All threads, all names, all files of the kernel's format. C93_kthread, C93_safe and C93_refuses are complete. C93_allows_partial needs names that are valid UTF-8: otherwise a caller with one thread is refused (C93_violated). Threads that start while the files are read are not modelled."
  },
  {
   "property": "C94",
   "status": "partial",
   "theorems": [
    "Minijail.C94_told_partial",
    "Minijail.C94_open",
    "Minijail.C94_closed",
    "Minijail.C94_astray",
    "Minijail.C94_own_partial",
    "Minijail.C94_violated",
    "Minijail.C94_violated_lost"
   ],
   "note": "All that a program can do with jails and files, of any length. C94_open and C94_closed are complete; C94_astray says what happens in the case that the partial theorems leave out. C94_told_partial and C94_own_partial need that the jail that was asked for last lives: when it is dropped, the library keeps the number of its closed descriptor (C94_violated, C94_violated_lost). Failing of dup(2) and a program that closes standard error are not modelled."
  }
 ]
}