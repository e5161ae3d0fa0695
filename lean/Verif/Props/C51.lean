import Verif.Proof.CliValues
/-! C51: the values of an accepted command line are those its arguments stand for. -/
set_option linter.unusedSimpArgs false
set_option autoImplicit false
namespace Minijail
open Spec

private theorem no_last {opt : Nat → Prop} {a : CStr} : ¬ LastArg [] opt a := by rintro ⟨b, n, af, h, _⟩; simp at h
private theorem no_last' {opt : Nat → Prop} {a : Option CStr} : ¬ Last [] opt a := by rintro ⟨b, n, af, h, _⟩; simp at h
private theorem no_first {opt : Nat → Prop} {a : CStr} : ¬ FirstArg [] opt a := by rintro ⟨b, n, af, h, _⟩; simp at h

private theorem last_has {opt : Nat → Prop} {o : Opt} {l : Options} {a : CStr} (hi : IsOpt opt o) (h : LastArg l opt a) : Has l o := by
  obtain ⟨b, m, af, rfl, hm, _⟩ := h
  exact ⟨some a, by rw [(hi m).1 hm]; simp⟩

private theorem filter_is {env : ApiEnv} {j j' : Jail} {rc : Int} {p : BStr} (hs : env.softfail = false) (h : call env j (.parseSeccompFilters p) = .ret rc j') :
    j'.filter_prog = env.compiled (some p) := by
  simp only [call, parseSeccompFilters, ApiRes.ok] at h
  have : (shouldUseFilters env j).1 = true := by
    unfold shouldUseFilters
    simp only [hs, Bool.false_eq_true, and_false, if_false]
    split <;> rfl
  rw [this] at h
  simp only [Bool.not_true, Bool.false_eq_true, if_false] at h
  split at h
  · simp at h
  · next prog hc =>
    simp only [ApiRes.ret.injEq] at h
    rw [← h.2, hc]
    rfl

private theorem program_is {env : ApiEnv} {j j' : Jail} {rc : Int} {p : List Insn} (hs : env.softfail = false) (h : call env j (.setSeccompFilters p) = .ret rc j') :
    j'.filter_prog = some p := by
  simp only [call, setSeccompFilters, ApiRes.ok] at h
  have : (shouldUseFilters env j).1 = true := by
    unfold shouldUseFilters
    simp only [hs, Bool.false_eq_true, and_false, if_false]
    split <;> rfl
  rw [this] at h
  simp only [Bool.not_true, Bool.false_eq_true, if_false] at h
  repeat' split at h
  all_goals try (simp at h; done)
  simp only [ApiRes.ret.injEq] at h
  rw [← h.2]
  rfl

private theorem mode_is {a : Option CStr} {m : BitVec 64} (h : modeOf a = some m) : PropagationOf a m := by
  unfold modeOf at h
  split at h
  · injection h with h
    exact .inl ⟨rfl, h.symm⟩
  · next w =>
    right
    refine ⟨w, m, rfl, rfl, ?_⟩
    repeat' split at h
    all_goals try (simp at h; done)
    all_goals
      injection h with h
      subst h
      rename_i e
      rw [e]
      simp [MS_SHARED, MS_PRIVATE, MS_SLAVE, MS_UNBINDABLE]

/-- **C51**: the values in the jail are those the arguments of the options stand for, also of options from configuration files. Not part of it: numbers that
are no ids, masks and limits that do not fit, compiled filters of more than 65535 instructions, the second host name, and file descriptors to preserve that are
none or too many (see below). -/
theorem C51_partial (env : CliEnv) (he : GoodCliEnv env) (opts : Options) (ht : ∀ p ∈ opts, TextArg p.2) (program : Option CStr) (c : Cli)
    (h : parseArgs env minijailNew opts program = .ok (.run c)) : ∃ all, Expanded env.readConf opts all ∧ Values env all c.j := by
  have K := carried_user.and <| carried_group.and <| carried_groups.and <| carried_caps.and <| carried_securebits.and <| carried_propagation.and <| carried_mode.and <|
    carried_size.and <| carried_pid_file.and <| carried_table.and <| carried_mount_ns.and <| carried_net_ns.and <|
    (Carried.imp (p := env.api.oom = false) (carried_hostname (env := env) (j0 := minijailNew))).and <| carried_filter.and <| (carried_limits inv_new).and <|
    (carried_fds inv_new).and carried_mounts
  obtain ⟨c0, j1, c2, I, q, r1, a1, hk, hm, I1, hx, h2, h3, h4, h5⟩ := run_carry K he inv_new (by
    refine ⟨?_, ?_, ?_, ?_, ?_, ?_, ?_, ?_, ?_, ?_, ?_, ?_, ?_, ?_, ?_, ?_, ?_⟩
    · exact fun _ a h => by simp at h
    · exact fun _ a h => by simp at h
    · exact fun _ => ⟨[], .nil, .nil⟩
    · exact fun _ a h => absurd h no_last
    · exact fun _ a h => absurd h no_last
    · exact fun a h => absurd h no_last'
    · exact ⟨fun h => by obtain ⟨_, h⟩ := h; simp at h, fun _ => rfl⟩
    · exact ⟨fun a h => absurd h no_last, fun _ => ⟨.inl rfl, fun h => by rcases h with h | ⟨_, h⟩ <;> simp at h⟩⟩
    · exact fun _ a h => absurd h no_last
    · exact fun _ a h => absurd h no_last
    · exact fun _ a h => absurd h no_last
    · exact fun _ a h => absurd h no_last
    · exact fun _ => ⟨fun a h => absurd h no_first, fun _ => rfl⟩
    · exact ⟨fun a h => absurd h no_last, fun a h => absurd h no_last⟩
    · exact fun _ => ⟨[], .nil, .nil⟩
    · exact fun _ => ⟨[], .nil, fun _ _ => .nil⟩
    · exact fun _ => ⟨[], .nil, rfl⟩) ht h
  obtain ⟨user, group, groups, caps, securebits, propagation, mode, size, pid_file, table, mount_ns, net_ns, hostname, filter, limits, fds, mounts⟩ := q
  refine ⟨c0.entries, hx, ?_⟩
  have i0 := (reach_kept I.good.reach inv_new).1
  have i1 := (reach_kept r1 i0).1
  obtain ⟨j', e, he2, _, F⟩ := all_ok (settle_final (c := { c0 with j := j1 }) he I1.good.path i1) h2
  have hcj : c.j = j' := by rw [h4, he2]
  rw [hcj]
  clear h2 h3 h4 h5 he2 hcj
  have ag : ∀ s, s ∉ [Setting.uidmap, .gidmap, .propagation, .groups, .filter, .tmpSize, .rules, .preserved] → Agree c0.j j' s := by
    intro s hs
    simp only [List.mem_cons, List.not_mem_nil, or_false, not_or] at hs
    exact (a1 s hs.2.2.2.2.2.2.2).also (F.same s (by simp only [List.mem_cons, List.not_mem_nil, or_false, not_or]; exact ⟨hs.1, hs.2.1, hs.2.2.1, hs.2.2.2.1, hs.2.2.2.2.1, hs.2.2.2.2.2.1, hs.2.2.2.2.2.2.1⟩))
  constructor
  case user =>
    intro a ha
    have := user hm a ha
    unfold UserOf at this
    have u1 : j'.uid = c0.j.uid := ag .uid (by decide)
    have u2 : j'.user = c0.j.user ∧ j'.usergid = c0.j.usergid := ag .user (by decide)
    rw [u1, u2.1, u2.2]; exact this
  case group =>
    intro a ha
    rw [show j'.gid = c0.j.gid from ag .gid (by decide)]
    exact group hm a ha
  case groups =>
    intro as ha hne
    obtain ⟨as', h1, h2⟩ := groups hm
    have := args_unique ha h1
    subst this
    have hs : c0.suppl_gids ≠ [] := by
      intro e
      rw [e] at h2
      cases h2
      exact hne rfl
    have := F.groups hs
    exact ⟨c0.suppl_gids, h2, this.2.1, this.2.2⟩
  case caps =>
    intro a ha
    rw [show j'.caps = c0.j.caps from ag .caps (by decide)]
    exact caps hm a ha
  case securebits =>
    intro a ha
    rw [show j'.securebits_skip_mask = c0.j.securebits_skip_mask from ag .skipMask (by decide)]
    exact securebits hm a ha
  case propagation =>
    intro a ha
    have h1 := propagation a ha
    have hc : c0.change_remount = true := I.loop.remount.2 (by
      obtain ⟨b, n, af, e, hn, _⟩ := ha
      exact ⟨a, by rw [e, ← (isOpt_letter (o := .K) (by decide +kernel) n).1 hn]; simp⟩)
    have := F.remount hc
    dsimp only at this
    rw [h1] at this
    exact mode_is this
  case slave =>
    intro hk hv
    have hc : c0.change_remount = false := by
      cases hr : c0.change_remount
      · rfl
      · obtain ⟨a, ha⟩ := I.loop.remount.1 hr
        exact absurd ((isOpt_letter (o := .K) (by decide +kernel) _).2 rfl) (hk _ ha)
    have e1 : j'.remount_mode = j1.remount_mode := F.no_remount hc
    have e2 : j1.remount_mode = c0.j.remount_mode := a1 .propagation (by decide)
    rw [e1, e2]
    exact mode.1 (by obtain ⟨a, ha⟩ := hv; exact ⟨a, ha⟩)
  case private_ =>
    intro hk hv
    have hc : c0.change_remount = false := by
      cases hr : c0.change_remount
      · rfl
      · obtain ⟨a, ha⟩ := I.loop.remount.1 hr
        exact absurd ((isOpt_letter (o := .K) (by decide +kernel) _).2 rfl) (hk _ ha)
    have e1 : j'.remount_mode = j1.remount_mode := F.no_remount hc
    have e2 : j1.remount_mode = c0.j.remount_mode := a1 .propagation (by decide)
    rw [e1, e2]
    exact mode.2 (by rintro ⟨a, ha⟩; exact hv _ ha ((isOpt_letter (o := .v) (by decide +kernel) _).2 rfl))
  case tmp =>
    intro a ha
    obtain ⟨n, h1, h2, h3⟩ := size.1 a ha
    refine ⟨n, h1, fun hn => ?_⟩
    have h3 := h3 hn
    have hz : c0.tmp_size ≠ 0#64 := by
      rw [h3]
      intro e
      have := congrArg BitVec.toNat e
      simp at this
      omega
    rw [(F.tmp hz).2]
    dsimp only
    rw [h3, BitVec.toNat_ofNat]
    omega
  case tmp_default =>
    intro hno hg
    have := (size.2 fun a ha => hno a ha).2 (by
      rcases hg with hg | ⟨n, a, hl, hg⟩
      · exact .inl hg
      · refine .inr ⟨a, ?_⟩
        rw [(isOpt_long (o := .profile) (name := "profile") (by decide +kernel) (by decide +kernel) n).1 hl] at hg
        exact hg)
    have hz : c0.tmp_size ≠ 0#64 := by rw [this]; decide
    rw [(F.tmp hz).2]
    dsimp only
    rw [this]
    decide
  case pid_file =>
    intro a ha
    rw [show j'.pid_file_path = c0.j.pid_file_path from ag .pidFile (by decide)]
    exact pid_file hm a ha
  case table =>
    intro a ha
    rw [show j'.alt_syscall_table = c0.j.alt_syscall_table from ag .table (by decide)]
    exact table hm a ha
  case mount_ns =>
    intro a ha
    rw [show j'.mountns_fd = c0.j.mountns_fd from ag .mountNs (by decide)]
    exact mount_ns hm a ha
  case net_ns =>
    intro a ha
    rw [show j'.netns_fd = c0.j.netns_fd from ag .netNs (by decide)]
    exact net_ns hm a ha
  case hostname =>
    intro ho a ha
    rw [show j'.hostname = c0.j.hostname from ag .hostname (by decide)]
    exact (hostname ho).1 a ha
  case filter =>
    intro hs a ha
    have hu : c0.use_seccomp_filter = true := I.loop.use_filter.2 (last_has (isOpt_letter (by decide +kernel)) ha)
    obtain ⟨j2, ⟨j3, rc, k, e, hk⟩, ag2⟩ := F.filter (.inl hu)
    rw [show j'.filter_prog = j2.filter_prog from ag2.1]
    dsimp only at hk
    rcases hk with ⟨_, rfl⟩ | ⟨hn, _⟩
    · rw [filter_is hs e, filter.1 a ha]
    · rw [hu] at hn; cases hn
  case binary =>
    intro hs a ha
    have hh := last_has (isOpt_long (o := .seccompBpfBinary) (by decide +kernel) (by decide +kernel)) ha
    have hu : c0.use_seccomp_filter_binary = true := I.loop.use_binary.2 hh
    have hn : c0.use_seccomp_filter = false := by
      cases hf : c0.use_seccomp_filter
      · rfl
      · have h1 := I.loop.filter (I.loop.use_filter.1 hf)
        have h2 := I.loop.binary.1 hh
        rw [h1] at h2; cases h2
    obtain ⟨j2, ⟨j3, rc, k, e, hk⟩, ag2⟩ := F.filter (.inr hu)
    rw [show j'.filter_prog = j2.filter_prog from ag2.1]
    dsimp only at hk
    rcases hk with ⟨h, _⟩ | ⟨_, _, prog, hb, rfl⟩
    · rw [hn] at h; cases h
    · rw [filter.2 a ha] at hb
      refine ⟨prog, hb, fun hl => ?_⟩
      rw [program_is hs e, Nat.mod_eq_of_lt (by omega), List.take_length]
  case limits =>
    intro as ha
    obtain ⟨as', h1, h2⟩ := limits hm
    have := args_unique ha h1
    subst this
    have e : j'.rlimits = c0.j.rlimits ∧ j'.rlimit_count = c0.j.rlimit_count := ag .limits (by decide)
    rw [e.1, e.2]
    exact h2
  case fds =>
    intro as ha hl hf
    obtain ⟨as', h1, h2⟩ := fds hm
    have := args_unique ha h1
    subst this
    have h2 := h2 (by omega) hf
    have e : j'.preserved_fds = j1.preserved_fds ∧ j'.preserved_fd_count = j1.preserved_fd_count := F.same .preserved (by decide)
    rw [e.1, e.2]
    unfold keepStderr at hk
    split at hk
    · have hk : (libMust env c0 (.preserveFd 2#32 2#32)).All fun c' => c'.j.preserved_fds.take c'.j.preserved_fd_count =
          c0.j.preserved_fds.take c0.j.preserved_fd_count ++ [⟨2#32, 2#32⟩] := by
        refine all_libMust fun j h => ?_
        simp only [call] at h
        exact preserve_ok i0 h (by decide) (by decide) (by have := count_taken i0 h2; omega)
      have := all_ok hk (by assumption)
      exact ⟨_, _, h2, this, by simp⟩
    · injection hk with hk
      have : c0.j = j1 := congrArg Cli.j hk
      rw [← this]
      exact ⟨_, [], h2, by simp, by simp⟩
  case mounts =>
    obtain ⟨parts, h1, h2⟩ := mounts hm
    exact ⟨parts, h1, by rw [show j'.mounts = c0.j.mounts from ag .mounts (by decide), h2]; rfl⟩

/-- A user id of more than 32 bits is taken for another one. -/
theorem C51_violated_uid : ∃ c, parseArgs {} minijailNew [('u'.toNat, some "4294967297".toList)] (some "/bin/true".toList) = .ok (.run c) ∧ c.j.uid = 1#32 := by
  refine ⟨_, rfl, ?_⟩
  decide +kernel

/-- A negative user id is taken for 4294967295, the value that setresuid(2) takes for "unchanged". -/
theorem C51_violated_negative : ∃ c, parseArgs {} minijailNew [('u'.toNat, some "-1".toList)] (some "/bin/true".toList) = .ok (.run c) ∧ c.j.uid = 4294967295#32 := by
  refine ⟨_, rfl, ?_⟩
  decide +kernel

/-- A mask of more than 64 bits is taken for all capabilities. -/
theorem C51_violated_caps : ∃ c, parseArgs {} minijailNew [('c'.toNat, some "10000000000000000".toList)] (some "/bin/true".toList) = .ok (.run c) ∧
    c.j.caps = BitVec.allOnes 64 := by
  refine ⟨_, rfl, ?_⟩
  decide +kernel

/-- A limit of more than 64 bits is taken for no limit. -/
theorem C51_violated_limit : ∃ c, parseArgs {} minijailNew [('R'.toNat, some "7,18446744073709551616,18446744073709551616".toList)] (some "/bin/true".toList) = .ok (.run c) ∧
    c.j.rlimits.take c.j.rlimit_count = [⟨7#32, BitVec.allOnes 64, BitVec.allOnes 64⟩] := by
  refine ⟨_, rfl, ?_⟩
  decide +kernel

/-- Of a compiled filter with 65537 instructions only the first one is used. -/
theorem C51_violated_filter (prog : List Insn) (hp : prog.length = 65537) : ∃ c, parseArgs { bpfFile := fun _ => some (prog, 0) } minijailNew
    [(optVal "SECCOMP_BPF_BINARY", some "f".toList)] (some "/bin/true".toList) = .ok (.run c) ∧ c.j.filter_prog = some (prog.take 1) := by
  have h1 : prog.take 1 = prog.take (prog.length % 65536) := by rw [hp]
  rw [h1]
  exact ⟨_, rfl, rfl⟩

/-- A command line that meets the hypotheses, with the values it leaves. -/
example : ∃ c, parseArgs {} minijailNew [('u'.toNat, some "7".toList), ('c'.toNat, some "0x3".toList), ('v'.toNat, none), ('b'.toNat, some "/a,/b,1".toList),
    ('P'.toNat, some "/r".toList), ('k'.toNat, some "p,/p,proc".toList), ('K'.toNat, some "shared".toList), ('t'.toNat, some "1M".toList),
    ('R'.toNat, some "7,1,unlimited".toList), (optVal "ADD_SUPPL_GROUP", some "4".toList), (optVal "PRESERVE_FD", some "9".toList)] (some "/bin/true".toList) = .ok (.run c) ∧
    c.j.uid = 7#32 ∧ c.j.caps = 3#64 ∧ c.j.remount_mode = 0x100000#64 ∧ c.j.tmpfs_size = 1048576#64 ∧ c.j.suppl_gid_list = some [4#32] ∧ c.j.mounts.length = 2 ∧
    c.j.rlimits.take c.j.rlimit_count = [⟨7#32, 1#64, BitVec.allOnes 64⟩] ∧ c.j.preserved_fds.take c.j.preserved_fd_count = [⟨9#32, 9#32⟩] := by
  have : (match parseArgs {} minijailNew [('u'.toNat, some "7".toList), ('c'.toNat, some "0x3".toList), ('v'.toNat, none), ('b'.toNat, some "/a,/b,1".toList),
    ('P'.toNat, some "/r".toList), ('k'.toNat, some "p,/p,proc".toList), ('K'.toNat, some "shared".toList), ('t'.toNat, some "1M".toList),
    ('R'.toNat, some "7,1,unlimited".toList), (optVal "ADD_SUPPL_GROUP", some "4".toList), (optVal "PRESERVE_FD", some "9".toList)] (some "/bin/true".toList) with
    | .ok (.run c) => decide (c.j.uid = 7#32 ∧ c.j.caps = 3#64 ∧ c.j.remount_mode = 0x100000#64 ∧ c.j.tmpfs_size = 1048576#64 ∧ c.j.suppl_gid_list = some [4#32] ∧
        c.j.mounts.length = 2 ∧ c.j.rlimits.take c.j.rlimit_count = [⟨7#32, 1#64, BitVec.allOnes 64⟩] ∧
        c.j.preserved_fds.take c.j.preserved_fd_count = [⟨9#32, 9#32⟩])
    | _ => false) = true := by decide +kernel
  revert this
  split
  · next c h => exact fun e => ⟨c, h, of_decide_eq_true e⟩
  · intro e; cases e

end Minijail
