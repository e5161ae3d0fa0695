import Verif.Spec.Asked
import Verif.Props.C49
/-! What a call of the library turns on and off. -/
set_option linter.unusedSimpArgs false
set_option autoImplicit false
namespace Minijail
open Spec

/-- Nothing but `G` was turned on, nothing but `L` was turned off. -/
def Switched (G L : List Feature) (j j' : Jail) : Prop := (∀ f, On f j' → On f j ∨ f ∈ G) ∧ (∀ f, On f j → On f j' ∨ f ∈ L)

theorem Switched.refl (G L : List Feature) (j : Jail) : Switched G L j j := ⟨fun _ h => .inl h, fun _ h => .inl h⟩

theorem Switched.trans {G L : List Feature} {j j1 j2 : Jail} (h : Switched G L j j1) (h' : Switched G L j1 j2) : Switched G L j j2 :=
  ⟨fun f hf => (h'.1 f hf).elim (h.1 f) .inr, fun f hf => (h.2 f hf).elim (h'.2 f) .inr⟩

theorem Switched.more {G G' L L' : List Feature} {j j' : Jail} (h : Switched G L j j') (hg : ∀ f ∈ G, f ∈ G') (hl : ∀ f ∈ L, f ∈ L') : Switched G' L' j j' :=
  ⟨fun f hf => (h.1 f hf).imp id (hg f), fun f hf => (h.2 f hf).imp id (hl f)⟩

/-- The same flags. -/
theorem switched_flags {G L : List Feature} {j j' : Jail} (h : j'.flags = j.flags) : Switched G L j j' := by
  constructor <;> intro f hf <;> left <;> revert hf <;> cases f <;> simp only [On, h, imp_self]

/-- The flag of a feature. -/
def flagOf : Feature → Flags → Bool
  | .uid, g => g.uid
  | .gid, g => g.gid
  | .inherit_suppl_gids, g => g.inherit_suppl_gids
  | .set_suppl_gids, g => g.set_suppl_gids
  | .keep_suppl_gids, g => g.keep_suppl_gids
  | .use_caps, g => g.use_caps
  | .capbset_drop, g => g.capbset_drop
  | .set_ambient_caps, g => g.set_ambient_caps
  | .vfs, g => g.vfs
  | .enter_vfs, g => g.enter_vfs
  | .pids, g => g.pids
  | .ipc, g => g.ipc
  | .uts, g => g.uts
  | .net, g => g.net
  | .net_loopback, g => g.net_loopback
  | .enter_net, g => g.enter_net
  | .ns_cgroups, g => g.ns_cgroups
  | .userns, g => g.userns
  | .disable_setgroups, g => g.disable_setgroups
  | .seccomp, g => g.seccomp
  | .remount_proc_ro, g => g.remount_proc_ro
  | .no_new_privs, g => g.no_new_privs
  | .seccomp_filter, g => g.seccomp_filter
  | .seccomp_filter_tsync, g => g.seccomp_filter_tsync
  | .seccomp_filter_logging, g => g.seccomp_filter_logging
  | .seccomp_filter_allow_speculation, g => g.seccomp_filter_allow_speculation
  | .chroot, g => g.chroot
  | .pivot_root, g => g.pivot_root
  | .mount_dev, g => g.mount_dev
  | .mount_tmp, g => g.mount_tmp
  | .do_init, g => g.do_init
  | .run_as_init, g => g.run_as_init
  | .pid_file, g => g.pid_file
  | .cgroups, g => g.cgroups
  | .alt_syscall, g => g.alt_syscall
  | .reset_signal_mask, g => g.reset_signal_mask
  | .reset_signal_handlers, g => g.reset_signal_handlers
  | .close_open_fds, g => g.close_open_fds
  | .new_session_keyring, g => g.new_session_keyring
  | .forward_signals, g => g.forward_signals
  | .setsid, g => g.setsid
  | .using_minimalistic_mountns, g => g.using_minimalistic_mountns
  | .enable_fs_restrictions, g => g.enable_fs_restrictions
  | .enable_profile_fs_restrictions, g => g.enable_profile_fs_restrictions
  | .enable_default_runtime, g => g.enable_default_runtime
  | .enable_new_sessions, g => g.enable_new_sessions

theorem on_flag (f : Feature) (j : Jail) : On f j ↔ flagOf f j.flags = true := by cases f <;> exact Iff.rfl

/-- Set or clear the flag of a feature. -/
def setFlag (b : Bool) : Feature → Flags → Flags
  | .uid, g => { g with uid := b }
  | .gid, g => { g with gid := b }
  | .inherit_suppl_gids, g => { g with inherit_suppl_gids := b }
  | .set_suppl_gids, g => { g with set_suppl_gids := b }
  | .keep_suppl_gids, g => { g with keep_suppl_gids := b }
  | .use_caps, g => { g with use_caps := b }
  | .capbset_drop, g => { g with capbset_drop := b }
  | .set_ambient_caps, g => { g with set_ambient_caps := b }
  | .vfs, g => { g with vfs := b }
  | .enter_vfs, g => { g with enter_vfs := b }
  | .pids, g => { g with pids := b }
  | .ipc, g => { g with ipc := b }
  | .uts, g => { g with uts := b }
  | .net, g => { g with net := b }
  | .net_loopback, g => { g with net_loopback := b }
  | .enter_net, g => { g with enter_net := b }
  | .ns_cgroups, g => { g with ns_cgroups := b }
  | .userns, g => { g with userns := b }
  | .disable_setgroups, g => { g with disable_setgroups := b }
  | .seccomp, g => { g with seccomp := b }
  | .remount_proc_ro, g => { g with remount_proc_ro := b }
  | .no_new_privs, g => { g with no_new_privs := b }
  | .seccomp_filter, g => { g with seccomp_filter := b }
  | .seccomp_filter_tsync, g => { g with seccomp_filter_tsync := b }
  | .seccomp_filter_logging, g => { g with seccomp_filter_logging := b }
  | .seccomp_filter_allow_speculation, g => { g with seccomp_filter_allow_speculation := b }
  | .chroot, g => { g with chroot := b }
  | .pivot_root, g => { g with pivot_root := b }
  | .mount_dev, g => { g with mount_dev := b }
  | .mount_tmp, g => { g with mount_tmp := b }
  | .do_init, g => { g with do_init := b }
  | .run_as_init, g => { g with run_as_init := b }
  | .pid_file, g => { g with pid_file := b }
  | .cgroups, g => { g with cgroups := b }
  | .alt_syscall, g => { g with alt_syscall := b }
  | .reset_signal_mask, g => { g with reset_signal_mask := b }
  | .reset_signal_handlers, g => { g with reset_signal_handlers := b }
  | .close_open_fds, g => { g with close_open_fds := b }
  | .new_session_keyring, g => { g with new_session_keyring := b }
  | .forward_signals, g => { g with forward_signals := b }
  | .setsid, g => { g with setsid := b }
  | .using_minimalistic_mountns, g => { g with using_minimalistic_mountns := b }
  | .enable_fs_restrictions, g => { g with enable_fs_restrictions := b }
  | .enable_profile_fs_restrictions, g => { g with enable_profile_fs_restrictions := b }
  | .enable_default_runtime, g => { g with enable_default_runtime := b }
  | .enable_new_sessions, g => { g with enable_new_sessions := b }

theorem flag_same (b : Bool) (x : Feature) (g : Flags) : flagOf x (setFlag b x g) = b := by cases x <;> rfl

theorem flag_other (b : Bool) (x y : Feature) (g : Flags) (h : y ≠ x) : flagOf y (setFlag b x g) = flagOf y g := by
  revert h
  cases x <;> cases y <;> first | exact fun _ => rfl | exact fun h => absurd rfl h

/-- The flags before and behind. -/
def SwitchedFlags (G L : List Feature) (f f' : Flags) : Prop := (∀ x, flagOf x f' = true → flagOf x f = true ∨ x ∈ G) ∧ (∀ x, flagOf x f = true → flagOf x f' = true ∨ x ∈ L)

theorem SwitchedFlags.refl (G L : List Feature) (f : Flags) : SwitchedFlags G L f f := ⟨fun _ h => .inl h, fun _ h => .inl h⟩

theorem SwitchedFlags.set {G L : List Feature} {f f' : Flags} (h : SwitchedFlags G L f f') (x : Feature) (hx : x ∈ G) : SwitchedFlags G L f (setFlag true x f') := by
  refine ⟨fun y hy => ?_, fun y hy => ?_⟩
  · by_cases e : y = x
    · exact .inr (e ▸ hx)
    · rw [flag_other _ _ _ _ e] at hy; exact h.1 y hy
  · by_cases e : y = x
    · exact .inl (by rw [e, flag_same])
    · rw [flag_other _ _ _ _ e]; exact h.2 y hy

theorem SwitchedFlags.clear {G L : List Feature} {f f' : Flags} (h : SwitchedFlags G L f f') (x : Feature) (hx : x ∈ L) : SwitchedFlags G L f (setFlag false x f') := by
  refine ⟨fun y hy => ?_, fun y hy => ?_⟩
  · by_cases e : y = x
    · rw [e, flag_same] at hy; exact absurd hy Bool.false_ne_true
    · rw [flag_other _ _ _ _ e] at hy; exact h.1 y hy
  · by_cases e : y = x
    · exact .inr (e ▸ hx)
    · rw [flag_other _ _ _ _ e]; exact h.2 y hy

theorem switched_of {G L : List Feature} {j j' : Jail} (h : SwitchedFlags G L j.flags j'.flags) : Switched G L j j' := by
  simp only [Switched, on_flag]
  exact h

theorem sat_of {G L : List Feature} {j j' : Jail} {rc : Int} (h : SwitchedFlags G L j.flags j'.flags) : (ApiRes.ret rc j').Sat fun _ => Switched G L j := switched_of h

theorem sat_ok {G L : List Feature} {j j' : Jail} (h : SwitchedFlags G L j.flags j'.flags) : (ApiRes.ok j').Sat fun _ => Switched G L j := switched_of h

/-- One flag was set. -/
theorem sat_one {G L : List Feature} {j j' : Jail} {rc : Int} (x : Feature) (h : j'.flags = setFlag true x j.flags) (hx : x ∈ G) :
    (ApiRes.ret rc j').Sat fun _ => Switched G L j := sat_of (h ▸ (SwitchedFlags.refl G L _).set x hx)

theorem sat_flags {G L : List Feature} {j : Jail} {r : ApiRes} (h : r.Sat fun _ j' => j'.flags = j.flags) : r.Sat fun _ => Switched G L j := by
  cases r with
  | die => trivial
  | ret rc j' => exact switched_flags h

theorem flags_refer (k : LandlockKernel) (j : Jail) : (fsReferSupported k j).2.flags = j.flags := by
  unfold fsReferSupported
  dsimp only
  split_ifs <;> rfl

theorem flags_path (k : LandlockKernel) (j : Jail) (p : BStr) (f : BitVec 64) : (addFsRestrictionPath k j p f).flags = j.flags := by
  unfold addFsRestrictionPath setupFsRulesFd
  dsimp only
  split_ifs
  · exact flags_refer k { j with fs_rules := j.fs_rules ++ [⟨p, f⟩] }
  · rfl

theorem flags_ignoring (env : ApiEnv) (j : Jail) (p : BStr) (f : BitVec 64) : (ruleIgnoring env j p f).flags = j.flags := by
  unfold ruleIgnoring
  split_ifs
  · rfl
  · exact flags_path _ _ _ _

theorem flags_rule (env : ApiEnv) (j : Jail) (p : BStr) (f : BitVec 64) : (addRule env j p f).Sat fun _ j' => j'.flags = j.flags := by
  unfold addRule
  split_ifs
  · exact rfl
  · exact flags_path _ _ _ _

theorem flags_defaults (env : ApiEnv) (j : Jail) : (enableDefaultFsRestrictions env j).flags = j.flags := by
  unfold enableDefaultFsRestrictions
  dsimp only
  simp only [flags_ignoring]

theorem flags_mountRules (env : ApiEnv) (j : Jail) (m : Mountpoint) : (rulesForMount env j m).flags = j.flags := by
  unfold rulesForMount
  dsimp only
  split_ifs <;> simp only [flags_ignoring, flags_refer]

theorem flags_mounts (env : ApiEnv) (ms : List Mountpoint) : ∀ j : Jail, (ms.foldl (rulesForMount env) j).flags = j.flags := by
  induction ms with
  | nil => intro j; rfl
  | cons m ms ih => intro j; exact (ih _).trans (flags_mountRules env j m)

theorem flags_minimalistic (env : ApiEnv) (j : Jail) : (addMinimalisticMountnsFsRules env j).flags = j.flags := by
  unfold addMinimalisticMountnsFsRules
  dsimp only
  (repeat' split) <;> simp only [flags_ignoring, flags_defaults, flags_mounts]

theorem switched_mount (env : ApiEnv) (j : Jail) (s d t : BStr) (f : BitVec 64) (x : Option BStr) :
    (mountCall env j s d t f x).Sat fun _ => Switched [.vfs] [] j := by
  unfold mountCall
  split
  · exact .refl _ _ j
  · rename_i j' hj
    split_ifs
    · exact .refl _ _ j
    · unfold mountWithData at hj
      dsimp only at hj
      split at hj
      · simp at hj
      injection hj with hj
      subst hj
      split_ifs <;> first | exact switched_flags rfl | exact sat_one .vfs rfl (by decide)

theorem switched_clear (L : List Feature) (j : Jail)
    (hL : ∀ f ∈ [Feature.seccomp_filter, .seccomp_filter_tsync, .seccomp_filter_logging, .seccomp_filter_allow_speculation, .no_new_privs], f ∈ L) :
    Switched [] L j (clearSeccompOptions j) := by
  refine switched_of ?_
  show SwitchedFlags [] L j.flags { j.flags with
      seccomp_filter := false, seccomp_filter_tsync := false, seccomp_filter_logging := false, seccomp_filter_allow_speculation := false, no_new_privs := false }
  generalize j.flags = g
  refine ⟨fun x hx => ?_, fun x hx => ?_⟩
  · cases x <;> first | exact .inl hx | exact absurd hx Bool.false_ne_true
  · cases x
    case seccomp_filter => exact .inr (hL _ (.head _))
    case seccomp_filter_tsync => exact .inr (hL _ (.tail _ (.head _)))
    case seccomp_filter_logging => exact .inr (hL _ (.tail _ (.tail _ (.head _))))
    case seccomp_filter_allow_speculation => exact .inr (hL _ (.tail _ (.tail _ (.tail _ (.head _)))))
    case no_new_privs => exact .inr (hL _ (.tail _ (.tail _ (.tail _ (.tail _ (.head _))))))
    all_goals exact .inl hx

theorem switched_should (env : ApiEnv) (j : Jail) :
    Switched [] (if env.softfail then [.seccomp_filter, .seccomp_filter_tsync, .seccomp_filter_logging, .seccomp_filter_allow_speculation, .no_new_privs]
      else [.seccomp_filter_allow_speculation]) j (shouldUseFilters env j).2 := by
  unfold shouldUseFilters
  cases hs : env.softfail
  · simp only [Bool.false_eq_true, and_false, if_false]
    split_ifs
    · exact switched_of ((SwitchedFlags.refl [] _ _).clear .seccomp_filter_allow_speculation (by decide))
    · exact .refl _ _ j
  · simp only [and_true, if_true]
    split_ifs
    · exact switched_clear _ j (fun _ h => h)
    · exact switched_clear _ j (fun _ h => h)
    · exact switched_of ((SwitchedFlags.refl [] _ _).clear .seccomp_filter_allow_speculation (by decide))
    · exact .refl _ _ j

set_option maxHeartbeats 1000000 in
theorem switched_call (env : ApiEnv) (j : Jail) (c : Call) : (call env j c).Sat fun _ => Switched (turnsOn c) (turnsOff env.softfail c) j := by
  cases c
  case mountWithData => exact switched_mount env j _ _ _ _ _
  case mount => exact switched_mount env j _ _ _ _ _
  case bind =>
    unfold call bindCall
    dsimp only
    split
    · exact .refl _ _ j
    · exact switched_mount env j _ _ _ _ _
  case addFsRestrictionRx => exact sat_flags (flags_rule env j _ _)
  case addFsRestrictionRo => exact sat_flags (flags_rule env j _ _)
  case addFsRestrictionRw => exact sat_flags (flags_rule env j _ _)
  case addFsRestrictionEdit => exact sat_flags (flags_rule env j _ _)
  case addFsRestrictionAccessRights => exact sat_flags (flags_rule env j _ _)
  case addFsRestrictionAdvancedRw p =>
    refine sat_flags ?_
    have h1 := flags_refer env.landlock j
    show ApiRes.Sat _ (addRuleAdvancedRw env j p)
    unfold addRuleAdvancedRw addRule
    dsimp only
    by_cases ho : env.oom = true
    · rw [if_pos ho]; exact h1
    · rw [if_neg ho]; exact (flags_path _ _ _ _).trans h1
  case addMinimalisticMountnsFsRules => exact switched_flags (flags_minimalistic env j)
  case enableDefaultFsRestrictions => exact switched_flags (flags_defaults env j)
  case parseSeccompFilters =>
    have := switched_should env j
    unfold call parseSeccompFilters
    dsimp only
    split
    · exact this
    · split
      · trivial
      · exact this.trans (switched_flags rfl)
  case parseSeccompFiltersFromFd =>
    have := switched_should env j
    unfold call parseSeccompFilters
    dsimp only
    split
    · exact this
    · split
      · trivial
      · exact this.trans (switched_flags rfl)
  case setSeccompFilters =>
    have := switched_should env j
    unfold call setSeccompFilters
    dsimp only
    split
    · exact this
    · split_ifs
      · trivial
      · trivial
      · exact this.trans (switched_flags rfl)
  case setEnableNewSessions b =>
    cases b
    · exact switched_of ((SwitchedFlags.refl _ _ _).clear .enable_new_sessions (List.mem_singleton.2 rfl))
    · exact switched_of ((SwitchedFlags.refl _ _ _).set .enable_new_sessions (List.mem_singleton.2 rfl))
  case setEnableDefaultRuntime b =>
    cases b
    · exact switched_of ((SwitchedFlags.refl _ _ _).clear .enable_default_runtime (List.mem_singleton.2 rfl))
    · exact switched_of ((SwitchedFlags.refl _ _ _).set .enable_default_runtime (List.mem_singleton.2 rfl))
  case namespaceNetLoopback b =>
    cases b
    · exact switched_of (((SwitchedFlags.refl _ _ _).set .net (.head _)).clear .net_loopback (.head _))
    · exact switched_of (((SwitchedFlags.refl _ _ _).set .net (.head _)).set .net_loopback (.tail _ (.head _)))
  case namespaceNet => exact switched_of (((SwitchedFlags.refl _ _ _).set .net (.head _)).set .net_loopback (.tail _ (.head _)))
  case namespacePids =>
    exact switched_of (((((SwitchedFlags.refl _ _ _).set .vfs (.tail _ (.head _))).set .remount_proc_ro (.tail _ (.tail _ (.head _)))).set .pids (.head _)).set .do_init
      (.tail _ (.tail _ (.tail _ (.head _)))))
  case namespacePidsRwProc =>
    exact switched_of ((((SwitchedFlags.refl _ _ _).set .vfs (.tail _ (.head _))).set .pids (.head _)).set .do_init (.tail _ (.tail _ (.head _))))
  case remountProcReadonly => exact switched_of (((SwitchedFlags.refl _ _ _).set .vfs (.tail _ (.head _))).set .remount_proc_ro (.head _))
  case disableFsRestrictions => exact switched_of ((SwitchedFlags.refl _ _ _).clear .enable_fs_restrictions (.head _))
  case useCaps =>
    unfold call useCaps
    dsimp only
    split_ifs
    · exact switched_of (((SwitchedFlags.refl _ _ _).clear .capbset_drop (.head _)).set .use_caps (.head _))
    · exact switched_of ((SwitchedFlags.refl _ _ _).set .use_caps (.head _))
  case changeUser =>
    unfold call changeUser changeUid
    dsimp only
    split
    · exact .refl _ _ j
    · split
      · trivial
      · rename_i heq
        split_ifs at heq
        cases heq
        split_ifs <;> exact sat_one .uid rfl (.head _)
  case changeUid => unfold call changeUid; dsimp only; (repeat' split) <;> first | trivial | exact switched_flags rfl | exact sat_one .uid rfl (.head _)
  case changeGid => unfold call changeGid; dsimp only; (repeat' split) <;> first | trivial | exact switched_flags rfl | exact sat_one .gid rfl (.head _)
  case changeGroup => unfold call changeGroup changeGid; dsimp only; (repeat' split) <;> first | trivial | exact switched_flags rfl | exact sat_one .gid rfl (.head _)
  case setSupplementaryGids => unfold call setSupplementaryGids; dsimp only; (repeat' split) <;> first | trivial | exact switched_flags rfl | exact sat_one .set_suppl_gids rfl (.head _)
  case keepSupplementaryGids => exact sat_one .keep_suppl_gids rfl (.head _)
  case inheritUsergroups => exact sat_one .inherit_suppl_gids rfl (.head _)
  case useSeccomp => exact sat_one .seccomp rfl (.head _)
  case noNewPrivs => exact sat_one .no_new_privs rfl (.head _)
  case useSeccompFilter => exact sat_one .seccomp_filter rfl (.head _)
  case setSeccompFilterTsync => unfold call setSeccompFilterTsync; dsimp only; (repeat' split) <;> first | trivial | exact switched_flags rfl | exact sat_one .seccomp_filter_tsync rfl (.head _)
  case setSeccompFilterAllowSpeculation => unfold call setSeccompFilterAllowSpeculation; dsimp only; (repeat' split) <;> first | trivial | exact switched_flags rfl | exact sat_one .seccomp_filter_allow_speculation rfl (.head _)
  case logSeccompFilterFailures => unfold call logSeccompFilterFailures; dsimp only; (repeat' split) <;> first | trivial | exact switched_flags rfl | exact sat_one .seccomp_filter_logging rfl (.head _)
  case setUsingMinimalisticMountns => exact sat_one .using_minimalistic_mountns rfl (.head _)
  case setEnableProfileFsRestrictions => exact sat_one .enable_profile_fs_restrictions rfl (.head _)
  case capbsetDrop => unfold call capbsetDrop; dsimp only; (repeat' split) <;> first | trivial | exact switched_flags rfl | exact sat_one .capbset_drop rfl (.head _)
  case setAmbientCaps => exact sat_one .set_ambient_caps rfl (.head _)
  case resetSignalMask => exact sat_one .reset_signal_mask rfl (.head _)
  case resetSignalHandlers => exact sat_one .reset_signal_handlers rfl (.head _)
  case namespaceVfs => exact sat_one .vfs rfl (.head _)
  case namespaceEnterVfs => unfold call namespaceEnterVfs; dsimp only; (repeat' split) <;> first | trivial | exact switched_flags rfl | exact sat_one .enter_vfs rfl (.head _)
  case newSessionKeyring => exact sat_one .new_session_keyring rfl (.head _)
  case namespaceIpc => exact sat_one .ipc rfl (.head _)
  case namespaceUts => exact sat_one .uts rfl (.head _)
  case namespaceSetHostname => unfold call namespaceSetHostname; dsimp only; (repeat' split) <;> first | trivial | exact switched_flags rfl | exact sat_one .uts rfl (.head _)
  case namespaceEnterNet => unfold call namespaceEnterNet; dsimp only; (repeat' split) <;> first | trivial | exact switched_flags rfl | exact sat_one .enter_net rfl (.head _)
  case namespaceCgroups => exact sat_one .ns_cgroups rfl (.head _)
  case closeOpenFds => exact sat_one .close_open_fds rfl (.head _)
  case namespaceUser => exact sat_one .userns rfl (.head _)
  case namespaceUserDisableSetgroups => exact sat_one .disable_setgroups rfl (.head _)
  case runAsInit => exact sat_one .run_as_init rfl (.head _)
  case enterChroot => unfold call enterChrootCall; dsimp only; (repeat' split) <;> first | trivial | exact switched_flags rfl | exact sat_one .chroot rfl (.head _)
  case enterPivotRoot => unfold call enterPivotRootCall; dsimp only; (repeat' split) <;> first | trivial | exact switched_flags rfl | exact sat_one .pivot_root rfl (.head _)
  case mountDev => exact sat_one .mount_dev rfl (.head _)
  case mountTmp => exact sat_one .mount_tmp rfl (.head _)
  case mountTmpSize => exact sat_one .mount_tmp rfl (.head _)
  case writePidFile => unfold call writePidFile; dsimp only; (repeat' split) <;> first | trivial | exact switched_flags rfl | exact sat_one .pid_file rfl (.head _)
  case addToCgroup => unfold call addToCgroup; dsimp only; (repeat' split) <;> first | trivial | exact switched_flags rfl | exact sat_one .cgroups rfl (.head _)
  case forwardSignals => exact sat_one .forward_signals rfl (.head _)
  case createSession => exact sat_one .setsid rfl (.head _)
  case useAltSyscall => unfold call useAltSyscall; dsimp only; (repeat' split) <;> first | trivial | exact switched_flags rfl | exact sat_one .alt_syscall rfl (.head _)
  all_goals first
    | exact switched_flags rfl
    | (simp only [call, setUidmap, setGidmap, setRlimit, addRemount, addHook, preserveFd, setPreloadPath]
       (repeat' split) <;> exact switched_flags rfl)

theorem switched_ret {env : ApiEnv} {j j' : Jail} {c : Call} {rc : Int} (h : call env j c = .ret rc j') : Switched (turnsOn c) (turnsOff env.softfail c) j j' := by
  have := switched_call env j c
  rw [h] at this
  exact this

end Minijail
