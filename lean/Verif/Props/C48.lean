import Verif.Proof.ApiMono
/-! C48: a requested restriction stays in force through later configuration calls. -/
set_option autoImplicit false
set_option linter.unusedSimpArgs false
namespace Minijail
open Spec

theorem inForce_mount (env : ApiEnv) (j j' : Jail) (s d t : BStr) (f : BitVec 64) (x : Option BStr)
    (h : mountCall env j s d t f x = .ret 0 j') :
    ∃ m ∈ j'.mounts, m.src = s ∧ m.dest = d ∧ m.type = t ∧ m.data = mountData t x ∧
      m.flags = if f = 0#64 then MS_NODEV ||| MS_NOEXEC ||| MS_NOSUID else f := by
  unfold mountCall mountWithData at h
  by_cases hd : d.head? = some 0x2f#8
  · simp only [hd, ne_eq, not_true_eq_false, if_false] at h
    by_cases ho : env.oom = true
    · rw [if_pos ho] at h
      simp [ENOMEM] at h
    · rw [if_neg ho] at h
      simp only [ApiRes.ok, ApiRes.ret.injEq, true_and] at h
      subst h
      exact ⟨_, List.mem_append_right _ (List.mem_singleton.2 rfl), rfl, rfl, rfl, rfl, rfl⟩
  · simp [hd, EINVAL] at h

theorem path_recorded (k : LandlockKernel) (j : Jail) (p : BStr) (f : BitVec 64) :
    ⟨p, f⟩ ∈ (addFsRestrictionPath k j p f).fs_rules := by
  unfold addFsRestrictionPath setupFsRulesFd fsReferSupported
  dsimp only
  split_ifs <;> simp

theorem inForce_rule (env : ApiEnv) (j j' : Jail) (p : BStr) (f : BitVec 64) (h : addRule env j p f = .ret 1 j') :
    ⟨p, f⟩ ∈ j'.fs_rules := by
  unfold addRule at h
  split_ifs at h
  · simp at h
  · simp only [ApiRes.ret.injEq, true_and] at h
    subst h
    exact path_recorded _ _ _ _

set_option maxHeartbeats 1000000 in
/-- Right after a successful call its restriction is recorded. -/
theorem inForce_now {j : Jail} (h : Inv j) (env : ApiEnv) (c : Call) (hg : GoodCall env c) (j' : Jail)
    (hc : call env j c = .ret (success c) j') : InForce j' c := by
  have key : (call env j c).Sat fun rc j' => rc = success c → InForce j' c := by
    clear hc
    cases c
    case changeUser u =>
      unfold call changeUser changeUid
      dsimp only
      split
      · rename_i rc hrc; exact fun q => absurd q (hg.2 rc hrc)
      · split
        · trivial
        · rename_i heq
          split_ifs at heq
          cases heq
          split_ifs <;> exact fun _ => rfl
    case changeGroup g =>
      unfold call changeGroup changeGid
      dsimp only
      split
      · rename_i rc hrc; exact fun q => absurd q (hg rc hrc)
      · split_ifs
        · trivial
        · exact fun _ => rfl
    case namespaceEnterVfs p =>
      unfold call namespaceEnterVfs
      dsimp only
      split
      · trivial
      · exact fun _ => rfl
    case namespaceEnterNet p =>
      unfold call namespaceEnterNet
      dsimp only
      split
      · trivial
      · exact fun _ => rfl
    case mountWithData s d t f x =>
      show ApiRes.Sat _ (mountCall env j s d t f x)
      cases hm : mountCall env j s d t f x with
      | die => trivial
      | ret rc j1 =>
        intro q
        replace q : rc = 0 := q
        subst q
        obtain ⟨m, h1, h2, h3, h4, h5, h6⟩ := inForce_mount env j j1 s d t f x hm
        refine ⟨m, h1, h2, h3, h4, ?_⟩
        rw [h6]
        split_ifs with h0
        · decide
        · exact h0
    case mount s d t f =>
      show ApiRes.Sat _ (mountCall env j s d t f none)
      cases hm : mountCall env j s d t f none with
      | die => trivial
      | ret rc j1 =>
        intro q
        replace q : rc = 0 := q
        subst q
        obtain ⟨m, h1, h2, h3, h4, h5, h6⟩ := inForce_mount env j j1 s d t f none hm
        refine ⟨m, h1, h2, h3, h4, ?_⟩
        rw [h6]
        split_ifs with h0
        · decide
        · exact h0
    case bind s d w =>
      show ApiRes.Sat _ (bindCall env j s d w)
      unfold bindCall
      split
      · intro q; simp [success, addsRule, ELOOP] at q
      · cases hm : mountCall env j s d (bstr "minijail_bind") (if w then MS_BIND else MS_BIND ||| MS_RDONLY) none with
        | die => trivial
        | ret rc j1 =>
          intro q
          replace q : rc = 0 := q
          subst q
          obtain ⟨m, h1, h2, h3, h4, h5, h6⟩ := inForce_mount env j j1 s d _ _ none hm
          refine ⟨m, h1, h2, h3, ?_⟩
          rw [h6]
          cases w <;> decide
    case rlimit t c m =>
      unfold call setRlimit
      dsimp only
      split_ifs with h1 h2
      · intro q; simp [success, addsRule, ENOMEM] at q
      · intro q; simp [success, addsRule, EEXIST] at q
      · intro _
        have hlt : j.rlimit_count < j.rlimits.length := by rw [h.1.rlimits]; simpa [MAX_RLIMITS] using h1
        show _ ∈ List.take _ _
        dsimp only
        rw [take_set_succ _ _ _ hlt]
        simp
    case preserveFd p c =>
      unfold call preserveFd
      dsimp only
      split_ifs with h1 h2
      · intro q; simp [success, addsRule, EINVAL] at q
      · intro q; simp [success, addsRule, ENOMEM] at q
      · intro _
        have hlt : j.preserved_fd_count < j.preserved_fds.length := by
          rw [h.1.preserved]; simpa [MAX_PRESERVED_FDS] using h2
        show _ ∈ List.take _ _
        dsimp only
        rw [take_set_succ _ _ _ hlt]
        simp
    case addFsRestrictionRx p =>
      show ApiRes.Sat _ (addRule env j p _)
      cases hm : addRule env j p ACCESS_READ_EXECUTE with
      | die => trivial
      | ret rc j1 => intro q; exact ⟨_, inForce_rule env j j1 p _ (by rw [hm, q]; rfl), rfl⟩
    case addFsRestrictionRo p =>
      show ApiRes.Sat _ (addRule env j p _)
      cases hm : addRule env j p ACCESS_READ with
      | die => trivial
      | ret rc j1 => intro q; exact ⟨_, inForce_rule env j j1 p _ (by rw [hm, q]; rfl), rfl⟩
    case addFsRestrictionRw p =>
      show ApiRes.Sat _ (addRule env j p _)
      cases hm : addRule env j p (ACCESS_READ ||| ACCESS_BASIC_WRITE) with
      | die => trivial
      | ret rc j1 => intro q; exact ⟨_, inForce_rule env j j1 p _ (by rw [hm, q]; rfl), rfl⟩
    case addFsRestrictionAdvancedRw p =>
      show ApiRes.Sat _ (addRuleAdvancedRw env j p)
      unfold addRuleAdvancedRw
      dsimp only
      generalize hm : addRule env _ p _ = r
      cases r with
      | die => trivial
      | ret rc j1 => intro q; exact ⟨_, inForce_rule env _ j1 p _ (by rw [hm, q]; rfl), rfl⟩
    case addFsRestrictionEdit p =>
      show ApiRes.Sat _ (addRule env j p _)
      cases hm : addRule env j p (ACCESS_READ ||| ACCESS_EDIT) with
      | die => trivial
      | ret rc j1 => intro q; exact ⟨_, inForce_rule env j j1 p _ (by rw [hm, q]; rfl), rfl⟩
    case addFsRestrictionAccessRights p f =>
      show ApiRes.Sat _ (addRule env j p _)
      cases hm : addRule env j p (f.zeroExtend 64) with
      | die => trivial
      | ret rc j1 => intro q; exact ⟨_, inForce_rule env j j1 p _ (by rw [hm, q]; rfl), rfl⟩
    case parseSeccompFilters => generalize call env j _ = r; cases r <;> first | trivial | exact fun _ => trivial
    case parseSeccompFiltersFromFd => generalize call env j _ = r; cases r <;> first | trivial | exact fun _ => trivial
    case setSeccompFilters => generalize call env j _ = r; cases r <;> first | trivial | exact fun _ => trivial
    case addMinimalisticMountnsFsRules => intro _; trivial
    case enableDefaultFsRestrictions => intro _; trivial
    all_goals first
      | exact fun _ => rfl
      | exact fun _ => ⟨rfl, rfl⟩
      | exact fun _ => ⟨rfl, rfl, rfl⟩
      | exact fun _ => ⟨rfl, rfl, rfl, rfl⟩
      | exact fun _ => trivial
      | skip
    all_goals
      simp only [call, changeUid, changeGid, setSupplementaryGids, setSeccompFilterTsync, setSeccompFilterAllowSpeculation,
        logSeccompFilterFailures, useCaps, capbsetDrop, namespaceSetHostname, setUidmap, setGidmap, enterChrootCall,
        enterPivotRootCall, writePidFile, addToCgroup, addRemount, addHook, setPreloadPath, useAltSyscall, setFlags]
      (repeat' split) <;> first
        | trivial
        | exact fun _ => rfl
        | exact fun _ => Or.inl rfl
        | exact fun _ => ⟨rfl, rfl⟩
        | exact fun _ => trivial
        | exact fun _ => List.mem_append_right _ (List.mem_singleton.2 rfl)
        | exact fun _ => ⟨rfl, List.mem_append_right _ (List.mem_singleton.2 rfl)⟩
        | (intro q; simp [success, addsRule, ENOMEM, EINVAL] at q; done)
  rw [hc] at key
  exact key rfl

/-- What is recorded stays recorded. -/
theorem inForce_kept {s : Bool} {j k : Jail} (h : Kept s j k) (c : Call)
    (hs : (c = .noNewPrivs ∨ c = .useSeccompFilter ∨ c = .setSeccompFilterTsync) → s = false) (hi : InForce j c) :
    InForce k c := by
  cases c
  case noNewPrivs => exact (h.seccomp (hs (by simp))).no_new_privs hi
  case useSeccompFilter => exact (h.seccomp (hs (by simp))).seccomp_filter hi
  case setSeccompFilterTsync => exact (h.seccomp (hs (by simp))).tsync hi
  case changeUid => exact h.flags.uid hi
  case changeUser => exact h.flags.uid hi
  case changeGid => exact h.flags.gid hi
  case changeGroup => exact h.flags.gid hi
  case setSupplementaryGids => exact h.flags.set_suppl_gids hi
  case useSeccomp => exact h.flags.seccomp hi
  case useCaps => exact h.flags.use_caps hi
  case capbsetDrop => exact h.flags.capbset hi
  case resetSignalMask => exact h.flags.reset_signal_mask hi
  case resetSignalHandlers => exact h.flags.reset_signal_handlers hi
  case namespaceVfs => exact h.flags.vfs hi
  case namespaceEnterVfs => exact h.flags.enter_vfs hi
  case newSessionKeyring => exact h.flags.new_session_keyring hi
  case namespacePids =>
    exact ⟨h.flags.pids hi.1, h.flags.vfs hi.2.1, h.flags.remount_proc_ro hi.2.2.1, h.flags.do_init hi.2.2.2⟩
  case namespacePidsRwProc => exact ⟨h.flags.pids hi.1, h.flags.vfs hi.2.1, h.flags.do_init hi.2.2⟩
  case namespaceIpc => exact h.flags.ipc hi
  case namespaceUts => exact h.flags.uts hi
  case namespaceSetHostname => exact ⟨h.flags.uts hi.1, h.hostname _ hi.2⟩
  case namespaceNetLoopback => exact h.flags.net hi
  case namespaceNet => exact h.flags.net hi
  case namespaceEnterNet => exact h.flags.enter_net hi
  case namespaceCgroups => exact h.flags.ns_cgroups hi
  case closeOpenFds => exact h.flags.close_open_fds hi
  case remountProcReadonly => exact ⟨h.flags.vfs hi.1, h.flags.remount_proc_ro hi.2⟩
  case namespaceUser => exact h.flags.userns hi
  case namespaceUserDisableSetgroups => exact h.flags.disable_setgroups hi
  case enterChroot => exact ⟨h.flags.chroot hi.1, h.chrootdir _ hi.2⟩
  case enterPivotRoot => exact ⟨h.flags.pivot_root hi.1, h.chrootdir _ hi.2⟩
  case mountDev => exact h.flags.mount_dev hi
  case mountTmp => exact h.flags.mount_tmp hi
  case mountTmpSize => exact h.flags.mount_tmp hi
  case writePidFile => exact h.flags.pid_file hi
  case addToCgroup => exact ⟨h.flags.cgroups hi.1, h.cgroups.subset hi.2⟩
  case rlimit => exact h.rlimits.subset hi
  case createSession => exact h.flags.setsid hi
  case forwardSignals => exact h.flags.forward_signals hi
  case mountWithData => obtain ⟨m, hm, e⟩ := hi; exact ⟨m, h.mounts.subset hm, e⟩
  case mount => obtain ⟨m, hm, e⟩ := hi; exact ⟨m, h.mounts.subset hm, e⟩
  case bind => obtain ⟨m, hm, e⟩ := hi; exact ⟨m, h.mounts.subset hm, e⟩
  case addRemount => exact h.remounts.subset hi
  case addHook => exact h.hooks.subset hi
  case preserveFd => exact h.preserved.subset hi
  case setPreloadPath => exact h.preload _ hi
  case useAltSyscall => exact h.flags.alt_syscall hi
  case addFsRestrictionRx => obtain ⟨m, hm, e⟩ := hi; exact ⟨m, h.fsRules.subset hm, e⟩
  case addFsRestrictionRo => obtain ⟨m, hm, e⟩ := hi; exact ⟨m, h.fsRules.subset hm, e⟩
  case addFsRestrictionRw => obtain ⟨m, hm, e⟩ := hi; exact ⟨m, h.fsRules.subset hm, e⟩
  case addFsRestrictionAdvancedRw => obtain ⟨m, hm, e⟩ := hi; exact ⟨m, h.fsRules.subset hm, e⟩
  case addFsRestrictionEdit => obtain ⟨m, hm, e⟩ := hi; exact ⟨m, h.fsRules.subset hm, e⟩
  case addFsRestrictionAccessRights => obtain ⟨m, hm, e⟩ := hi; exact ⟨m, h.fsRules.subset hm, e⟩
  all_goals trivial

theorem calls_append (cs ds : List (ApiEnv × Call)) (j j' : Jail) :
    calls j (cs ++ ds) = some j' ↔ ∃ i, calls j cs = some i ∧ calls i ds = some j' := by
  induction cs generalizing j with
  | nil => simp [calls]
  | cons p cs ih =>
    obtain ⟨env, c⟩ := p
    simp only [List.cons_append, calls]
    cases call env j c with
    | die => simp
    | ret rc j1 => exact ih j1

/-- What holds of **C48**: whatever was called before and is called after, a restriction whose call succeeded is in force in
the final configuration. For the seccomp filter, its thread synchronisation and `no_new_privs` this holds as long as the build
does not let seccomp be missing. -/
theorem C48_partial (before after : List (ApiEnv × Call)) (env : ApiEnv) (c : Call) (i i' j : Jail)
    (hg : ∀ p ∈ before ++ (env, c) :: after, GoodCall p.1 p.2)
    (hs : (c = .noNewPrivs ∨ c = .useSeccompFilter ∨ c = .setSeccompFilterTsync) → ∀ p ∈ after, p.1.softfail = false)
    (h1 : calls minijailNew before = some i) (h2 : call env i c = .ret (success c) i') (h3 : calls i' after = some j) :
    InForce j c := by
  have hi : Inv i := inv_calls before _ _ inv_new (fun p hp => hg p (by simp [hp])) h1
  have gc : GoodCall env c := hg (env, c) (by simp)
  have hi' : Inv i' := by have := inv_call hi env c gc; rw [h2] at this; exact this
  have now := inForce_now hi env c gc i' h2
  have ga : ∀ p ∈ after, GoodCall p.1 p.2 := fun p hp => hg p (by simp [hp])
  by_cases hc : c = .noNewPrivs ∨ c = .useSeccompFilter ∨ c = .setSeccompFilterTsync
  · exact inForce_kept (kept_calls false after i' j hi' ga (fun _ => hs hc) h3) c (fun _ => rfl) now
  · exact inForce_kept (kept_calls true after i' j hi' ga (fun q => by simp at q) h3) c (fun q => absurd q hc) now

/-- A kernel without seccomp, in a build that tolerates it. -/
def noSeccompEnv : ApiEnv := { softfail := true, modeFilterErrno := some 22 }

/-- **C48 does not hold**: on a kernel without seccomp, in a build that tolerates this, setting a filter silently cancels
an explicit earlier request for `no_new_privs`. -/
theorem C48_violated : ∃ (env : ApiEnv) (j : Jail), GoodCall env (.setSeccompFilters []) ∧
    calls minijailNew [({}, .noNewPrivs), (env, .setSeccompFilters [])] = some j ∧ ¬ InForce j .noNewPrivs := by
  have h : (calls minijailNew [({}, .noNewPrivs), (noSeccompEnv, .setSeccompFilters [])]).map
      (·.flags.no_new_privs) = some false := by decide +kernel
  obtain ⟨j, hj, hf⟩ := Option.map_eq_some_iff.1 h
  exact ⟨noSeccompEnv, j, by simp [GoodCall], hj, fun q => by
    replace q : j.flags.no_new_privs = true := q
    simp [hf] at q⟩

/-- The hypotheses of `C48_partial` are met: a pid namespace between other calls. -/
example : ∃ i i' j, calls minijailNew [({}, .capbsetDrop 1#64)] = some i ∧
    call {} i .namespacePids = .ret (success .namespacePids) i' ∧
    calls i' [({}, .namespaceNet), ({}, .useCaps 2#64), ({}, .enterChroot (bstr "/srv"))] = some j ∧ j.flags.pids = true :=
  ⟨_, _, _, rfl, rfl, rfl, rfl⟩

end Minijail
