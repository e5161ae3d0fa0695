import Verif.Spec.Values
import Verif.Proof.Api
/-! C49: the value last given to a setting is the one recorded. -/
set_option autoImplicit false
set_option linter.unusedSimpArgs false
namespace Minijail
open Spec

/-- The jails agree on every setting. -/
def AgreeAll (j j' : Jail) : Prop := ∀ s, Agree j j' s

theorem AgreeAll.refl (j : Jail) : AgreeAll j j := by
  intro s; cases s <;> first | rfl | exact ⟨rfl, rfl⟩

theorem Agree.trans {j j' j'' : Jail} {s : Setting} (h : Agree j j' s) (h' : Agree j' j'' s) : Agree j j'' s := by
  cases s <;> first | exact Eq.trans h' h | exact ⟨h'.1.trans h.1, h'.2.trans h.2⟩

theorem AgreeAll.trans {j j' j'' : Jail} (h : AgreeAll j j') (h' : AgreeAll j' j'') : AgreeAll j j'' :=
  fun s => Agree.trans (h s) (h' s)

/-- The jails differ in fields that carry no setting. -/
theorem agreeAll_of {j j' : Jail} (h : (j'.uid, j'.user, j'.usergid, j'.gid, j'.suppl_gid_list, j'.suppl_gid_count, j'.caps, j'.cap_bset) =
      (j.uid, j.user, j.usergid, j.gid, j.suppl_gid_list, j.suppl_gid_count, j.caps, j.cap_bset))
    (h2 : (j'.securebits_skip_mask, j'.remount_mode, j'.tmpfs_size, j'.filter_prog, j'.filter_len, j'.uidmap, j'.gidmap) =
      (j.securebits_skip_mask, j.remount_mode, j.tmpfs_size, j.filter_prog, j.filter_len, j.uidmap, j.gidmap))
    (h3 : (j'.pid_file_path, j'.alt_syscall_table, j'.mountns_fd, j'.netns_fd, j'.flags.enable_default_runtime, j'.flags.enable_new_sessions, j'.flags.net_loopback) =
      (j.pid_file_path, j.alt_syscall_table, j.mountns_fd, j.netns_fd, j.flags.enable_default_runtime, j.flags.enable_new_sessions, j.flags.net_loopback))
    (h4 : (j'.chrootdir, j'.hostname, j'.preload_path, j'.remounts, j'.hooks, j'.rlimits, j'.rlimit_count, j'.preserved_fds, j'.preserved_fd_count, j'.cgroups, j'.cgroup_count) =
      (j.chrootdir, j.hostname, j.preload_path, j.remounts, j.hooks, j.rlimits, j.rlimit_count, j.preserved_fds, j.preserved_fd_count, j.cgroups, j.cgroup_count))
    (h5 : j'.mounts = j.mounts) (h6 : j'.fs_rules = j.fs_rules) : AgreeAll j j' := by
  simp only [Prod.mk.injEq] at h h2 h3 h4
  intro s
  cases s <;> simp only [Agree, h, h2, h3, h4, h5, h6, and_self]

/-- The jails agree on every setting but these. -/
def AgreeBut (G : List Setting) (j j' : Jail) : Prop := ∀ s, s ∉ G → Agree j j' s

theorem AgreeBut.refl (G : List Setting) (j : Jail) : AgreeBut G j j := fun s _ => AgreeAll.refl j s

theorem AgreeBut.trans {G : List Setting} {j j' j'' : Jail} (h : AgreeBut G j j') (h' : AgreeBut G j' j'') : AgreeBut G j j'' :=
  fun s hs => Agree.trans (h s hs) (h' s hs)

theorem AgreeAll.but {j j' : Jail} (G : List Setting) (h : AgreeAll j j') : AgreeBut G j j' := fun s _ => h s

theorem agreeAll_refer (k : LandlockKernel) (j : Jail) : AgreeAll j (fsReferSupported k j).2 := by
  unfold fsReferSupported
  dsimp only
  split_ifs <;> exact agreeAll_of rfl rfl rfl rfl rfl rfl

theorem agreeRules_refer (k : LandlockKernel) (j : Jail) : AgreeBut [.rules] j (fsReferSupported k j).2 := (agreeAll_refer k j).but _

theorem agree_addRule (j : Jail) (r : List FsRule) : AgreeBut [.rules] j { j with fs_rules := r } := by
  intro s hs
  cases s <;> first | rfl | exact ⟨rfl, rfl⟩ | exact (hs (.head _)).elim

theorem agreeRules_path (k : LandlockKernel) (j : Jail) (p : BStr) (f : BitVec 64) : AgreeBut [.rules] j (addFsRestrictionPath k j p f) := by
  have h := agree_addRule j (j.fs_rules ++ [⟨p, f⟩])
  unfold addFsRestrictionPath setupFsRulesFd
  dsimp only
  split_ifs
  · have := agreeRules_refer k { j with fs_rules := j.fs_rules ++ [⟨p, f⟩] }
    exact (h.trans this).trans ((agreeAll_of rfl rfl rfl rfl rfl rfl).but _)
  · exact h.trans ((agreeAll_of rfl rfl rfl rfl rfl rfl).but _)

theorem agreeRules_ignoring (env : ApiEnv) (j : Jail) (p : BStr) (f : BitVec 64) : AgreeBut [.rules] j (ruleIgnoring env j p f) := by
  unfold ruleIgnoring
  split_ifs
  · exact AgreeBut.refl _ j
  · exact agreeRules_path _ _ _ _

theorem agreeRules_rule (env : ApiEnv) (j : Jail) (p : BStr) (f : BitVec 64) : (addRule env j p f).Sat fun _ => AgreeBut [.rules] j := by
  unfold addRule
  split_ifs
  · exact AgreeBut.refl _ j
  · exact agreeRules_path _ _ _ _

theorem agreeRules_defaults (env : ApiEnv) (j : Jail) : AgreeBut [.rules] j (enableDefaultFsRestrictions env j) := by
  unfold enableDefaultFsRestrictions
  dsimp only
  repeat refine AgreeBut.trans ?_ (agreeRules_ignoring env _ _ _)
  exact AgreeBut.refl _ j

theorem agreeRules_mountRules (env : ApiEnv) (j : Jail) (m : Mountpoint) : AgreeBut [.rules] j (rulesForMount env j m) := by
  unfold rulesForMount
  dsimp only
  split_ifs
  · exact ((agreeRules_ignoring env j _ _).trans (agreeRules_refer _ _)).trans (agreeRules_ignoring env _ _ _)
  · exact ((agreeRules_ignoring env j _ _).trans (agreeRules_refer _ _)).trans (agreeRules_ignoring env _ _ _)
  · exact agreeRules_ignoring env j _ _

theorem agreeRules_mounts (env : ApiEnv) (ms : List Mountpoint) : ∀ j : Jail, AgreeBut [.rules] j (ms.foldl (rulesForMount env) j) := by
  induction ms with
  | nil => intro j; exact AgreeBut.refl _ j
  | cons m ms ih => intro j; exact (agreeRules_mountRules env j m).trans (ih _)

theorem agreeRules_minimalistic (env : ApiEnv) (j : Jail) : AgreeBut [.rules] j (addMinimalisticMountnsFsRules env j) := by
  have h1 := agreeRules_mounts env j.mounts j
  have h2 := ((h1.trans (agreeRules_defaults env _)).trans (agreeRules_ignoring env _ (bstr "/dev") (ACCESS_READ ||| ACCESS_EDIT))).trans
    (agreeRules_ignoring env _ (bstr "/proc") ACCESS_READ)
  unfold addMinimalisticMountnsFsRules
  dsimp only
  split
  · exact AgreeBut.refl _ j
  · split
    · exact h1
    · split
      · exact h2.trans (agreeRules_ignoring env _ _ _)
      · exact h2

theorem agree_addMounts (j : Jail) (ms : List Mountpoint) (n : Nat) (f : Flags) (h : f.enable_default_runtime = j.flags.enable_default_runtime ∧
    f.enable_new_sessions = j.flags.enable_new_sessions ∧ f.net_loopback = j.flags.net_loopback) :
    AgreeBut [.mounts] j { j with mounts := ms, mounts_count := n, flags := f } := by
  intro s hs
  cases s <;> first | rfl | exact ⟨rfl, rfl⟩ | exact (hs (.head _)).elim | exact h.1 | exact h.2.1 | exact h.2.2

theorem agreeMounts_mount (env : ApiEnv) (j : Jail) (s d t : BStr) (f : BitVec 64) (x : Option BStr) :
    (mountCall env j s d t f x).Sat fun _ => AgreeBut [.mounts] j := by
  unfold mountCall
  split
  · exact AgreeBut.refl _ j
  · rename_i j' hj
    split_ifs
    · exact AgreeBut.refl _ j
    · unfold mountWithData at hj
      dsimp only at hj
      split at hj
      · simp at hj
      injection hj with hj
      subst hj
      split_ifs <;> exact agree_addMounts j _ _ _ ⟨rfl, rfl, rfl⟩

/-- A call leaves the settings it does not give alone, whatever it returns. -/
def Frame (j : Jail) (c : Call) (j' : Jail) : Prop := ∀ s, s ∉ gives c → Agree j j' s

theorem frame_of {j j' : Jail} {c : Call} (h : AgreeAll j j') : Frame j c j' := fun s _ => h s

theorem sat_frame {j : Jail} {c : Call} {r : ApiRes} (h : r.Sat fun _ => AgreeBut (gives c) j) : r.Sat fun _ => Frame j c := h

theorem frame_should (env : ApiEnv) (j : Jail) (s : Setting) (h : s ≠ .filter) : Agree j (shouldUseFilters env j).2 s := by
  unfold shouldUseFilters
  split_ifs <;> cases s <;> first | rfl | exact ⟨rfl, rfl⟩ | exact absurd rfl h

set_option maxHeartbeats 1000000 in
theorem frame_call (env : ApiEnv) (j : Jail) (c : Call) : (call env j c).Sat fun _ => Frame j c := by
  cases c
  case mountWithData => exact sat_frame (agreeMounts_mount env j _ _ _ _ _)
  case mount => exact sat_frame (agreeMounts_mount env j _ _ _ _ _)
  case bind =>
    refine sat_frame ?_
    unfold call bindCall
    dsimp only
    split
    · exact AgreeBut.refl _ j
    · exact agreeMounts_mount env j _ _ _ _ _
  case addFsRestrictionRx => exact sat_frame (agreeRules_rule env j _ _)
  case addFsRestrictionRo => exact sat_frame (agreeRules_rule env j _ _)
  case addFsRestrictionRw => exact sat_frame (agreeRules_rule env j _ _)
  case addFsRestrictionEdit => exact sat_frame (agreeRules_rule env j _ _)
  case addFsRestrictionAccessRights => exact sat_frame (agreeRules_rule env j _ _)
  case addFsRestrictionAdvancedRw p =>
    refine sat_frame ?_
    have h1 := agreeRules_refer env.landlock j
    show ApiRes.Sat _ (addRuleAdvancedRw env j p)
    unfold addRuleAdvancedRw addRule
    dsimp only
    by_cases ho : env.oom = true
    · rw [if_pos ho]; exact h1
    · rw [if_neg ho]; exact h1.trans (agreeRules_path _ _ _ _)
  case addMinimalisticMountnsFsRules => exact agreeRules_minimalistic env j
  case enableDefaultFsRestrictions => exact agreeRules_defaults env j
  case changeUser =>
    unfold call changeUser changeUid
    dsimp only
    split
    · exact frame_of (AgreeAll.refl j)
    · split
      · trivial
      · rename_i heq
        split_ifs at heq
        cases heq
        split_ifs <;> intro s hs <;> cases s <;> first | rfl | exact ⟨rfl, rfl⟩ | exact (hs (.head _)).elim | exact (hs (.tail _ (.head _))).elim
  case parseSeccompFilters =>
    have := frame_should env j
    unfold call parseSeccompFilters
    dsimp only
    split
    · exact fun s hs => this s (by rintro rfl; exact (hs (.head _)).elim)
    · split
      · trivial
      · intro s hs
        refine Agree.trans (this s (by rintro rfl; exact (hs (.head _)).elim)) ?_
        cases s <;> first | rfl | exact ⟨rfl, rfl⟩ | exact (hs (.head _)).elim | exact (hs (.tail _ (.head _))).elim
  case parseSeccompFiltersFromFd =>
    have := frame_should env j
    unfold call parseSeccompFilters
    dsimp only
    split
    · exact fun s hs => this s (by rintro rfl; exact (hs (.head _)).elim)
    · split
      · trivial
      · intro s hs
        refine Agree.trans (this s (by rintro rfl; exact (hs (.head _)).elim)) ?_
        cases s <;> first | rfl | exact ⟨rfl, rfl⟩ | exact (hs (.head _)).elim | exact (hs (.tail _ (.head _))).elim
  case setSeccompFilters =>
    have := frame_should env j
    unfold call setSeccompFilters
    dsimp only
    split
    · exact fun s hs => this s (by rintro rfl; exact (hs (.head _)).elim)
    · split_ifs
      · trivial
      · trivial
      · intro s hs
        refine Agree.trans (this s (by rintro rfl; exact (hs (.head _)).elim)) ?_
        cases s <;> first | rfl | exact ⟨rfl, rfl⟩ | exact (hs (.head _)).elim | exact (hs (.tail _ (.head _))).elim
  all_goals first
    | exact frame_of (agreeAll_of rfl rfl rfl rfl rfl rfl)
    | (simp only [call, changeUid, changeGid, changeGroup, setSupplementaryGids, setSeccompFilterTsync,
        setSeccompFilterAllowSpeculation, namespaceEnterVfs, namespaceEnterNet,
        logSeccompFilterFailures, useCaps, capbsetDrop, namespaceSetHostname, setUidmap, setGidmap, enterChrootCall,
        enterPivotRootCall, writePidFile, addToCgroup, setRlimit, addRemount, addHook, preserveFd, setPreloadPath, useAltSyscall,
        setFlags]
       (repeat' split) <;> first
        | trivial
        | exact frame_of (agreeAll_of rfl rfl rfl rfl rfl rfl)
        | (intro s hs
           cases s <;> first | rfl | exact ⟨rfl, rfl⟩ | exact (hs (.head _)).elim | exact (hs (.tail _ (.head _))).elim))

theorem should_hard (env : ApiEnv) (j : Jail) (h : env.softfail = false) : (shouldUseFilters env j).1 = true := by
  unfold shouldUseFilters
  simp only [h, Bool.false_eq_true, and_false, if_false]
  split_ifs <;> rfl

/-- A call that reports success has recorded its value. -/
theorem holds_now (env : ApiEnv) (j : Jail) (c : Call) (hc : GoodCall env c) :
    (call env j c).Sat fun rc j' => rc = success c → Holds env j' c := by
  cases c
  case changeUser n =>
    unfold call changeUser changeUid
    dsimp only
    split
    · rename_i rc hrc
      intro h
      exact absurd h (hc.2 rc hrc)
    · rename_i uid gid hu
      split
      · trivial
      · rename_i heq
        split_ifs at heq
        cases heq
        split_ifs
        · intro h; simp [success, addsRule, ENOMEM] at h
        · intro _; exact ⟨rfl, hu⟩
  case changeGroup n =>
    unfold call changeGroup changeGid
    dsimp only
    split
    · rename_i rc hrc
      intro h
      exact absurd h (hc rc hrc)
    · rename_i gid hu
      split_ifs
      · trivial
      · intro _; exact hu
  case parseSeccompFilters =>
    unfold call parseSeccompFilters
    dsimp only
    split
    · rename_i h0
      intro _ hs
      rw [should_hard env j hs] at h0
      simp at h0
    · split
      · trivial
      · rename_i prog hp
        intro _ _
        exact ⟨hp.symm, rfl⟩
  case parseSeccompFiltersFromFd =>
    unfold call parseSeccompFilters
    dsimp only
    split
    · rename_i h0
      intro _ hs
      rw [should_hard env j hs] at h0
      simp at h0
    · split
      · trivial
      · rename_i prog hp
        intro _ _
        exact ⟨hp.symm, rfl⟩
  case setSeccompFilters =>
    unfold call setSeccompFilters
    dsimp only
    split
    · rename_i h0
      intro _ hs
      rw [should_hard env j hs] at h0
      simp at h0
    · split_ifs
      · trivial
      · trivial
      · intro _ _
        exact ⟨rfl, rfl⟩
  case setSupplementaryGids l =>
    unfold call setSupplementaryGids
    dsimp only
    split_ifs with h1 h2 h3
    · trivial
    · trivial
    · intro _
      have : l = [] := List.length_eq_zero_iff.1 h3
      subst this
      exact ⟨rfl, rfl⟩
    · trivial
    · intro _; exact ⟨rfl, rfl⟩
  case namespaceEnterVfs =>
    unfold call namespaceEnterVfs
    dsimp only
    split
    · trivial
    · rename_i fd hf; intro _; exact hf
  case namespaceEnterNet =>
    unfold call namespaceEnterNet
    dsimp only
    split
    · trivial
    · rename_i fd hf; intro _; exact hf
  case changeUid => unfold call changeUid; dsimp only; split_ifs <;> first | trivial | exact fun _ => rfl
  case changeGid => unfold call changeGid; dsimp only; split_ifs <;> first | trivial | exact fun _ => rfl
  case capbsetDrop => unfold call capbsetDrop; dsimp only; split_ifs <;> first | trivial | exact fun _ => rfl
  case uidmap =>
    unfold call setUidmap; dsimp only
    split_ifs <;> first | exact fun _ => rfl | (intro h; simp [success, addsRule, ENOMEM] at h)
  case gidmap =>
    unfold call setGidmap; dsimp only
    split_ifs <;> first | exact fun _ => rfl | (intro h; simp [success, addsRule, ENOMEM] at h)
  case writePidFile =>
    unfold call writePidFile; dsimp only
    split_ifs <;> first | exact fun _ => rfl | (intro h; simp [success, addsRule, ENOMEM] at h)
  case useAltSyscall =>
    unfold call useAltSyscall; dsimp only
    split_ifs <;> first | exact fun _ => rfl | (intro h; simp [success, addsRule, ENOMEM] at h)
  case enterChroot =>
    unfold call enterChrootCall; dsimp only
    split_ifs <;> first | exact fun _ => rfl | (intro h; simp [success, addsRule, ENOMEM, EINVAL] at h)
  case enterPivotRoot =>
    unfold call enterPivotRootCall; dsimp only
    split_ifs <;> first | exact fun _ => rfl | (intro h; simp [success, addsRule, ENOMEM, EINVAL] at h)
  case namespaceSetHostname =>
    unfold call namespaceSetHostname; dsimp only
    split_ifs <;> first | exact fun _ => rfl | (intro h; simp [success, addsRule, ENOMEM, EINVAL] at h)
  case setPreloadPath =>
    unfold call setPreloadPath; dsimp only
    split_ifs <;> first | exact fun _ => rfl | (intro h; simp [success, addsRule, ENOMEM, EINVAL] at h)
  case useCaps m => intro _; rfl
  case skipSettingSecurebits m => intro _; rfl
  case remountMode m => intro _; rfl
  case skipRemountPrivate => intro _; rfl
  case mountTmp => intro _; rfl
  case mountTmpSize s => intro _; rfl
  case setEnableDefaultRuntime b => intro _; rfl
  case setEnableNewSessions b => intro _; rfl
  case namespaceNet => intro _; rfl
  case namespaceNetLoopback b => intro _; rfl
  all_goals
    generalize call env j _ = r
    cases r with
    | die => trivial
    | ret rc j' => exact fun _ => trivial

/-- Whether the value holds depends on the settings the call gives. -/
theorem holds_agree (env : ApiEnv) (j j' : Jail) (c : Call) (h : ∀ s ∈ gives c, Agree j j' s) (hh : Holds env j c) :
    Holds env j' c := by
  cases c
  case changeUser n =>
    have h1 : j'.uid = j.uid := h .uid (.head _)
    have h2 : j'.user = j.user ∧ j'.usergid = j.usergid := h .user (.tail _ (.head _))
    unfold Holds at hh ⊢
    rw [h1, h2.1, h2.2]; exact hh
  case changeUid => have h1 : j'.uid = j.uid := h .uid (.head _); unfold Holds at hh ⊢; rw [h1]; exact hh
  case changeGid => have h1 : j'.gid = j.gid := h .gid (.head _); unfold Holds at hh ⊢; rw [h1]; exact hh
  case changeGroup => have h1 : j'.gid = j.gid := h .gid (.head _); unfold Holds at hh ⊢; rw [h1]; exact hh
  case setSupplementaryGids =>
    have h1 : j'.suppl_gid_list = j.suppl_gid_list ∧ j'.suppl_gid_count = j.suppl_gid_count := h .groups (.head _)
    unfold Holds at hh ⊢; rw [h1.1, h1.2]; exact hh
  case useCaps => have h1 : j'.caps = j.caps := h .caps (.head _); unfold Holds at hh ⊢; rw [h1]; exact hh
  case capbsetDrop => have h1 : j'.cap_bset = j.cap_bset := h .bounding (.head _); unfold Holds at hh ⊢; rw [h1]; exact hh
  case skipSettingSecurebits =>
    have h1 : j'.securebits_skip_mask = j.securebits_skip_mask := h .skipMask (.head _)
    unfold Holds at hh ⊢; rw [h1]; exact hh
  case remountMode =>
    have h1 : j'.remount_mode = j.remount_mode := h .propagation (.head _); unfold Holds at hh ⊢; rw [h1]; exact hh
  case skipRemountPrivate =>
    have h1 : j'.remount_mode = j.remount_mode := h .propagation (.head _); unfold Holds at hh ⊢; rw [h1]; exact hh
  case mountTmp => have h1 : j'.tmpfs_size = j.tmpfs_size := h .tmpSize (.head _); unfold Holds at hh ⊢; rw [h1]; exact hh
  case mountTmpSize => have h1 : j'.tmpfs_size = j.tmpfs_size := h .tmpSize (.head _); unfold Holds at hh ⊢; rw [h1]; exact hh
  case parseSeccompFilters =>
    have h1 : j'.filter_prog = j.filter_prog ∧ j'.filter_len = j.filter_len := h .filter (.head _)
    unfold Holds at hh ⊢; rw [h1.1, h1.2]; exact hh
  case parseSeccompFiltersFromFd =>
    have h1 : j'.filter_prog = j.filter_prog ∧ j'.filter_len = j.filter_len := h .filter (.head _)
    unfold Holds at hh ⊢; rw [h1.1, h1.2]; exact hh
  case setSeccompFilters =>
    have h1 : j'.filter_prog = j.filter_prog ∧ j'.filter_len = j.filter_len := h .filter (.head _)
    unfold Holds at hh ⊢; rw [h1.1, h1.2]; exact hh
  case uidmap => have h1 : j'.uidmap = j.uidmap := h .uidmap (.head _); unfold Holds at hh ⊢; rw [h1]; exact hh
  case gidmap => have h1 : j'.gidmap = j.gidmap := h .gidmap (.head _); unfold Holds at hh ⊢; rw [h1]; exact hh
  case writePidFile =>
    have h1 : j'.pid_file_path = j.pid_file_path := h .pidFile (.head _); unfold Holds at hh ⊢; rw [h1]; exact hh
  case useAltSyscall =>
    have h1 : j'.alt_syscall_table = j.alt_syscall_table := h .table (.head _); unfold Holds at hh ⊢; rw [h1]; exact hh
  case namespaceEnterVfs =>
    have h1 : j'.mountns_fd = j.mountns_fd := h .mountNs (.head _); unfold Holds at hh ⊢; rw [h1]; exact hh
  case namespaceEnterNet =>
    have h1 : j'.netns_fd = j.netns_fd := h .netNs (.head _); unfold Holds at hh ⊢; rw [h1]; exact hh
  case setEnableDefaultRuntime =>
    have h1 : j'.flags.enable_default_runtime = j.flags.enable_default_runtime := h .runtime (.head _); unfold Holds at hh ⊢; rw [h1]; exact hh
  case setEnableNewSessions =>
    have h1 : j'.flags.enable_new_sessions = j.flags.enable_new_sessions := h .sessions (.head _); unfold Holds at hh ⊢; rw [h1]; exact hh
  case enterChroot => have h1 : j'.chrootdir = j.chrootdir := h .root (.head _); unfold Holds at hh ⊢; rw [h1]; exact hh
  case enterPivotRoot => have h1 : j'.chrootdir = j.chrootdir := h .root (.head _); unfold Holds at hh ⊢; rw [h1]; exact hh
  case namespaceSetHostname => have h1 : j'.hostname = j.hostname := h .hostname (.head _); unfold Holds at hh ⊢; rw [h1]; exact hh
  case setPreloadPath => have h1 : j'.preload_path = j.preload_path := h .preload (.head _); unfold Holds at hh ⊢; rw [h1]; exact hh
  case namespaceNet => have h1 : j'.flags.net_loopback = j.flags.net_loopback := h .loopback (.head _); unfold Holds at hh ⊢; rw [h1]; exact hh
  case namespaceNetLoopback => have h1 : j'.flags.net_loopback = j.flags.net_loopback := h .loopback (.head _); unfold Holds at hh ⊢; rw [h1]; exact hh
  all_goals trivial

theorem agree_calls (cs : List (ApiEnv × Call)) (s : Setting) : ∀ j j' : Jail, (∀ e ∈ cs, s ∉ gives e.2) →
    calls j cs = some j' → Agree j j' s := by
  induction cs with
  | nil => intro j j' _ e; simp only [calls, Option.some.injEq] at e; exact e ▸ AgreeAll.refl j s
  | cons p cs ih =>
    intro j j' hg e
    obtain ⟨env, c⟩ := p
    have h1 := frame_call env j c
    simp only [calls] at e
    revert h1 e
    cases call env j c with
    | die => intro e _; simp at e
    | ret rc j1 =>
      intro e h1
      exact Agree.trans (h1 s (hg (env, c) (by simp))) (ih j1 j' (fun p hp => hg p (by simp [hp])) e)

/-- **C49**: when a call that gives settings a value reports success, and no later call gives one of these settings, the
value is the one recorded in the end; whatever the jail was before and whatever else is called. -/
theorem C49_last (i i' j : Jail) (env : ApiEnv) (c : Call) (after : List (ApiEnv × Call)) (hc : GoodCall env c)
    (h : call env i c = .ret (success c) i') (hl : ∀ e ∈ after, ∀ s ∈ gives c, s ∉ gives e.2)
    (ha : calls i' after = some j) : Holds env j c := by
  have h1 := holds_now env i c hc
  rw [h] at h1
  exact holds_agree env i' j c (fun s hs => agree_calls after s i' j (fun e he => hl e he s hs) ha) (h1 rfl)

/-- **C49**, frame: a call changes no setting but those it gives, whatever it returns. -/
theorem C49_frame (env : ApiEnv) (j j' : Jail) (c : Call) (rc : Int) (h : call env j c = .ret rc j') (s : Setting)
    (hs : s ∉ gives c) : Agree j j' s := by
  have h1 := frame_call env j c
  rw [h] at h1
  exact h1 s hs

/-- A jail whose user is changed, followed by other calls; the hypotheses of `C49_last` are met. -/
example : ∃ i' j, call { userDb := fun _ => .ok (7#32, 8#32) } minijailNew (.changeUser (bstr "bob")) = .ret (success (.changeUser (bstr "bob"))) i' ∧
    calls i' [({}, .changeGid 9#32), ({}, .useCaps 1#64), ({}, .mountTmp)] = some j ∧ j.uid = 7#32 :=
  ⟨_, _, rfl, rfl, rfl⟩

/-- A value that is replaced: the later one counts. -/
example : ((calls minijailNew [({}, .remountMode 5#64), ({}, .useCaps 3#64), ({}, .useCaps 1#64)]).map
    fun j => (j.caps, j.remount_mode)) = some (1#64, 5#64) := by decide +kernel

end Minijail
