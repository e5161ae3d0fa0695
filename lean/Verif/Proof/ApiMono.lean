import Verif.Proof.Api
/-! What later configuration calls keep. -/
set_option autoImplicit false
set_option linter.unusedSimpArgs false
namespace Minijail
open Spec

/-- Flags that later calls never clear. -/
structure FlagsKept (f g : Flags) : Prop where
  uid : f.uid = true → g.uid = true
  gid : f.gid = true → g.gid = true
  set_suppl_gids : f.set_suppl_gids = true → g.set_suppl_gids = true
  inherit_suppl_gids : f.inherit_suppl_gids = true → g.inherit_suppl_gids = true
  keep_suppl_gids : f.keep_suppl_gids = true → g.keep_suppl_gids = true
  use_caps : f.use_caps = true → g.use_caps = true
  using_minimalistic_mountns : f.using_minimalistic_mountns = true → g.using_minimalistic_mountns = true
  run_as_init : f.run_as_init = true → g.run_as_init = true
  set_ambient_caps : f.set_ambient_caps = true → g.set_ambient_caps = true
  capbset : f.capbset_drop = true ∨ f.use_caps = true → g.capbset_drop = true ∨ g.use_caps = true
  vfs : f.vfs = true → g.vfs = true
  enter_vfs : f.enter_vfs = true → g.enter_vfs = true
  pids : f.pids = true → g.pids = true
  ipc : f.ipc = true → g.ipc = true
  uts : f.uts = true → g.uts = true
  net : f.net = true → g.net = true
  enter_net : f.enter_net = true → g.enter_net = true
  ns_cgroups : f.ns_cgroups = true → g.ns_cgroups = true
  userns : f.userns = true → g.userns = true
  disable_setgroups : f.disable_setgroups = true → g.disable_setgroups = true
  seccomp : f.seccomp = true → g.seccomp = true
  remount_proc_ro : f.remount_proc_ro = true → g.remount_proc_ro = true
  chroot : f.chroot = true → g.chroot = true
  pivot_root : f.pivot_root = true → g.pivot_root = true
  mount_dev : f.mount_dev = true → g.mount_dev = true
  mount_tmp : f.mount_tmp = true → g.mount_tmp = true
  do_init : f.do_init = true → g.do_init = true
  pid_file : f.pid_file = true → g.pid_file = true
  cgroups : f.cgroups = true → g.cgroups = true
  alt_syscall : f.alt_syscall = true → g.alt_syscall = true
  reset_signal_mask : f.reset_signal_mask = true → g.reset_signal_mask = true
  reset_signal_handlers : f.reset_signal_handlers = true → g.reset_signal_handlers = true
  close_open_fds : f.close_open_fds = true → g.close_open_fds = true
  new_session_keyring : f.new_session_keyring = true → g.new_session_keyring = true
  forward_signals : f.forward_signals = true → g.forward_signals = true
  setsid : f.setsid = true → g.setsid = true

/-- Flags that later calls clear only when seccomp is allowed to be missing. -/
structure SeccompKept (f g : Flags) : Prop where
  no_new_privs : f.no_new_privs = true → g.no_new_privs = true
  seccomp_filter : f.seccomp_filter = true → g.seccomp_filter = true
  tsync : f.seccomp_filter_tsync = true → g.seccomp_filter_tsync = true

theorem FlagsKept.refl (f : Flags) : FlagsKept f f := by constructor <;> exact id
theorem SeccompKept.refl (f : Flags) : SeccompKept f f := by constructor <;> exact id

theorem FlagsKept.trans {f g h : Flags} (a : FlagsKept f g) (b : FlagsKept g h) : FlagsKept f h where
  uid := b.uid ∘ a.uid
  gid := b.gid ∘ a.gid
  set_suppl_gids := b.set_suppl_gids ∘ a.set_suppl_gids
  inherit_suppl_gids := b.inherit_suppl_gids ∘ a.inherit_suppl_gids
  keep_suppl_gids := b.keep_suppl_gids ∘ a.keep_suppl_gids
  use_caps := b.use_caps ∘ a.use_caps
  using_minimalistic_mountns := b.using_minimalistic_mountns ∘ a.using_minimalistic_mountns
  run_as_init := b.run_as_init ∘ a.run_as_init
  set_ambient_caps := b.set_ambient_caps ∘ a.set_ambient_caps
  capbset := b.capbset ∘ a.capbset
  vfs := b.vfs ∘ a.vfs
  enter_vfs := b.enter_vfs ∘ a.enter_vfs
  pids := b.pids ∘ a.pids
  ipc := b.ipc ∘ a.ipc
  uts := b.uts ∘ a.uts
  net := b.net ∘ a.net
  enter_net := b.enter_net ∘ a.enter_net
  ns_cgroups := b.ns_cgroups ∘ a.ns_cgroups
  userns := b.userns ∘ a.userns
  disable_setgroups := b.disable_setgroups ∘ a.disable_setgroups
  seccomp := b.seccomp ∘ a.seccomp
  remount_proc_ro := b.remount_proc_ro ∘ a.remount_proc_ro
  chroot := b.chroot ∘ a.chroot
  pivot_root := b.pivot_root ∘ a.pivot_root
  mount_dev := b.mount_dev ∘ a.mount_dev
  mount_tmp := b.mount_tmp ∘ a.mount_tmp
  do_init := b.do_init ∘ a.do_init
  pid_file := b.pid_file ∘ a.pid_file
  cgroups := b.cgroups ∘ a.cgroups
  alt_syscall := b.alt_syscall ∘ a.alt_syscall
  reset_signal_mask := b.reset_signal_mask ∘ a.reset_signal_mask
  reset_signal_handlers := b.reset_signal_handlers ∘ a.reset_signal_handlers
  close_open_fds := b.close_open_fds ∘ a.close_open_fds
  new_session_keyring := b.new_session_keyring ∘ a.new_session_keyring
  forward_signals := b.forward_signals ∘ a.forward_signals
  setsid := b.setsid ∘ a.setsid

theorem SeccompKept.trans {f g h : Flags} (a : SeccompKept f g) (b : SeccompKept g h) : SeccompKept f h :=
  ⟨b.no_new_privs ∘ a.no_new_privs, b.seccomp_filter ∘ a.seccomp_filter, b.tsync ∘ a.tsync⟩

/-- Everything a call may only add to. `soft`: seccomp may be missing. -/
structure Kept (soft : Bool) (j k : Jail) : Prop where
  flags : FlagsKept j.flags k.flags
  seccomp : soft = false → SeccompKept j.flags k.flags
  chrootdir : ∀ x, j.chrootdir = some x → k.chrootdir = some x
  hostname : ∀ x, j.hostname = some x → k.hostname = some x
  preload : ∀ x, j.preload_path = some x → k.preload_path = some x
  mounts : j.mounts <+: k.mounts
  remounts : j.remounts <+: k.remounts
  fsRules : j.fs_rules <+: k.fs_rules
  hooks : j.hooks <+: k.hooks
  cgroups : j.cgroups <+: k.cgroups
  rlimits : j.rlimits.take j.rlimit_count <+: k.rlimits.take k.rlimit_count
  preserved : j.preserved_fds.take j.preserved_fd_count <+: k.preserved_fds.take k.preserved_fd_count

theorem Kept.refl (s : Bool) (j : Jail) : Kept s j j where
  flags := FlagsKept.refl _
  seccomp := fun _ => SeccompKept.refl _
  chrootdir := fun _ => id
  hostname := fun _ => id
  preload := fun _ => id
  mounts := List.prefix_refl _
  remounts := List.prefix_refl _
  fsRules := List.prefix_refl _
  hooks := List.prefix_refl _
  cgroups := List.prefix_refl _
  rlimits := List.prefix_refl _
  preserved := List.prefix_refl _

theorem Kept.trans {s : Bool} {i j k : Jail} (a : Kept s i j) (b : Kept s j k) : Kept s i k where
  flags := a.flags.trans b.flags
  seccomp := fun h => (a.seccomp h).trans (b.seccomp h)
  chrootdir := fun x h => b.chrootdir x (a.chrootdir x h)
  hostname := fun x h => b.hostname x (a.hostname x h)
  preload := fun x h => b.preload x (a.preload x h)
  mounts := a.mounts.trans b.mounts
  remounts := a.remounts.trans b.remounts
  fsRules := a.fsRules.trans b.fsRules
  hooks := a.hooks.trans b.hooks
  cgroups := a.cgroups.trans b.cgroups
  rlimits := a.rlimits.trans b.rlimits
  preserved := a.preserved.trans b.preserved

theorem Kept.ofFlags (s : Bool) (j : Jail) (g : Flags) (h : FlagsKept j.flags g) (h' : SeccompKept j.flags g) :
    Kept s j { j with flags := g } := { Kept.refl s j with flags := h, seccomp := fun _ => h' }

theorem kept_path (s : Bool) (j : Jail) (k : LandlockKernel) (p : BStr) (f : BitVec 64) :
    Kept s j (addFsRestrictionPath k j p f) := by
  unfold addFsRestrictionPath setupFsRulesFd fsReferSupported
  dsimp only
  split_ifs <;> exact { Kept.refl s j with fsRules := List.prefix_append _ _ }

theorem kept_refer (s : Bool) (j : Jail) (k : LandlockKernel) : Kept s j (fsReferSupported k j).2 := by
  unfold fsReferSupported
  dsimp only
  split_ifs <;> exact { Kept.refl s j with }

theorem kept_ruleIgnoring (s : Bool) (j : Jail) (env : ApiEnv) (p : BStr) (f : BitVec 64) :
    Kept s j (ruleIgnoring env j p f) := by
  unfold ruleIgnoring
  split_ifs
  · exact Kept.refl s j
  · exact kept_path s j _ p f

theorem kept_rule (s : Bool) (j : Jail) (env : ApiEnv) (p : BStr) (f : BitVec 64) :
    (addRule env j p f).Sat fun _ => Kept s j := by
  unfold addRule
  split_ifs
  · exact Kept.refl s j
  · exact kept_path s j _ p f

theorem kept_defaults (s : Bool) (j : Jail) (env : ApiEnv) : Kept s j (enableDefaultFsRestrictions env j) := by
  unfold enableDefaultFsRestrictions
  dsimp only
  repeat refine Kept.trans ?_ (kept_ruleIgnoring s _ env _ _)
  exact Kept.refl s j

theorem kept_rulesForMount (s : Bool) (j : Jail) (env : ApiEnv) (m : Mountpoint) : Kept s j (rulesForMount env j m) := by
  unfold rulesForMount
  dsimp only
  split
  · exact ((kept_ruleIgnoring s j env _ _).trans (kept_refer s _ _)).trans (kept_ruleIgnoring s _ env _ _)
  · exact kept_ruleIgnoring s j env _ _

theorem kept_rulesForMounts (s : Bool) (env : ApiEnv) (ms : List Mountpoint) :
    ∀ j : Jail, Kept s j (ms.foldl (rulesForMount env) j) := by
  induction ms with
  | nil => intro j; exact Kept.refl s j
  | cons m ms ih => intro j; exact (kept_rulesForMount s j env m).trans (ih _)

theorem kept_minimalistic (s : Bool) (j : Jail) (env : ApiEnv) : Kept s j (addMinimalisticMountnsFsRules env j) := by
  have h1 : Kept s j (j.mounts.foldl (rulesForMount env) j) := kept_rulesForMounts s env j.mounts j
  have h2 := ((h1.trans (kept_defaults s _ env)).trans (kept_ruleIgnoring s _ env (bstr "/dev")
    (ACCESS_READ ||| ACCESS_EDIT))).trans (kept_ruleIgnoring s _ env (bstr "/proc") ACCESS_READ)
  unfold addMinimalisticMountnsFsRules
  dsimp only
  split
  · exact Kept.refl s j
  · split
    · exact h1
    · split
      · exact h2.trans (kept_ruleIgnoring s _ env _ _)
      · exact h2

theorem kept_mount (s : Bool) (j : Jail) (env : ApiEnv) (src d t : BStr) (f : BitVec 64) (x : Option BStr) :
    (mountCall env j src d t f x).Sat fun _ => Kept s j := by
  unfold mountCall
  split
  · exact Kept.refl s j
  · rename_i j' hj
    split_ifs
    · exact Kept.refl s j
    · unfold mountWithData at hj
      dsimp only at hj
      split at hj
      · simp at hj
      injection hj with hj
      subst hj
      by_cases he : j.flags.enter_vfs = true
      · simp only [he, Bool.not_true, Bool.false_eq_true, if_false]
        exact { Kept.refl s j with mounts := List.prefix_append _ _ }
      · simp only [Bool.not_eq_true] at he
        simp only [he, Bool.not_false, if_true, namespaceVfs]
        exact { Kept.refl s j with
          mounts := List.prefix_append _ _
          flags := { FlagsKept.refl j.flags with vfs := fun _ => rfl, enter_vfs := fun q => by simp [he] at q }
          seccomp := fun _ => { SeccompKept.refl j.flags with } }

theorem kept_clear (j : Jail) : Kept true j (clearSeccompOptions j) :=
  { Kept.refl true j with flags := { FlagsKept.refl j.flags with }, seccomp := fun h => by simp at h }

theorem kept_should (j : Jail) (env : ApiEnv) : Kept env.softfail j (shouldUseFilters env j).2 := by
  unfold shouldUseFilters
  split_ifs with h1 h2 h3
  · rw [h1.2]; exact kept_clear j
  · rw [h2.2.2]; exact kept_clear j
  · exact { Kept.refl env.softfail j with
      flags := { FlagsKept.refl j.flags with }, seccomp := fun _ => { SeccompKept.refl j.flags with } }
  · exact Kept.refl _ j

theorem kept_parse (j : Jail) (env : ApiEnv) (f p : Option BStr) :
    (parseSeccompFilters env j f p).Sat fun _ => Kept env.softfail j := by
  have h := kept_should j env
  unfold parseSeccompFilters
  dsimp only
  split
  · exact h
  · split
    · trivial
    · exact { h with }

theorem kept_setFilters (j : Jail) (env : ApiEnv) (p : List Insn) :
    (setSeccompFilters env j p).Sat fun _ => Kept env.softfail j := by
  have h := kept_should j env
  unfold setSeccompFilters
  dsimp only
  split
  · exact h
  · split_ifs
    · trivial
    · trivial
    · exact { h with }

theorem kept_changeUid (s : Bool) (j : Jail) (u : BitVec 32) : (changeUid j u).Sat fun _ => Kept s j := by
  unfold changeUid
  split_ifs
  · trivial
  · exact { Kept.refl s j with
      flags := { FlagsKept.refl j.flags with uid := fun _ => rfl }, seccomp := fun _ => { SeccompKept.refl j.flags with } }

theorem kept_changeGid (s : Bool) (j : Jail) (u : BitVec 32) : (changeGid j u).Sat fun _ => Kept s j := by
  unfold changeGid
  split_ifs
  · trivial
  · exact { Kept.refl s j with
      flags := { FlagsKept.refl j.flags with gid := fun _ => rfl }, seccomp := fun _ => { SeccompKept.refl j.flags with } }

/-- Closes goals about a call that leaves everything but some flags and unlisted fields. -/
macro "kept_simple" j:ident s:term : tactic => `(tactic|
  exact { Kept.refl $s $j with
    flags := by constructor <;> first | exact id | exact fun _ => rfl | exact fun _ => Or.inl rfl | exact fun _ => Or.inr rfl
    seccomp := fun _ => by constructor <;> first | exact id | exact fun _ => rfl })

theorem kept_call {j : Jail} (h : Inv j) (env : ApiEnv) (c : Call) : (call env j c).Sat fun _ => Kept env.softfail j := by
  cases c
  case changeUid => exact kept_changeUid _ j _
  case changeGid => exact kept_changeGid _ j _
  case setSupplementaryGids =>
    unfold call setSupplementaryGids
    dsimp only
    split_ifs <;> first | trivial | kept_simple j env.softfail
  case changeUser u =>
    unfold call changeUser
    dsimp only
    split
    · exact Kept.refl _ j
    · rename_i uid gid _
      have := kept_changeUid env.softfail j uid
      revert this
      cases changeUid j uid with
      | die => intro _; trivial
      | ret rc j' =>
        intro h'
        replace h' : Kept env.softfail j j' := h'
        dsimp only
        split_ifs <;> exact { h' with }
  case changeGroup g =>
    unfold call changeGroup
    dsimp only
    split
    · exact Kept.refl _ j
    · exact kept_changeGid _ j _
  case setSeccompFilterTsync =>
    unfold call setSeccompFilterTsync
    dsimp only
    split_ifs <;> first | trivial | kept_simple j env.softfail
  case setSeccompFilterAllowSpeculation =>
    unfold call setSeccompFilterAllowSpeculation
    dsimp only
    split_ifs <;> first | trivial | kept_simple j env.softfail
  case logSeccompFilterFailures =>
    unfold call logSeccompFilterFailures
    dsimp only
    split_ifs <;> first | trivial | kept_simple j env.softfail
  case addMinimalisticMountnsFsRules => exact kept_minimalistic _ j env
  case enableDefaultFsRestrictions => exact kept_defaults _ j env
  case useCaps =>
    unfold call useCaps
    dsimp only
    split_ifs <;> kept_simple j env.softfail
  case capbsetDrop =>
    unfold call capbsetDrop
    dsimp only
    split_ifs <;> first | trivial | kept_simple j env.softfail
  case namespaceEnterVfs p =>
    unfold call namespaceEnterVfs
    dsimp only
    split
    · trivial
    · kept_simple j env.softfail
  case namespaceEnterNet p =>
    unfold call namespaceEnterNet
    dsimp only
    split
    · trivial
    · kept_simple j env.softfail
  case namespaceSetHostname n =>
    unfold call namespaceSetHostname
    dsimp only
    split_ifs with h1
    · exact Kept.refl _ j
    · kept_simple j env.softfail
    · exact { Kept.refl env.softfail j with
        flags := { FlagsKept.refl j.flags with uts := fun _ => rfl }
        seccomp := fun _ => { SeccompKept.refl j.flags with }
        hostname := fun x hx => by simp [hx] at h1 }
  case uidmap =>
    unfold call setUidmap
    dsimp only
    split_ifs <;> kept_simple j env.softfail
  case gidmap =>
    unfold call setGidmap
    dsimp only
    split_ifs <;> kept_simple j env.softfail
  case enterChroot =>
    unfold call enterChrootCall
    dsimp only
    split_ifs with h1
    · exact Kept.refl _ j
    · exact Kept.refl _ j
    · exact { Kept.refl env.softfail j with
        flags := { FlagsKept.refl j.flags with chroot := fun _ => rfl }
        seccomp := fun _ => { SeccompKept.refl j.flags with }
        chrootdir := fun x hx => by simp [hx] at h1 }
  case enterPivotRoot =>
    unfold call enterPivotRootCall
    dsimp only
    split_ifs with h1
    · exact Kept.refl _ j
    · exact Kept.refl _ j
    · exact { Kept.refl env.softfail j with
        flags := { FlagsKept.refl j.flags with pivot_root := fun _ => rfl }
        seccomp := fun _ => { SeccompKept.refl j.flags with }
        chrootdir := fun x hx => by simp [hx] at h1 }
  case writePidFile =>
    unfold call writePidFile
    dsimp only
    split_ifs <;> kept_simple j env.softfail
  case addToCgroup =>
    unfold call addToCgroup
    dsimp only
    split_ifs
    · exact Kept.refl _ j
    · exact Kept.refl _ j
    · exact { Kept.refl env.softfail j with
        flags := { FlagsKept.refl j.flags with cgroups := fun _ => rfl }
        seccomp := fun _ => { SeccompKept.refl j.flags with }
        cgroups := List.prefix_append _ _ }
  case rlimit =>
    unfold call setRlimit
    dsimp only
    split_ifs with h1 h2
    · exact Kept.refl _ j
    · exact Kept.refl _ j
    · have hlt : j.rlimit_count < j.rlimits.length := by rw [h.1.rlimits]; simpa [MAX_RLIMITS] using h1
      refine { Kept.refl env.softfail j with rlimits := ?_ }
      dsimp only
      rw [take_set_succ _ _ _ hlt]
      exact List.prefix_append _ _
  case addFsRestrictionRx => exact kept_rule _ j env _ _
  case addFsRestrictionRo => exact kept_rule _ j env _ _
  case addFsRestrictionRw => exact kept_rule _ j env _ _
  case addFsRestrictionAdvancedRw p =>
    have h2 := kept_refer env.softfail j env.landlock
    unfold call addRuleAdvancedRw addRule
    dsimp only
    by_cases ho : env.oom = true
    · rw [if_pos ho]; exact h2
    · rw [if_neg ho]; exact h2.trans (kept_path _ _ _ _ _)
  case addFsRestrictionEdit => exact kept_rule _ j env _ _
  case addFsRestrictionAccessRights => exact kept_rule _ j env _ _
  case mountWithData => exact kept_mount _ j env _ _ _ _ _
  case mount => exact kept_mount _ j env _ _ _ _ _
  case bind =>
    unfold call bindCall
    dsimp only
    split
    · exact Kept.refl _ j
    · exact kept_mount _ j env _ _ _ _ _
  case addRemount =>
    unfold call addRemount
    dsimp only
    split_ifs <;> first | exact Kept.refl _ j | exact { Kept.refl env.softfail j with remounts := List.prefix_append _ _ }
  case addHook =>
    unfold call addHook
    dsimp only
    split_ifs <;> first | exact Kept.refl _ j | exact { Kept.refl env.softfail j with hooks := List.prefix_append _ _ }
  case preserveFd =>
    unfold call preserveFd
    dsimp only
    split_ifs with h1 h2
    · exact Kept.refl _ j
    · exact Kept.refl _ j
    · have hlt : j.preserved_fd_count < j.preserved_fds.length := by
        rw [h.1.preserved]; simpa [MAX_PRESERVED_FDS] using h2
      refine { Kept.refl env.softfail j with preserved := ?_ }
      dsimp only
      rw [take_set_succ _ _ _ hlt]
      exact List.prefix_append _ _
  case setPreloadPath =>
    unfold call setPreloadPath
    dsimp only
    split_ifs with h1
    · exact Kept.refl _ j
    · exact Kept.refl _ j
    · exact { Kept.refl env.softfail j with preload := fun x hx => by simp [hx] at h1 }
  case parseSeccompFilters => exact kept_parse j env _ _
  case parseSeccompFiltersFromFd => exact kept_parse j env _ _
  case setSeccompFilters => exact kept_setFilters j env _
  case useAltSyscall =>
    unfold call useAltSyscall
    dsimp only
    split_ifs <;> kept_simple j env.softfail
  all_goals
    unfold call
    kept_simple j env.softfail

theorem Kept.weaken {s : Bool} {j k : Jail} (h : Kept s j k) : Kept true j k :=
  { h with seccomp := fun q => by simp at q }

theorem kept_calls (s : Bool) (cs : List (ApiEnv × Call)) : ∀ j j' : Jail, Inv j → (∀ p ∈ cs, GoodCall p.1 p.2) →
    (s = false → ∀ p ∈ cs, p.1.softfail = false) → calls j cs = some j' → Kept s j j' := by
  induction cs with
  | nil => intro j j' _ _ _ e; simp only [calls, Option.some.injEq] at e; exact e ▸ Kept.refl s j
  | cons p cs ih =>
    intro j j' h hg hs e
    obtain ⟨env, c⟩ := p
    have h1 := inv_call h env c (hg (env, c) (by simp))
    have h2 := kept_call h env c
    simp only [calls] at e
    revert h1 h2 e
    cases call env j c with
    | die => intro e _ _; simp at e
    | ret rc j1 =>
      intro e h1 h2
      have h3 : Kept s j j1 := by
        cases s with
        | true => exact Kept.weaken h2
        | false =>
          have := hs rfl (env, c) (by simp)
          dsimp only at this
          rw [← this]; exact h2
      exact h3.trans (ih j1 j' h1 (fun p hp => hg p (by simp [hp])) (fun q p hp => hs q p (by simp [hp])) e)

end Minijail
