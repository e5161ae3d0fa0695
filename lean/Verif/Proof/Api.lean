import Verif.Spec.Api
import Mathlib.Data.List.Nodup
import Mathlib.Tactic.SplitIfs
/-! Invariants of the configuration calls. -/
set_option autoImplicit false
set_option linter.unusedSimpArgs false
namespace Minijail
open Spec

theorem take_set_succ {α : Type} (l : List α) (n : Nat) (x : α) (h : n < l.length) :
    (l.set n x).take (n + 1) = l.take n ++ [x] := by
  induction l generalizing n with
  | nil => simp at h
  | cons a l ih =>
    cases n with
    | zero => simp
    | succ n => simp at h; simp [ih n h]

/-- `GoodJail` without the word sizes. -/
structure GoodCore (j : Jail) : Prop where
  strings : OptCString j.user ∧ OptCString j.chrootdir ∧ OptCString j.hostname ∧ OptCString j.alt_syscall_table ∧
    OptCString j.seccomp_policy_path
  gids : j.suppl_gid_count = (j.suppl_gid_list.getD []).length ∧ j.suppl_gid_list ≠ some []
  filter : j.filter_len = (j.filter_prog.getD []).length ∧ j.filter_len ≤ 65535
  mounts : ∀ m ∈ j.mounts, GoodMount m
  mountsCount : j.mounts_count = j.mounts.length
  cgroups : ∀ c ∈ j.cgroups, CString c
  cgroupCount : j.cgroup_count = j.cgroups.length
  fsRules : ∀ r ∈ j.fs_rules, CString r.path
  fsRulesCount : j.fs_rules_count = j.fs_rules.length
  rlimits : j.rlimits.length = 32
  preserved : j.preserved_fds.length = 128

/-- Both invariants. -/
def Inv (j : Jail) : Prop := GoodCore j ∧ Consistent j

theorem Inv.good {j : Jail} (h : Inv j) (w : Words j) : GoodJail j where
  strings := h.1.strings
  gids := h.1.gids
  filter := h.1.filter
  mounts := h.1.mounts
  mountsCount := h.1.mountsCount
  mountsNs := h.2.mounts
  cgroups := h.1.cgroups
  cgroupCount := h.1.cgroupCount
  cgroupMax := by rw [h.1.cgroupCount]; exact h.2.cgroups
  fsRules := h.1.fsRules
  fsRulesCount := h.1.fsRulesCount
  rlimits := h.1.rlimits
  rlimitCount := h.2.rlimits.1
  preserved := h.1.preserved
  preservedCount := h.2.preserved.1
  words := w

theorem inv_new : Inv minijailNew :=
  ⟨⟨by simp [minijailNew, OptCString], by simp [minijailNew], by simp [minijailNew], by simp [minijailNew],
    by simp [minijailNew], by simp [minijailNew], by simp [minijailNew], by simp [minijailNew], by simp [minijailNew],
    by simp [minijailNew, MAX_RLIMITS], by simp [minijailNew, MAX_PRESERVED_FDS]⟩,
   ⟨by simp [minijailNew], by simp [minijailNew], by simp [minijailNew], by simp [minijailNew], by simp [minijailNew],
    by simp [minijailNew], by simp [minijailNew], by simp [minijailNew]⟩⟩

/-- The result of a call satisfies `P`, if it returns. -/
def ApiRes.Sat (P : Int → Jail → Prop) : ApiRes → Prop
  | .ret rc j => P rc j
  | .die => True

theorem inv_flags {j : Jail} (h : Inv j) (g : Flags) (h1 : g.use_caps = j.flags.use_caps)
    (h2 : g.capbset_drop = j.flags.capbset_drop) (h3 : g.chroot = j.flags.chroot) (h4 : g.pivot_root = j.flags.pivot_root)
    (h5 : j.flags.vfs = true → g.vfs = true) (h6 : j.flags.enter_vfs = true → g.enter_vfs = true)
    (h7 : g.pids = true → j.flags.pids = true ∨ g.vfs = true ∧ g.do_init = true) (h8 : j.flags.do_init = true → g.do_init = true) : Inv { j with flags := g } := by
  refine ⟨{ h.1 with }, { h.2 with caps := ?_, root := ?_, rootDir := ?_, mounts := ?_, pids := ?_ }⟩
  · simpa [h1, h2] using h.2.caps
  · simpa [h3, h4] using h.2.root
  · simpa [h3, h4] using h.2.rootDir
  · intro hm; exact (h.2.mounts hm).imp h5 h6
  · intro hp; exact (h7 hp).elim (fun q => ⟨h5 (h.2.pids q).1, h8 (h.2.pids q).2⟩) id

theorem inv_setFlags {j : Jail} (h : Inv j) (f : Flags → Flags) (h1 : (f j.flags).use_caps = j.flags.use_caps)
    (h2 : (f j.flags).capbset_drop = j.flags.capbset_drop) (h3 : (f j.flags).chroot = j.flags.chroot)
    (h4 : (f j.flags).pivot_root = j.flags.pivot_root)
    (h5 : j.flags.vfs = true → (f j.flags).vfs = true) (h6 : j.flags.enter_vfs = true → (f j.flags).enter_vfs = true)
    (h7 : (f j.flags).pids = true → j.flags.pids = true ∨ (f j.flags).vfs = true ∧ (f j.flags).do_init = true)
    (h8 : j.flags.do_init = true → (f j.flags).do_init = true) :
    (setFlags j f).Sat fun _ => Inv := inv_flags h _ h1 h2 h3 h4 h5 h6 h7 h8

theorem inv_changeUid {j : Jail} (h : Inv j) (u : BitVec 32) : (changeUid j u).Sat fun _ => Inv := by
  unfold changeUid
  split_ifs
  · trivial
  · exact ⟨{ h.1 with }, { h.2 with }⟩

theorem inv_changeGid {j : Jail} (h : Inv j) (u : BitVec 32) : (changeGid j u).Sat fun _ => Inv := by
  unfold changeGid
  split_ifs
  · trivial
  · exact ⟨{ h.1 with }, { h.2 with }⟩

theorem inv_setSupplementaryGids {j : Jail} (h : Inv j) (env : ApiEnv) (l : List (BitVec 32)) :
    (setSupplementaryGids env j l).Sat fun _ => Inv := by
  unfold setSupplementaryGids
  split_ifs with a b c d
  · trivial
  · trivial
  · exact ⟨{ h.1 with gids := by simp }, { h.2 with }⟩
  · trivial
  · exact ⟨{ h.1 with gids := ⟨rfl, by rintro ⟨⟩; exact c rfl⟩ }, { h.2 with }⟩

theorem optCString_none : OptCString none := by simp [OptCString]

theorem optCString_some {s : BStr} (h : CString s) : OptCString (some s) := by simpa [OptCString] using h

theorem inv_changeUser {j : Jail} (h : Inv j) (env : ApiEnv) (u : BStr) (hu : CString u) :
    (changeUser env j u).Sat fun _ => Inv := by
  unfold changeUser
  split
  · exact h
  · rename_i uid gid _
    have := inv_changeUid h uid
    revert this
    cases changeUid j uid with
    | die => intro _; trivial
    | ret rc j' =>
      intro h'
      replace h' : Inv j' := h'
      dsimp only
      split_ifs
      · exact ⟨{ h'.1 with strings := ⟨optCString_none, h'.1.strings.2⟩ }, { h'.2 with }⟩
      · exact ⟨{ h'.1 with strings := ⟨optCString_some hu, h'.1.strings.2⟩ }, { h'.2 with }⟩

theorem inv_changeGroup {j : Jail} (h : Inv j) (env : ApiEnv) (u : BStr) : (changeGroup env j u).Sat fun _ => Inv := by
  unfold changeGroup
  split
  · exact h
  · exact inv_changeGid h _

theorem inv_refer {j : Jail} (h : Inv j) (k : LandlockKernel) : Inv (fsReferSupported k j).2 := by
  unfold fsReferSupported
  dsimp only
  split_ifs
  · exact ⟨{ h.1 with }, { h.2 with }⟩
  · exact h

theorem inv_path {j : Jail} (h : Inv j) (k : LandlockKernel) (p : BStr) (hp : CString p) (f : BitVec 64) :
    Inv (addFsRestrictionPath k j p f) := by
  have key : ∀ j' : Jail, Inv j' → j'.fs_rules_count = j'.fs_rules.length →
      Inv { j' with fs_rules := j'.fs_rules ++ [⟨p, f⟩], fs_rules_count := j'.fs_rules_count + 1 } := by
    intro j' h' hc
    refine ⟨{ h'.1 with fsRules := ?_, fsRulesCount := by simp [hc] }, { h'.2 with }⟩
    intro r hr
    simp at hr
    rcases hr with hr | rfl
    · exact h'.1.fsRules r hr
    · exact hp
  unfold addFsRestrictionPath setupFsRulesFd fsReferSupported
  dsimp only
  split_ifs
  · exact key { j with fs_rules_landlock_abi := k.abi, fs_rules_fd := k.ruleset } ⟨{ h.1 with }, { h.2 with }⟩ h.1.fsRulesCount
  · exact key { j with fs_rules_fd := k.ruleset } ⟨{ h.1 with }, { h.2 with }⟩ h.1.fsRulesCount
  · exact key j h h.1.fsRulesCount

theorem inv_rule {j : Jail} (h : Inv j) (env : ApiEnv) (p : BStr) (hp : CString p) (f : BitVec 64) :
    (addRule env j p f).Sat fun _ => Inv := by
  unfold addRule
  split_ifs
  · exact h
  · exact inv_path h _ p hp f

theorem inv_ruleIgnoring {j : Jail} (h : Inv j) (env : ApiEnv) (p : BStr) (hp : CString p) (f : BitVec 64) :
    Inv (ruleIgnoring env j p f) := by
  unfold ruleIgnoring
  split_ifs
  · exact h
  · exact inv_path h _ p hp f

theorem inv_defaults {j : Jail} (h : Inv j) (env : ApiEnv) : Inv (enableDefaultFsRestrictions env j) := by
  unfold enableDefaultFsRestrictions
  dsimp only
  repeat refine inv_ruleIgnoring ?_ env _ (by decide +kernel) _
  exact h

theorem inv_rulesForMount {j : Jail} (h : Inv j) (env : ApiEnv) (m : Mountpoint) (hm : CString m.dest) :
    Inv (rulesForMount env j m) := by
  unfold rulesForMount
  dsimp only
  split
  · exact inv_ruleIgnoring (inv_refer (inv_ruleIgnoring h env _ hm _) _) env _ hm _
  · exact inv_ruleIgnoring h env _ hm _

theorem inv_rulesForMounts (env : ApiEnv) (ms : List Mountpoint) : ∀ j : Jail, Inv j → (∀ m ∈ ms, CString m.dest) →
    Inv (ms.foldl (rulesForMount env) j) := by
  induction ms with
  | nil => intro j h _; exact h
  | cons m ms ih =>
    intro j h hm
    exact ih _ (inv_rulesForMount h env m (hm m (by simp))) fun x hx => hm x (by simp [hx])

theorem inv_minimalistic {j : Jail} (h : Inv j) (env : ApiEnv) : Inv (addMinimalisticMountnsFsRules env j) := by
  have h1 : Inv (j.mounts.foldl (rulesForMount env) j) :=
    inv_rulesForMounts env j.mounts j h fun m hm => (h.1.mounts m hm).dest
  have h2 := inv_ruleIgnoring (inv_ruleIgnoring (inv_defaults h1 env) env (bstr "/dev") (by decide +kernel)
    (ACCESS_READ ||| ACCESS_EDIT)) env (bstr "/proc") (by decide +kernel) ACCESS_READ
  unfold addMinimalisticMountnsFsRules
  dsimp only
  split
  · exact h
  · split
    · exact h1
    · split
      · exact inv_ruleIgnoring h2 env _ (by decide +kernel) _
      · exact h2

theorem inv_mount {j : Jail} (h : Inv j) (env : ApiEnv) (s d t : BStr) (f : BitVec 64) (x : Option BStr) (hs : CString s)
    (hd : CString d) (ht : CString t) (hx : OptCString x) : (mountCall env j s d t f x).Sat fun _ => Inv := by
  unfold mountCall
  split
  · exact h
  · rename_i j' hj
    split_ifs
    · exact h
    · unfold mountWithData at hj
      dsimp only at hj
      split at hj
      · simp at hj
      rename_i habs
      injection hj with hj
      subst hj
      have good : GoodMount ⟨s, d, t, mountData t x, if f = 0#64 then MS_NODEV ||| MS_NOEXEC ||| MS_NOSUID else f⟩ := by
        refine ⟨hs, hd, ht, ?_, by simpa using habs, ?_, ?_⟩
        · dsimp only [mountData]
          split_ifs
          · exact optCString_some (by decide +kernel)
          · exact hx
        · dsimp only
          split_ifs with hf
          · decide
          · exact hf
        · intro htm
          dsimp only at htm
          subst htm
          dsimp only [mountData]
          split_ifs with hc
          · exact ⟨by simp, by decide +kernel⟩
          · simpa using hc
      by_cases he : j.flags.enter_vfs = true
      · simp only [he, Bool.not_true, Bool.false_eq_true, if_false]
        refine ⟨{ h.1 with mounts := ?_, mountsCount := by simp [h.1.mountsCount] }, { h.2 with mounts := fun _ => Or.inr he }⟩
        intro m hm
        simp at hm
        rcases hm with hm | rfl
        · exact h.1.mounts m hm
        · exact good
      · simp only [Bool.not_eq_true] at he
        simp only [he, Bool.not_false, if_true, namespaceVfs]
        refine ⟨{ h.1 with mounts := ?_, mountsCount := by simp [h.1.mountsCount] },
          { h.2 with mounts := fun _ => Or.inl rfl, pids := fun q => ⟨rfl, (h.2.pids q).2⟩ }⟩
        intro m hm
        simp at hm
        rcases hm with hm | rfl
        · exact h.1.mounts m hm
        · exact good

theorem inv_useCaps {j : Jail} (h : Inv j) (m : BitVec 64) : (useCaps j m).Sat fun _ => Inv := by
  unfold useCaps
  dsimp only
  split_ifs with hc
  · exact ⟨{ h.1 with }, { h.2 with caps := by simp }⟩
  · exact ⟨{ h.1 with }, { h.2 with caps := by simp [hc] }⟩

theorem inv_capbset {j : Jail} (h : Inv j) (m : BitVec 64) : (capbsetDrop j m).Sat fun _ => Inv := by
  unfold capbsetDrop
  split_ifs with hc
  · trivial
  · exact ⟨{ h.1 with }, { h.2 with caps := by simp [hc] }⟩

theorem inv_clear {j : Jail} (h : Inv j) : Inv (clearSeccompOptions j) :=
  ⟨{ h.1 with
      strings := ⟨h.1.strings.1, h.1.strings.2.1, h.1.strings.2.2.1, h.1.strings.2.2.2.1, optCString_none⟩
      filter := by simp [clearSeccompOptions] }, { h.2 with }⟩

theorem inv_should {j : Jail} (h : Inv j) (env : ApiEnv) : Inv (shouldUseFilters env j).2 := by
  unfold shouldUseFilters
  split_ifs
  · exact inv_clear h
  · exact inv_clear h
  · exact ⟨{ h.1 with }, { h.2 with }⟩
  · exact h

theorem inv_parse {j : Jail} (h : Inv j) (env : ApiEnv) (f p : Option BStr) (hp : OptCString p)
    (hc : ∀ q ∈ env.compiled f, q.length ≤ 65535) : (parseSeccompFilters env j f p).Sat fun _ => Inv := by
  have h' := inv_should h env
  unfold parseSeccompFilters
  dsimp only
  split
  · exact h'
  · split
    · trivial
    · rename_i prog hprog
      exact ⟨{ h'.1 with
        strings := ⟨h'.1.strings.1, h'.1.strings.2.1, h'.1.strings.2.2.1, h'.1.strings.2.2.2.1, hp⟩
        filter := ⟨rfl, hc prog (by simp [hprog])⟩ }, { h'.2 with }⟩

theorem inv_setFilters {j : Jail} (h : Inv j) (env : ApiEnv) (p : List Insn) (hp : p.length ≤ 65535) :
    (setSeccompFilters env j p).Sat fun _ => Inv := by
  have h' := inv_should h env
  unfold setSeccompFilters
  dsimp only
  split
  · exact h'
  · split_ifs
    · trivial
    · trivial
    · exact ⟨{ h'.1 with filter := ⟨rfl, hp⟩ }, { h'.2 with }⟩

theorem inv_rlimit {j : Jail} (h : Inv j) (t : BitVec 32) (c m : BitVec 64) : (setRlimit j t c m).Sat fun _ => Inv := by
  unfold setRlimit
  split_ifs with h1 h2
  · exact h
  · exact h
  · have hlt : j.rlimit_count < j.rlimits.length := by rw [h.1.rlimits]; simpa [MAX_RLIMITS] using h1
    refine ⟨{ h.1 with rlimits := by simpa using h.1.rlimits }, { h.2 with rlimits := ?_ }⟩
    refine ⟨by have := h.1.rlimits; dsimp only; omega, ?_⟩
    dsimp only
    rw [take_set_succ _ _ _ hlt, List.map_append, List.nodup_append]
    refine ⟨h.2.rlimits.2, by simp, ?_⟩
    intro a ha b hb hab
    simp at hb
    subst hb; subst hab
    obtain ⟨r, hr, hrt⟩ := List.mem_map.1 ha
    exact h2 (List.any_eq_true.2 ⟨r, hr, by simp [hrt]⟩)

theorem inv_preserve {j : Jail} (h : Inv j) (p c : BitVec 32) : (preserveFd j p c).Sat fun _ => Inv := by
  unfold preserveFd
  split_ifs with h1 h2
  · exact h
  · exact h
  · have hlt : j.preserved_fd_count < j.preserved_fds.length := by
      rw [h.1.preserved]; simpa [MAX_PRESERVED_FDS] using h2
    refine ⟨{ h.1 with preserved := by simpa using h.1.preserved }, { h.2 with preserved := ?_ }⟩
    refine ⟨by have := h.1.preserved; dsimp only; omega, ?_⟩
    dsimp only
    rw [take_set_succ _ _ _ hlt]
    intro q hq
    simp at hq
    rcases hq with hq | rfl
    · exact h.2.preserved.2 q hq
    · dsimp only; omega

theorem inv_cgroup {j : Jail} (h : Inv j) (env : ApiEnv) (p : BStr) (hp : CString p) :
    (addToCgroup env j p).Sat fun _ => Inv := by
  unfold addToCgroup
  split_ifs with h1 h2
  · exact h
  · exact h
  · have hc := h.1.cgroupCount
    have : j.cgroups.length < 10 := by rw [← hc]; simpa [MAX_CGROUPS] using h1
    refine ⟨{ h.1 with cgroups := ?_, cgroupCount := by simp [hc] }, { h.2 with cgroups := by simp; omega }⟩
    intro q hq
    simp at hq
    rcases hq with hq | rfl
    · exact h.1.cgroups q hq
    · exact hp

theorem inv_chroot {j : Jail} (h : Inv j) (env : ApiEnv) (d : BStr) (hd : CString d) :
    (enterChrootCall env j d).Sat fun _ => Inv := by
  unfold enterChrootCall
  split_ifs with h1 h2
  · exact h
  · exact h
  · have hn : j.chrootdir = none := by simpa using h1
    have hf : ¬ (j.flags.chroot = true ∨ j.flags.pivot_root = true) := fun q => h.2.rootDir.1 q hn
    refine ⟨{ h.1 with strings := ⟨h.1.strings.1, optCString_some hd, h.1.strings.2.2⟩ },
      { h.2 with root := fun q => hf (Or.inr q.2), rootDir := by simp }⟩

theorem inv_pivot {j : Jail} (h : Inv j) (env : ApiEnv) (d : BStr) (hd : CString d) :
    (enterPivotRootCall env j d).Sat fun _ => Inv := by
  unfold enterPivotRootCall
  split_ifs with h1 h2
  · exact h
  · exact h
  · have hn : j.chrootdir = none := by simpa using h1
    have hf : ¬ (j.flags.chroot = true ∨ j.flags.pivot_root = true) := fun q => h.2.rootDir.1 q hn
    refine ⟨{ h.1 with strings := ⟨h.1.strings.1, optCString_some hd, h.1.strings.2.2⟩ },
      { h.2 with root := fun q => hf (Or.inl q.1), rootDir := by simp }⟩

theorem inv_hostname {j : Jail} (h : Inv j) (env : ApiEnv) (n : BStr) (hn : CString n) :
    (namespaceSetHostname env j n).Sat fun _ => Inv := by
  unfold namespaceSetHostname
  dsimp only
  split_ifs
  · exact h
  · exact ⟨{ h.1 with }, { h.2 with }⟩
  · exact ⟨{ h.1 with strings := ⟨h.1.strings.1, h.1.strings.2.1, optCString_some hn, h.1.strings.2.2.2⟩ }, { h.2 with }⟩

theorem inv_alt {j : Jail} (h : Inv j) (env : ApiEnv) (n : BStr) (hn : CString n) :
    (useAltSyscall env j n).Sat fun _ => Inv := by
  unfold useAltSyscall
  split_ifs
  · exact ⟨{ h.1 with strings := ⟨h.1.strings.1, h.1.strings.2.1, h.1.strings.2.2.1, optCString_none, h.1.strings.2.2.2.2⟩ },
      { h.2 with }⟩
  · exact ⟨{ h.1 with
      strings := ⟨h.1.strings.1, h.1.strings.2.1, h.1.strings.2.2.1, optCString_some hn, h.1.strings.2.2.2.2⟩ }, { h.2 with }⟩

theorem inv_call {j : Jail} (h : Inv j) (env : ApiEnv) (c : Call) (hc : GoodCall env c) :
    (call env j c).Sat fun _ => Inv := by
  cases c
  case changeUid => exact inv_changeUid h _
  case changeGid => exact inv_changeGid h _
  case setSupplementaryGids => exact inv_setSupplementaryGids h _ _
  case changeUser => exact inv_changeUser h _ _ hc.1
  case changeGroup => exact inv_changeGroup h _ _
  case setSeccompFilterTsync =>
    unfold call setSeccompFilterTsync
    dsimp only
    split_ifs <;> first | trivial | exact ⟨{ h.1 with }, { h.2 with }⟩
  case setSeccompFilterAllowSpeculation =>
    unfold call setSeccompFilterAllowSpeculation
    dsimp only
    split_ifs <;> first | trivial | exact ⟨{ h.1 with }, { h.2 with }⟩
  case logSeccompFilterFailures =>
    unfold call logSeccompFilterFailures
    dsimp only
    split_ifs <;> first | trivial | exact ⟨{ h.1 with }, { h.2 with }⟩
  case addMinimalisticMountnsFsRules => exact inv_minimalistic h env
  case enableDefaultFsRestrictions => exact inv_defaults h env
  case useCaps => exact inv_useCaps h _
  case capbsetDrop => exact inv_capbset h _
  case namespaceEnterVfs p =>
    unfold call namespaceEnterVfs
    dsimp only
    split
    · trivial
    · exact ⟨{ h.1 with }, { h.2 with mounts := fun _ => Or.inr rfl }⟩
  case namespaceEnterNet p =>
    unfold call namespaceEnterNet
    dsimp only
    split
    · trivial
    · exact ⟨{ h.1 with }, { h.2 with }⟩
  case namespaceSetHostname => exact inv_hostname h _ _ hc
  case uidmap =>
    unfold call setUidmap
    dsimp only
    split_ifs <;> exact ⟨{ h.1 with }, { h.2 with }⟩
  case gidmap =>
    unfold call setGidmap
    dsimp only
    split_ifs <;> exact ⟨{ h.1 with }, { h.2 with }⟩
  case enterChroot => exact inv_chroot h _ _ hc
  case enterPivotRoot => exact inv_pivot h _ _ hc
  case writePidFile =>
    unfold call writePidFile
    dsimp only
    split_ifs <;> exact ⟨{ h.1 with }, { h.2 with }⟩
  case addToCgroup => exact inv_cgroup h _ _ hc
  case rlimit => exact inv_rlimit h _ _ _
  case addFsRestrictionRx => exact inv_rule h env _ hc _
  case addFsRestrictionRo => exact inv_rule h env _ hc _
  case addFsRestrictionRw => exact inv_rule h env _ hc _
  case addFsRestrictionAdvancedRw => exact inv_rule (inv_refer h _) env _ hc _
  case addFsRestrictionEdit => exact inv_rule h env _ hc _
  case addFsRestrictionAccessRights => exact inv_rule h env _ hc _
  case mountWithData => exact inv_mount h env _ _ _ _ _ hc.1 hc.2.1 hc.2.2.1 hc.2.2.2
  case mount => exact inv_mount h env _ _ _ _ _ hc.1 hc.2.1 hc.2.2 optCString_none
  case bind =>
    unfold call bindCall
    dsimp only
    split
    · exact h
    · exact inv_mount h env _ _ _ _ _ hc.1 hc.2 (by decide +kernel) optCString_none
  case addRemount =>
    unfold call addRemount
    dsimp only
    split_ifs <;> first | exact h | exact ⟨{ h.1 with }, { h.2 with }⟩
  case addHook =>
    unfold call addHook
    dsimp only
    split_ifs <;> first | exact h | exact ⟨{ h.1 with }, { h.2 with }⟩
  case preserveFd => exact inv_preserve h _ _
  case setPreloadPath =>
    unfold call setPreloadPath
    dsimp only
    split_ifs <;> first | exact h | exact ⟨{ h.1 with }, { h.2 with }⟩
  case parseSeccompFilters => exact inv_parse h env _ _ (optCString_some hc.1) hc.2
  case parseSeccompFiltersFromFd => exact inv_parse h env _ _ hc.1 hc.2
  case setSeccompFilters => exact inv_setFilters h env _ hc
  case useAltSyscall => exact inv_alt h _ _ hc
  case skipSettingSecurebits => exact ⟨{ h.1 with }, { h.2 with }⟩
  case remountMode => exact ⟨{ h.1 with }, { h.2 with }⟩
  case skipRemountPrivate => exact ⟨{ h.1 with }, { h.2 with }⟩
  case mountTmp => exact ⟨{ h.1 with }, { h.2 with }⟩
  case mountTmpSize => exact ⟨{ h.1 with }, { h.2 with }⟩
  case namespaceVfs =>
    exact inv_flags h _ rfl rfl rfl rfl (fun _ => rfl) id Or.inl id
  all_goals
    unfold call
    dsimp only
    apply inv_setFlags h <;> first | rfl | exact id | exact Or.inl | exact fun _ => rfl | exact fun _ => Or.inr ⟨rfl, rfl⟩

theorem inv_calls (cs : List (ApiEnv × Call)) : ∀ j j' : Jail, Inv j → (∀ p ∈ cs, GoodCall p.1 p.2) →
    calls j cs = some j' → Inv j' := by
  induction cs with
  | nil => intro j j' h _ e; simp only [calls, Option.some.injEq] at e; exact e ▸ h
  | cons p cs ih =>
    intro j j' h hg e
    obtain ⟨env, c⟩ := p
    have h1 := inv_call h env c (hg (env, c) (by simp))
    simp only [calls] at e
    revert h1 e
    cases call env j c with
    | die => intro e _; simp at e
    | ret rc j1 => intro e h1; exact ih j1 j' h1 (fun p hp => hg p (by simp [hp])) e

end Minijail
