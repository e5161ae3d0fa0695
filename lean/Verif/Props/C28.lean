import Verif.Proof.Api
/-! C28: the configuration calls keep the jail consistent. -/
set_option autoImplicit false
set_option linter.unusedSimpArgs false
namespace Minijail
open Spec

/-- **C28**, the part on tables, exclusions and namespaces: after any sequence of configuration calls, with any arguments,
any kernel and any allocation failures, the configuration is consistent. -/
theorem C28_consistent (cs : List (ApiEnv × Call)) (hg : ∀ p ∈ cs, GoodCall p.1 p.2) (j : Jail)
    (h : calls minijailNew cs = some j) : Consistent j := (inv_calls cs _ _ inv_new hg h).2

/-- What the transfer theorems (C19, C20, C43) assume of a jail is what sequences of configuration calls produce. -/
theorem C28_good (cs : List (ApiEnv × Call)) (hg : ∀ p ∈ cs, GoodCall p.1 p.2) (j : Jail)
    (h : calls minijailNew cs = some j) (hw : Words j) : GoodJail j := (inv_calls cs _ _ inv_new hg h).good hw

/-- A call that is refused while memory is available changes nothing. -/
theorem C28_refused (env : ApiEnv) (j : Jail) (c : Call) (rc : Int) (j' : Jail) (ho : env.oom = false)
    (h : call env j c = .ret rc j') (hr : rc ≠ success c) : j' = j := by
  have key : (call env j c).Sat fun rc j' => rc = success c ∨ j' = j := by
    clear h hr
    cases c
    case changeUser u =>
      unfold call changeUser changeUid
      dsimp only
      split
      · exact Or.inr rfl
      · split
        · trivial
        · rename_i heq
          split_ifs at heq
          cases heq
          rw [if_neg (by simp [ho])]
          exact Or.inl rfl
    case changeGroup g =>
      unfold call changeGroup changeGid
      dsimp only
      split
      · exact Or.inr rfl
      · split_ifs
        · trivial
        · exact Or.inl rfl
    case namespaceEnterVfs p =>
      unfold call namespaceEnterVfs
      dsimp only
      split
      · trivial
      · exact Or.inl rfl
    case namespaceEnterNet p =>
      unfold call namespaceEnterNet
      dsimp only
      split
      · trivial
      · exact Or.inl rfl
    case parseSeccompFilters p =>
      unfold call parseSeccompFilters
      dsimp only
      split
      · exact Or.inl rfl
      · split
        · trivial
        · exact Or.inl rfl
    case parseSeccompFiltersFromFd =>
      unfold call parseSeccompFilters
      dsimp only
      split
      · exact Or.inl rfl
      · split
        · trivial
        · exact Or.inl rfl
    case mountWithData =>
      unfold call mountCall
      dsimp only
      split
      · exact Or.inr rfl
      · rw [if_neg (by simp [ho])]; exact Or.inl rfl
    case mount =>
      unfold call mountCall
      dsimp only
      split
      · exact Or.inr rfl
      · rw [if_neg (by simp [ho])]; exact Or.inl rfl
    case bind =>
      unfold call bindCall mountCall
      dsimp only
      split
      · exact Or.inr rfl
      · split
        · exact Or.inr rfl
        · rw [if_neg (by simp [ho])]; exact Or.inl rfl
    all_goals
      simp only [call, changeUid, changeGid, setSupplementaryGids, setSeccompFilterTsync, setSeccompFilterAllowSpeculation,
        logSeccompFilterFailures, useCaps, capbsetDrop, namespaceSetHostname, setUidmap, setGidmap, enterChrootCall,
        enterPivotRootCall, writePidFile, addToCgroup, setRlimit, addRule, addRuleAdvancedRw, addRemount, addHook, preserveFd,
        setPreloadPath, setSeccompFilters, useAltSyscall, ho, setFlags]
      (repeat' split) <;> first
        | trivial
        | exact Or.inr rfl
        | exact Or.inl rfl
        | (simp_all; done)
  rw [h] at key
  exact (show rc = success c ∨ j' = j from key).resolve_left hr

/-- An rlimit is accepted exactly when there is room and its type has not been set. -/
theorem C28_rlimit (env : ApiEnv) (j : Jail) (hj : Consistent j) (t : BitVec 32) (c m : BitVec 64) :
    (∃ j', call env j (.rlimit t c m) = .ret 0 j') ↔
      j.rlimit_count < 32 ∧ t ∉ (j.rlimits.take j.rlimit_count).map (·.type) := by
  have := hj
  simp only [call, setRlimit]
  split_ifs with h1 h2
  · simp only [MAX_RLIMITS] at h1
    simp [ENOMEM]; omega
  · obtain ⟨r, hr, ht⟩ := List.any_eq_true.1 h2
    have hm : t ∈ (j.rlimits.take j.rlimit_count).map (·.type) := List.mem_map.2 ⟨r, hr, by simpa using ht⟩
    constructor
    · rintro ⟨j', hj'⟩; simp [EEXIST] at hj'
    · intro q; exact absurd hm q.2
  · simp only [MAX_RLIMITS, ge_iff_le, Nat.not_le] at h1
    simp only [ApiRes.ok, ApiRes.ret.injEq, true_and, exists_eq', true_iff]
    refine ⟨h1, fun hm => h2 ?_⟩
    obtain ⟨r, hr, ht⟩ := List.mem_map.1 hm
    exact List.any_eq_true.2 ⟨r, hr, by simp [ht]⟩

/-- A cgroup is accepted exactly when there is room. -/
theorem C28_cgroup (env : ApiEnv) (ho : env.oom = false) (j : Jail) (p : BStr) :
    (∃ j', call env j (.addToCgroup p) = .ret 0 j') ↔ j.cgroup_count < 10 := by
  simp only [call, addToCgroup, MAX_CGROUPS]
  by_cases h1 : j.cgroup_count ≥ 10
  · rw [if_pos h1]
    constructor
    · rintro ⟨j', hj'⟩; simp [ENOMEM] at hj'
    · intro q; omega
  · rw [if_neg h1, if_neg (by simp [ho])]
    exact ⟨fun _ => by omega, fun _ => ⟨_, rfl⟩⟩

/-- A descriptor is accepted exactly when both numbers are not negative and there is room. -/
theorem C28_preserve (env : ApiEnv) (j : Jail) (p c : BitVec 32) :
    (∃ j', call env j (.preserveFd p c) = .ret 0 j') ↔
      0 ≤ p.toInt ∧ 0 ≤ c.toInt ∧ j.preserved_fd_count < 128 := by
  have h128 : MAX_PRESERVED_FDS = 128 := rfl
  simp only [call, preserveFd]
  by_cases h1 : p.toInt < 0 ∨ c.toInt < 0
  · rw [if_pos h1]
    constructor
    · rintro ⟨j', hj'⟩; simp [EINVAL] at hj'
    · intro q; omega
  rw [if_neg h1]
  by_cases h2 : j.preserved_fd_count ≥ MAX_PRESERVED_FDS
  · rw [if_pos h2]
    constructor
    · rintro ⟨j', hj'⟩; simp [ENOMEM] at hj'
    · intro q; omega
  · rw [if_neg h2]
    exact ⟨fun _ => by omega, fun _ => ⟨_, rfl⟩⟩

/-- A root directory is accepted exactly when none has been set. -/
theorem C28_root (env : ApiEnv) (ho : env.oom = false) (j : Jail) (d : BStr) :
    ((∃ j', call env j (.enterChroot d) = .ret 0 j') ↔ j.chrootdir = none) ∧
    ((∃ j', call env j (.enterPivotRoot d) = .ret 0 j') ↔ j.chrootdir = none) := by
  simp only [call, enterChrootCall, enterPivotRootCall, ho]
  cases j.chrootdir <;> simp [EINVAL, ApiRes.ok]

/-- A mount is accepted exactly when its destination is absolute. -/
theorem C28_mount (env : ApiEnv) (ho : env.oom = false) (j : Jail) (s d t : BStr) (f : BitVec 64) (x : Option BStr) :
    (∃ j', call env j (.mountWithData s d t f x) = .ret 0 j') ↔ d.head? = some 0x2f#8 := by
  simp only [call, mountCall, mountWithData, ho]
  by_cases h : d.head? = some 0x2f#8 <;> simp [h, EINVAL, ApiRes.ok]

/-- A separate bounding set after run-time capabilities kills the process; the other order leaves only the run-time set. -/
theorem C28_caps (env : ApiEnv) (j : Jail) (m : BitVec 64) :
    (j.flags.use_caps = true → call env j (.capbsetDrop m) = .die) ∧
    ∃ j', call env j (.useCaps m) = .ret 0 j' ∧ j'.flags.use_caps = true ∧ j'.flags.capbset_drop = false ∧ j'.caps = m := by
  refine ⟨fun h => by simp [call, capbsetDrop, h], ?_⟩
  simp only [call, useCaps]
  split_ifs with h
  · exact ⟨_, rfl, rfl, rfl, rfl⟩
  · exact ⟨_, rfl, rfl, by simpa using h, rfl⟩

/-- A hook is accepted for the three events and no other. -/
theorem C28_hook (env : ApiEnv) (ho : env.oom = false) (j : Jail) (h p e : Nat) :
    (e < 3 → call env j (.addHook h p e) = .ret 0 { j with hooks := j.hooks ++ [⟨h, p, e⟩] }) ∧
    (3 ≤ e → call env j (.addHook h p e) = .ret (-22) j) := by
  have h3 : HOOK_EVENT_MAX = 3 := rfl
  constructor
  · intro he
    show addHook env j h p e = _
    unfold addHook
    rw [if_neg (by omega), ho]
    rfl
  · intro he
    show addHook env j h p e = _
    unfold addHook
    rw [if_pos (by omega)]
    rfl

/-- Once a filter is recorded, the options that decide how it is compiled and installed can no longer be changed. -/
theorem C28_filter_options (env : ApiEnv) (j : Jail) (p : List Insn) (h : j.filter_prog = some p) (hl : 0 < j.filter_len) :
    call env j .setSeccompFilterTsync = .die ∧ call env j .setSeccompFilterAllowSpeculation = .die ∧
    call env j .logSeccompFilterFailures = .die := by
  have hf : hasFilter j = true := by simp [hasFilter, h, hl]
  refine ⟨?_, ?_, ?_⟩
  · show setSeccompFilterTsync env j = _; unfold setSeccompFilterTsync; rw [if_pos hf]
  · show setSeccompFilterAllowSpeculation j = _; unfold setSeccompFilterAllowSpeculation; rw [if_pos hf]
  · show logSeccompFilterFailures env j = _; unfold logSeccompFilterFailures; rw [if_pos hf]

/-- A filter is recorded by the calls. -/
example : ((calls minijailNew [({}, .setSeccompFilters [⟨6#16, 0#8, 0#8, 0#32⟩])]).map
    fun j => (j.filter_prog.isSome, decide (0 < j.filter_len))) = some (true, true) := by decide +kernel

/-- **C28 does not hold** for the child numbers of preserved descriptors: the same number is accepted twice. -/
theorem C28_duplicate_violated : ∃ (cs : List (ApiEnv × Call)) (j : Jail), (∀ p ∈ cs, GoodCall p.1 p.2) ∧
    calls minijailNew cs = some j ∧ ¬ DistinctChildFds j :=
  ⟨[({}, .preserveFd 3#32 5#32), ({}, .preserveFd 4#32 5#32)], _, by simp [GoodCall], rfl, by
    unfold DistinctChildFds; decide +kernel⟩

/-- **C28 does not hold** for refused calls when memory is exhausted: a refused user name still changes the uid, and a
refused map loses the one set before. -/
theorem C28_oom_violated :
    (∃ (env : ApiEnv) (j' : Jail), call env minijailNew (.changeUser (bstr "u")) = .ret (-ENOMEM) j' ∧
      minijailNew.flags.uid = false ∧ j'.flags.uid = true) ∧
    (∃ (env : ApiEnv) (j j' : Jail), calls minijailNew [({}, .uidmap (bstr "0 1000 1"))] = some j ∧
      call env j (.uidmap (bstr "0 1 1")) = .ret (-ENOMEM) j' ∧ j.uidmap ≠ none ∧ j'.uidmap = none) :=
  ⟨⟨{ oom := true, userDb := fun _ => .ok (1000#32, 1000#32) }, _, rfl, rfl, rfl⟩,
    ⟨{ oom := true }, _, _, rfl, rfl, by simp, rfl⟩⟩

/-- A sequence of calls that uses most of the tables, and its outcome. -/
def exampleCalls : List (ApiEnv × Call) :=
  [({}, .namespacePids), ({}, .capbsetDrop 0xff#64), ({}, .useCaps 0x3#64), ({}, .enterChroot (bstr "/srv")),
    ({}, .rlimit 7#32 10#64 20#64), ({}, .rlimit 7#32 1#64 2#64), ({}, .addToCgroup (bstr "/sys/fs/cgroup/a/tasks")),
    ({}, .mount (bstr "none") (bstr "/tmp") (bstr "tmpfs") 0#64), ({}, .mount (bstr "none") (bstr "tmp") (bstr "tmpfs") 0#64),
    ({}, .preserveFd 3#32 5#32), ({}, .preserveFd (-1#32) 5#32)]

/-- The hypotheses of `C28_consistent` and `C28_good` are met by a sequence with accepted and refused calls. -/
example : (∀ p ∈ exampleCalls, GoodCall p.1 p.2) ∧ ∃ j, calls minijailNew exampleCalls = some j ∧ Words j ∧
    j.rlimit_count = 1 ∧ j.mounts.length = 1 ∧ j.preserved_fd_count = 1 ∧ j.flags.capbset_drop = false := by
  refine ⟨?_, _, rfl, ?_⟩
  · simp only [exampleCalls, List.mem_cons, List.not_mem_nil, or_false, forall_eq_or_imp, forall_eq, GoodCall, true_and, and_true]
    decide +kernel
  · unfold Words; decide +kernel

/-- A refused call, as in `C28_refused`. -/
example : ∃ j', call {} { minijailNew with chrootdir := some (bstr "/a") } (.enterChroot (bstr "/b")) = .ret (-22) j' := ⟨_, rfl⟩

end Minijail
