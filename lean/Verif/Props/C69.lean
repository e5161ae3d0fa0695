import Verif.Proof.ParentSetup
/-! C69: what the caller's process writes for the new process, before that runs. -/
set_option linter.unusedSimpArgs false
set_option autoImplicit false
namespace Minijail
open Spec ParentSetup

variable {env : SetupEnv} {pid : Nat} {j : Jail} {d : List Deed}

/-- If it goes on, all that the jail asks for has been done, in order, once, and nothing else: the process's number has been written to the file and to each group,
the limits have been set, the maps have been written in full. Only `setgroups` may not have been denied, and then only because the system answered, at that
very point, that there is no such file. (Missing: this needs that writing to the log keeps `errno`, see `C69_setgroups_violated`.) -/
theorem C69_done_partial (hs : SetupErrors env) (hk : LogKeeps env) (h : (setupChild env pid j d).1 = .goesOn) :
    ∃ b, (setupChild env pid j d).2 = d ++ setupDeeds pid j b ∧
      (b = false → ∃ before, before <+: (setupChild env pid j d).2 ∧ env.open_ before (procPath pid "setgroups") = some 2) := by
  have := setup_ended hs hk (pid := pid) j d
  generalize setupChild env pid j d = r at this h ⊢
  obtain ⟨e, l⟩ := r
  cases h
  obtain ⟨plan, ⟨b, rfl, hb⟩, h⟩ := this
  simp only at h
  subst h
  exact ⟨b, rfl, hb⟩

/-- Otherwise it kills the process, as the last thing it does, having done only a first part of what was asked. -/
theorem C69_killed_partial (hs : SetupErrors env) (hk : LogKeeps env) (h : (setupChild env pid j d).1 = .died) :
    ∃ b done, (setupChild env pid j d).2 = d ++ done ++ [.killed pid] ∧ Begun (setupDeeds pid j b) done := by
  have := setup_ended hs hk (pid := pid) j d
  generalize setupChild env pid j d = r at this h ⊢
  obtain ⟨e, l⟩ := r
  cases h
  obtain ⟨plan, done, ⟨b, rfl, _⟩, h, hb⟩ := this
  exact ⟨b, done, h, hb⟩

/-- If nothing is refused it goes on, whatever the process's number: the names of the files in /proc always fit where they are put together. -/
theorem C69_goes_on (hw : Willing env j) (hp : pid < 2 ^ 31) :
    (setupChild env pid j d).1 = .goesOn ∧ (setupChild env pid j d).2 = d ++ setupDeeds pid j true := by
  have hlen : (decimalOf pid).length ≤ 10 := by
    unfold decimalOf
    rw [List.length_map, Nat.length_toDigits_le_iff (by decide) (by decide)]
    omega
  have hname : ∀ name : String, (bstr name).length ≤ 9 → ¬ (bstr "/proc/" ++ decimalOf pid ++ bstr "/" ++ bstr name).length ≥ PROC_FILENAME_SIZE := by
    intro name hn
    have h1 : (bstr "/proc/").length = 6 := by decide
    have h2 : (bstr "/").length = 1 := by decide
    simp only [List.length_append, h1, h2, PROC_FILENAME_SIZE]; omega
  have hpath : ∀ name, bstr "/proc/" ++ decimalOf pid ++ bstr "/" ++ bstr name = procPath pid name := by
    intro name; simp [procPath, bstr, List.append_assoc]
  have hpid : ∀ path d, writePidToPath env pid path d = (0, d ++ givenTo path true (line pid)) := by
    intro path d
    simp [writePidToPath, hw.open_, hw.print, hw.flush, givenTo, line]
  have hproc : ∀ name content d, (bstr name).length ≤ 9 → (∀ h p, ∃ n, env.write h p = .inl n ∧ content.length ≤ n) →
      writeProcFile env pid content name d = (0, d ++ givenTo (procPath pid name) false content) := by
    intro name content d hn hc
    unfold writeProcFile
    simp only []
    rw [if_neg (hname name hn)]
    simp only [hw.open_, hpath]
    obtain ⟨n, h, hl⟩ := hc (d ++ [.opened (procPath pid name) false]) (procPath pid name)
    rw [h]
    simp only []
    rw [if_neg (by omega)]
    simp [givenTo, List.take_of_length_le hl]
  have hcg : ∀ cs d, addToCgroupsOrDie env pid cs d = (.goesOn, d ++ cs.flatMap fun c => givenTo c true (line pid)) := by
    intro cs
    induction cs with
    | nil => intro d; simp [addToCgroupsOrDie]
    | cons c cs ih => intro d; simp [addToCgroupsOrDie, hpid, ih]
  have hlim : ∀ ls d, setRlimitsOrDie env pid ls d = (.goesOn, d ++ ls.map (Deed.limited pid)) := by
    intro ls
    induction ls with
    | nil => intro d; simp [setRlimitsOrDie]
    | cons c cs ih => intro d; simp [setRlimitsOrDie, hw.limit, ih]
  have hlim' : ∀ d, (if j.rlimit_count ≠ 0 then setRlimitsOrDie env pid (j.rlimits.take j.rlimit_count) d else (.goesOn, d)) =
      (.goesOn, d ++ (j.rlimits.take j.rlimit_count).map (Deed.limited pid)) := by
    intro d
    split
    · exact hlim _ _
    · rename_i h
      have : j.rlimit_count = 0 := by simpa using h
      simp [this]
  have hu : ∀ d, writeUidMapOrDie env pid j d = (.goesOn, d ++ match j.uidmap with
      | some m => givenTo (procPath pid "uid_map") false m
      | none => []) := by
    intro d
    unfold writeUidMapOrDie
    cases hm : j.uidmap with
    | none => simp
    | some m => simp [hproc "uid_map" m d (by decide) (fun h p => by obtain ⟨n, h1, _, h2, _⟩ := hw.write h p; exact ⟨n, h1, h2 m hm⟩)]
  have hg : ∀ d, writeGidMapOrDie env pid j d = (.goesOn, d ++ match j.gidmap with
      | some m => givenTo (procPath pid "gid_map") false m
      | none => []) := by
    intro d
    unfold writeGidMapOrDie
    cases hm : j.gidmap with
    | none => simp
    | some m => simp [hproc "gid_map" m d (by decide) (fun h p => by obtain ⟨n, h1, _, _, h2⟩ := hw.write h p; exact ⟨n, h1, h2 m hm⟩)]
  have hd : ∀ d, denySetgroupsOrDie env pid j d = (.goesOn, d ++ if j.gidmap.isSome && j.flags.disable_setgroups then
      givenTo (procPath pid "setgroups") false (bstr "deny") else []) := by
    intro d
    unfold denySetgroupsOrDie
    by_cases hc : (j.gidmap.isSome && j.flags.disable_setgroups) = true
    · rw [if_pos hc, if_pos hc]
      have h4 : (bstr "deny").length = 4 := by decide
      have := hproc "setgroups" (bstr "deny") d (by decide) (fun h p => by obtain ⟨n, h1, h2, _⟩ := hw.write h p; exact ⟨n, h1, h4 ▸ h2⟩)
      simp only [this]
      rfl
    · rw [if_neg hc, if_neg hc]; simp
  have : setupChild env pid j d = (.goesOn, d ++ setupDeeds pid j true) := by
    unfold setupChild setupDeeds writeUgidMapsOrDie
    simp only [hlim', hcg, hu, hg, hd, writePidFileOrDie, hpid]
    cases j.flags.pid_file <;> cases j.flags.cgroups <;> cases j.flags.userns <;> cases j.uidmap <;> cases j.gidmap <;>
      cases j.flags.disable_setgroups <;> simp [SetupEnd.andThen]
  rw [this]; exact ⟨rfl, rfl⟩

/-- The number is written in decimal: digits only, no leading zeros, and it reads back as the process's number. -/
theorem C69_decimal (n : Nat) : ∃ s, line n = s ++ [0x0a#8] ∧ IsDecimal s n := by
  refine ⟨decimalOf n, rfl, ?_⟩
  have hdig : ∀ c ∈ Nat.toDigits 10 n, 48 ≤ c.toNat ∧ c.toNat ≤ 57 := by
    intro c hc
    have := Nat.isDigit_of_mem_toDigits (by decide) (by decide) hc
    simp only [Char.isDigit, Bool.and_eq_true, decide_eq_true_eq] at this
    exact ⟨this.1, this.2⟩
  have hval : ∀ (l : List Char) (v : Nat), (∀ c ∈ l, 48 ≤ c.toNat ∧ c.toNat ≤ 57) →
      (l.map fun c => BitVec.ofNat 8 c.toNat).foldl (fun v b => 10 * v + (b.toNat - 48)) v = Nat.ofDigitChars 10 l v := by
    intro l
    induction l with
    | nil => intros; rfl
    | cons c l ih =>
      intro v h
      have hc := h c (by simp)
      rw [List.map_cons, List.foldl_cons, ih _ (fun x hx => h x (by simp [hx])), Nat.ofDigitChars_cons]
      congr 1
      rw [BitVec.toNat_ofNat, Nat.mod_eq_of_lt (by omega)]
      rfl
  refine ⟨by simp [decimalOf, Nat.toDigits_ne_nil], ?_, ?_, by rw [decimalOf, hval _ _ hdig, Nat.ofDigitChars_ten_toDigits]⟩
  · intro b hb
    obtain ⟨c, hc, rfl⟩ := List.mem_map.1 hb
    have := hdig c hc
    rw [BitVec.toNat_ofNat, Nat.mod_eq_of_lt (by omega)]
    exact this
  · -- a first digit zero: only of zero
    have key : ∀ m : Nat, (decimalOf m).head? = some 48#8 → m = 0 := by
      intro m
      induction m using Nat.strongRecOn with
      | _ m ih =>
        intro h
        by_cases hm : m < 10
        · have : decimalOf m = [BitVec.ofNat 8 (Nat.digitChar m).toNat] := by simp [decimalOf, Nat.toDigits_of_lt_base hm]
          rw [this] at h
          rcases m with _ | _ | _ | _ | _ | _ | _ | _ | _ | _ | m
          · rfl
          all_goals first | (exfalso; revert h; decide) | omega
        · have hm' : 10 ≤ m := by omega
          have h2 : decimalOf m = decimalOf (m / 10) ++ [BitVec.ofNat 8 (Nat.digitChar (m % 10)).toNat] := by
            simp [decimalOf, Nat.toDigits_of_base_le (by decide : 1 < 10) hm']
          have hne : decimalOf (m / 10) ≠ [] := by simp [decimalOf, Nat.toDigits_ne_nil]
          rw [h2, List.head?_append, List.head?_eq_some_head hne, Option.some_or, ← List.head?_eq_some_head hne] at h
          have := ih (m / 10) (by omega) h
          omega
    intro h
    have := key n h
    subst this
    decide

theorem holds_other {path : BStr} (l : List Deed) (c : BStr) (h : ∀ x ∈ l, (∀ b, x ≠ .opened path b) ∧ ∀ b, x ≠ .wrote path b) :
    l.foldl (changed path) c = c := by
  induction l with
  | nil => rfl
  | cons x l ih =>
    have hx := h x (by simp)
    rw [List.foldl_cons]
    have : changed path c x = c := by
      cases x with
      | opened p b =>
        have : p ≠ path := fun hp => hx.1 b (by rw [hp])
        cases b <;> simp [changed, this]
      | wrote p b =>
        have : p ≠ path := fun hp => hx.2 b (by rw [hp])
        simp [changed, this]
      | limited => rfl
      | killed => rfl
    rw [this]
    exact ih (fun y hy => h y (by simp [hy]))

/-- Afterwards the file asked for holds the process's number and a line feed, whatever it held before, unless the jail names it also as one of the
groups' files or it is one of the files in /proc. -/
theorem C69_pid_file_partial (hs : SetupErrors env) (hk : LogKeeps env) (h : (setupChild env pid j d).1 = .goesOn) {path : BStr}
    (hf : j.flags.pid_file = true) (hp : j.pid_file_path = some path) (hc : j.flags.cgroups = true → path ∉ j.cgroups)
    (hq : ∀ name, path ≠ procPath pid name) : ∀ c, holds path c (setupChild env pid j d).2 = line pid := by
  intro c0
  obtain ⟨b, hd, _⟩ := C69_done_partial hs hk h
  rw [hd]
  unfold setupDeeds holds
  rw [if_pos hf, hp, List.foldl_append]
  simp only [Option.getD_some, List.append_assoc]
  rw [List.foldl_append]
  have h1 : ∀ c : BStr, (givenTo path true (line pid)).foldl (changed path) c = line pid := by intro c; simp [givenTo, changed]
  rw [h1]
  apply holds_other
  intro x hx
  rw [List.mem_append, List.mem_append] at hx
  rcases hx with hx | hx | hx
  · cases hcg : j.flags.cgroups with
    | false => rw [hcg] at hx; simp at hx
    | true =>
      rw [hcg, if_pos rfl, List.mem_flatMap] at hx
      obtain ⟨c, hcm, hx⟩ := hx
      have hne : c ≠ path := fun e => hc hcg (e ▸ List.mem_of_mem_take hcm)
      simp only [givenTo, List.mem_cons, List.not_mem_nil, or_false] at hx
      rcases hx with rfl | rfl <;> simp [hne]
  · obtain ⟨r, _, rfl⟩ := List.mem_map.1 hx
    simp
  · have hprocs : ∀ name t, x ∈ givenTo (procPath pid name) false t → (∀ b, x ≠ .opened path b) ∧ ∀ b, x ≠ .wrote path b := by
      intro name t hx
      simp only [givenTo, List.mem_cons, List.not_mem_nil, or_false] at hx
      have := (hq name).symm
      rcases hx with rfl | rfl <;> simp [this]
    revert hx
    cases j.flags.userns <;> cases j.uidmap <;> cases j.gidmap <;> cases j.flags.disable_setgroups <;> cases b <;>
      simp only [if_true, if_false, Bool.false_eq_true, List.not_mem_nil, false_implies, List.nil_append, List.append_nil, Bool.and_true, Bool.and_false,
        Bool.false_and, Bool.true_and, List.mem_append] <;>
      intro hx <;> (first | exact hprocs _ _ hx | (rcases hx with hx | hx | hx <;> exact hprocs _ _ hx) | (rcases hx with hx | hx <;> exact hprocs _ _ hx))

/-- What is done is the plan of C27, step by step; if `setgroups` is not denied, that plan without this step. -/
theorem C69_plan : setupDeeds pid j true = (parentPlan j).flatMap (deedsOf pid) ∧
    setupDeeds pid j false = ((parentPlan j).filter (· ≠ .denySetgroups)).flatMap (deedsOf pid) := by
  have h1 : ∀ l : List BStr, (l.map Setup.cgroup).flatMap (deedsOf pid) = l.flatMap fun c => givenTo c true (line pid) := by
    intro l; induction l with
    | nil => rfl
    | cons c l ih => rw [List.map_cons, List.flatMap_cons, List.flatMap_cons, ih]; rfl
  have h2 : ∀ l : List Rlimit, (l.map Setup.rlimit).flatMap (deedsOf pid) = l.map (Deed.limited pid) := by
    intro l; induction l with
    | nil => rfl
    | cons c l ih => rw [List.map_cons, List.flatMap_cons, ih]; rfl
  have h3 : ∀ l : List BStr, (l.map Setup.cgroup).filter (· ≠ .denySetgroups) = l.map Setup.cgroup := by
    intro l; rw [List.filter_eq_self]; intro a ha; obtain ⟨c, _, rfl⟩ := List.mem_map.1 ha; simp
  have h4 : ∀ l : List Rlimit, (l.map Setup.rlimit).filter (· ≠ .denySetgroups) = l.map Setup.rlimit := by
    intro l; rw [List.filter_eq_self]; intro a ha; obtain ⟨c, _, rfl⟩ := List.mem_map.1 ha; simp
  have h3' : ∀ l : List BStr, (l.map Setup.cgroup).filter (fun x => !decide (x = .denySetgroups)) = l.map Setup.cgroup := by
    intro l; rw [List.filter_eq_self]; intro a ha; obtain ⟨c, _, rfl⟩ := List.mem_map.1 ha; simp
  have h5 : (if j.rlimit_count ≠ 0 then (j.rlimits.take j.rlimit_count).map Setup.rlimit else []) = (j.rlimits.take j.rlimit_count).map Setup.rlimit := by
    split
    · rfl
    · rename_i h
      have : j.rlimit_count = 0 := by simpa using h
      simp [this]
  unfold setupDeeds parentPlan ugidMapSetup
  rw [h5]
  generalize j.cgroups.take j.cgroup_count = cs
  generalize j.rlimits.take j.rlimit_count = ls
  constructor
  · simp only [List.flatMap_append, h2]
    cases j.flags.forward_signals <;> cases j.flags.pid_file <;> cases j.flags.cgroups <;> cases j.flags.userns <;> cases j.uidmap <;> cases j.gidmap <;>
      cases j.flags.disable_setgroups <;> simp [h1, deedsOf, -List.flatMap_map]
  · simp only [List.filter_append, List.flatMap_append, h4, h2]
    cases j.flags.forward_signals <;> cases j.flags.pid_file <;> cases j.flags.cgroups <;> cases j.flags.userns <;> cases j.uidmap <;> cases j.gidmap <;>
      cases j.flags.disable_setgroups <;> simp [h1, h3, h3', deedsOf, -List.flatMap_map, -List.filter_map, -ne_eq]

/-- A jail with everything. -/
def exSetup : Jail :=
  { minijailNew with
    flags := { minijailNew.flags with pid_file := true, cgroups := true, userns := true, disable_setgroups := true }
    pid_file_path := some (bstr "/run/p"), cgroups := [bstr "/cg/a", bstr "/cg/b"], cgroup_count := 2,
    rlimits := [⟨7#32, 10#64, 20#64⟩], rlimit_count := 1, uidmap := some (bstr "0 1000 1"), gidmap := some (bstr "0 100 1") }

/-- A system that refuses nothing. -/
def exWilling : SetupEnv where
  open_ _ _ := none
  print _ _ := true
  flush _ _ := none
  write _ _ := .inl 100
  limit _ _ := true
  errnoAfter _ e := e

/-- One without the file `setgroups`, which takes only three bytes of the second group's file. -/
def exOld : SetupEnv where
  open_ _ p := if p = procPath 42 "setgroups" then some 2 else none
  print _ _ := true
  flush _ p := if p = bstr "/cg/b" then some (2, 28) else none
  write _ _ := .inl 100
  limit _ _ := true
  errnoAfter _ e := e

/-- One where writing "deny" to `setgroups` is not permitted, and writing to the log leaves another `errno` behind (as when its socket is not there). -/
def exLogging : SetupEnv where
  open_ _ _ := none
  print _ _ := true
  flush _ _ := none
  write _ p := if p = procPath 42 "setgroups" then .inr 1 else .inl 100
  limit _ _ := true
  errnoAfter _ _ := 2

/-- `errno` is read after the warning has been logged. If logging changes it to "no such file", a jail that asks for `setgroups` to be denied goes on
although the system has refused just that, with the map of group ids written. -/
theorem C69_setgroups_violated : ∃ (env : SetupEnv) (pid : Nat) (j : Jail), SetupErrors env ∧ (∀ h p, env.open_ h p = none) ∧
    j.flags.userns = true ∧ j.flags.disable_setgroups = true ∧ (setupChild env pid j []).1 = .goesOn ∧
    (∃ m, j.gidmap = some m ∧ .wrote (procPath pid "gid_map") m ∈ (setupChild env pid j []).2) ∧
    ∀ b, .wrote (procPath pid "setgroups") b ∉ (setupChild env pid j []).2 := by
  refine ⟨exLogging, 42, exSetup, ?_, fun _ _ => rfl, rfl, rfl, by decide +kernel, ⟨bstr "0 100 1", rfl, by decide +kernel⟩, ?_⟩
  · constructor
    · intro h p e he; cases he
    · intro h p n e he; cases he
    · intro h p e he
      simp only [exLogging] at he
      split at he
      · cases he; decide
      · cases he
  · intro b hb
    have : (setupChild exLogging 42 exSetup []).2.all (fun x => match x with
        | .wrote p _ => decide (p ≠ procPath 42 "setgroups")
        | _ => true) = true := by decide +kernel
    have := List.all_eq_true.1 this _ hb
    simp at this

/-- A case: everything is done, with the number 42. -/
example : Willing exWilling exSetup ∧ SetupErrors exWilling ∧ LogKeeps exWilling ∧ (setupChild exWilling 42 exSetup []).1 = .goesOn ∧
    (setupChild exWilling 42 exSetup []).2 = [.opened (bstr "/run/p") true, .wrote (bstr "/run/p") (bstr "42\n"),
      .opened (bstr "/cg/a") true, .wrote (bstr "/cg/a") (bstr "42\n"), .opened (bstr "/cg/b") true, .wrote (bstr "/cg/b") (bstr "42\n"),
      .limited 42 ⟨7#32, 10#64, 20#64⟩, .opened (bstr "/proc/42/uid_map") false, .wrote (bstr "/proc/42/uid_map") (bstr "0 1000 1"),
      .opened (bstr "/proc/42/setgroups") false, .wrote (bstr "/proc/42/setgroups") (bstr "deny"),
      .opened (bstr "/proc/42/gid_map") false, .wrote (bstr "/proc/42/gid_map") (bstr "0 100 1")] := by
  refine ⟨⟨fun _ _ => rfl, fun _ _ => rfl, fun _ _ => rfl, fun _ _ => ⟨100, rfl, by decide, ?_, ?_⟩, fun _ _ => rfl⟩, ⟨?_, ?_, ?_⟩, fun _ _ => rfl,
    by decide +kernel, by decide +kernel⟩
  · intro m hm; cases hm; decide
  · intro m hm; cases hm; decide
  · intro h p e he; cases he
  · intro h p n e he; cases he
  · intro h p e he; cases he

theorem exOld_sound : SetupErrors exOld := by
  constructor
  · intro h p e he
    simp only [exOld] at he
    split at he <;> cases he
    decide
  · intro h p n e he
    simp only [exOld] at he
    split at he <;> cases he
    decide
  · intro h p e he; cases he

/-- A case: the second group's file takes only two bytes; the process is killed, nothing more is done. -/
example : SetupErrors exOld ∧ LogKeeps exOld ∧ (setupChild exOld 42 exSetup []).1 = .died ∧
    (setupChild exOld 42 exSetup []).2 = [.opened (bstr "/run/p") true, .wrote (bstr "/run/p") (bstr "42\n"),
      .opened (bstr "/cg/a") true, .wrote (bstr "/cg/a") (bstr "42\n"), .opened (bstr "/cg/b") true, .wrote (bstr "/cg/b") (bstr "42"), .killed 42] :=
  ⟨exOld_sound, fun _ _ => rfl, by decide +kernel, by decide +kernel⟩

/-- A case: without groups of processes that system goes on, without denying `setgroups`; the file holds "42". -/
example : SetupErrors exOld ∧ LogKeeps exOld ∧ (setupChild exOld 42 { exSetup with cgroup_count := 1, cgroups := [bstr "/cg/a"] } []).1 = .goesOn ∧
    exOld.open_ [] (procPath 42 "setgroups") = some 2 ∧
    holds (bstr "/run/p") (bstr "old") (setupChild exOld 42 { exSetup with cgroup_count := 1, cgroups := [bstr "/cg/a"] } []).2 = bstr "42\n" ∧
    (∀ name, bstr "/run/p" ≠ procPath 42 name) :=
  ⟨exOld_sound, fun _ _ => rfl, by decide +kernel, by decide +kernel, by decide +kernel, by
    intro name h
    have := congrArg (List.take 2) h
    have h1 : List.take 2 (procPath 42 name) = List.take 2 (bstr "/proc/") := by
      unfold procPath
      rw [List.append_assoc, List.take_append_of_le_length (by decide)]
    rw [h1] at this
    revert this
    decide⟩

end Minijail
