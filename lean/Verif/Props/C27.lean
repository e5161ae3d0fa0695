import Verif.Proof.Sync
/-! C27: the child waits for the parent's setup. -/
set_option linter.unusedSimpArgs false
set_option autoImplicit false
namespace Minijail
open Spec

variable {j : Jail} {evs : List SyncEv}

/-- In whatever order parent and child run and whatever fails: once the child is past its wait, all that was asked for has been set up. (Missing: something
else may end the parent during its setup, see `C27_violated`.) -/
theorem C27_waits_partial (hn : .parentEnds ∉ evs) (hp : PastSetup (syncRun j evs)) : SetUp j (syncRun j evs).did (syncRun j evs).missed := by
  have I := inv_run j evs
  rcases past_done I hp with h | h
  · have : ∀ (evs : List SyncEv) s, .parentEnds ∉ evs → (evs.foldl (syncStep j) s).left = s.left := by
      intro evs
      induction evs with
      | nil => intro s _; rfl
      | cons e evs ih =>
        intro s hn
        simp only [List.mem_cons, not_or] at hn
        rw [List.foldl_cons, ih _ hn.2]
        cases e <;> simp only [syncStep]
        case parentEnds => exact absurd rfl hn.1
        all_goals (repeat' split) <;> rfl
    rw [syncRun, this evs _ hn] at h
    simp [syncStart] at h
  · exact worked_setup I.order I.missed h

/-- The same if the parent is ended by something else, but not before its setup is done. -/
theorem C27_after (hl : (syncRun j evs).left = false) (hp : PastSetup (syncRun j evs)) : SetUp j (syncRun j evs).did (syncRun j evs).missed := by
  have I := inv_run j evs
  rcases past_done I hp with h | h
  · rw [hl] at h; simp at h
  · exact worked_setup I.order I.missed h

/-- What is set up is set up once each and in the order of the plan; limits in the order in which they were added. -/
theorem C27_limits (hl : (syncRun j evs).left = false) (hp : PastSetup (syncRun j evs)) : limitsOf (syncRun j evs).did = j.rlimits.take j.rlimit_count := by
  have I := inv_run j evs
  have ht : (syncRun j evs).todo = [] := by
    rcases past_done I hp with h | h
    · rw [hl] at h; simp at h
    · exact h
  obtain ⟨l, h1, h2, h3⟩ := I.order
  rw [ht, List.append_nil] at h1
  have hf : limitsOf (syncRun j evs).did = limitsOf (parentPlan j) := by
    have hm := I.missed
    rw [h3] at hm
    rw [h2, ← h1]
    clear h1 h2 h3 ht I
    induction l with
    | nil => rfl
    | cons a l ih =>
      obtain ⟨x, b⟩ := a
      have ih := ih fun a ha => hm a (by
        obtain ⟨y, hy, rfl⟩ := List.mem_map.1 ha
        exact List.mem_map.2 ⟨y, by rw [List.mem_filter] at hy ⊢; exact ⟨List.mem_cons_of_mem _ hy.1, hy.2⟩, rfl⟩)
      cases b with
      | true => simp only [limitsOf, List.filter_cons, if_true, List.map_cons, List.filterMap_cons] at ih ⊢; rw [ih]
      | false =>
        have hx : x = .denySetgroups := hm x (by simp)
        subst hx
        simpa [limitsOf] using ih
  rw [hf]
  have e1 : ∀ l : List BStr, limitsOf (l.map .cgroup) = [] := by
    intro l; simp [limitsOf, List.filterMap_map, Function.comp_def]
  have e2 : ∀ l : List Rlimit, limitsOf (l.map .rlimit) = l := by
    intro l; simp [limitsOf, List.filterMap_map, Function.comp_def]
  have ap : ∀ a b, limitsOf (a ++ b) = limitsOf a ++ limitsOf b := by intro a b; simp [limitsOf]
  unfold parentPlan
  simp only [ap]
  have h1 : limitsOf (if j.flags.forward_signals then [Setup.handlers] else []) = [] := by split <;> rfl
  have h2 : limitsOf (if j.flags.pid_file then [Setup.pidFile j.pid_file_path] else []) = [] := by split <;> rfl
  have h3 : limitsOf (if j.flags.cgroups then (j.cgroups.take j.cgroup_count).map Setup.cgroup else []) = [] := by
    split
    · exact e1 _
    · rfl
  have h4 : limitsOf (if j.rlimit_count ≠ 0 then (j.rlimits.take j.rlimit_count).map Setup.rlimit else []) = j.rlimits.take j.rlimit_count := by
    split
    · exact e2 _
    · next h =>
      have : j.rlimit_count = 0 := by omega
      rw [this]; rfl
  have h5 : limitsOf (if j.flags.userns then ugidMapSetup j else []) = [] := by
    split
    · unfold ugidMapSetup
      cases j.uidmap <;> cases j.gidmap <;> cases j.flags.disable_setgroups <;> rfl
    · rfl
  rw [h1, h2, h3, h4, h5]; simp

/-- If a step of the setup fails, the child never gets past its wait, now or later, unless something else ends the parent before it has sent the
signal. -/
theorem C27_failed (hf : (syncRun j evs).parent = .failed ∨ (syncRun j evs).parent = .killed) (more : List SyncEv) (hn : .parentEnds ∉ more) :
    ¬ PastSetup (syncRun j (evs ++ more)) := by
  have I := inv_run j evs
  rw [syncRun, List.foldl_append]
  change ¬ PastSetup (more.foldl (syncStep j) (syncRun j evs))
  have key : ∀ (more : List SyncEv) s, SyncInv j s → .parentEnds ∉ more → (s.parent = .failed ∨ s.doomed = true) →
      ¬ PastSetup (more.foldl (syncStep j) s) := by
    intro more
    induction more with
    | nil =>
      intro s I _ h hp
      rcases h with h | h
      · have := I.past hp (I.failed h)
        rw [I.working (.inr (.inl h)), I.failed h] at this
        simp at this
      · exact (I.doomed h).1 hp
    | cons e more ih =>
      intro s I hn h
      simp only [List.mem_cons, not_or] at hn
      refine ih _ (inv_step I e) hn.2 ?_
      rcases h with h | h
      · cases e <;> simp only [syncStep, h]
        case parentEnds => exact absurd rfl hn.1
        all_goals first
          | exact .inl h
          | exact .inr rfl
          | ((repeat' split) <;> first | exact .inl h | simp)
      · right
        cases e <;> simp only [syncStep] <;> (repeat' split) <;> first | exact h | rfl
  refine key more _ I hn ?_
  rcases hf with h | h
  · exact .inl h
  · exact .inr (I.killed h)

/-- A parent that gives up has sent SIGKILL to the child before it lets go of the pipe, and the child never gets past its wait. -/
theorem C27_killed (hk : (syncRun j evs).doomed = true) (more : List SyncEv) : ¬ PastSetup (syncRun j (evs ++ more)) := by
  have I := inv_run j (evs ++ more)
  apply (I.doomed ?_).1
  rw [syncRun, List.foldl_append]
  change (more.foldl (syncStep j) (syncRun j evs)).doomed = true
  generalize syncRun j evs = s at hk
  induction more generalizing s with
  | nil => exact hk
  | cons e more ih =>
    apply ih
    · exact inv_run j _
    · cases e <;> simp only [syncStep] <;> (repeat' split) <;> first | exact hk | rfl

/-- Without a wait there is nothing to set up. -/
theorem C27_direct (h : syncChild j = false) : parentPlan j = [] := by
  apply Classical.byContradiction
  intro hp
  rw [plan_sync hp] at h
  simp at h

/-- The child does not wait in vain: as soon as the parent has finished or is gone, a child that waits and was not killed goes on when it runs. -/
theorem C27_progress (hp : (syncRun j evs).parent = .finished ∨ (syncRun j evs).parent = .gone) (hc : (syncRun j evs).child = .reading)
    (hd : (syncRun j evs).doomed = false) : (syncRun j (evs ++ [.childGoes])).child = .entering := by
  have P := pipe_run j evs
  have hw : (syncRun j evs).parentWrite = false := by
    rcases hp with h | h
    · exact P.finished h
    · exact P.gone h
  have e : syncRun j (evs ++ [.childGoes]) = syncStep j (syncRun j evs) .childGoes := by simp [syncRun]
  rw [e]
  simp [syncStep, hc, hw, P.reading hc, hd]

/-- And the parent can always finish: from every state in which it is at its setup there is a way to go on in which all is set up and the program runs, unless
the child is dead. -/
theorem C27_completes (hp : (syncRun j evs).parent = .setup) (hc : (syncRun j evs).child ≠ .dead) :
    ∃ more, (syncRun j (evs ++ more)).child = .program ∧ SetUp j (syncRun j (evs ++ more)).did (syncRun j (evs ++ more)).missed := by
  obtain ⟨h1, h2, h3, h4⟩ := setup_all j _ (syncRun j evs) hp rfl
  have I := inv_run j evs
  have hl : (syncRun j evs).left = false ∧ (syncRun j evs).doomed = false := by
    have key : ∀ (evs : List SyncEv) s, (s.parent = .setup → s.left = false ∧ s.doomed = false) →
        (evs.foldl (syncStep j) s).parent = .setup → (evs.foldl (syncStep j) s).left = false ∧ (evs.foldl (syncStep j) s).doomed = false := by
      intro evs
      induction evs with
      | nil => intro s h; exact h
      | cons e evs ih =>
        intro s h
        refine ih _ ?_
        cases e <;> simp only [syncStep] <;> (repeat' split) <;> first | exact h | simp
    exact key evs _ (by simp [syncStart]) hp
  -- after the setup
  generalize hm : evs ++ (List.replicate (syncRun j evs).todo.length SyncEv.setup ++ [SyncEv.parentGoes]) = evs'
  have e : syncRun j evs' = (List.replicate (syncRun j evs).todo.length SyncEv.setup ++ [SyncEv.parentGoes]).foldl (syncStep j) (syncRun j evs) := by
    rw [← hm, syncRun, List.foldl_append]; rfl
  rw [← e] at h1 h2 h3 h4
  rw [hl.2] at h3
  rw [hl.1] at h4
  have P := pipe_run j evs'
  -- the child
  have goal : ∃ more, (syncRun j (evs' ++ more)).child = .program ∧ (syncRun j (evs' ++ more)).left = false := by
    have st : ∀ l, syncRun j (evs' ++ l) = l.foldl (syncStep j) (syncRun j evs') := by intro l; rw [syncRun, List.foldl_append]; rfl
    have hw := P.finished h1
    have hr := P.reading
    rw [h2] at hr
    generalize syncRun j evs' = s at h1 h2 h3 h4 hw hr st
    cases hcs : (syncRun j evs).child with
    | dead => exact absurd hcs hc
    | program => exact ⟨[], by rw [st]; simp [h2, hcs, h4]⟩
    | entering => exact ⟨[.childGoes], by rw [st]; simp [syncStep, h2, hcs, h4]⟩
    | reading =>
      have := hr hcs
      exact ⟨[.childGoes, .childGoes], by rw [st]; simp [syncStep, h2, hcs, h4, h3, hw, this]⟩
    | preparing =>
      by_cases hs : syncChild j = true
      · exact ⟨[.childGoes, .childGoes, .childGoes], by rw [st]; simp [syncStep, h2, hcs, h4, h3, hw, hs]⟩
      · exact ⟨[.childGoes, .childGoes], by rw [st]; simp [syncStep, h2, hcs, h4, h3, hw, hs]⟩
  obtain ⟨more, g1, g2⟩ := goal
  refine ⟨List.replicate (syncRun j evs).todo.length SyncEv.setup ++ [SyncEv.parentGoes] ++ more, ?_⟩
  rw [← List.append_assoc, hm]
  exact ⟨g1, C27_after g2 (.inr g1)⟩

/-- If something else ends the parent during its setup, the child takes this for the end of the setup: it runs the program outside of its control group. -/
theorem C27_violated : ∃ (j : Jail) (evs : List SyncEv), PastSetup (syncRun j evs) ∧ ¬ SetUp j (syncRun j evs).did (syncRun j evs).missed := by
  refine ⟨{ flags := { cgroups := true }, cgroups := [bstr "/c"], cgroup_count := 1 }, [.childGoes, .parentEnds, .childGoes, .childGoes], .inr (by decide), ?_⟩
  intro h
  have := h.cgroups rfl (bstr "/c") (by decide)
  revert this
  decide

/-- A jail with everything to set up, on a system without /proc/pid/setgroups: the child first waits, and runs once all is done. -/
example : ∃ j : Jail, PastSetup (syncRun j ([.childGoes, .childGoes, .setup, .setup, .childGoes, .setup, .setup, .setup, .setupEnoent, .setup, .childGoes,
    .parentGoes, .childGoes])) := by
  refine ⟨{ flags := { forward_signals := true, pid_file := true, cgroups := true, userns := true, disable_setgroups := true },
            pid_file_path := some (bstr "/p"), cgroups := [bstr "/c"], cgroup_count := 1, rlimits := [⟨7#32, 1#64, 1#64⟩], rlimit_count := 1,
            uidmap := some (bstr "0 1000 1"), gidmap := some (bstr "0 1000 1") }, .inl (by decide)⟩

end Minijail
