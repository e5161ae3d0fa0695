import Verif.Proof.StartedFds
import Verif.Props.C40
/-! C65: what the process that starts a program has afterwards. -/
set_option autoImplicit false
set_option linter.unusedSimpArgs false
namespace Minijail
open Spec

theorem namedJail_eq (c : RunConfig) (j : Jail) : ∃ f, namedJail c j = { j with filename := f } := by
  unfold namedJail
  cases c.filename with
  | none => exact ⟨j.filename, rfl⟩
  | some f => exact ⟨_, rfl⟩

/-- A call that returns failed before it started anything, or started a process. -/
theorem run_cases (env : RunEnv) (call : RunCall) (s s' : Caller) (n : Int) (h : minijailRun env call s = .ret n s') :
    ((prepareRun env call.config (namedJail call.config s.jail) s.fds).stop = some (.code n) ∧
      s' = { s with jail := namedJail call.config s.jail,
                    fds := freeRunState (prepareRun env call.config (namedJail call.config s.jail) s.fds).pipes (prepareRun env call.config (namedJail call.config s.jail) s.fds).fds }) ∨
    ((prepareRun env call.config (namedJail call.config s.jail) s.fds).stop = none ∧ 0 < env.clone ∧
      ∃ x y exec, x = prepareRun env call.config (namedJail call.config s.jail) s.fds ∧ y = rulesetStage env (x.fds, namedJail call.config s.jail) ∧
        exec = (if call.config.execInChild then some (call.config.filename, call.config.elfFd, call.config.argv,
          runChildEnv env call.config (namedJail call.config s.jail) x.pipes) else none) ∧
        ParentDid env call.config env.clone x.pipes { s with fds := y.1, jail := y.2, started := some ⟨env.clone, y.1, y.2, x.pipes, exec⟩ } n s') := by
  unfold minijailRun at h
  simp only at h
  split at h
  · cases h
  · cases hs : (prepareRun env call.config (namedJail call.config s.jail) s.fds).stop with
    | some st =>
      rw [hs] at h
      cases st with
      | die => cases h
      | code k =>
        simp only [RunRes.ret.injEq] at h
        exact .inl ⟨by rw [h.1], h.2.symm⟩
    | none =>
      rw [hs] at h
      simp only at h
      split at h
      · cases h
      · split at h
        · cases h
        · rename_i hc
          exact .inr ⟨rfl, by omega, _, _, _, rfl, rfl, rfl, runParent_ret _ _ _ _ _ _ _ h⟩

/-- **C65**, a call that starts nothing: it returns one of three error numbers, hands out nothing, and the caller's descriptors, memory, signals and
processes are as before. -/
theorem C65_failed (env : RunEnv) (hk : KernelFds env) (call : RunCall) (s s' : Caller) (n : Int) (h : minijailRun env call s = .ret n s')
    (h' : s'.started = none) : (n = 12 ∨ n = 14 ∨ n = -14) ∧ s'.fds = s.fds ∧ s'.mem = s.mem ∧ s'.blocked = s.blocked ∧ s'.pipeSignal = s.pipeSignal ∧
      s'.forwards = s.forwards ∧ s'.killed = s.killed ∧ ∃ f, s'.jail = { s.jail with filename := f } := by
  obtain ⟨pc, pi, po, pe, ps, h1, h2, -, h4⟩ := prepare_spec65 hk call.config (namedJail call.config s.jail) s.fds
  rcases run_cases env call s s' n h with ⟨hst, hs⟩ | ⟨-, -, x, y, exec, -, -, -, hd⟩
  · refine ⟨h4 n hst, ?_, ?_, ?_, ?_, ?_, ?_, ?_⟩
    · rw [hs]; simp only; rw [h2]; exact freed h1
    · rw [hs]
    · rw [hs]
    · rw [hs]
    · rw [hs]
    · rw [hs]
    · obtain ⟨f, hf⟩ := namedJail_eq call.config s.jail
      exact ⟨f, by rw [hs]; exact hf⟩
  · rw [hd.started] at h'; cases h'

theorem config_spec (call : RunCall) : call.config.pchildPid = pidTo call ∧ call.config.pstdin = stdinTo call ∧ call.config.pstdout = stdoutTo call ∧
    call.config.pstderr = stderrTo call ∧ call.config.usePreload = preloads call ∧ (call.config.execInChild = (executes call).isSome) ∧
    (∀ p a v, executes call = some (p, a, v) → call.config.argv = a ∧ call.config.envp = v ∧
      (match p with
        | .inl f => call.config.filename = some f ∧ call.config.elfFd = -1
        | .inr d => call.config.filename = none ∧ call.config.elfFd = d)) := by
  cases call <;> refine ⟨rfl, rfl, rfl, rfl, rfl, rfl, ?_⟩ <;> intro p a v he <;> cases he <;> exact ⟨rfl, rfl, rfl, rfl⟩

theorem store_apply (p : Option Nat) (v : Int) (m : Nat → Int) (b : Nat) : store p v m b = if p = some b then v else m b := by
  cases p with
  | none => simp [store]
  | some a => simp only [store, Option.some.injEq, eq_comm]

theorem store_four (p i o e : Option Nat) (vp vi vo ve : Int) (m0 m : Nat → Int) (hm : m = store e ve (store o vo (store i vi (store p vp m0))))
    (hd : ([p, i, o, e].filterMap id).Nodup) : (∀ a, p = some a → m a = vp) ∧ (∀ a, i = some a → m a = vi) ∧ (∀ a, o = some a → m a = vo) ∧
      (∀ a, e = some a → m a = ve) := by
  have k : ∀ b, m b = if e = some b then ve else if o = some b then vo else if i = some b then vi else if p = some b then vp else m0 b := by
    intro b; rw [hm, store_apply, store_apply, store_apply, store_apply]
  clear hm
  refine ⟨?_, ?_, ?_, ?_⟩ <;> rintro a rfl <;> rw [k]
  · rw [if_neg, if_neg, if_neg, if_pos rfl] <;> rintro rfl <;> simp at hd
  · rw [if_neg, if_neg, if_pos rfl] <;> rintro rfl <;> cases p <;> simp at hd
  · rw [if_neg, if_pos rfl]
    rintro rfl
    cases p <;> cases i <;> simp at hd
  · rw [if_pos rfl]

theorem rulesetStage_none (env : RunEnv) (t : FdTable) (j : Jail) (h : j.fs_rules = [] ∨ ∀ t, (env.landlock t).ruleset.toInt < 0) :
    (rulesetStage env (t, j)).1 = t := by
  unfold rulesetStage
  simp only
  by_cases hr : j.fs_rules.isEmpty
  · rw [if_pos hr]
  · rw [if_neg hr]
    rcases h with h | h
    · simp [h] at hr
    · simp [h t]

theorem rulesetStage_jail (env : RunEnv) (x : FdTable × Jail) : (rulesetStage env x).2.flags = x.2.flags ∧ (rulesetStage env x).2.mountns_fd = x.2.mountns_fd ∧
    (rulesetStage env x).2.netns_fd = x.2.netns_fd ∧ parentPlan (rulesetStage env x).2 = parentPlan x.2 := by
  unfold rulesetStage
  split_ifs
  · exact ⟨rfl, rfl, rfl, rfl⟩
  · have hj : ∀ k j, (setupFsRulesFd k j).flags = j.flags ∧ (setupFsRulesFd k j).mountns_fd = j.mountns_fd ∧ (setupFsRulesFd k j).netns_fd = j.netns_fd ∧
        parentPlan (setupFsRulesFd k j) = parentPlan j := by
      intro k j
      unfold setupFsRulesFd fsReferSupported
      simp only
      split_ifs <;> exact ⟨rfl, rfl, rfl, rfl⟩
    have hp : ∀ j a b, ∃ c, preserveFd j a b = .ret c j ∨ ∃ l k, preserveFd j a b = .ret c { j with preserved_fds := l, preserved_fd_count := k } := by
      intro j a b
      unfold preserveFd
      split_ifs
      · exact ⟨_, .inl rfl⟩
      · exact ⟨_, .inl rfl⟩
      · exact ⟨_, .inr ⟨_, _, rfl⟩⟩
    simp only
    obtain ⟨c, hc | ⟨l, k, hc⟩⟩ := hp (setupFsRulesFd (env.landlock x.1) x.2) (setupFsRulesFd (env.landlock x.1) x.2).fs_rules_fd (setupFsRulesFd (env.landlock x.1) x.2).fs_rules_fd
    · rw [hc]; exact hj _ _
    · rw [hc]; exact hj _ _

theorem rulesetStage_preserved (env : RunEnv) (x : FdTable × Jail) (h : x.2.fs_rules = [] ∨ ∀ t, (env.landlock t).ruleset.toInt < 0) :
    (rulesetStage env x).2.preserved_fds = x.2.preserved_fds ∧ (rulesetStage env x).2.preserved_fd_count = x.2.preserved_fd_count := by
  unfold rulesetStage
  by_cases hr : x.2.fs_rules.isEmpty
  · rw [if_pos hr]; exact ⟨rfl, rfl⟩
  · rw [if_neg hr]
    rcases h with h | h
    · simp [h] at hr
    · have h1 : (setupFsRulesFd (env.landlock x.1) x.2).fs_rules_fd = (env.landlock x.1).ruleset := rfl
      have h2 : ∀ k j, (setupFsRulesFd k j).preserved_fds = j.preserved_fds ∧ (setupFsRulesFd k j).preserved_fd_count = j.preserved_fd_count := by
        intro k j
        unfold setupFsRulesFd fsReferSupported
        simp only
        split_ifs <;> exact ⟨rfl, rfl⟩
      simp only
      unfold preserveFd
      rw [h1, if_pos (.inl (h x.1))]
      exact h2 _ _

/-- What a call that starts a process does. -/
theorem run_started (env : RunEnv) (hk : KernelFds env) (call : RunCall) (s s' : Caller) (n : Int) (p : Started)
    (h : minijailRun env call s = .ret n s') (h0 : s.started = none) (h' : s'.started = some p)
    (hns : ∀ m, NamespaceFd s.jail m → s.fds m ≠ none) (hll : s.jail.fs_rules = [] ∨ ∀ t, (env.landlock t).ruleset.toInt < 0) :
    0 < p.pid ∧ n = (if (executes call).isSome then 0 else p.pid) ∧ s'.jail.initpid = BitVec.ofInt 32 p.pid ∧ s'.blocked = s.blocked ∧
    ∃ i o e : Option NewPipe, (∀ q ∈ i.toList ++ o.toList ++ e.toList, ∃ t, env.pipe t = some q) ∧
      i.isSome = (stdinTo call).isSome ∧ o.isSome = (stdoutTo call).isSome ∧ e.isSome = (stderrTo call).isSome ∧
      p.pipes.stdin = (i.map (·.r), i.map (·.w)) ∧ p.pipes.stdout = (o.map (·.r), o.map (·.w)) ∧ p.pipes.stderr = (e.map (·.r), e.map (·.w)) ∧
      (∀ x ∈ callerEnds i o e, s.fds x.1 = none ∧ s'.fds x.1 = some ⟨x.2, false⟩) ∧
      (∀ m, m ∉ (callerEnds i o e).map Prod.fst → s'.fds m = none ∧ NamespaceFd s.jail m ∨ s'.fds m = s.fds m ∧ ¬ NamespaceFd s.jail m) ∧
      (∀ q ∈ i.toList ++ o.toList ++ e.toList, ∀ m f, s'.fds m = some f → f.file = q.fr ∨ f.file = q.fw → (m, f.file) ∈ callerEnds i o e) ∧
      ((resultsTo call).Nodup →
        (∀ a, pidTo call = some a → s'.mem a = p.pid) ∧
        (∀ a, stdinTo call = some a → ∃ q, i = some q ∧ s'.mem a = q.w) ∧
        (∀ a, stdoutTo call = some a → ∃ q, o = some q ∧ s'.mem a = q.r) ∧
        (∀ a, stderrTo call = some a → ∃ q, e = some q ∧ s'.mem a = q.r)) ∧
      (∀ a, a ∉ resultsTo call → s'.mem a = s.mem a) ∧
      ∃ c y : Option NewPipe, PipesIn env s.fds (c.toList ++ i.toList ++ o.toList ++ e.toList ++ y.toList) p.fds ∧
        p.pipes = ⟨endsOf c, endsOf y, endsOf i, endsOf o, endsOf e⟩ ∧ (p.jail.flags = s.jail.flags ∧ p.jail.mountns_fd = s.jail.mountns_fd ∧ p.jail.netns_fd = s.jail.netns_fd) ∧
        (p.jail.preserved_fds = s.jail.preserved_fds ∧ p.jail.preserved_fd_count = s.jail.preserved_fd_count) := by
  obtain ⟨pc, pi, po, pe, ps, h1, h2, h3, -⟩ := prepare_spec65 hk call.config (namedJail call.config s.jail) s.fds
  obtain ⟨c1, c2, c3, c4, c5, c6, -⟩ := config_spec call
  obtain ⟨f, hf⟩ := namedJail_eq call.config s.jail
  rcases run_cases env call s s' n h with ⟨-, hs⟩ | ⟨hst, hpos, x, y, exec, hx, hy, -, hd⟩
  · rw [hs] at h'; simp only [h0] at h'; cases h'
  · obtain ⟨w1, w2, w3, w4, w5, -⟩ := h3 hst
    rw [← hx] at h1 h2
    have hp : p = ⟨env.clone, y.1, y.2, x.pipes, exec⟩ := by
      have := hd.started
      rw [h'] at this
      simpa using this
    have hy1 : y.1 = x.fds := by rw [hy]; exact rulesetStage_none env _ _ (by rw [hf]; exact hll)
    have hyj : y.2.flags = s.jail.flags ∧ y.2.mountns_fd = s.jail.mountns_fd ∧ y.2.netns_fd = s.jail.netns_fd := by
      obtain ⟨a, b, c, -⟩ := rulesetStage_jail env (x.fds, namedJail call.config s.jail)
      rw [hy, a, b, c]
      simp only [hf]
      exact ⟨trivial, trivial, trivial⟩
    have hnsy : ∀ m, NamespaceFd y.2 m ↔ NamespaceFd s.jail m := by
      intro m; unfold NamespaceFd; rw [hyj.1, hyj.2.1, hyj.2.2]
    subst hp
    have hL : ∀ m, m ∈ pipeNums (pc.toList ++ pi.toList ++ po.toList ++ pe.toList ++ ps.toList) → ¬ NamespaceFd s.jail m :=
      fun m hm hc => hns m hc (h1.free m hm)
    -- which ends are dropped
    have hdrop : ∀ m, some m ∈ droppedEnds call.config x.pipes ↔ m ∈ pipeNums pc.toList ∨ m ∈ pipeNums ps.toList ∨ some m = pi.map (·.r) ∨ some m = po.map (·.w) ∨
        some m = pe.map (·.w) := by
      intro m
      have e2 : (if call.config.pstdin.isSome then none else pi.map (·.w)) = none := by
        cases hc : call.config.pstdin.isSome
        · rw [hc] at w2; cases pi <;> simp_all
        · rfl
      have e3 : (if call.config.pstdout.isSome then none else po.map (·.r)) = none := by
        cases hc : call.config.pstdout.isSome
        · rw [hc] at w3; cases po <;> simp_all
        · rfl
      have e4 : (if call.config.pstderr.isSome then none else pe.map (·.r)) = none := by
        cases hc : call.config.pstderr.isSome
        · rw [hc] at w4; cases pe <;> simp_all
        · rfl
      have key : ∀ o : Option NewPipe, m ∈ pipeNums o.toList ↔ (some m = o.map (·.r) ∨ some m = o.map (·.w)) := by
        intro o; cases o <;> simp [pipeNums]
      rw [h2]
      simp only [droppedEnds, endsOf]
      rw [e2, e3, e4, key, key]
      simp only [List.mem_cons, List.not_mem_nil, or_false, reduceCtorEq, false_or, or_assoc]
    -- the ends that are kept
    have hkept : ∀ z ∈ callerEnds pi po pe, z.1 ∈ pipeNums (pc.toList ++ pi.toList ++ po.toList ++ pe.toList ++ ps.toList) ∧ x.fds z.1 = some ⟨z.2, false⟩ ∧
        some z.1 ∉ droppedEnds call.config x.pipes := by
      have hn := h1.nums
      simp only [pipeNums_append] at hn
      intro z hz
      rw [hdrop]
      simp only [callerEnds, List.mem_append] at hz
      rcases hz with (hz | hz) | hz
      · cases pi with
        | none => simp at hz
        | some q =>
          have : z = (q.w, q.fw) := by simpa using hz
          subst this
          refine ⟨mem_pipeNums.2 ⟨q, by simp, .inr rfl⟩, (h1.ends q (by simp)).2, ?_⟩
          simp only [pipeNums, Option.toList_some, List.flatMap_cons, List.flatMap_nil, List.append_nil] at hn ⊢
          cases pc <;> cases po <;> cases pe <;> cases ps <;> simp [List.nodup_cons, List.nodup_append] at hn ⊢ <;> grind
      · cases po with
        | none => simp at hz
        | some q =>
          have : z = (q.r, q.fr) := by simpa using hz
          subst this
          refine ⟨mem_pipeNums.2 ⟨q, by simp, .inl rfl⟩, (h1.ends q (by simp)).1, ?_⟩
          simp only [pipeNums, Option.toList_some, List.flatMap_cons, List.flatMap_nil, List.append_nil] at hn ⊢
          cases pc <;> cases pi <;> cases pe <;> cases ps <;> simp [List.nodup_cons, List.nodup_append] at hn ⊢ <;> grind
      · cases pe with
        | none => simp at hz
        | some q =>
          have : z = (q.r, q.fr) := by simpa using hz
          subst this
          refine ⟨mem_pipeNums.2 ⟨q, by simp, .inl rfl⟩, (h1.ends q (by simp)).1, ?_⟩
          simp only [pipeNums, Option.toList_some, List.flatMap_cons, List.flatMap_nil, List.append_nil] at hn ⊢
          cases pc <;> cases pi <;> cases po <;> cases ps <;> simp [List.nodup_cons, List.nodup_append] at hn ⊢ <;> grind
    have hall : ∀ m, m ∈ pipeNums (pc.toList ++ pi.toList ++ po.toList ++ pe.toList ++ ps.toList) → m ∉ (callerEnds pi po pe).map Prod.fst →
        some m ∈ droppedEnds call.config x.pipes := by
      intro m hm hc
      rw [hdrop]
      simp only [pipeNums_append, List.mem_append] at hm
      have key : ∀ o : Option NewPipe, m ∈ pipeNums o.toList ↔ (some m = o.map (·.r) ∨ some m = o.map (·.w)) := by
        intro o; cases o <;> simp [pipeNums]
      have k1 : some m ≠ pi.map (·.w) := fun hh => hc (by cases pi <;> simp_all [callerEnds])
      have k2 : some m ≠ po.map (·.r) := fun hh => hc (by cases po <;> simp_all [callerEnds])
      have k3 : some m ≠ pe.map (·.r) := fun hh => hc (by cases pe <;> simp_all [callerEnds])
      rcases hm with (((hm | hm) | hm) | hm) | hm
      · exact .inl hm
      · rcases (key _).1 hm with hm | hm
        · exact .inr (.inr (.inl hm))
        · exact absurd hm k1
      · rcases (key _).1 hm with hm | hm
        · exact absurd hm k2
        · exact .inr (.inr (.inr (.inl hm)))
      · rcases (key _).1 hm with hm | hm
        · exact absurd hm k3
        · exact .inr (.inr (.inr (.inr hm)))
      · exact .inr (.inl hm)
    have hcall : (if call.config.execInChild = true then (0 : Int) else env.clone) = if (executes call).isSome then 0 else env.clone := by rw [c6]
    have hrest : ∀ m, m ∉ (callerEnds pi po pe).map Prod.fst → s'.fds m = none ∧ NamespaceFd s.jail m ∨ s'.fds m = s.fds m ∧ ¬ NamespaceFd s.jail m := by
      intro m hm
      by_cases hn : NamespaceFd s.jail m
      · exact .inl ⟨hd.ns m ((hnsy m).2 hn), hn⟩
      · refine .inr ⟨?_, hn⟩
        by_cases hin : m ∈ pipeNums (pc.toList ++ pi.toList ++ po.toList ++ pe.toList ++ ps.toList)
        · rw [hd.dropped m (hall m hin hm), h1.free m hin]
        · rw [hd.kept m (fun hc => hn ((hnsy m).1 hc))]
          · simp only [hy1]; exact h1.rest m hin
          · intro hc
            apply hin
            rw [hdrop] at hc
            simp only [pipeNums_append, List.mem_append]
            have key : ∀ o : Option NewPipe, m ∈ pipeNums o.toList ↔ (some m = o.map (·.r) ∨ some m = o.map (·.w)) := by
              intro o; cases o <;> simp [pipeNums]
            rcases hc with hc | hc | hc | hc | hc
            · exact .inl (.inl (.inl (.inl hc)))
            · exact .inr hc
            · exact .inl (.inl (.inl (.inr ((key _).2 (.inl hc)))))
            · exact .inl (.inl (.inr ((key _).2 (.inr hc))))
            · exact .inl (.inr ((key _).2 (.inr hc)))
    have hends : ∀ z ∈ callerEnds pi po pe, s.fds z.1 = none ∧ s'.fds z.1 = some ⟨z.2, false⟩ := by
      intro z hz
      obtain ⟨k1, k2, k3⟩ := hkept z hz
      refine ⟨h1.free _ k1, ?_⟩
      rw [hd.kept _ (fun hc => hL _ k1 ((hnsy _).1 hc)) k3]
      simp only [hy1]
      exact k2
    refine ⟨hpos, by rw [hd.code]; exact hcall, ?_, hd.blocked, pi, po, pe, ?_, by rw [w2, c2], by rw [w3, c3], by rw [w4, c4], by rw [h2]; rfl, by rw [h2]; rfl, by rw [h2]; rfl,
      hends, hrest, ?_, ?_, ?_, pc, ps, by rw [← hy1] at h1; exact h1, h2, hyj, ?_⟩
    · rw [hd.jail]
    · intro q hq
      refine h1.made q ?_
      simp only [List.mem_append] at hq ⊢
      tauto
    · intro q hq m g hg hfile
      have hqL : q ∈ pc.toList ++ pi.toList ++ po.toList ++ pe.toList ++ ps.toList := by
        simp only [List.mem_append] at hq ⊢
        tauto
      by_cases hm : m ∈ (callerEnds pi po pe).map Prod.fst
      · obtain ⟨z, hz, rfl⟩ := List.mem_map.1 hm
        rw [(hends z hz).2] at hg
        cases hg
        exact hz
      · exfalso
        rcases hrest m hm with ⟨hr, -⟩ | ⟨hr, -⟩
        · rw [hr] at hg; cases hg
        · rw [hr] at hg
          rcases hfile with hfile | hfile
          · exact h1.fresh _ (mem_pipeFiles.2 ⟨q, hqL, .inl rfl⟩) m g hg hfile
          · exact h1.fresh _ (mem_pipeFiles.2 ⟨q, hqL, .inr rfl⟩) m g hg hfile
    · intro hdist
      obtain ⟨m1, m2, m3, m4⟩ := store_four _ _ _ _ _ _ _ _ _ _ hd.mem (by rw [c1, c2, c3, c4]; exact hdist)
      rw [h2] at m2 m3 m4
      simp only [endsOf] at m2 m3 m4
      rw [← c1, ← c2, ← c3, ← c4]
      refine ⟨m1, ?_, ?_, ?_⟩
      · intro a ha
        rw [m2 a ha]
        cases pi with
        | none => rw [ha] at w2; cases w2
        | some q => exact ⟨q, rfl, rfl⟩
      · intro a ha
        rw [m3 a ha]
        cases po with
        | none => rw [ha] at w3; cases w3
        | some q => exact ⟨q, rfl, rfl⟩
      · intro a ha
        rw [m4 a ha]
        cases pe with
        | none => rw [ha] at w4; cases w4
        | some q => exact ⟨q, rfl, rfl⟩
    · intro a ha
      rw [hd.mem, store_apply, store_apply, store_apply, store_apply, c1, c2, c3, c4]
      unfold resultsTo at ha
      rw [if_neg, if_neg, if_neg, if_neg]
      all_goals
        intro hc
        exact ha (by simp [hc])
    · obtain ⟨a, b⟩ := rulesetStage_preserved env (x.fds, namedJail call.config s.jail) (by rw [hf]; exact hll)
      rw [hy, a, b, hf]
      exact ⟨rfl, rfl⟩

/-- **C65**, a call that starts a process (as long as there are no path rules, or no Landlock). It returns 0, or the process's number from `minijail_fork`; the jail
remembers that number, and it is stored where the caller asked for it. There is a pipe for each stream that was asked for, and no other: the caller has one end of
it under the number that is stored, and no second descriptor for either of its ends. Every other descriptor is as before, but those of
namespaces to enter, which are closed. No other memory changes, and the same signals are blocked. Missing: the descriptor of path rules stays open. -/
theorem C65_started_partial (env : RunEnv) (hk : KernelFds env) (call : RunCall) (s s' : Caller) (n : Int) (p : Started)
    (h : minijailRun env call s = .ret n s') (h0 : s.started = none) (h' : s'.started = some p)
    (hns : ∀ m, NamespaceFd s.jail m → s.fds m ≠ none) (hll : s.jail.fs_rules = [] ∨ ∀ t, (env.landlock t).ruleset.toInt < 0) :
    0 < p.pid ∧ n = (if (executes call).isSome then 0 else p.pid) ∧ s'.jail.initpid = BitVec.ofInt 32 p.pid ∧ s'.blocked = s.blocked ∧
    ∃ i o e : Option NewPipe, (∀ q ∈ i.toList ++ o.toList ++ e.toList, ∃ t, env.pipe t = some q) ∧
      i.isSome = (stdinTo call).isSome ∧ o.isSome = (stdoutTo call).isSome ∧ e.isSome = (stderrTo call).isSome ∧
      p.pipes.stdin = (i.map (·.r), i.map (·.w)) ∧ p.pipes.stdout = (o.map (·.r), o.map (·.w)) ∧ p.pipes.stderr = (e.map (·.r), e.map (·.w)) ∧
      (∀ x ∈ callerEnds i o e, s.fds x.1 = none ∧ s'.fds x.1 = some ⟨x.2, false⟩) ∧
      (∀ m, m ∉ (callerEnds i o e).map Prod.fst → s'.fds m = none ∧ NamespaceFd s.jail m ∨ s'.fds m = s.fds m ∧ ¬ NamespaceFd s.jail m) ∧
      (∀ q ∈ i.toList ++ o.toList ++ e.toList, ∀ m f, s'.fds m = some f → f.file = q.fr ∨ f.file = q.fw → (m, f.file) ∈ callerEnds i o e) ∧
      ((resultsTo call).Nodup →
        (∀ a, pidTo call = some a → s'.mem a = p.pid) ∧
        (∀ a, stdinTo call = some a → ∃ q, i = some q ∧ s'.mem a = q.w) ∧
        (∀ a, stdoutTo call = some a → ∃ q, o = some q ∧ s'.mem a = q.r) ∧
        (∀ a, stderrTo call = some a → ∃ q, e = some q ∧ s'.mem a = q.r)) ∧
      (∀ a, a ∉ resultsTo call → s'.mem a = s.mem a) := by
  obtain ⟨a1, a2, a3, a4, i, o, e, b1, b2, b3, b4, b5, b6, b7, b8, b9, b10, b11, b12, -⟩ := run_started env hk call s s' n p h h0 h' hns hll
  exact ⟨a1, a2, a3, a4, i, o, e, b1, b2, b3, b4, b5, b6, b7, b8, b9, b10, b11, b12⟩

/-- Text given as bytes. -/
def asText (s : Option BStr) : Option CStr := s.map fun s => s.map fun b => Char.ofNat b.toNat

/-- **C65**, what the process executes: nothing after `minijail_fork`; else the program that was given, by its path or its descriptor, with the arguments that
were given. Its `main` finds the environment that was given, or the caller's, but for SECCOMP_POLICY_PATH if there is a policy, and for
the variable of the pipe if the library is preloaded; which then finds the pipe. (Missing, as in C40: a library whose path has a space, LD_PRELOAD set to
nothing, a variable that occurs twice.) -/
theorem C65_executes_partial (env : RunEnv) (hk : KernelFds env) (call : RunCall) (s s' : Caller) (n : Int) (p : Started)
    (h : minijailRun env call s = .ret n s') (h0 : s.started = none) (h' : s'.started = some p) :
    match executes call with
    | none => p.exec = none
    | some (program, args, given) =>
      ∃ path d v, p.exec = some (path, d, args, v) ∧
        (match program with
          | .inl f => path = some f ∧ d = -1
          | .inr e => path = none ∧ d = e) ∧
        (preloads call = true → ∃ c, p.pipes.config.1 = some c ∧ minijailGetenv (some v) (some fdVar) = some (Nat.toDigits 10 c)) ∧
        ((preloads call = true → EnvDistinct (given.getD env.environ) ∧ envValue (given.getD env.environ) preloadVar ≠ some [] ∧
            ' ' ∉ (asText s.jail.preload_path).getD env.library) →
          ∀ x, envValue (if preloads call then fakeMainEnv v else v) x = intended (given.getD env.environ) (asText s.jail.seccomp_policy_path) (preloads call) x) := by
  obtain ⟨pc, pi, po, pe, ps, -, h2, h3, -⟩ := prepare_spec65 hk call.config (namedJail call.config s.jail) s.fds
  obtain ⟨-, -, -, -, c5, c6, c7⟩ := config_spec call
  obtain ⟨f, hf⟩ := namedJail_eq call.config s.jail
  rcases run_cases env call s s' n h with ⟨-, hs⟩ | ⟨hst, hpos, x, y, exec, hx, hy, hexec, hd⟩
  · rw [hs] at h'; simp only [h0] at h'; cases h'
  obtain ⟨w1, -⟩ := h3 hst
  rw [← hx] at h2
  have hp : p = ⟨env.clone, y.1, y.2, x.pipes, exec⟩ := by
    have := hd.started
    rw [h'] at this
    simpa using this
  subst hp
  simp only
  rw [hexec, c6]
  cases he : executes call with
  | none => rfl
  | some z =>
    obtain ⟨program, args, given⟩ := z
    obtain ⟨d1, d2, d3⟩ := c7 program args given he
    simp only [Option.isSome_some, if_true]
    have hpath : (namedJail call.config s.jail).seccomp_policy_path = s.jail.seccomp_policy_path := by rw [hf]
    have hlib : (namedJail call.config s.jail).preload_path = s.jail.preload_path := by rw [hf]
    refine ⟨call.config.filename, call.config.elfFd, _, by rw [d1], d3, ?_, ?_⟩
    · intro hpre
      cases pc with
      | none => rw [c5, hpre] at w1; cases w1
      | some q =>
        refine ⟨q.r, by rw [h2]; rfl, ?_⟩
        unfold runChildEnv
        simp only
        rw [c5, hpre, if_pos rfl, C40_announced, h2]
        rfl
    · intro hgood z
      unfold runChildEnv
      simp only
      rw [c5, d2, hpath, hlib]
      cases hpre : preloads call with
      | true =>
        obtain ⟨g1, g2, g3⟩ := hgood hpre
        simp only [if_true]
        exact C40_restored_partial g1 g3 g2 z
      | false =>
        simp only [Bool.false_eq_true, if_false]
        exact C40_direct _ _ z

/-- **C65**: no call ends the caller by SIGPIPE, even if the program is gone before it has read its configuration. -/
theorem C65_never_killed (env : RunEnv) (call : RunCall) (s : Caller) : minijailRun env call s ≠ .killedByPipe := by
  unfold minijailRun
  simp only
  split
  · simp
  · split
    · simp
    · simp
    · split
      · simp
      · split
        · simp
        · unfold runParent handOut sendStage
          simp only
          split
          · simp
          · split
            · have : ∀ b : Nat → Bool, (env.readerGone && !(SIGPIPE == SIGPIPE || b SIGPIPE)) = false := by intro b; simp
              simp only [this]
              split <;> simp_all
              all_goals
                rename_i hh
                split at hh <;> simp_all
            · simp

theorem keepNs_maps (on : Bool) (fd : BitVec 32) (j : Jail) (e : FdMap) (he : e ∈ preservedMaps (keepNs on fd j)) :
    e ∈ preservedMaps j ∨ (on = true ∧ 0 ≤ fd.toInt ∧ e.parent = fd.toNat) := by
  unfold keepNs at he
  split at he
  · rename_i hon
    unfold preserveFd at he
    split_ifs at he with h1 h2
    · exact .inl he
    · exact .inl he
    · simp only [ApiRes.ok, preservedMaps, List.mem_map] at he
      obtain ⟨q, hq, rfl⟩ := he
      obtain ⟨k, hk, rfl⟩ := List.mem_iff_getElem.1 hq
      simp only [List.length_take, List.length_set] at hk
      rw [List.getElem_take, List.getElem_set]
      by_cases hc : j.preserved_fd_count = k
      · right
        rw [if_pos hc]
        exact ⟨hon, by omega, rfl⟩
      · left
        rw [if_neg hc]
        refine List.mem_map.2 ⟨_, List.mem_iff_getElem.2 ⟨k, ?_, ?_⟩, rfl⟩
        · rw [List.length_take]; omega
        · rw [List.getElem_take]
  · exact .inl he

theorem keepNs_count (on : Bool) (fd : BitVec 32) (j : Jail) (h : j.preserved_fd_count ≤ 128) : (keepNs on fd j).preserved_fd_count ≤ 128 := by
  unfold keepNs
  split
  · unfold preserveFd
    split_ifs with h1 h2
    · exact h
    · exact h
    · simp only [ApiRes.ok]
      have : MAX_PRESERVED_FDS = 128 := rfl
      omega
  · exact h

theorem startedMaps_spec (j : Jail) (h : j.preserved_fd_count ≤ 128) : (startedMaps j).length ≤ 128 ∧ ∀ e ∈ startedMaps j, e ∈ preservedMaps j ∨ NamespaceFd j e.parent := by
  have hlen : ∀ j : Jail, j.preserved_fd_count ≤ 128 → (preservedMaps j).length ≤ 128 := by
    intro j h
    unfold preservedMaps
    rw [List.length_map, List.length_take]
    omega
  unfold startedMaps
  split
  · refine ⟨hlen _ (keepNs_count _ _ _ (keepNs_count _ _ _ h)), ?_⟩
    intro e he
    rcases keepNs_maps _ _ _ _ he with he | ⟨h1, h2, h3⟩
    · rcases keepNs_maps _ _ _ _ he with he | ⟨h1, h2, h3⟩
      · exact .inl he
      · exact .inr (.inl ⟨h1, h2, h3⟩)
    · exact .inr (.inr ⟨h1, h2, h3⟩)
  · exact ⟨hlen j h, fun e he => .inl he⟩

/-- Ends of new pipes have files that nobody else has. -/
theorem PipesIn.only {env : RunEnv} {t u : FdTable} {L : List NewPipe} (h : PipesIn env t L u) (p n : Nat) (f g : OpenFile) (hp : p ∈ pipeNums L) (hf : u p = some f)
    (hg : u n = some g) (hfg : f.file = g.file) : n = p := by
  have hin : ∀ m x, m ∈ pipeNums L → u m = some x → ∃ q ∈ L, (m = q.r ∧ x.file = q.fr) ∨ (m = q.w ∧ x.file = q.fw) := by
    intro m x hm hx
    obtain ⟨q, hq, h1 | h1⟩ := mem_pipeNums.1 hm
    · rw [h1, (h.ends q hq).1] at hx; cases hx; exact ⟨q, hq, .inl ⟨h1, rfl⟩⟩
    · rw [h1, (h.ends q hq).2] at hx; cases hx; exact ⟨q, hq, .inr ⟨h1, rfl⟩⟩
  obtain ⟨q, hq, hq1⟩ := hin p f hp hf
  have hfile : f.file ∈ pipeFiles L := mem_pipeFiles.2 ⟨q, hq, by rcases hq1 with h | h; exacts [.inl h.2, .inr h.2]⟩
  by_cases hn : n ∈ pipeNums L
  · obtain ⟨q', hq', hq1'⟩ := hin n g hn hg
    have hfiles := h.files
    clear hin hf hg hfile h
    induction L with
    | nil => cases hq
    | cons a L ih =>
      simp only [pipeFiles, List.flatMap_cons, List.cons_append, List.nil_append, List.nodup_cons, List.mem_cons] at hfiles
      have out : ∀ x ∈ L, x.fr ∈ pipeFiles L ∧ x.fw ∈ pipeFiles L := fun x hx => ⟨mem_pipeFiles.2 ⟨x, hx, .inl rfl⟩, mem_pipeFiles.2 ⟨x, hx, .inr rfl⟩⟩
      obtain ⟨hf1, hf2, hf3⟩ := hfiles
      simp only [not_or] at hf1
      rcases List.mem_cons.1 hq with rfl | hqL <;> rcases List.mem_cons.1 hq' with rfl | hqL'
      · rcases hq1 with ⟨e1, e2⟩ | ⟨e1, e2⟩ <;> rcases hq1' with ⟨e3, e4⟩ | ⟨e3, e4⟩
        · rw [e1, e3]
        · exact absurd (e2.symm.trans (hfg.trans e4)) hf1.1
        · exact absurd (e2.symm.trans (hfg.trans e4)).symm hf1.1
        · rw [e1, e3]
      · exfalso
        have := out q' hqL'
        rcases hq1 with ⟨e1, e2⟩ | ⟨e1, e2⟩ <;> rcases hq1' with ⟨e3, e4⟩ | ⟨e3, e4⟩
        · exact hf1.2 (by rw [← e2, hfg, e4]; exact this.1)
        · exact hf1.2 (by rw [← e2, hfg, e4]; exact this.2)
        · exact hf2 (by rw [← e2, hfg, e4]; exact this.1)
        · exact hf2 (by rw [← e2, hfg, e4]; exact this.2)
      · exfalso
        have := out q hqL
        rcases hq1 with ⟨e1, e2⟩ | ⟨e1, e2⟩ <;> rcases hq1' with ⟨e3, e4⟩ | ⟨e3, e4⟩
        · exact hf1.2 (by rw [← e4, ← hfg, e2]; exact this.1)
        · exact hf2 (by rw [← e4, ← hfg, e2]; exact this.1)
        · exact hf1.2 (by rw [← e4, ← hfg, e2]; exact this.2)
        · exact hf2 (by rw [← e4, ← hfg, e2]; exact this.2)
      · exact ih (mem_pipeNums.2 ⟨q, hqL, by rcases hq1 with h | h; exacts [.inl h.1, .inr h.1]⟩) hqL (mem_pipeNums.2 ⟨q', hqL', by rcases hq1' with h | h; exacts [.inl h.1, .inr h.1]⟩) hqL' hf3
  · exfalso
    rw [h.rest n hn] at hg
    exact h.fresh _ hfile n g hg hfg.symm

theorem mem_callerEnds {i o e : Option NewPipe} {m x : Nat} : (m, x) ∈ callerEnds i o e ↔ (∃ q, i = some q ∧ m = q.w ∧ x = q.fw) ∨ (∃ q, o = some q ∧ m = q.r ∧ x = q.fr) ∨
    (∃ q, e = some q ∧ m = q.r ∧ x = q.fr) := by
  cases i <;> cases o <;> cases e <;> simp [callerEnds]

theorem three_distinct (f g : NewPipe → Nat) (c i o e y : Option NewPipe)
    (h : ((c.toList ++ i.toList ++ o.toList ++ e.toList ++ y.toList).flatMap fun p => [f p, g p]).Nodup) :
    (∀ q, i = some q → f q ≠ g q ∧ (∀ k, o = some k → f q ≠ f k ∧ f q ≠ g k ∧ g q ≠ f k ∧ g q ≠ g k) ∧
      (∀ k, e = some k → f q ≠ f k ∧ f q ≠ g k ∧ g q ≠ f k ∧ g q ≠ g k)) ∧
    (∀ q, o = some q → f q ≠ g q ∧ (∀ k, e = some k → f q ≠ f k ∧ f q ≠ g k ∧ g q ≠ f k ∧ g q ≠ g k)) ∧ (∀ q, e = some q → f q ≠ g q) := by
  have h' : ((i.toList ++ o.toList ++ e.toList).flatMap fun p => [f p, g p]).Nodup := by
    simp only [List.flatMap_append] at h ⊢
    simp only [List.append_assoc] at h ⊢
    have h := (List.nodup_append.1 h).2.1
    simp only [← List.append_assoc] at h ⊢
    exact (List.nodup_append.1 h).1
  clear h
  cases i <;> cases o <;> cases e <;> simp [List.nodup_cons] at h' ⊢ <;> grind

/-- **C65**, the standard streams of the program (if the caller's own are open, so that no pipe gets one of their numbers; if the caller has no more than 700
descriptors, or the others are closed; and again without path rules). For each stream that was asked for there is a pipe: the caller has one end of it
under the number that is stored, the program has the other end as its stream, and neither has any further descriptor for either end. -/
theorem C65_streams_partial (env : RunEnv) (hk : KernelFds env) (call : RunCall) (s s' : Caller) (n : Int) (p : Started)
    (h : minijailRun env call s = .ret n s') (h0 : s.started = none) (h' : s'.started = some p)
    (hns : ∀ m, NamespaceFd s.jail m → s.fds m ≠ none) (hll : s.jail.fs_rules = [] ∨ ∀ t, (env.landlock t).ruleset.toInt < 0) (hres : (resultsTo call).Nodup)
    (fenv : FdEnv) (hw : ∀ t, fenv.warn t = t) (d : Nat) (df : OpenFile) (entries : List (Option Nat)) (hdir : p.fds d = none) (hlist : ∀ m, p.fds m ≠ none → some m ∈ entries)
    (hstd : ∀ m, m ≤ 2 → s.fds m ≠ none) (hcount : s.jail.preserved_fd_count ≤ 128) (hopen : ∀ e ∈ preservedMaps s.jail, s.fds e.parent ≠ none)
    (helf : ∀ m, startedElf p = some m → s.fds m ≠ none ∧ m ∉ (startedMaps p.jail).map (·.parent))
    (hfew : s.jail.flags.close_open_fds = true ∨ ∃ L : List Nat, L.length ≤ 700 ∧ ∀ m, s.fds m ≠ none → m ∈ L)
    (r : ChildFds) (hr : startedFds fenv (some (d, df)) entries p = some r) :
    (∀ a, stdinTo call = some a → ∃ q : NewPipe, s'.mem a = q.w ∧ s'.fds q.w = some ⟨q.fw, false⟩ ∧ r.table 0 = some ⟨q.fr, false⟩ ∧
      (∀ m f, s'.fds m = some f → f.file = q.fr ∨ f.file = q.fw → m = q.w) ∧ (∀ m f, r.table m = some f → f.file = q.fr ∨ f.file = q.fw → m = 0)) ∧
    (∀ a, stdoutTo call = some a → ∃ q : NewPipe, s'.mem a = q.r ∧ s'.fds q.r = some ⟨q.fr, false⟩ ∧ r.table 1 = some ⟨q.fw, false⟩ ∧
      (∀ m f, s'.fds m = some f → f.file = q.fr ∨ f.file = q.fw → m = q.r) ∧ (∀ m f, r.table m = some f → f.file = q.fr ∨ f.file = q.fw → m = 1)) ∧
    (∀ a, stderrTo call = some a → ∃ q : NewPipe, s'.mem a = q.r ∧ s'.fds q.r = some ⟨q.fr, false⟩ ∧ r.table 2 = some ⟨q.fw, false⟩ ∧
      (∀ m f, s'.fds m = some f → f.file = q.fr ∨ f.file = q.fw → m = q.r) ∧ (∀ m f, r.table m = some f → f.file = q.fr ∨ f.file = q.fw → m = 2)) := by
  obtain ⟨-, -, -, -, i, o, e, -, -, -, -, -, -, -, b8, -, b10, b11, -, c, y, hP, hpipes, ⟨j1, j2, j3⟩, j4, j5⟩ := run_started env hk call s s' n p h h0 h' hns hll
  obtain ⟨g1, g2, g3, g4⟩ := b11 hres
  have hmaps : preservedMaps p.jail = preservedMaps s.jail := by unfold preservedMaps; rw [j4, j5]
  obtain ⟨hes, hesm⟩ := startedMaps_spec p.jail (by rw [j5]; exact hcount)
  have hnsp : ∀ m, NamespaceFd p.jail m ↔ NamespaceFd s.jail m := by intro m; unfold NamespaceFd; rw [j1, j2, j3]
  -- the ends of pipes
  have hends : p.pipes.ends.filterMap id = pipeNums (c.toList ++ y.toList ++ i.toList ++ o.toList ++ e.toList) := by
    rw [hpipes]
    cases c <;> cases y <;> cases i <;> cases o <;> cases e <;> rfl
  have hperm : ∀ m, m ∈ pipeNums (c.toList ++ y.toList ++ i.toList ++ o.toList ++ e.toList) ↔ m ∈ pipeNums (c.toList ++ i.toList ++ o.toList ++ e.toList ++ y.toList) := by
    intro m
    simp only [pipeNums_append, List.mem_append]
    tauto
  have hmem : ∀ m, some m ∈ p.pipes.ends → m ∈ pipeNums (c.toList ++ i.toList ++ o.toList ++ e.toList ++ y.toList) := by
    intro m hm
    rw [← hperm, ← hends]
    exact List.mem_filterMap.2 ⟨some m, hm, rfl⟩
  have hnd : (p.pipes.ends.filterMap id).Nodup := by
    rw [hends]
    have hn := hP.nums
    have hp : (c.toList ++ y.toList ++ i.toList ++ o.toList ++ e.toList).Perm (c.toList ++ i.toList ++ o.toList ++ e.toList ++ y.toList) := by
      simp only [List.append_assoc]
      refine List.Perm.append_left _ ?_
      have := List.perm_append_comm (l₁ := y.toList) (l₂ := i.toList ++ (o.toList ++ e.toList))
      simpa only [List.append_assoc] using this
    exact (hp.flatMap_right _).nodup_iff.2 hn
  have hopenp : ∀ m, some m ∈ p.pipes.ends → p.fds m ≠ none := by
    intro m hm
    obtain ⟨q, hq, h1 | h1⟩ := mem_pipeNums.1 (hmem m hm)
    · rw [h1, (hP.ends q hq).1]; simp
    · rw [h1, (hP.ends q hq).2]; simp
  have hfree : ∀ m, some m ∈ p.pipes.ends → s.fds m = none := fun m hm => hP.free m (hmem m hm)
  have hold : ∀ m, s.fds m ≠ none → p.fds m ≠ none := by
    intro m hm
    rw [hP.rest m (fun hc => hm (hP.free m hc))]
    exact hm
  have hparent : ∀ z ∈ startedMaps p.jail, s.fds z.parent ≠ none := by
    intro z hz
    rcases hesm z hz with hz | hz
    · exact hopen z (by rw [← hmaps]; exact hz)
    · exact hns _ ((hnsp _).1 hz)
  have hsep : ∀ m, some m ∈ p.pipes.ends → m ∉ (startedMaps p.jail).map (·.parent) := by
    intro m hm hc
    obtain ⟨z, hz, rfl⟩ := List.mem_map.1 hc
    exact hparent z hz (hfree _ hm)
  have hbig : ∀ m, some m ∈ p.pipes.ends → 2 < m := by
    intro m hm
    by_contra hc
    exact hstd m (by omega) (hfree m hm)
  have helfsep : ∀ m, startedElf p = some m → m ∉ (startedMaps p.jail).map (·.parent) ∧ some m ∉ p.pipes.ends :=
    fun m hm => ⟨(helf m hm).2, fun hc => (helf m hm).1 (hfree m hc)⟩
  -- the table in which descriptors are set up
  obtain ⟨t, L, hset, hL, hfewL, hsame⟩ : ∃ (t : FdTable) (L : List Nat), childFdsSetup fenv t (startedMaps p.jail) p.pipes (startedElf p) = some r ∧
      (∀ m, t m ≠ none → m ∈ L) ∧ L.length + 2 * (startedMaps p.jail).length ≤ 1010 ∧
      (∀ m, t m = p.fds m ∨ (t m = none ∧ some m ∉ p.pipes.ends ∧ m ∉ (startedMaps p.jail).map (·.parent) ∧ startedElf p ≠ some m)) := by
    unfold startedFds at hr
    split at hr
    · unfold childFdsAtExec at hr
      cases hcl : closeOpenFds p.fds (some (d, df)) entries (inheritableFds p.pipes.ends (startedMaps p.jail) (startedElf p)) with
      | none => rw [hcl] at hr; cases hr
      | some t =>
        rw [hcl] at hr
        have hx := C23_exact p.fds d df entries _ t hdir hlist hcl
        refine ⟨t, inheritableFds p.pipes.ends (startedMaps p.jail) (startedElf p), hr, ?_, ?_, ?_⟩
        · intro m hm
          rw [hx] at hm
          by_contra hc
          rw [if_neg hc] at hm
          exact hm rfl
        · have := C23_array p.pipes (startedMaps p.jail) (startedElf p) hes
          omega
        · intro m
          rw [hx]
          split
          · exact .inl rfl
          · rename_i hc
            unfold inheritableFds at hc
            simp only [List.mem_append, not_or] at hc
            refine .inr ⟨rfl, fun hm => hc.1.1 (List.mem_filterMap.2 ⟨some m, hm, rfl⟩), hc.1.2, fun hm => hc.2 (by rw [hm]; simp)⟩
    · rename_i hno
      rcases hfew with hfew | ⟨L, hl, hL⟩
      · rw [j1] at hno; exact absurd hfew hno
      · refine ⟨p.fds, L ++ pipeNums (c.toList ++ i.toList ++ o.toList ++ e.toList ++ y.toList), hr, ?_, ?_, fun m => .inl rfl⟩
        · intro m hm
          by_cases hc : m ∈ pipeNums (c.toList ++ i.toList ++ o.toList ++ e.toList ++ y.toList)
          · exact List.mem_append_right _ hc
          · rw [hP.rest m hc] at hm
            exact List.mem_append_left _ (hL m hm)
        · have hlen : (pipeNums (c.toList ++ i.toList ++ o.toList ++ e.toList ++ y.toList)).length ≤ 10 := by
            cases c <;> cases y <;> cases i <;> cases o <;> cases e <;> simp [pipeNums]
          rw [List.length_append]
          omega
  have tend : ∀ m, some m ∈ p.pipes.ends → t m = p.fds m := by
    intro m hm
    rcases hsame m with h | h
    · exact h
    · exact absurd hm h.2.1
  have tsub : ∀ m f, t m = some f → p.fds m = some f := by
    intro m f hm
    rcases hsame m with h | h
    · rw [← h]; exact hm
    · rw [h.1] at hm; cases hm
  have hstreams := childFdsSetup_streams fenv hw L t (startedMaps p.jail) p.pipes (startedElf p) r hL hfewL
    (by
      intro z hz
      rcases hsame z.parent with h | h
      · rw [h]; exact hold _ (hparent z hz)
      · exact absurd (List.mem_map_of_mem hz) h.2.2.1)
    (by intro m hm; rw [tend m hm]; exact hopenp m hm)
    (by
      intro m hm
      rcases hsame m with h | h
      · rw [h]; exact hold _ (helf m hm).1
      · exact absurd hm h.2.2.2)
    hsep helfsep hbig hnd
    (by
      intro a m f g ha hf hg hfg
      exact hP.only a m f g (hmem a ha) (tsub a f hf) (tsub m g hg) hfg)
    hset
  obtain ⟨⟨S0, S1, S2⟩, S3⟩ := hstreams
  have val : ∀ m q x, SameFile r.table m t q ∧ Inherited r.table m → t q = some ⟨x, false⟩ → r.table m = some ⟨x, false⟩ := by
    rintro m q x ⟨⟨f, g, hf, hg, hfg⟩, ⟨f', hf', hi⟩⟩ hx
    rw [hx] at hg
    cases hg
    rw [hf] at hf'
    cases hf'
    rw [hf]
    obtain ⟨a, b⟩ := f
    simp only at hfg hi
    rw [hfg, hi]
  have only : ∀ m k x f, some k ∈ p.pipes.ends.drop 4 → p.fds k = some ⟨x, false⟩ → r.table m = some f → f.file = x → (m = 0 ∧ p.pipes.stdin.1 = some k) ∨ (m = 1 ∧ p.pipes.stdout.2 = some k) ∨
      (m = 2 ∧ p.pipes.stderr.2 = some k) := by
    intro m k x f hk hx hf hfx
    exact S3 k m hk ⟨f, ⟨x, false⟩, hf, by rw [tend k (List.mem_of_mem_drop hk)]; exact hx, hfx⟩
  have nn := three_distinct (·.r) (·.w) c i o e y hP.nums
  have nf := three_distinct (·.fr) (·.fw) c i o e y hP.files
  have p0 : p.pipes.stdin.1 = i.map (·.r) := by rw [hpipes]; rfl
  have p0' : p.pipes.stdin.2 = i.map (·.w) := by rw [hpipes]; rfl
  have p1 : p.pipes.stdout.2 = o.map (·.w) := by rw [hpipes]; rfl
  have p1' : p.pipes.stdout.1 = o.map (·.r) := by rw [hpipes]; rfl
  have p2 : p.pipes.stderr.2 = e.map (·.w) := by rw [hpipes]; rfl
  have p2' : p.pipes.stderr.1 = e.map (·.r) := by rw [hpipes]; rfl
  rw [p0, p1, p2] at only
  rw [p0] at S0
  rw [p1] at S1
  rw [p2] at S2
  have hdropmem : ∀ k, (some k = i.map (·.r) ∨ some k = i.map (·.w) ∨ some k = o.map (·.r) ∨ some k = o.map (·.w) ∨ some k = e.map (·.r) ∨ some k = e.map (·.w)) →
      some k ∈ p.pipes.ends.drop 4 := by
    intro k hk
    rw [← p0, ← p0', ← p1, ← p1', ← p2, ← p2'] at hk
    simpa [RunPipes.ends] using hk
  refine ⟨?_, ?_, ?_⟩
  · intro a ha
    obtain ⟨q, hi, hq⟩ := g2 a ha
    have hq' := hP.ends q (by simp [hi])
    have m1 := hdropmem q.r (by simp [hi])
    have m2 := hdropmem q.w (by simp [hi])
    refine ⟨q, hq, (b8 (q.w, q.fw) (by simp [callerEnds, hi])).2, val 0 q.r q.fr (S0 q.r (by simp [hi])) (by rw [tend _ (List.mem_of_mem_drop m1)]; exact hq'.1), ?_, ?_⟩
    · intro m f hf hff
      have hin := mem_callerEnds.1 (b10 q (by simp [hi]) m f hf hff)
      clear * - hin nf hi hff
      grind
    · intro m f hf hff
      have k1 := only m q.r q.fr f m1 hq'.1 hf
      have k2 := only m q.w q.fw f m2 hq'.2 hf
      simp only [Option.map_eq_some_iff] at k1 k2
      clear * - k1 k2 nn hi hff
      grind
  · intro a ha
    obtain ⟨q, hi, hq⟩ := g3 a ha
    have hq' := hP.ends q (by simp [hi])
    have m1 := hdropmem q.r (by simp [hi])
    have m2 := hdropmem q.w (by simp [hi])
    refine ⟨q, hq, (b8 (q.r, q.fr) (by simp [callerEnds, hi])).2, val 1 q.w q.fw (S1 q.w (by simp [hi])) (by rw [tend _ (List.mem_of_mem_drop m2)]; exact hq'.2), ?_, ?_⟩
    · intro m f hf hff
      have hin := mem_callerEnds.1 (b10 q (by simp [hi]) m f hf hff)
      clear * - hin nf hi hff
      grind
    · intro m f hf hff
      have k1 := only m q.r q.fr f m1 hq'.1 hf
      have k2 := only m q.w q.fw f m2 hq'.2 hf
      simp only [Option.map_eq_some_iff] at k1 k2
      clear * - k1 k2 nn hi hff
      grind
  · intro a ha
    obtain ⟨q, hi, hq⟩ := g4 a ha
    have hq' := hP.ends q (by simp [hi])
    have m1 := hdropmem q.r (by simp [hi])
    have m2 := hdropmem q.w (by simp [hi])
    refine ⟨q, hq, (b8 (q.r, q.fr) (by simp [callerEnds, hi])).2, val 2 q.w q.fw (S2 q.w (by simp [hi])) (by rw [tend _ (List.mem_of_mem_drop m2)]; exact hq'.2), ?_, ?_⟩
    · intro m f hf hff
      have hin := mem_callerEnds.1 (b10 q (by simp [hi]) m f hf hff)
      clear * - hin nf hi hff
      grind
    · intro m f hf hff
      have k1 := only m q.r q.fr f m1 hq'.1 hf
      have k2 := only m q.w q.fw f m2 hq'.2 hf
      simp only [Option.map_eq_some_iff] at k1 k2
      clear * - k1 k2 nn hi hff
      grind

/-! ### Cases -/

/-- Descriptors 0 to 2. -/
def exFds : FdTable := fun n => if n ≤ 2 then some ⟨n, false⟩ else none
/-- The first pipe. -/
def exPipe1 : NewPipe := ⟨3, 4, 103, 104⟩
/-- The second pipe. -/
def exPipe2 : NewPipe := ⟨5, 6, 105, 106⟩
/-- With the first pipe. -/
def exFds1 : FdTable := openPipe exFds exPipe1

open Classical in
/-- A system without Landlock. -/
noncomputable def exRun : RunEnv where
  pipe t := if t = exFds then some exPipe1 else if t = exFds1 then some exPipe2 else none
  clone := 77
  landlock _ := { ruleset := -1#32, abi := -1#32 }
  rulesetFile := 9
  environ := ["A=1".toList]

theorem exFds1_ne : exFds1 ≠ exFds := fun h => by have := congrFun h 3; simp [exFds1, exFds, openPipe, exPipe1, FdTable.set] at this

theorem exRun_kernel : KernelFds exRun where
  numbers t p h := by
    simp only [exRun] at h
    split at h
    · rename_i ht; cases h; subst ht; exact ⟨rfl, rfl, by decide⟩
    · split at h
      · rename_i ht; cases h; subst ht; exact ⟨rfl, rfl, by decide⟩
      · cases h
  files t p h := by
    simp only [exRun] at h
    split at h
    · rename_i ht
      cases h
      subst ht
      refine ⟨by decide, fun n f hf => ?_⟩
      unfold exFds at hf
      split at hf
      · cases hf; simp only [exPipe1]; omega
      · cases hf
    · split at h
      · rename_i ht
        cases h
        subst ht
        refine ⟨by decide, fun n f hf => ?_⟩
        change (if n = 4 then some ⟨104, false⟩ else if n = 3 then some ⟨103, false⟩ else if n ≤ 2 then some ⟨n, false⟩ else none) = some f at hf
        by_cases h4 : n = 4
        · rw [if_pos h4] at hf; cases hf; decide
        · rw [if_neg h4] at hf
          by_cases h3 : n = 3
          · rw [if_pos h3] at hf; cases hf; decide
          · rw [if_neg h3] at hf
            by_cases h2 : n ≤ 2
            · rw [if_pos h2] at hf; cases hf; simp only [exPipe2]; omega
            · rw [if_neg h2] at hf; cases hf
      · cases h
  ruleset t h := by simp [exRun] at h

/-- A caller that wants the number of the process at 1, its input at 2 and its output at 3. -/
def exCall : RunCall := .runPidPipesNoPreload "/bin/cat".toList ["cat".toList] (some 1) (some 2) (some 3) none
/-- A caller with a new jail. -/
def exCaller : Caller := { fds := exFds, mem := fun _ => 0, jail := minijailNew, blocked := fun n => n == 2 }

/-- The preparations. -/
theorem exRun_prepare : prepareRun exRun exCall.config (namedJail exCall.config minijailNew) exFds =
    ⟨openPipe exFds1 exPipe2, ⟨(none, none), (none, none), (some 3, some 4), (some 5, some 6), (none, none)⟩, none⟩ := by
  have k1 : exRun.pipe exFds = some exPipe1 := if_pos rfl
  have k2 : exRun.pipe exFds1 = some exPipe2 := (if_neg exFds1_ne).trans (if_pos rfl)
  have e : exRun.copyEnv = true ∧ exRun.setPolicyEnv = true := ⟨rfl, rfl⟩
  unfold prepareRun
  simp only [plainStage, pipeStage, exCall, RunCall.config, Option.isSome_some, Option.isSome_none, Bool.false_and, Bool.not_false, Bool.true_and, Bool.false_or]
  simp only [namedJail, minijailNew, Option.isSome_none, Bool.false_and, reduceCtorEq, or_true, or_false, if_true, Bool.false_eq_true, false_or, if_false, syncChild, k1]
  simp [noPipes, show openPipe exFds exPipe1 = exFds1 from rfl, k2, show exPipe1.r = 3 from rfl, show exPipe1.w = 4 from rfl, show exPipe2.r = 5 from rfl, show exPipe2.w = 6 from rfl]

/-- The process that is started. -/
def exStarted : Started :=
  ⟨77, openPipe exFds1 exPipe2, namedJail exCall.config minijailNew, ⟨(none, none), (none, none), (some 3, some 4), (some 5, some 6), (none, none)⟩,
    some (some "/bin/cat".toList, -1, ["cat".toList], ["A=1".toList])⟩

/-- The hypotheses of `C65_started_partial`, `C65_executes_partial` and `C65_streams_partial` are met: two pipes, of which the caller keeps 4 and 5. -/
example : ∃ s', minijailRun exRun exCall exCaller = .ret 0 s' ∧ s'.started = some exStarted ∧ exCaller.started = none ∧
    [1, 2, 3, 4].map s'.mem = [77, 4, 5, 0] ∧ (List.range 8).map s'.fds = [some ⟨0, false⟩, some ⟨1, false⟩, some ⟨2, false⟩, none, some ⟨104, false⟩, some ⟨105, false⟩, none, none] ∧
    exCaller.jail.fs_rules = [] ∧ (resultsTo exCall).Nodup ∧ (∀ m, m ≤ 2 → exCaller.fds m ≠ none) ∧ exCaller.jail.preserved_fd_count ≤ 128 ∧
    (∃ L : List Nat, L.length ≤ 700 ∧ ∀ m, exCaller.fds m ≠ none → m ∈ L) ∧
    ∃ r, startedFds ⟨fun _ _ => false, id⟩ (some (20, ⟨20, true⟩)) ((List.range 21).map some) exStarted = some r ∧
      (List.range 8).map r.table = [some ⟨103, false⟩, some ⟨106, false⟩, some ⟨2, false⟩, none, none, none, none, none] := by
  apply Exists.intro
  apply And.intro
  · unfold minijailRun
    simp only
    rw [show exCaller.jail = minijailNew from rfl, show exCaller.fds = exFds from rfl, exRun_prepare]
    rfl
  · refine ⟨rfl, rfl, by decide, by decide +kernel, rfl, by decide, by decide, by decide, ⟨[0, 1, 2], by decide, ?_⟩, _, rfl, by decide +kernel⟩
    intro m hm
    have : m ≤ 2 := by
      by_contra hc
      exact hm (if_neg hc)
    simp only [List.mem_cons, List.not_mem_nil, or_false]
    omega

/-- The hypotheses of `C65_failed` are met: there is a first pipe and no second. -/
example : ∃ (env : RunEnv) (s' : Caller), KernelFds env ∧ minijailRun env exCall exCaller = .ret 14 s' ∧ s'.started = none ∧ s'.fds 3 = none := by
  classical
  refine ⟨{ exRun with pipe := fun t => if t = exFds then some exPipe1 else none }, ?_⟩
  have k1 : (fun t => if t = exFds then some exPipe1 else none) exFds = some exPipe1 := if_pos rfl
  have k2 : (fun t => if t = exFds then some exPipe1 else none) exFds1 = none := if_neg exFds1_ne
  have hp : prepareRun { exRun with pipe := fun t => if t = exFds then some exPipe1 else none } exCall.config (namedJail exCall.config minijailNew) exFds =
      ⟨exFds1, ⟨(none, none), (none, none), (some 3, some 4), (none, none), (none, none)⟩, some (.code 14)⟩ := by
    generalize (fun t => if t = exFds then some exPipe1 else none) = pipe at k1 k2
    unfold prepareRun
    simp only [plainStage, pipeStage, exCall, RunCall.config, Option.isSome_some, Option.isSome_none, Bool.false_and, Bool.not_false, Bool.true_and, Bool.false_or]
    simp only [namedJail, minijailNew, Option.isSome_none, Bool.false_and, reduceCtorEq, or_true, or_false, if_true, Bool.false_eq_true, false_or, if_false, syncChild, k1]
    simp [noPipes, show openPipe exFds exPipe1 = exFds1 from rfl, k2, show exPipe1.r = 3 from rfl, show exPipe1.w = 4 from rfl, EFAULT]
  apply Exists.intro
  refine And.intro ?_ (And.intro ?_ ?_)
  rotate_left
  · unfold minijailRun
    simp only
    rw [show exCaller.jail = minijailNew from rfl, show exCaller.fds = exFds from rfl, hp]
    rfl
  · exact ⟨rfl, by decide⟩
  · refine ⟨fun t p h => ?_, fun t p h => ?_, exRun_kernel.ruleset⟩
    · simp only at h
      split at h
      · exact exRun_kernel.numbers t p (by rename_i ht; cases h; exact if_pos ht)
      · cases h
    · simp only at h
      split at h
      · exact exRun_kernel.files t p (by rename_i ht; cases h; exact if_pos ht)
      · cases h

open Classical in
/-- A system with Landlock, on which no pipe is made. -/
noncomputable def exLandlock : RunEnv := { exRun with pipe := fun _ => none, landlock := fun t => { ruleset := if t 3 = none ∧ ∀ n f, t n = some f → f.file ≠ 9 then 3#32 else -1#32, abi := 3#32 } }

theorem exLandlock_kernel : KernelFds exLandlock where
  numbers t p h := by cases h
  files t p h := by cases h
  ruleset t h := by
    simp only [exLandlock] at h ⊢
    split at h
    · rename_i hc; rw [if_pos hc]; exact hc
    · simp at h

/-- With path rules the caller has one more descriptor afterwards, which it was not given: the one of the rules stays open. No function of the library closes it. -/
theorem C65_violated_ruleset : ∃ (env : RunEnv) (s s' : Caller), KernelFds env ∧ minijailRun env (.runNoPreload "/bin/true".toList ["true".toList]) s = .ret 0 s' ∧
    s.fds 3 = none ∧ s'.fds 3 = some ⟨9, true⟩ := by
  have hL : (exLandlock.landlock exFds) = ⟨3#32, 3#32⟩ := by
    have : exFds 3 = none ∧ ∀ n f, exFds n = some f → f.file ≠ 9 := by
      refine ⟨rfl, fun n f hf => ?_⟩
      unfold exFds at hf
      split at hf
      · cases hf; simp only; omega
      · cases hf
    simp only [exLandlock]
    rw [if_pos this]
  refine ⟨exLandlock, { exCaller with jail := { minijailNew with fs_rules := [⟨"/usr".toList.map fun c => BitVec.ofNat 8 c.toNat, 5#64⟩] } }, ?_⟩
  apply Exists.intro
  refine And.intro exLandlock_kernel (And.intro ?_ ?_)
  · unfold minijailRun
    simp only
    generalize hx : prepareRun exLandlock _ _ _ = x
    have hx' : x = ⟨exFds, noPipes, none⟩ := by rw [← hx]; rfl
    subst hx'
    simp only
    rw [if_neg (by decide), if_neg (by decide), if_neg (by decide)]
    unfold rulesetStage
    simp only
    rw [if_neg (by decide), hL]
    rfl
  · exact ⟨rfl, by decide⟩

/-- `minijail_fork` may fail with a positive number, which reads as the number of a process: 12 if there is no memory, where there is a policy file. -/
theorem C65_violated_fork : ∃ (env : RunEnv) (s s' : Caller), KernelFds env ∧ minijailRun env .fork s = .ret 12 s' ∧ s'.started = none :=
  ⟨{ exRun with copyEnv := false }, { exCaller with jail := { minijailNew with seccomp_policy_path := some [112#8] } }, _,
    ⟨exRun_kernel.numbers, exRun_kernel.files, exRun_kernel.ruleset⟩, rfl, rfl⟩

/-- Descriptors 0 to 3. -/
def exFdsNs : FdTable := fun n => if n ≤ 3 then some ⟨n, false⟩ else none

/-- A jail that enters a namespace is of use once: the first call closes the descriptor of the namespace. The second call still succeeds, but enters whatever has the number now, and closes
it: here the end of the pipe whose number the caller is given. -/
theorem C65_violated_twice : ∃ (env : RunEnv) (j : Jail) (s s1 s2 : Caller), KernelFds env ∧ s.jail = j ∧ NamespaceFd j 3 ∧ s.fds 3 ≠ none ∧
    minijailRun env (.runNoPreload "/bin/true".toList ["true".toList]) s = .ret 0 s1 ∧ s1.fds 3 = none ∧
    minijailRun env (.runPidPipesNoPreload "/bin/true".toList ["true".toList] none none (some 1) none) s1 = .ret 0 s2 ∧ s2.mem 1 = 3 ∧ s2.fds 3 = none := by
  classical
  have hpipe : (fun t => if t = closeFd exFdsNs 3 then some exPipe1 else none) (closeFd exFdsNs 3) = some exPipe1 := if_pos rfl
  have hk : KernelFds { exRun with pipe := fun t => if t = closeFd exFdsNs 3 then some exPipe1 else none } := by
    refine ⟨fun t p h => ?_, fun t p h => ?_, exRun_kernel.ruleset⟩
    · simp only at h
      split at h
      · rename_i ht; cases h; subst ht; exact ⟨rfl, rfl, by decide⟩
      · cases h
    · simp only at h
      split at h
      · rename_i ht
        cases h
        subst ht
        refine ⟨by decide, fun n f hf => ?_⟩
        change (if n = 3 then none else if n ≤ 3 then some ⟨n, false⟩ else none) = some f at hf
        by_cases h3 : n = 3
        · rw [if_pos h3] at hf; cases hf
        · rw [if_neg h3] at hf
          by_cases h2 : n ≤ 3
          · rw [if_pos h2] at hf; cases hf; simp only [exPipe1]; omega
          · rw [if_neg h2] at hf; cases hf
      · cases h
  generalize (fun t => if t = closeFd exFdsNs 3 then some exPipe1 else none) = pipe at hpipe hk
  obtain ⟨s1, h1, h2, f, h3⟩ : ∃ s1, minijailRun { exRun with pipe := pipe } (.runNoPreload "/bin/true".toList ["true".toList])
      { exCaller with fds := exFdsNs, jail := { minijailNew with flags := { minijailNew.flags with enter_vfs := true }, mountns_fd := 3#32 } } = .ret 0 s1 ∧
      s1.fds = closeFd exFdsNs 3 ∧ ∃ f, s1.jail = { minijailNew with flags := { minijailNew.flags with enter_vfs := true }, mountns_fd := 3#32, initpid := 77#32, filename := f } :=
    ⟨_, rfl, rfl, _, rfl⟩
  refine ⟨{ exRun with pipe := pipe }, { minijailNew with flags := { minijailNew.flags with enter_vfs := true }, mountns_fd := 3#32 },
    { exCaller with fds := exFdsNs, jail := { minijailNew with flags := { minijailNew.flags with enter_vfs := true }, mountns_fd := 3#32 } }, s1, ?_⟩
  apply Exists.intro
  refine ⟨hk, rfl, .inl ⟨rfl, by decide, by decide⟩, by decide, h1, by rw [h2]; decide, ?_⟩
  apply And.intro
  · unfold minijailRun
    simp only
    rw [h2, h3]
    generalize hx : prepareRun _ _ _ _ = x
    have hx' : x = ⟨openPipe (closeFd exFdsNs 3) exPipe1, ⟨(none, none), (none, none), (none, none), (some 3, some 4), (none, none)⟩, none⟩ := by
      rw [← hx]
      unfold prepareRun
      simp only [plainStage, pipeStage, RunCall.config, Option.isSome_some, Option.isSome_none, Bool.false_and, Bool.not_false, Bool.true_and, Bool.false_or]
      simp only [namedJail, minijailNew, Option.isSome_none, Bool.false_and, reduceCtorEq, or_true, or_false, if_true, Bool.false_eq_true, false_or, if_false, syncChild, hpipe]
      simp [noPipes, show exPipe1.r = 3 from rfl, show exPipe1.w = 4 from rfl]
    subst hx'
    rfl
  · exact ⟨rfl, rfl⟩

end Minijail
