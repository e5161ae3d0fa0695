import Verif.Proof.ActionsAvail
import Verif.Props.C66
import Verif.Props.C24
/-!
C67: what a call that a policy blocks leads to, when the library compiles the policy.
-/
set_option autoImplicit false
set_option linter.unusedSimpArgs false
namespace Minijail
open Spec

/-- The probes are right about every kernel that lists names of actions: an action is available exactly if it is listed. -/
theorem C67_probes (b : FilterBuild) (names : List (List Char)) (h : ∀ n ∈ names, n ∈ actionNames) :
    ((probed b false (some (actionsLine names))).retLog = true ↔ "log".toList ∈ names) ∧
    ((probed b false (some (actionsLine names))).retKillProcess = true ↔ "kill_process".toList ∈ names) := by
  have key : ∀ w ∈ ["log".toList, "kill_process".toList], ∀ n ∈ actionNames, hasSubstring w n = true → n = w := by decide
  constructor
  · exact line_has (by decide) (by decide) (by decide) names fun n hn => key _ (by simp) n (h n hn)
  · exact line_has (by decide) (by decide) (by decide) names fun n hn => key _ (by simp) n (h n hn)

/-- Where the list cannot be read, and on Android, neither is. -/
theorem C67_unreadable (b : FilterBuild) (android : Bool) (line : Option CStr) (h : android = true ∨ line = none) :
    (probed b android line).retLog = false ∧ (probed b android line).retKillProcess = false := by
  rcases h with rfl | rfl
  · exact ⟨rfl, rfl⟩
  · cases android <;> exact ⟨rfl, rfl⟩

theorem jailFilterOpts_action (b : FilterBuild) (logging tsync : Bool) : (jailFilterOpts b logging tsync).action.act = blockedCall b logging tsync := by
  obtain ⟨a1, a2, a3, a4, a5, a6⟩ := b
  cases a1 <;> cases a2 <;> cases a3 <;> cases a4 <;> cases logging <;> cases tsync <;> rfl

/-- A call of the filter's own architecture that neither the policy nor the lists of the build mention. -/
theorem C67_blocked (cx : Ctx) (b : FilterBuild) (logging tsync : Bool) (hcx : cx.opts = jailFilterOpts b logging tsync) (hbe : cx.t.be = false)
    (hnr : ∀ e ∈ cx.syscalls, e.2 < 2 ^ 31) (text : List Char) (rules : List (BitVec 32 × Rule)) (h : PolicyText cx.lang text rules) (prog : List Insn)
    (hc : compileFilter cx text = .ok prog) (d : SeccompData) (ha : d.arch = cx.t.archNr) (hd : ∀ x ∈ cx.builtin ++ rules, x.1 ≠ d.nr) :
    runFilter false prog d = .ret (blockedCall b logging tsync).word := by
  have e := C01_filter_means_policy cx text prog hbe hnr hc rules h d ha fun x hx hn => absurd hn (hd x (by simp [hx]))
  rw [hbe] at e
  rw [e]
  have : ∀ l : List (BitVec 32 × Rule), (∀ x ∈ l, x.1 ≠ d.nr) → ∀ bits dflt, policyAction bits d dflt l = dflt := by
    intro l hl bits dflt
    induction l with
    | nil => rfl
    | cons x l ih =>
      obtain ⟨nr, r⟩ := x
      rw [policyAction, if_neg fun he => hl (nr, r) (by simp) he.symm]
      exact ih fun y hy => hl y (List.mem_cons_of_mem _ hy)
  rw [this _ hd, hcx, jailFilterOpts_action]

/-- A rule whose condition a call does not meet, and that gives no error number, leads to the same. -/
theorem C67_condition (cx : Ctx) (b : FilterBuild) (logging tsync : Bool) (hcx : cx.opts = jailFilterOpts b logging tsync) : cx.lang.dflt = blockedCall b logging tsync := by
  have : cx.lang.dflt = cx.opts.action.act := rfl
  rw [this, hcx, jailFilterOpts_action]

theorem blockedCall_known (b : FilterBuild) (logging tsync : Bool) : (blockedCall b logging tsync = .log → b.retLog = true) ∧
    (blockedCall b logging tsync = .killProcess → b.retKillProcess = true) := by
  obtain ⟨a1, a2, a3, a4, a5, a6⟩ := b
  cases a1 <;> cases a2 <;> cases a3 <;> cases a4 <;> cases logging <;> cases tsync <;> simp [blockedCall]

/-- An action that the kernel does not list is never used. -/
theorem C67_known (b : FilterBuild) (logging tsync : Bool) (names : List (List Char)) (h : ∀ n ∈ names, n ∈ actionNames) :
    (blockedCall (probed b false (some (actionsLine names))) logging tsync = .log → "log".toList ∈ names) ∧
    (blockedCall (probed b false (some (actionsLine names))) logging tsync = .killProcess → "kill_process".toList ∈ names) := by
  have h1 := blockedCall_known (probed b false (some (actionsLine names))) logging tsync
  have h2 := C67_probes b names h
  exact ⟨fun e => h2.1.1 (h1.1 e), fun e => h2.2.1 (h1.2 e)⟩

/-- The calls that are allowed although the policy does not name them: those of the C library if the build says so, and those that syslog(3) needs if blocked calls are
reported by a signal handler. -/
theorem C67_beyond (cx : Ctx) (b : FilterBuild) (logging tsync : Bool) (hcx : cx.opts = jailFilterOpts b logging tsync) :
    (∀ x ∈ cx.builtin, x.2 = .allow) ∧
    (b.libcCompatibility = false → (blockedCall b logging tsync ≠ .trap ∨ (logging = false ∧ b.defaultRetLog = false)) → cx.builtin = []) ∧
    (b.libcCompatibility = true → ∀ name ∈ cx.libcCompatibilitySyscalls, ∀ n, cx.lang.syscall name = some n → (BitVec.ofNat 32 n, Rule.allow) ∈ cx.builtin) ∧
    (blockedCall b logging tsync = .trap → b.debugLogging = true → (logging = true ∨ b.defaultRetLog = true) →
      ∀ name ∈ cx.logSyscalls, ∀ n, cx.lang.syscall name = some n → (BitVec.ofNat 32 n, Rule.allow) ∈ cx.builtin) := by
  have hm : ∀ l : List CStr, ∀ name ∈ l, ∀ n, cx.lang.syscall name = some n → (BitVec.ofNat 32 n, Rule.allow) ∈ allowNames cx.lang l := by
    intro l name hn n hs
    unfold allowNames
    exact List.mem_map.2 ⟨name, hn, by simp [hs]⟩
  refine ⟨?_, ?_, ?_, ?_⟩
  · intro x hx
    unfold Ctx.builtin allowNames at hx
    rcases List.mem_append.1 hx with hx | hx <;> split at hx <;> simp at hx <;> obtain ⟨_, _, rfl⟩ := hx <;> rfl
  · intro hl ht
    unfold Ctx.builtin
    rw [hcx]
    have h2 : (jailFilterOpts b logging tsync).includeLibcCompatibilityAllowlist = false := hl
    have h1 : (jailFilterOpts b logging tsync).allowSyscallsForLogging = false := by
      revert ht
      obtain ⟨a1, a2, a3, a4, a5, a6⟩ := b
      cases a1 <;> cases a2 <;> cases a3 <;> cases a4 <;> cases logging <;> cases tsync <;> simp [blockedCall, jailFilterOpts]
    simp [h1, h2]
  · intro hl name hn n hs
    unfold Ctx.builtin
    rw [hcx]
    have h2 : (jailFilterOpts b logging tsync).includeLibcCompatibilityAllowlist = true := hl
    simp only [h2, if_true]
    exact List.mem_append_right _ (hm _ name hn n hs)
  · intro ht hdbg hlog name hn n hs
    unfold Ctx.builtin
    rw [hcx]
    have h1 : (jailFilterOpts b logging tsync).allowSyscallsForLogging = true := by
      revert ht hdbg hlog
      obtain ⟨a1, a2, a3, a4, a5, a6⟩ := b
      cases a1 <;> cases a2 <;> cases a3 <;> cases a4 <;> cases logging <;> cases tsync <;> simp [blockedCall, jailFilterOpts]
    simp only [h1, if_true]
    exact List.mem_append_left _ (hm _ name hn n hs)

/-- Where a blocked call raises a signal, the signal is reported by a handler if logging is asked for, and else it ends the process: entering the jail sees to it right
before the filter takes effect. (A build that logs by default, or a jail that logs, is one that supports logging: libminijail.c:637, Makefile:54-59.) -/
theorem C67_signal {env : EnterEnv} {j : Jail} {k : Kernel} {t : List Ev} (h : Entered env j k t) (hf : j.flags.seccomp_filter = true) (hasan : env.asan = false) (b : FilterBuild)
    (h1 : b.retLog = env.retLogAvailable) (h2 : b.defaultRetLog = env.defaultRetLog) (h3 : b.debugLogging = false → b.defaultRetLog = false ∧ j.flags.seccomp_filter_logging = false)
    (htrap : blockedCall b j.flags.seccomp_filter_logging j.flags.seccomp_filter_tsync = .trap) :
    ∃ before after, t = before ++ [(if j.flags.seccomp_filter_logging ∨ b.defaultRetLog then Sys.sigsysHandler else .sigsysDefault, 0),
      (.seccompFilter j.flags.seccomp_filter_tsync j.flags.seccomp_filter_allow_speculation j.filter_prog, 0)] ++ after := by
  obtain ⟨E⟩ := trace_of h
  have hp : done (filterPlan env j) = [(if j.flags.seccomp_filter_logging ∨ b.defaultRetLog then Sys.sigsysHandler else .sigsysDefault, 0),
      (.seccompFilter j.flags.seccomp_filter_tsync j.flags.seccomp_filter_allow_speculation j.filter_prog, 0)] := by
    unfold filterPlan
    rw [hf, hasan, ← h1, ← h2]
    revert htrap h3
    obtain ⟨a1, a2, a3, a4, a5, a6⟩ := b
    generalize j.flags.seccomp_filter_logging = l
    generalize j.flags.seccomp_filter_tsync = s
    cases a1 <;> cases a2 <;> cases a3 <;> cases a4 <;> cases l <;> cases s <;> simp [blockedCall, done]
  rw [E.eq, hp]
  by_cases hn : j.flags.no_new_privs = true
  · refine ⟨E.lt ++ (nsTrace j E.lo E.kr ++ (E.mt ++ (rootTrace j E.a E.b ++ (done (innerPlan env j E.last) ++ (E.st ++ (done (idPlan j) ++ (capsTrace j E.last E.q ++
      (done [.noNewPrivs] ++ E.ll)))))))), E.alt ++ E.strict, ?_⟩
    simp only [hn, if_true, List.append_assoc]
  · refine ⟨E.lt ++ (nsTrace j E.lo E.kr ++ (E.mt ++ (rootTrace j E.a E.b ++ (done (innerPlan env j E.last) ++ (E.st ++ E.ll))))),
      done (idPlan j) ++ (capsTrace j E.last E.q ++ (E.alt ++ E.strict)), ?_⟩
    simp only [hn, if_false, List.append_assoc, Bool.false_eq_true]

/-! ### Cases -/

/-- The list of a recent kernel and that of a kernel before 4.14, which has none. -/
example : (∀ n ∈ ["kill_process".toList, "kill_thread".toList, "trap".toList, "errno".toList, "user_notif".toList, "trace".toList, "log".toList, "allow".toList], n ∈ actionNames) ∧
    actionsLine ["kill_process".toList, "log".toList] = "kill_process log\n".toList ∧
    (probed exBuild false (some "kill_process kill_thread trap errno user_notif trace log allow\n".toList)) = exBuild ∧
    (probed exBuild false none) = ⟨true, false, false, false, false, false⟩ ∧ (probed exBuild false (some "kill_thread trap log\n".toList)).retKillProcess = false := by decide +kernel

/-- Logging asked for on both kernels, and thread synchronisation on both. -/
example : blockedCall exBuild true false = .log ∧ blockedCall (probed exBuild false none) true false = .trap ∧ blockedCall exBuild false true = .killProcess ∧
    blockedCall (probed exBuild false none) false true = .trap ∧ blockedCall exBuild false false = .killThread := by decide

/-- The example policy, compiled for a jail that logs: `socket` is let through and logged. -/
example : ∃ prog, compileFilter { exCx with opts := jailFilterOpts exBuild true false } exText = .ok prog ∧
    PolicyText ({ exCx with opts := jailFilterOpts exBuild false false } : Ctx).lang exText exRules ∧
    (∀ x ∈ ({ exCx with opts := jailFilterOpts exBuild false false } : Ctx).builtin ++ exRules, x.1 ≠ 41#32) ∧
    runFilter false prog ⟨41, 0xc000003e, 0, 0, 0, 0, 0, 0, 0⟩ = .ret Action.log.word :=
  ⟨progOf (compileFilter { exCx with opts := jailFilterOpts exBuild true false } exText), ok_of_ne_nil (by decide +kernel), exText_means, by decide, by decide +kernel⟩

/-- A jail that logs on a kernel that cannot: the handler comes right before the filter. -/
example : ∃ j : Jail, j.flags.seccomp_filter = true ∧ ∃ t, Entered { retLogAvailable := false } j obliging t ∧
    blockedCall ⟨true, false, false, false, false, false⟩ j.flags.seccomp_filter_logging j.flags.seccomp_filter_tsync = .trap ∧
    t.filter (fun e => e.1 == .sigsysHandler) = [(.sigsysHandler, 0)] :=
  ⟨{ richJail with flags := { richJail.flags with seccomp_filter_logging := true } }, by decide +kernel,
    (minijailEnter { retLogAvailable := false } { richJail with flags := { richJail.flags with seccomp_filter_logging := true } } obliging []).2,
    by unfold Entered; decide +kernel, by decide +kernel, by decide +kernel⟩

end Minijail
