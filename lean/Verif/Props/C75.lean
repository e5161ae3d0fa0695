import Verif.Proof.Report
import Verif.Props.C67
/-!
C75: a call that the policy blocks is reported when `minijail_log_seccomp_filter_failures` (-L) is asked for.
-/
set_option autoImplicit false
set_option linter.unusedSimpArgs false
namespace Minijail
open Blocked

/-- A policy of a jail that reports blocked calls: it means `rules` and its program is `prog`. `b` is what the build and the kernel have. -/
structure Reporting (cx : Ctx) (b : FilterBuild) (tsync : Bool) (content : CStr) (prog : List Insn) (rules : List (BitVec 32 × Spec.Rule)) : Prop where
  options : cx.opts = jailFilterOpts b true tsync
  debug : b.debugLogging = true
  littleEndian : cx.t.be = false
  numbers : ∀ e ∈ cx.syscalls, e.2 < 2 ^ 31
  compiles : compileFilter cx content = .ok prog
  means : Spec.PolicyText cx.lang content rules
  valid : ∀ x ∈ rules, x.2.valid

/-- What the policy says of a call. -/
noncomputable def verdictOn (cx : Ctx) (rules : List (BitVec 32 × Spec.Rule)) (d : SeccompData) : Spec.Action :=
  Spec.policyAction cx.t.longBits d cx.opts.action.act (cx.builtin ++ rules)

variable {cx : Ctx} {b : FilterBuild} {tsync : Bool} {content : CStr} {prog : List Insn} {rules : List (BitVec 32 × Spec.Rule)}

private theorem runs (h : Reporting cx b tsync content prog rules) {d : SeccompData} (hd : d.arch = cx.t.archNr) :
    runFilter cx.t.be prog d = .ret (verdictOn cx rules d).word :=
  C01_filter_means_policy cx content prog h.littleEndian h.numbers h.compiles rules h.means d hd fun x hx _ => h.valid x hx

private theorem first_allow {bits : Nat} {d : SeccompData} {dflt : Spec.Action} {l m : List (BitVec 32 × Spec.Rule)} (hl : ∀ x ∈ l, x.2 = .allow)
    (hm : ∃ x ∈ l, x.1 = d.nr) : Spec.policyAction bits d dflt (l ++ m) = .allow := by
  induction l with
  | nil => obtain ⟨x, hx, _⟩ := hm; simp at hx
  | cons y l ih =>
    obtain ⟨nr, r⟩ := y
    have hr : r = .allow := hl (nr, r) (by simp)
    simp only [List.cons_append, Spec.policyAction]
    by_cases e : d.nr = nr
    · rw [if_pos e, hr]; rfl
    · rw [if_neg e]
      refine ih (fun x hx => hl x (List.mem_cons_of_mem _ hx)) ?_
      obtain ⟨x, hx, hxd⟩ := hm
      rcases List.mem_cons.1 hx with rfl | hx
      · exact absurd hxd.symm e
      · exact ⟨x, hx, hxd⟩

/-- On a kernel that can log: a program goes on after a blocked call, and the kernel has a record of every blocked call, in their order, and of no
other. (The calls are ones for which the policy has no rule that ends the process.) -/
theorem C75_records (h : Reporting cx b tsync content prog rules) (hlog : b.retLog = true) (handle : SeccompData → List (Sink × List Char)) (th : Thread)
    (calls : List SeccompData) (harch : ∀ d ∈ calls, d.arch = cx.t.archNr)
    (hlive : ∀ d ∈ calls, verdictOn cx rules d = .allow ∨ verdictOn cx rules d = .log ∨ ∃ e, verdictOn cx rules d = .errno e) :
    cx.opts.action.act = .log ∧
    (story (runFilter cx.t.be prog) handle th calls).records = calls.filter (fun d => decide (verdictOn cx rules d = .log)) ∧
    (story (runFilter cx.t.be prog) handle th calls).made = calls.filter (fun d => decide (verdictOn cx rules d = .allow ∨ verdictOn cx rules d = .log)) ∧
    (story (runFilter cx.t.be prog) handle th calls).ended = false := by
  have hw : ∀ d ∈ calls, outcome (runFilter cx.t.be prog d) = _ := fun d hd => (congrArg outcome (runs h (harch d hd))).trans (outcome_word _)
  refine ⟨by rw [h.options]; simp [jailFilterOpts, h.debug, hlog, BlockAction.act], ?_⟩
  have hs := story_append (filter := runFilter cx.t.be prog) (handle := handle) (th := th) (pre := calls) (post := []) (by
    intro d hd
    rw [hw d hd]
    rcases hlive d hd with e | e | ⟨n, e⟩ <;> simp [e])
  rw [List.append_nil] at hs
  rw [hs]
  refine ⟨?_, ?_, rfl⟩
  · simp only [story, List.append_nil]
    refine List.filter_congr fun d hd => ?_
    rw [hw d hd]
    rcases hlive d hd with e | e | ⟨n, e⟩ <;> simp [e]
  · simp only [story, List.append_nil]
    refine List.filter_congr fun d hd => ?_
    rw [hw d hd]
    rcases hlive d hd with e | e | ⟨n, e⟩ <;> simp [e]

/-- On a kernel that cannot log: the first blocked call is reported in the system log, with the right name, and it is the last call of the program;
nothing else is written. This needs that the C library gets the process id without a call or with one that the policy allows, that it sends to the
system log with the calls the library knows of, that the program keeps the handler that entering the jail installed, and that messages go to the
system log. Missing from the full statement: what `C75_violated_pid`, `C75_violated_fd` and `C75_violated_exec` show. -/
theorem C75_first_partial (h : Reporting cx b tsync content prog rules) (hlog : b.retLog = false) (libc : Libc) (cfg : Logging) (pid : Int) (th : Thread)
    (hcfg : cfg.logger = .syslog) (hpid : ∀ c ∈ libc.getpid, c.arch = cx.t.archNr ∧ verdictOn cx rules c = .allow)
    (hsys : ∀ text, ∀ c ∈ libc.syslog text, c.arch = cx.t.archNr ∧ ∃ name ∈ cx.logSyscalls, ∃ n, cx.lang.syscall name = some n ∧ c.nr = BitVec.ofNat 32 n)
    (pre : List SeccompData) (d : SeccompData) (post : List SeccompData) (harch : ∀ x ∈ pre ++ [d], x.arch = cx.t.archNr)
    (hpre : ∀ x ∈ pre, verdictOn cx rules x = .allow ∨ ∃ e, verdictOn cx rules x = .errno e) (hd : verdictOn cx rules d = cx.opts.action.act) :
    ∃ what, CalledBy cx.syscalls d.nr what ∧
      story (runFilter cx.t.be prog) (logSigsysHandler (runFilter cx.t.be prog) libc cfg cx.syscalls pid) (installSigsysHandler 0 0 th).2 (pre ++ d :: post) =
        { records := [], lines := [(.syslog, line pid what)], made := pre.filter (fun x => decide (verdictOn cx rules x = .allow)), ended := true } := by
  have hw : ∀ x ∈ pre, outcome (runFilter cx.t.be prog x) = _ :=
    fun x hx => (congrArg outcome (runs h (harch x (List.mem_append_left _ hx)))).trans (outcome_word _)
  have hact : cx.opts.action.act = .trap := by rw [h.options]; simp [jailFilterOpts, h.debug, hlog, BlockAction.act]
  have hdt : outcome (runFilter cx.t.be prog d) = .trapped := by
    rw [runs h (harch d (by simp)), hd, hact, outcome_word]
  have hbuiltin := C67_beyond cx b true tsync h.options
  have htrap : Spec.blockedCall b true tsync = .trap := by simp [Spec.blockedCall, h.debug, hlog]
  have hallow : ∀ c : SeccompData, c.arch = cx.t.archNr → verdictOn cx rules c = .allow → outcome (runFilter cx.t.be prog c) = .allowed := by
    intro c hc hs
    rw [runs h hc, hs]
    rfl
  refine ⟨_, handler_text cx.syscalls d.nr, ?_⟩
  rw [story_append (by
    intro x hx
    rw [hw x hx]
    rcases hpre x hx with e | ⟨n, e⟩ <;> simp [e])]
  have h1 : gets (runFilter cx.t.be prog) libc.getpid = true := gets_iff.2 fun c hc => Or.inl (hallow c (hpid c hc).1 (hpid c hc).2)
  have h2 : ∀ text, gets (runFilter cx.t.be prog) (libc.syslog text) = true := by
    intro text
    refine gets_iff.2 fun c hc => Or.inl ?_
    obtain ⟨ha, name, hn, n, hs, hcn⟩ := hsys text c hc
    refine hallow c ha ?_
    unfold verdictOn
    exact first_allow hbuiltin.1 ⟨_, hbuiltin.2.2.2 htrap h.debug (Or.inl rfl) name hn n hs, hcn.symm⟩
  have hst : story (runFilter cx.t.be prog) (logSigsysHandler (runFilter cx.t.be prog) libc cfg cx.syscalls pid) (installSigsysHandler 0 0 th).2 (d :: post) =
      { lines := logSigsysHandler (runFilter cx.t.be prog) libc cfg cx.syscalls pid d, ended := true } := by
    unfold story
    rw [hdt]
    rfl
  rw [hst]
  have hl : logSigsysHandler (runFilter cx.t.be prog) libc cfg cx.syscalls pid d = [(.syslog, line pid (match lookupSyscallName cx.syscalls d.nr.toInt with
      | some name => name
      | none => (toString d.nr.toInt).toList))] := by
    have e : "]: blocked syscall: ".toList = "]: ".toList ++ "blocked syscall: ".toList := by decide +kernel
    unfold logSigsysHandler line
    rw [e]
    cases hk : lookupSyscallName cx.syscalls d.nr.toInt <;> simp only [hk, h1, if_true, fatalLog, hcfg, h2, List.append_assoc]
  rw [hl]
  congr 1
  · simp only [List.append_nil]
    rw [List.filter_eq_nil_iff]
    intro x hx
    rw [hw x hx]
    rcases hpre x hx with e | ⟨n, e⟩ <;> simp [e]
  · simp only [List.append_nil]
    refine List.filter_congr fun x hx => ?_
    rw [hw x hx]
    rcases hpre x hx with e | ⟨n, e⟩ <;> simp [e]

/-- The name in a report is one that a policy can use for that call, if the table has no name twice. -/
theorem C75_name (hnum : ∀ e ∈ cx.syscalls, e.2 < 2 ^ 31) (hnames : (cx.syscalls.map (·.1)).Nodup) {nr : BitVec 32} {what : List Char}
    (h : CalledBy cx.syscalls nr what) :
    (∃ n, cx.lang.syscall what = some n ∧ BitVec.ofNat 32 n = nr) ∨ ((∀ name n, cx.lang.syscall name = some n → BitVec.ofNat 32 n ≠ nr) ∧ what = (toString nr.toInt).toList) := by
  have hof : ∀ n : Nat, n < 2 ^ 31 → ((n : Int) = nr.toInt ↔ BitVec.ofNat 32 n = nr) := by
    intro n hn
    rw [← BitVec.toInt_inj, show (BitVec.ofNat 32 n).toInt = n by rw [BitVec.toInt_eq_toNat_cond, BitVec.toNat_ofNat, Nat.mod_eq_of_lt (by omega)]; split <;> omega]
  rcases h with ⟨n, hm, he⟩ | ⟨hn, hw⟩
  · refine Or.inl ⟨n, ?_, (hof n (hnum _ hm)).1 he⟩
    have : ∀ l : List (List Char × Nat), (l.map (·.1)).Nodup → (what, n) ∈ l → (l.find? (fun e => e.1 == what)).map (·.2) = some n := by
      intro l hl hx
      induction l with
      | nil => simp at hx
      | cons y l ih =>
        simp only [List.map_cons, List.nodup_cons] at hl
        rcases List.mem_cons.1 hx with e | hx
        · simp [← e]
        · have hy : (y.1 == what) = false := by
            simp only [beq_eq_false_iff_ne, ne_eq]
            intro e
            exact hl.1 (e ▸ List.mem_map_of_mem (f := (·.1)) hx)
          rw [List.find?_cons, hy]
          exact ih hl.2 hx
    exact this _ hnames hm
  · refine Or.inr ⟨fun name n hs hx => ?_, hw⟩
    unfold Ctx.lang at hs
    simp only [Option.map_eq_some_iff] at hs
    obtain ⟨e, he, rfl⟩ := hs
    have hm := List.mem_of_find?_eq_some he
    exact hn e hm ((hof _ (hnum e hm)).2 hx)

/-- Whatever the C library does, wherever messages go and whatever became of the handler: on a kernel that cannot log, only calls that the policy allows are
made, and none after the first that it blocks. -/
theorem C75_never (h : Reporting cx b tsync content prog rules) (hlog : b.retLog = false) (handle : SeccompData → List (Sink × List Char)) (th : Thread)
    (pre : List SeccompData) (d : SeccompData) (post : List SeccompData) (harch : ∀ x ∈ pre ++ [d], x.arch = cx.t.archNr)
    (hpre : ∀ x ∈ pre, verdictOn cx rules x = .allow ∨ ∃ e, verdictOn cx rules x = .errno e) (hd : verdictOn cx rules d = cx.opts.action.act) :
    (story (runFilter cx.t.be prog) handle th (pre ++ d :: post)).made = pre.filter (fun x => decide (verdictOn cx rules x = .allow)) ∧
    (story (runFilter cx.t.be prog) handle th (pre ++ d :: post)).ended = true := by
  have hw : ∀ x ∈ pre, outcome (runFilter cx.t.be prog x) = _ :=
    fun x hx => (congrArg outcome (runs h (harch x (List.mem_append_left _ hx)))).trans (outcome_word _)
  have hact : cx.opts.action.act = .trap := by rw [h.options]; simp [jailFilterOpts, h.debug, hlog, BlockAction.act]
  have hdt : outcome (runFilter cx.t.be prog d) = .trapped := by
    rw [runs h (harch d (by simp)), hd, hact, outcome_word]
  have hstop := story_stops (handle := handle) (th := th) (post := post) (Or.inl hdt)
  rw [story_append (by
    intro x hx
    rw [hw x hx]
    rcases hpre x hx with e | ⟨n, e⟩ <;> simp [e])]
  refine ⟨?_, hstop.2.2⟩
  simp only [hstop.1, List.append_nil]
  refine List.filter_congr fun x hx => ?_
  rw [hw x hx]
  rcases hpre x hx with e | ⟨n, e⟩ <;> simp [e]

/-- The handler is in place and SIGSYS gets through once `install_sigsys_handler` says so, whatever the mask was before. -/
theorem C75_installed (action mask : Int) (th : Thread) (ha : action ≤ 0) (hm : mask ≤ 0) :
    ((installSigsysHandler action mask th).1 = 0 ↔ action = 0 ∧ mask = 0) ∧
    ((installSigsysHandler action mask th).1 = 0 → (installSigsysHandler action mask th).2 = ⟨true, false⟩) := by
  unfold installSigsysHandler
  by_cases h1 : action < 0
  · rw [if_pos h1]
    exact ⟨⟨fun h => absurd h (by simp; omega), fun h => absurd h.1 (by omega)⟩, fun h => absurd h (by simp; omega)⟩
  · rw [if_neg h1]
    by_cases h2 : mask < 0
    · simp only [h2, if_true]
      exact ⟨⟨fun h => absurd h (by omega), fun h => absurd h.2 (by omega)⟩, fun h => absurd h (by omega)⟩
    · simp only [h2, if_false]
      exact ⟨⟨fun _ => ⟨by omega, by omega⟩, fun _ => trivial⟩, fun _ => by simp⟩

/-! ### Cases -/

/-- A kernel that cannot log, a policy that allows `read`. The table and the names for the system log are those of x86_64. -/
def reportCx : Ctx where
  t := ⟨true, false, 0xc000003e⟩
  syscalls := [("read".toList, 0), ("write".toList, 1), ("open".toList, 2), ("writev".toList, 20), ("getpid".toList, 39), ("socket".toList, 41), ("connect".toList, 42),
    ("sendto".toList, 44)]
  constants := []
  logSyscalls := ["socket".toList, "connect".toList, "sendto".toList, "writev".toList]
  libcCompatibilitySyscalls := []
  fs := fun _ => none
  opts := jailFilterOpts ⟨true, false, false, false, false, false⟩ true false

/-- The call with that number. -/
def nrCall (nr : BitVec 32) : SeccompData := ⟨nr, 0xc000003e, 0, 0, 0, 0, 0, 0, 0⟩

/-- A C library that remembers the process id (`pid` is empty) or asks for it. -/
def someLibc (pid : List SeccompData) : Libc where
  getpid := pid
  syslog _ := [nrCall 41, nrCall 42, nrCall 44]
  write _ _ := [nrCall 1]

/-- The policy's program. -/
def reportProg : List Insn := progOf (compileFilter reportCx "read: 1\n".toList)

theorem report_hyps : Reporting reportCx ⟨true, false, false, false, false, false⟩ false "read: 1\n".toList reportProg [(0#32, .allow)] where
  options := rfl
  debug := rfl
  littleEndian := rfl
  numbers := by decide
  compiles := ok_of_ne_nil (by decide +kernel)
  means := by
    refine ⟨[[(0#32, .allow)]], ?_, rfl⟩
    rw [show Spec.logicalLines "read: 1\n".toList = ["read: 1".toList] by decide +kernel]
    exact .cons (.rule (name := "read".toList) (rhs := " 1".toList) (nr := 0) (by decide) (by decide) (by decide) (by decide) .allow) .nil
  valid := by intro x hx; simp only [List.mem_singleton] at hx; subst hx; trivial

/-- What such a program comes to that calls `read`, `open`, `read`. -/
def reportStory (pid : List SeccompData) (cfg : Logging) (th : Thread) : Story :=
  story (runFilter false reportProg) (logSigsysHandler (runFilter false reportProg) (someLibc pid) cfg reportCx.syscalls 7) th [nrCall 0, nrCall 2, nrCall 0]

/-- With a C library that remembers the process id the call is reported by its name. -/
example : reportStory [] {} (installSigsysHandler 0 0 ⟨false, true⟩).2 =
    { lines := [(.syslog, "libminijail[7]: blocked syscall: open".toList)], made := [nrCall 0], ended := true } := by decide +kernel

/-- The hypotheses of `C75_first_partial` and `C75_never` for it. -/
example : (∀ c ∈ (someLibc []).getpid, c.arch = reportCx.t.archNr ∧ verdictOn reportCx [(0#32, .allow)] c = .allow) ∧
    (∀ text, ∀ c ∈ (someLibc []).syslog text, c.arch = reportCx.t.archNr ∧ ∃ name ∈ reportCx.logSyscalls, ∃ n, reportCx.lang.syscall name = some n ∧ c.nr = BitVec.ofNat 32 n) ∧
    verdictOn reportCx [(0#32, .allow)] (nrCall 0) = .allow ∧ verdictOn reportCx [(0#32, .allow)] (nrCall 2) = reportCx.opts.action.act := by
  refine ⟨by simp [someLibc], fun text c hc => ?_, by simp [verdictOn, Ctx.builtin, reportCx, jailFilterOpts, Spec.allowNames, Ctx.lang, Spec.policyAction, nrCall, Spec.Rule.action],
    by simp [verdictOn, Ctx.builtin, reportCx, jailFilterOpts, Spec.allowNames, Ctx.lang, Spec.policyAction, nrCall, Spec.Rule.action]⟩
  simp only [someLibc, List.mem_cons, List.not_mem_nil, or_false] at hc
  rcases hc with rfl | rfl | rfl
  · exact ⟨rfl, "socket".toList, by decide, 41, by decide, rfl⟩
  · exact ⟨rfl, "connect".toList, by decide, 42, by decide, rfl⟩
  · exact ⟨rfl, "sendto".toList, by decide, 44, by decide, rfl⟩

/-- A number without a name is reported as a number. -/
example : CalledBy reportCx.syscalls 444#32 "444".toList ∧ CalledBy reportCx.syscalls 2#32 "open".toList := by
  constructor
  · exact Or.inr ⟨by decide, by decide +kernel⟩
  · exact Or.inl ⟨2, by decide, by decide⟩

/-- On a kernel that can log the same program goes on and `open` is recorded. -/
example : story (runFilter false (progOf (compileFilter { reportCx with opts := jailFilterOpts ⟨true, false, true, true, false, false⟩ true false } "read: 1\n".toList)))
    (fun _ => []) ⟨false, false⟩ [nrCall 0, nrCall 2, nrCall 0] = { records := [nrCall 2], made := [nrCall 0, nrCall 2, nrCall 0] } := by decide +kernel

/-- A C library that makes a system call for `getpid`, as glibc does since 2.25: `getpid` is not among the calls that reporting allows, the handler is
killed by its own call, and nothing is reported. -/
theorem C75_violated_pid : reportStory [nrCall 39] {} (installSigsysHandler 0 0 ⟨false, false⟩).2 = { made := [nrCall 0], ended := true } := by decide +kernel

/-- Messages that go to a descriptor (`minijail_log_to_fd`, --logging=stderr): `write` is not among the calls that reporting allows, and nothing is
written. -/
theorem C75_violated_fd : reportStory [] (logToFd 2 7) (installSigsysHandler 0 0 ⟨false, false⟩).2 = { made := [nrCall 0], ended := true } := by decide +kernel

/-- A program that is started by `execve` after the jail is entered (no preload library: static programs, -T static, `minijail_run_no_preload`) has no
handler, and nothing is reported. -/
theorem C75_violated_exec : reportStory [] {} (installSigsysHandler 0 0 ⟨false, false⟩).2.exec = { made := [nrCall 0], ended := true } := by decide +kernel

/-- Where the C library's headers define `si_syscall`, the handler gets the number of the call that was blocked. -/
theorem C75_number (wide : Bool) (data ipLow ipHigh : BitVec 32) (d : SeccompData) : getSiSyscall true wide (sigsysWords wide data ipLow ipHigh d) = some d.nr := by
  cases wide <;> rfl

/-- Where they do not (glibc before 2.17), the handler gets the same number whatever call was blocked: the `si_code` 1, which is `write` on x86-64, or with 32-bit pointers the data of the filter's
action, which is 0. -/
theorem C75_violated_number (ipLow ipHigh : BitVec 32) (d : SeccompData) :
    getSiSyscall false true (sigsysWords true 0 ipLow ipHigh d) = some 1 ∧ getSiSyscall false false (sigsysWords false 0 ipLow ipHigh d) = some 0 := ⟨rfl, rfl⟩

example : getSiSyscall false true (sigsysWords true 0 0x1000 0 (nrCall 2)) ≠ some (nrCall 2).nr := by decide

end Minijail
