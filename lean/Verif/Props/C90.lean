import Verif.Proof.SignalEnter
/-! C90: what signals do to a program when it starts, and to its caller while it is started. -/
set_option autoImplicit false
set_option linter.unusedSimpArgs false
namespace Minijail
open Sigs

/-- Blocked calls are to be logged, and a handler has to do it because the kernel cannot. -/
def LogsByHandler (env : EnterEnv) (j : Jail) : Prop :=
  j.flags.seccomp_filter = true ∧ env.asan = false ∧ (env.defaultRetLog = true ∨ j.flags.seccomp_filter_logging = true) ∧ env.retLogAvailable = false

theorem catches_iff {env : EnterEnv} {j : Jail} : catches env j = true ↔ LogsByHandler env j := by
  unfold catches LogsByHandler
  simp [and_assoc]

/-- The numbers for which glibc refuses to set what they do: no signal, SIGKILL, SIGSTOP, and the two it needs itself. -/
def glibcSignals : SigLibc := ⟨64, fun n => if n = 0 ∨ n = 9 ∨ n = 19 ∨ n = 32 ∨ n = 33 then some EINVAL else none, true⟩

variable {env : EnterEnv} {w : SigLibc} {preload : Bool} {j : Jail} {caller s : Sig}

/-- With `minijail_reset_signal_mask`, a program starts with no signal blocked, whatever its caller has blocked. -/
theorem C90_mask (hj : j.flags.reset_signal_mask = true) (h : programSignals env w preload j caller = some s) (n : Nat) : s.blocked n = false := by
  rw [(program_some h).1, if_pos (Or.inr hj)]

/-- With `minijail_reset_signal_handlers`, each signal does what it does by default, whatever it does to the caller; but not the signals that the C library does not let anyone set, and not SIGSYS where it
is what reports blocked calls. -/
theorem C90_handlers_partial (hj : j.flags.reset_signal_handlers = true) (h : programSignals env w preload j caller = some s) {n : Nat} (hn : n ≤ w.rtmax) (hw : w.error n = none)
    (hs : n = 31 → preload = true → ¬LogsByHandler env j) : s.does n = .standard := by
  rw [(program_some h).2]
  by_cases h1 : n = SYS ∧ catches env j = true
  · rw [if_pos h1, if_neg (fun hp => hs h1.1 hp (catches_iff.mp h1.2))]
  · by_cases h2 : n = SYS ∧ standards env j = true
    · rw [if_neg h1, if_pos h2]
    · rw [if_neg h1, if_neg h2, if_pos ⟨hj, hn, hw⟩]

/-- Nothing is caught when a program starts, but for SIGSYS where it is what reports blocked calls: then it is caught and not blocked, whatever was asked for. -/
theorem C90_caught (h : programSignals env w preload j caller = some s) (n : Nat) :
    s.does n = .caught ↔ n = 31 ∧ preload = true ∧ LogsByHandler env j := by
  rw [(program_some h).2, ← catches_iff]
  by_cases h1 : n = SYS ∧ catches env j = true
  · rw [if_pos h1]
    cases preload <;> simp [h1]
    rfl
  · have h0 : ¬(n = 31 ∧ preload = true ∧ catches env j = true) := fun q => h1 ⟨q.1, q.2.2⟩
    rw [if_neg h1]
    refine iff_of_false ?_ h0
    repeat' split
    all_goals simp_all

theorem C90_reporting (hl : LogsByHandler env j) (h : programSignals env w preload j caller = some s) : s.blocked 31 = false := by
  rw [(program_some h).1, if_pos (Or.inl ⟨rfl, catches_iff.mpr hl⟩)]

/-- Without the calls a program starts with what its caller has blocked and ignored. SIGSYS is the exception: see `C90_reporting`, and it has its default action if all threads are to share a filter. -/
theorem C90_kept_mask (hj : j.flags.reset_signal_mask = false) (h : programSignals env w preload j caller = some s) {n : Nat} (hn : n = 31 → ¬LogsByHandler env j) :
    s.blocked n = caller.blocked n := by
  rw [(program_some h).1, if_neg]
  rintro (q | q)
  · exact hn q.1 (catches_iff.mp q.2)
  · rw [hj] at q; cases q

theorem C90_kept_ignored (hj : j.flags.reset_signal_handlers = false) (h : programSignals env w preload j caller = some s) {n : Nat} (hn : n ≠ 31) :
    s.does n = .ignored ↔ caller.does n = .ignored := by
  rw [(program_some h).2, if_neg (fun q => hn q.1), if_neg (fun q => hn q.1), if_neg (by rw [hj]; rintro ⟨q, _⟩; cases q)]
  cases caller.does n <;> simp

/-- Entering a jail does to signals what its requests do to them, one after the other, in every successful run of all of `minijail_enter`, and nothing else. -/
theorem C90_entered {k : Kernel} {t : List Ev} (h : Spec.Entered env j k t) (hs : w.error 31 = none) (hm : w.mask = true) (caller : Sig) :
    enterSignals env w j caller = some ((t.map Prod.fst).foldl requestSignals caller) := by
  rw [requests_filter, says_enter h, enterSignals_requests hs hm]

/-- The program does start: no signal that the C library refuses as invalid stops it, if SIGSYS and the mask can be set. -/
theorem C90_starts (hw : ∀ n e, w.error n = some e → e = 22) (hs : w.error 31 = none) (hm : w.mask = true) (env : EnterEnv) (preload : Bool) (j : Jail) (caller : Sig) :
    ∃ s, programSignals env w preload j caller = some s := by
  have h1 : ∃ s1, (if j.flags.reset_signal_mask then resetSignalMask w caller.fork else some caller.fork) = some s1 := by
    unfold resetSignalMask
    rw [hm]
    split <;> exact ⟨_, rfl⟩
  obtain ⟨s1, h1⟩ := h1
  have h2 : ∃ s2, (if j.flags.reset_signal_handlers then resetSignalHandlers w s1 else some s1) = some s2 := by
    split
    · exact resetList_runs hw _ s1
    · exact ⟨s1, rfl⟩
  obtain ⟨s2, h2⟩ := h2
  obtain ⟨s3, h3⟩ := enterSignals_runs (env := env) (childJail preload j) s2 hs hm
  have h4 : jailedSignals env w preload j caller = some s3 := by
    unfold jailedSignals
    rw [h1, Option.bind_some, h2, Option.bind_some, h3]
  have h5 : ∃ t, (if preload then enterSignals env w (minijailPreenter j) s3.fork.exec else some s3.fork.exec) = some t := by
    split
    · exact enterSignals_runs _ _ hs hm
    · exact ⟨_, rfl⟩
  obtain ⟨t, h5⟩ := h5
  refine ⟨t, ?_⟩
  unfold programSignals
  rw [h4]
  exact h5

/-- The full claim fails: a signal that the C library keeps for itself, and that the caller ignores (as a program with another C library can), is ignored by the program although all were to be reset. -/
theorem C90_violated : ∃ (j : Jail) (caller s : Sig), j.flags.reset_signal_mask = true ∧ j.flags.reset_signal_handlers = true ∧
    programSignals {} glibcSignals false j caller = some s ∧ s.does 32 = .ignored := by
  obtain ⟨s, hs⟩ := C90_starts (w := glibcSignals) (fun n e h => by unfold glibcSignals at h; simp only at h; split at h <;> cases h; rfl) (by decide) rfl {} false
    { flags := { reset_signal_mask := true, reset_signal_handlers := true } } ⟨fun _ => false, fun n => if n = 32 then .ignored else .standard⟩
  refine ⟨_, _, s, rfl, rfl, hs, ?_⟩
  rw [(program_some hs).2]
  decide

/-- While the caller sends a jail SIGPIPE is blocked, so that a program that goes away does not kill it. Afterwards the caller has blocked what it had blocked, signals do to it what they did, no SIGPIPE
of the sending is left, and no other signal that waited for it is lost or added. Missing: a SIGPIPE that waited for the caller before. -/
theorem C90_caller_partial {broken : Bool} {l : List PipeEv} {during : Nat → Bool} {t : Sig} {q r : Waiting} (h : sendSignals broken l caller q = some (during, t, r)) :
    (∀ n, during n = true ↔ n = 13 ∨ caller.blocked n = true) ∧ t = caller ∧ ¬r.has 13 ∧ ∀ n, n ≠ 13 → (r.thread n = q.thread n ∧ r.process n = q.process n) := by
  unfold sendSignals at h
  obtain ⟨u, h1, h2⟩ := Option.map_eq_some_iff.mp h
  cases h2
  obtain ⟨a, b, c⟩ := acceptPipe_some l h1
  refine ⟨fun n => ?_, rfl, ?_, fun n hn => ?_⟩
  · by_cases hn : n = PIPE
    · simp [hn]; left; rfl
    · have : n ≠ 13 := hn
      simp [hn, this]
  · rintro (x | x)
    · exact Bool.noConfusion (a.symm.trans x)
    · exact Bool.noConfusion (b.symm.trans x)
  · have := c n hn
    have hp : n ≠ PIPE := hn
    cases broken <;> simpa [hp] using this

/-- Accepting what waits comes to its end after three calls, however often it is interrupted, if nobody else sends SIGPIPE all the time. -/
theorem C90_accepts : ∀ (l : List PipeEv) (q : Waiting), PipeEv.arrives ∉ l →
    l.count .called > (if q.thread 13 then 1 else 0) + (if q.process 13 then 1 else 0) → ∃ r, acceptPipe l q = some r
  | [], q, _, h => by simp at h
  | .arrives :: l, q, h, _ => absurd (List.mem_cons_self) h
  | .interrupted :: l, q, h, hc => by
    obtain ⟨r, hr⟩ := C90_accepts l q (fun x => h (List.mem_cons_of_mem _ x)) (by simpa using hc)
    exact ⟨r, hr⟩
  | .called :: l, q, h, hc => by
    have hl : PipeEv.arrives ∉ l := fun x => h (List.mem_cons_of_mem _ x)
    rw [List.count_cons_self] at hc
    unfold acceptPipe
    by_cases h1 : q.thread PIPE = true
    · rw [if_pos h1]
      refine C90_accepts l _ hl ?_
      have h1 : q.thread 13 = true := h1
      rw [h1] at hc
      simp [PIPE] at hc ⊢
      omega
    · rw [if_neg h1]
      by_cases h2 : q.process PIPE = true
      · rw [if_pos h2]
        refine C90_accepts l _ hl ?_
        have h1 : q.thread 13 = false := by simpa [PIPE] using h1
        have h2 : q.process 13 = true := h2
        rw [h1, h2] at hc
        simp [PIPE, h1] at hc ⊢
        omega
      · rw [if_neg h2]
        exact ⟨q, rfl⟩

/-- The full claim fails: a caller that has SIGPIPE blocked and waits for one that has been sent to it loses it by starting a program. -/
theorem C90_violated_pending : ∃ (caller t : Sig) (q r : Waiting) (d : Nat → Bool), caller.blocked 13 = true ∧ q.process 13 = true ∧
    sendSignals false [.called, .called] caller q = some (d, t, r) ∧ ¬r.has 13 := by
  refine ⟨⟨fun n => n == 13, fun _ => .standard⟩, _, ⟨fun _ => false, fun n => n == 13⟩, _, _, rfl, rfl, rfl, ?_⟩
  rintro (x | x) <;> cases x

/-- Cases: a caller that blocks SIGTERM and SIGSYS and ignores SIGPIPE and SIGCHLD; a jail that resets both, one that resets nothing, and one that logs blocked calls by a handler. -/
def busyCaller : Sig := ⟨fun n => n == 15 || n == 31, fun n => if n = 13 ∨ n = 17 then .ignored else if n = 2 then .caught else .standard⟩

example : ∃ s, programSignals {} glibcSignals true { flags := { reset_signal_mask := true, reset_signal_handlers := true } } busyCaller = some s ∧
    busyCaller.blocked 15 = true ∧ s.blocked 15 = false ∧ busyCaller.does 17 = .ignored ∧ s.does 17 = .standard := by
  obtain ⟨s, hs⟩ := C90_starts (w := glibcSignals) (fun n e h => by unfold glibcSignals at h; simp only at h; split at h <;> cases h; rfl) (by decide) rfl {} true
    { flags := { reset_signal_mask := true, reset_signal_handlers := true } } busyCaller
  exact ⟨s, hs, rfl, C90_mask rfl hs 15, rfl, C90_handlers_partial rfl hs (by decide) (by decide) (by simp)⟩

example : ∃ s, programSignals {} glibcSignals false {} busyCaller = some s ∧ s.blocked 15 = true ∧ s.does 17 = .ignored ∧ s.does 2 ≠ .caught := by
  obtain ⟨s, hs⟩ := C90_starts (w := glibcSignals) (fun n e h => by unfold glibcSignals at h; simp only at h; split at h <;> cases h; rfl) (by decide) rfl {} false {} busyCaller
  refine ⟨s, hs, (C90_kept_mask rfl hs (by simp)).trans rfl, (C90_kept_ignored rfl hs (by decide)).mpr rfl, fun q => ?_⟩
  exact absurd ((C90_caught hs 2).mp q).1 (by decide)

example : LogsByHandler { retLogAvailable := false } { flags := { seccomp_filter := true, seccomp_filter_logging := true } } := by unfold LogsByHandler; simp

example : ∃ s, programSignals { retLogAvailable := false } glibcSignals true { flags := { seccomp_filter := true, seccomp_filter_logging := true, reset_signal_handlers := true } } busyCaller = some s ∧
    s.does 31 = .caught ∧ busyCaller.blocked 31 = true ∧ s.blocked 31 = false := by
  obtain ⟨s, hs⟩ := C90_starts (w := glibcSignals) (fun n e h => by unfold glibcSignals at h; simp only at h; split at h <;> cases h; rfl) (by decide) rfl { retLogAvailable := false } true
    { flags := { seccomp_filter := true, seccomp_filter_logging := true, reset_signal_handlers := true } } busyCaller
  have hl : LogsByHandler { retLogAvailable := false } { flags := { seccomp_filter := true, seccomp_filter_logging := true, reset_signal_handlers := true } } := by
    unfold LogsByHandler; simp
  exact ⟨s, hs, (C90_caught hs 31).mpr ⟨rfl, rfl, hl⟩, rfl, C90_reporting hl hs⟩

example : ∃ x, sendSignals true [.interrupted, .called, .arrives, .called, .called] busyCaller ⟨fun _ => false, fun n => n == 10⟩ = some x ∧ x.2.2.process 10 = true :=
  ⟨_, rfl, rfl⟩

/-- A jail with a filter that is logged by a handler is entered, with more than the handler being asked for. -/
example : ∃ t : List Ev, Spec.Entered { retLogAvailable := false } { flags := { no_new_privs := true, net := true, seccomp_filter := true, seccomp_filter_logging := true } } (fun _ _ => 0) t ∧
    ((t.map Prod.fst).foldl requestSignals busyCaller).blocked 31 = false := by
  refine ⟨[(.unshare .net, 0), (.noNewPrivs, 0), (.sigsysHandler, 0), (.seccompFilter false false none, 0)], by unfold Spec.Entered; decide +kernel, rfl⟩

end Minijail
