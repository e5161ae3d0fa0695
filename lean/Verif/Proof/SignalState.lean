import Verif.Model.SignalState
/-! Lemmas about the signals of the processes of a run. -/
set_option autoImplicit false
set_option linter.unusedSimpArgs false
namespace Minijail.Sigs

theorem resetOne_some {w : SigLibc} {s t : Sig} {n : Nat} (h : resetOne w s n = some t) :
    t.blocked = s.blocked ∧ (∀ m, t.does m = if m = n ∧ w.error n = none then .standard else s.does m) := by
  unfold resetOne at h
  cases he : w.error n with
  | none =>
    rw [he] at h
    cases h
    exact ⟨rfl, fun m => by simp [Sig.toStandard]⟩
  | some e =>
    rw [he] at h
    by_cases h1 : e = EINVAL
    · simp [h1] at h
      subst h
      exact ⟨rfl, fun m => by simp⟩
    · simp [h1] at h

theorem resetList {w : SigLibc} : ∀ (l : List Nat) {s t : Sig}, l.foldlM (resetOne w) s = some t →
    t.blocked = s.blocked ∧ (∀ m, t.does m = if m ∈ l ∧ w.error m = none then .standard else s.does m)
  | [], s, t, h => by
    cases h
    exact ⟨rfl, fun m => by simp⟩
  | n :: l, s, t, h => by
    rw [List.foldlM_cons] at h
    cases h1 : resetOne w s n with
    | none => rw [h1] at h; cases h
    | some u =>
      rw [h1] at h
      obtain ⟨a1, a2⟩ := resetOne_some h1
      obtain ⟨b1, b2⟩ := resetList l (s := u) h
      refine ⟨b1.trans a1, fun m => ?_⟩
      rw [b2, a2]
      by_cases hm : m = n
      · subst hm
        by_cases he : w.error m = none <;> simp [he]
      · simp [hm]

theorem resetAll {w : SigLibc} {s t : Sig} (h : resetSignalHandlers w s = some t) :
    t.blocked = s.blocked ∧ (∀ m, t.does m = if m ≤ w.rtmax ∧ w.error m = none then .standard else s.does m) := by
  obtain ⟨a, b⟩ := resetList _ h
  refine ⟨a, fun m => ?_⟩
  rw [b]
  simp only [List.mem_range, Nat.lt_succ_iff]

theorem resetList_runs {w : SigLibc} (hw : ∀ n e, w.error n = some e → e = EINVAL) : ∀ (l : List Nat) (s : Sig), ∃ t, l.foldlM (resetOne w) s = some t
  | [], s => ⟨s, rfl⟩
  | n :: l, s => by
    have h1 : ∃ u, resetOne w s n = some u := by
      unfold resetOne
      cases he : w.error n with
      | none => exact ⟨_, rfl⟩
      | some e => exact ⟨s, by simp [hw n e he]⟩
    obtain ⟨u, h1⟩ := h1
    obtain ⟨t, h2⟩ := resetList_runs hw l u
    exact ⟨t, by rw [List.foldlM_cons, h1]; exact h2⟩

/-- The handler for blocked calls is put in place. -/
def catches (env : EnterEnv) (j : Jail) : Bool :=
  j.flags.seccomp_filter && !env.asan && (env.defaultRetLog || j.flags.seccomp_filter_logging) && !env.retLogAvailable

/-- SIGSYS is given its default action. -/
def standards (env : EnterEnv) (j : Jail) : Bool :=
  j.flags.seccomp_filter && !env.asan && !(env.defaultRetLog || j.flags.seccomp_filter_logging) && j.flags.seccomp_filter_tsync

theorem enterSignals_some {env : EnterEnv} {w : SigLibc} {j : Jail} {s t : Sig} (h : enterSignals env w j s = some t) :
    (∀ m, t.blocked m = if m = SYS ∧ catches env j = true then false else s.blocked m) ∧
    (∀ m, t.does m = if m = SYS ∧ catches env j = true then .caught else if m = SYS ∧ standards env j = true then .standard else s.does m) := by
  unfold enterSignals catchSigsys at h
  unfold catches standards
  cases hf : j.flags.seccomp_filter <;> cases ha : env.asan <;> cases hd : (env.defaultRetLog || j.flags.seccomp_filter_logging) <;>
    cases hr : env.retLogAvailable <;> cases ht : j.flags.seccomp_filter_tsync <;> cases he : w.error SYS <;> cases hm : w.mask <;>
    simp [hf, ha, hd, hr, ht, he, hm] at h ⊢ <;> subst h <;> simp [Sig.toStandard]

theorem enterSignals_runs {env : EnterEnv} {w : SigLibc} (j : Jail) (s : Sig) (he : w.error SYS = none) (hm : w.mask = true) : ∃ t, enterSignals env w j s = some t := by
  unfold enterSignals catchSigsys
  rw [he, hm]
  repeat' split
  all_goals first | exact ⟨_, rfl⟩ | simp_all

theorem catches_child {env : EnterEnv} {preload : Bool} {j : Jail} : catches env (childJail preload j) = (catches env j && !preload) := by
  unfold childJail catches minijailPreexec
  cases preload <;> simp <;> split <;> rfl

theorem standards_child {env : EnterEnv} {preload : Bool} {j : Jail} : standards env (childJail preload j) = (standards env j && !preload) := by
  unfold childJail standards minijailPreexec
  cases preload <;> simp <;> split <;> rfl

/-- The child once it is jailed. -/
theorem jailed_some {env : EnterEnv} {w : SigLibc} {preload : Bool} {j : Jail} {c t : Sig} (h : jailedSignals env w preload j c = some t) :
    (∀ m, t.blocked m = if (m = SYS ∧ (catches env j && !preload) = true) ∨ j.flags.reset_signal_mask = true then false else c.blocked m) ∧
    (∀ m, t.does m = if m = SYS ∧ (catches env j && !preload) = true then .caught else if m = SYS ∧ (standards env j && !preload) = true then .standard
      else if j.flags.reset_signal_handlers = true ∧ m ≤ w.rtmax ∧ w.error m = none then .standard else c.does m) := by
  unfold jailedSignals at h
  obtain ⟨s1, h1, h⟩ := Option.bind_eq_some_iff.mp h
  obtain ⟨s2, h2, h3⟩ := Option.bind_eq_some_iff.mp h
  obtain ⟨a, b⟩ := enterSignals_some h3
  simp only [catches_child, standards_child] at a b
  have e1 : (∀ m, s1.blocked m = if j.flags.reset_signal_mask = true then false else c.blocked m) ∧ s1.does = c.does := by
    unfold resetSignalMask Sig.fork at h1
    cases hr : j.flags.reset_signal_mask <;> cases hm : w.mask <;> simp [hr, hm] at h1 <;> subst h1 <;> simp
  have e2 : s2.blocked = s1.blocked ∧ (∀ m, s2.does m = if j.flags.reset_signal_handlers = true ∧ m ≤ w.rtmax ∧ w.error m = none then .standard else s1.does m) := by
    cases hr : j.flags.reset_signal_handlers with
    | false =>
      rw [hr] at h2
      cases h2
      exact ⟨rfl, fun m => by simp⟩
    | true =>
      rw [hr] at h2
      obtain ⟨x, y⟩ := resetAll h2
      exact ⟨x, fun m => by rw [y]; simp⟩
  refine ⟨fun m => ?_, fun m => ?_⟩
  · rw [a, e2.1, e1.1]
    by_cases hx : m = SYS ∧ (catches env j && !preload) = true
    · rw [if_pos hx, if_pos (Or.inl hx)]
    · by_cases hy : j.flags.reset_signal_mask = true
      · rw [if_neg hx, if_pos hy, if_pos (Or.inr hy)]
      · rw [if_neg hx, if_neg hy, if_neg (fun q => q.elim hx hy)]
  · rw [b, e2.2, e1.2]

/-- The program when it starts. -/
theorem program_some {env : EnterEnv} {w : SigLibc} {preload : Bool} {j : Jail} {c t : Sig} (h : programSignals env w preload j c = some t) :
    (∀ m, t.blocked m = if (m = SYS ∧ catches env j = true) ∨ j.flags.reset_signal_mask = true then false else c.blocked m) ∧
    (∀ m, t.does m = if m = SYS ∧ catches env j = true then (if preload = true then .caught else .standard) else if m = SYS ∧ standards env j = true then .standard
      else if j.flags.reset_signal_handlers = true ∧ m ≤ w.rtmax ∧ w.error m = none then .standard else if c.does m = .caught then .standard else c.does m) := by
  unfold programSignals at h
  obtain ⟨s, h1, h⟩ := Option.bind_eq_some_iff.mp h
  obtain ⟨a, b⟩ := jailed_some h1
  have hpre : catches env (minijailPreenter j) = catches env j ∧ standards env (minijailPreenter j) = standards env j := ⟨rfl, rfl⟩
  cases preload with
  | false =>
    cases h
    refine ⟨fun m => ?_, fun m => ?_⟩
    · simpa [Sig.fork, Sig.exec] using a m
    · have hb := b m
      simp only [Bool.not_false, Bool.and_true] at hb
      simp only [Sig.fork, Sig.exec, hb]
      by_cases h1 : m = SYS ∧ catches env j = true
      · simp [h1]
      · by_cases h2 : m = SYS ∧ standards env j = true
        · rw [if_neg h1, if_pos h2, if_neg h1, if_pos h2]; simp
        · rw [if_neg h1, if_neg h2, if_neg h1, if_neg h2]
          by_cases h3 : j.flags.reset_signal_handlers = true ∧ m ≤ w.rtmax ∧ w.error m = none
          · rw [if_pos h3, if_pos h3]; simp
          · rw [if_neg h3, if_neg h3]
  | true =>
    obtain ⟨x, y⟩ := enterSignals_some h
    rw [hpre.1] at x y
    rw [hpre.2] at y
    refine ⟨fun m => ?_, fun m => ?_⟩
    · rw [x]
      have ha := a m
      simp only [Bool.not_true, Bool.and_false, Bool.false_eq_true, and_false, false_or] at ha
      simp only [Sig.fork, Sig.exec, ha]
      by_cases h1 : m = SYS ∧ catches env j = true
      · rw [if_pos h1, if_pos (Or.inl h1)]
      · by_cases hy : j.flags.reset_signal_mask = true
        · rw [if_neg h1, if_pos hy, if_pos (Or.inr hy)]
        · rw [if_neg h1, if_neg hy, if_neg (fun q => q.elim h1 hy)]
    · rw [y]
      have hb := b m
      simp only [Bool.not_true, Bool.and_false, Bool.false_eq_true, and_false, if_false] at hb
      simp only [Sig.fork, Sig.exec, hb]
      by_cases h1 : m = SYS ∧ catches env j = true
      · rw [if_pos h1, if_pos h1]; simp
      · rw [if_neg h1, if_neg h1]
        by_cases h2 : m = SYS ∧ standards env j = true
        · rw [if_pos h2, if_pos h2]
        · rw [if_neg h2, if_neg h2]
          by_cases h3 : j.flags.reset_signal_handlers = true ∧ m ≤ w.rtmax ∧ w.error m = none
          · rw [if_pos h3, if_pos h3]; simp
          · rw [if_neg h3, if_neg h3]

/-- Accepting what is pending leaves no SIGPIPE, and everything else as it is. -/
theorem acceptPipe_some : ∀ (l : List PipeEv) {w t : Waiting}, acceptPipe l w = some t →
    t.thread PIPE = false ∧ t.process PIPE = false ∧ ∀ n, n ≠ PIPE → t.thread n = w.thread n ∧ t.process n = w.process n
  | [], w, t, h => by cases h
  | .arrives :: l, w, t, h => by
    obtain ⟨a, b, c⟩ := acceptPipe_some l (w := { w with process := fun n => if n = PIPE then true else w.process n }) h
    exact ⟨a, b, fun n hn => by simpa [hn] using c n hn⟩
  | .interrupted :: l, w, t, h => acceptPipe_some l (w := w) h
  | .called :: l, w, t, h => by
    unfold acceptPipe at h
    by_cases h1 : w.thread PIPE = true
    · rw [if_pos h1] at h
      obtain ⟨a, b, c⟩ := acceptPipe_some l h
      exact ⟨a, b, fun n hn => by simpa [hn] using c n hn⟩
    · rw [if_neg h1] at h
      by_cases h2 : w.process PIPE = true
      · rw [if_pos h2] at h
        obtain ⟨a, b, c⟩ := acceptPipe_some l h
        exact ⟨a, b, fun n hn => by simpa [hn] using c n hn⟩
      · rw [if_neg h2] at h
        cases h
        exact ⟨by simpa using h1, by simpa using h2, fun n _ => ⟨rfl, rfl⟩⟩

end Minijail.Sigs
