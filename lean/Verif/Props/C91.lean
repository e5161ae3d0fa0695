import Verif.Spec.InitSignals
import Verif.Proof.SignalState
import Verif.Props.C32
import Verif.Model.Lifecycle
/-! C91: the signals of the process that is `init` for a program: the status of the program gets through it, and so does SIGTERM. -/
set_option autoImplicit false
set_option linter.unusedSimpArgs false
namespace Minijail
open Sigs Spec

variable {env : EnterEnv} {w : SigLibc} {preload : Bool} {j : Jail} {caller s : Sig}

theorem init_some (h : initSignals env w preload j caller = some s) : ∃ t, jailedSignals env w preload j caller = some t ∧ s.blocked = t.blocked ∧
    ∀ n, s.does n = if n = TERM ∧ w.error TERM = none then .caught else t.does n := by
  unfold initSignals at h
  obtain ⟨t, h1, h2⟩ := Option.bind_eq_some_iff.mp h
  cases h2
  refine ⟨t, h1, ?_, fun n => ?_⟩ <;> cases he : w.error TERM <;> simp

/-- What SIGCHLD does to `init` is what it does to the caller, unless signals are to be reset. -/
theorem init_chld (h : initSignals env w preload j caller = some s) :
    s.does 17 = if j.flags.reset_signal_handlers = true ∧ 17 ≤ w.rtmax ∧ w.error 17 = none then .standard else caller.does 17 := by
  obtain ⟨t, h1, _, h3⟩ := init_some h
  rw [h3, if_neg (fun q => absurd q.1 (by decide)), (jailed_some h1).2, if_neg (fun q => absurd q.1 (by decide)), if_neg (fun q => absurd q.1 (by decide))]

/-- The status of the program gets through `init` (its code, or 254 if a signal killed it), whatever else dies before and after it, unless the caller ignores SIGCHLD and signals are not reset. -/
theorem C91_status_partial (hs : initSignals env w preload j caller = some s)
    (hc : caller.does 17 ≠ .ignored ∨ (j.flags.reset_signal_handlers = true ∧ 17 ≤ w.rtmax ∧ w.error 17 = none))
    {root : Int} (hr : 0 < root) {l1 l2 : List (Int × Fate)} {f : Fate} (h1 : ∀ x ∈ l1, 0 < x.1) (h2 : ∀ x ∈ l2, 0 < x.1 ∧ x.1 ≠ root) :
    minijailInit root (initSees s (l1 ++ (root, f) :: l2)) = some (initReport f) := by
  have hn : s.does CHLD ≠ .ignored := by
    have e : s.does CHLD = _ := init_chld hs
    rw [e]
    rcases hc with hc | hc
    · split
      · simp
      · exact hc
    · rw [if_pos hc]; simp
  unfold initSees
  rw [if_neg hn]
  exact C32_report_partial hr h1 h2

/-- If the caller ignores SIGCHLD and signals are not reset, `init` exits with 0 however the program ended. -/
theorem C91_lost (hs : initSignals env w preload j caller = some s) (hc : caller.does 17 = .ignored) (hj : j.flags.reset_signal_handlers = false)
    (root : Int) (l : List (Int × Fate)) : minijailInit root (initSees s l) = some 0 := by
  have hn : s.does CHLD = .ignored := by
    have e : s.does CHLD = _ := init_chld hs
    rw [e, if_neg (by rw [hj]; rintro ⟨q, _⟩; cases q)]
    exact hc
  unfold initSees
  rw [if_pos hn]
  rfl

/-- SIGTERM reaches `init`, so that `minijail_kill` ends the program, unless the caller has it blocked and the mask is not reset. -/
theorem C91_term_partial (hs : initSignals env w preload j caller = some s) (hw : w.error 15 = none) (hc : caller.blocked 15 = false ∨ j.flags.reset_signal_mask = true) :
    TermReaches s := by
  obtain ⟨t, h1, h2, h3⟩ := init_some hs
  refine ⟨by rw [h3, if_pos ⟨rfl, hw⟩], ?_⟩
  rw [h2, (jailed_some h1).1]
  rcases hc with hc | hc
  · split
    · rfl
    · exact hc
  · rw [if_pos (Or.inr hc)]

theorem C91_term_lost (hs : initSignals env w preload j caller = some s) (hc : caller.blocked 15 = true) (hj : j.flags.reset_signal_mask = false) : ¬TermReaches s := by
  obtain ⟨t, h1, h2, _⟩ := init_some hs
  rintro ⟨_, h⟩
  rw [h2, (jailed_some h1).1, if_neg] at h
  · exact Bool.noConfusion (hc.symm.trans h)
  · rintro (q | q)
    · exact absurd q.1 (by decide)
    · rw [hj] at q; cases q

/-- The signals of Linux with glibc: those for which `sigaction` fails. -/
def linuxSignals : Signals := ⟨65, 34, 64, fun n => n == 0 || n == 9 || n == 19 || n == 32 || n == 33⟩

/-- The full claim fails, and the caller is told of success: it ignores SIGCHLD (as a program does that was started so, since that outlives `execve`), forwards signals as minijail0 does, and waits for a
program that exits with 7. Forwarding gives the caller, and it alone, the default for SIGCHLD, so that waiting works: the answer is 0. -/
theorem C91_violated : ∃ (j : Jail) (caller s : Sig), j.flags.pids = true ∧ j.flags.do_init = true ∧ j.flags.forward_signals = true ∧
    initSignals {} ⟨64, fun _ => none, true⟩ false j caller = some s ∧
    installSignalHandlers linuxSignals (fun _ => .original) SIGCHLD = .standard ∧
    minijailInit 2 (initSees s [(2, .exited 7)]) = some 0 ∧
    initReport (.exited 7) = 7 ∧
    minijailWait 100 [.status (word (exitFate 0))] = some (0, []) := by
  refine ⟨{ flags := { pids := true, do_init := true, forward_signals := true } }, ⟨fun _ => false, fun n => if n = 17 then .ignored else .standard⟩, _, rfl, rfl, rfl, rfl, ?_, ?_, rfl, ?_⟩
  · decide +kernel
  · exact C91_lost (env := {}) (w := ⟨64, fun _ => none, true⟩) (preload := false) (j := { flags := { pids := true, do_init := true, forward_signals := true } })
      (caller := ⟨fun _ => false, fun n => if n = 17 then .ignored else .standard⟩) rfl rfl rfl 2 _
  · decide +kernel

/-- A caller that has SIGTERM blocked, as one does that reads signals from a descriptor. -/
theorem C91_violated_term : ∃ (j : Jail) (caller s : Sig), j.flags.pids = true ∧ j.flags.do_init = true ∧
    initSignals {} ⟨64, fun _ => none, true⟩ false j caller = some s ∧ ¬TermReaches s :=
  ⟨{ flags := { pids := true, do_init := true } }, ⟨fun n => n == 15, fun _ => .standard⟩, _, rfl, rfl, rfl,
    C91_term_lost (env := {}) (w := ⟨64, fun _ => none, true⟩) (preload := false) (j := { flags := { pids := true, do_init := true } })
      (caller := ⟨fun n => n == 15, fun _ => .standard⟩) rfl rfl rfl⟩

/-- Cases: a caller that catches SIGCHLD, and one that ignores it and blocks SIGTERM but has both reset. -/
example : ∃ s, initSignals {} ⟨64, fun _ => none, true⟩ false { flags := { pids := true, do_init := true } } ⟨fun _ => false, fun n => if n = 17 then .caught else .standard⟩ = some s ∧
    minijailInit 2 (initSees s ([(5, .exited 0)] ++ (2, .exited 7) :: [(6, .exited 1)])) = some 7 ∧ TermReaches s := by
  refine ⟨_, rfl, ?_, ?_⟩
  · exact C91_status_partial (env := {}) (w := ⟨64, fun _ => none, true⟩) (preload := false) (j := { flags := { pids := true, do_init := true } })
      (caller := ⟨fun _ => false, fun n => if n = 17 then .caught else .standard⟩) rfl (Or.inl (by decide)) (by decide) (by simp) (by simp)
  · exact C91_term_partial (env := {}) (w := ⟨64, fun _ => none, true⟩) (preload := false) (j := { flags := { pids := true, do_init := true } })
      (caller := ⟨fun _ => false, fun n => if n = 17 then .caught else .standard⟩) rfl rfl (Or.inl rfl)

example : ∃ s, initSignals {} ⟨64, fun _ => none, true⟩ false { flags := { pids := true, do_init := true, reset_signal_mask := true, reset_signal_handlers := true } }
      ⟨fun n => n == 15, fun n => if n = 17 then .ignored else .standard⟩ = some s ∧
    minijailInit 2 (initSees s ([] ++ (2, .exited 7) :: [])) = some 7 ∧ TermReaches s := by
  have h : ∃ s, initSignals {} ⟨64, fun _ => none, true⟩ false { flags := { pids := true, do_init := true, reset_signal_mask := true, reset_signal_handlers := true } }
      ⟨fun n => n == 15, fun n => if n = 17 then .ignored else .standard⟩ = some s := ⟨_, rfl⟩
  obtain ⟨s, hs⟩ := h
  exact ⟨s, hs, C91_status_partial hs (Or.inr ⟨rfl, by decide, rfl⟩) (by decide) (by simp) (by simp), C91_term_partial hs rfl (Or.inr rfl)⟩

end Minijail
