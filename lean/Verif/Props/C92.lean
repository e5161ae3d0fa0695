import Verif.Model.KillTarget
import Verif.Props.C90
import Verif.Props.C91
/-! C92: `minijail_kill` ends the program. -/
set_option autoImplicit false
set_option linter.unusedSimpArgs false
namespace Minijail
open Sigs

/-- The program is process 1 of a new namespace, without an `init`. -/
def IsProcessOne (j : Jail) : Prop := j.flags.pids = true ∧ (j.flags.do_init = false ∨ j.flags.run_as_init = true)

/-- A process that is `init` for the program exists. -/
def HasInit (j : Jail) : Prop := j.flags.pids = true ∧ j.flags.do_init = true ∧ j.flags.run_as_init = false

variable {env : EnterEnv} {w : SigLibc} {preload : Bool} {j : Jail} {caller : Sig} {x : Noted}

theorem noted_init (hj : HasInit j) (h : noted env w preload j caller = some x) : ∃ s, initSignals env w preload j caller = some s ∧ x = .init s := by
  obtain ⟨h1, h2, h3⟩ := hj
  simp only [noted, h1, h2, h3, Bool.not_false, Bool.and_self, if_true, Option.map_eq_some_iff] at h
  obtain ⟨s, hs, rfl⟩ := h
  exact ⟨s, hs, rfl⟩

theorem noted_program (hj : ¬HasInit j) (h : noted env w preload j caller = some x) : ∃ s, programSignals env w preload j caller = some s ∧ x = .program j.flags.pids s := by
  have hb : (j.flags.pids && (j.flags.do_init && !j.flags.run_as_init)) = false := by
    unfold HasInit at hj
    cases h1 : j.flags.pids <;> cases h2 : j.flags.do_init <;> cases h3 : j.flags.run_as_init <;> simp_all
  simp only [noted, hb, Bool.false_eq_true, if_false, Option.map_eq_some_iff] at h
  obtain ⟨s, hs, rfl⟩ := h
  exact ⟨s, hs, rfl⟩

/-- What SIGTERM does to a program that starts without a handler being reset: what it does to the caller, unless that catches it. -/
theorem program_term {s : Sig} (h : programSignals env w preload j caller = some s) :
    s.does 15 = if j.flags.reset_signal_handlers = true ∧ 15 ≤ w.rtmax ∧ w.error 15 = none then .standard else if caller.does 15 = .caught then .standard else caller.does 15 := by
  rw [(program_some h).2, if_neg (fun q => absurd q.1 (by decide)), if_neg (fun q => absurd q.1 (by decide))]

theorem program_term_blocked {s : Sig} (h : programSignals env w preload j caller = some s) :
    s.blocked 15 = if j.flags.reset_signal_mask = true then false else caller.blocked 15 := by
  rw [(program_some h).1]
  have : (15 : Nat) ≠ SYS := by decide
  simp [this]

/-- `minijail_kill` ends a program that has an `init`, or is in no namespace of its own, and has not changed what SIGTERM does to it, unless the caller has SIGTERM blocked or ignored when it starts it and
does not have that reset. What is ignored does not matter if there is an `init`. -/
theorem C92_ends_partial (h : noted env w preload j caller = some x) (h1 : ¬IsProcessOne j) (hw : w.error 15 = none)
    (hb : caller.blocked 15 = false ∨ j.flags.reset_signal_mask = true)
    (hi : HasInit j ∨ caller.does 15 ≠ .ignored ∨ (j.flags.reset_signal_handlers = true ∧ 15 ≤ w.rtmax)) : x.killEnds = true := by
  by_cases hj : HasInit j
  · obtain ⟨s, hs, rfl⟩ := noted_init hj h
    obtain ⟨a, b⟩ := C91_term_partial hs hw hb
    simp [Noted.killEnds, struck, a, b]
  · obtain ⟨s, hs, rfl⟩ := noted_program hj h
    have hp : j.flags.pids = false := by
      unfold HasInit at hj
      unfold IsProcessOne at h1
      cases q1 : j.flags.pids <;> cases q2 : j.flags.do_init <;> cases q3 : j.flags.run_as_init <;> simp_all
    have b : s.blocked TERM = false := by
      have e : s.blocked TERM = _ := program_term_blocked hs
      rw [e]
      rcases hb with hb | hb
      · split
        · rfl
        · exact hb
      · rw [if_pos hb]
    have a : s.does TERM = .standard := by
      have e : s.does TERM = _ := program_term hs
      rw [e]
      rcases hi with hi | hi | hi
      · exact absurd hi hj
      · cases hc : caller.does 15
        · simp
        · exact absurd hc hi
        · simp
      · rw [if_pos ⟨hi.1, hi.2, hw⟩]
    simp [Noted.killEnds, struck, a, b, hp]

/-- It never ends a program that is process 1 itself (and has not come to catch SIGTERM). -/
theorem C92_process_one (h : noted env w preload j caller = some x) (h1 : IsProcessOne j) : x.killEnds = false := by
  have hj : ¬HasInit j := by
    rintro ⟨_, b, c⟩
    rcases h1.2 with q | q
    · rw [b] at q; cases q
    · rw [c] at q; cases q
  obtain ⟨s, hs, rfl⟩ := noted_program hj h
  simp only [Noted.killEnds, struck, h1.1]
  cases s.blocked TERM <;> cases s.does TERM <;> rfl

/-- Nor one whose caller has SIGTERM blocked and does not have the mask reset. -/
theorem C92_blocked (h : noted env w preload j caller = some x) (hb : caller.blocked 15 = true) (hm : j.flags.reset_signal_mask = false) : x.killEnds = false := by
  by_cases hj : HasInit j
  · obtain ⟨s, hs, rfl⟩ := noted_init hj h
    have := C91_term_lost hs hb hm
    unfold TermReaches at this
    simp only [Noted.killEnds, struck]
    cases q1 : s.blocked TERM <;> cases q2 : s.does TERM <;> simp_all
  · obtain ⟨s, hs, rfl⟩ := noted_program hj h
    have e : s.blocked TERM = _ := program_term_blocked hs
    rw [hm, if_neg (by simp), hb] at e
    simp [Noted.killEnds, struck, e]

/-- Nor, without an `init`, one whose caller ignores SIGTERM and does not have handlers reset. -/
theorem C92_ignored (h : noted env w preload j caller = some x) (hj : ¬HasInit j) (hi : caller.does 15 = .ignored) (hr : j.flags.reset_signal_handlers = false) : x.killEnds = false := by
  obtain ⟨s, hs, rfl⟩ := noted_program hj h
  have e : s.does TERM = _ := program_term hs
  rw [hr, hi] at e
  simp at e
  simp only [Noted.killEnds, struck, e]
  cases s.blocked TERM <;> rfl

/-- So the full claim fails, for a caller with nothing blocked or ignored, after the calls `minijail_namespace_pids` and `minijail_run_as_init`. -/
theorem C92_violated : ∃ j x, calls minijailNew [({}, .namespacePids), ({}, .runAsInit)] = some j ∧
    noted {} glibcSignals false j ⟨fun _ => false, fun _ => .standard⟩ = some x ∧ x.killEnds = false := by
  have hc : ∃ j, calls minijailNew [({}, .namespacePids), ({}, .runAsInit)] = some j ∧ j.flags.pids = true ∧ j.flags.run_as_init = true := ⟨_, rfl, rfl, rfl⟩
  obtain ⟨j, hj, h1, h2⟩ := hc
  obtain ⟨s, hs⟩ := C90_starts (w := glibcSignals) (fun n e h => by unfold glibcSignals at h; simp only at h; split at h <;> cases h; rfl) (by decide) rfl {} false j
    ⟨fun _ => false, fun _ => .standard⟩
  have hx : noted {} glibcSignals false j ⟨fun _ => false, fun _ => .standard⟩ = some (.program j.flags.pids s) := by
    unfold noted
    rw [h1, h2, hs]
    cases j.flags.do_init <;> rfl
  exact ⟨j, _, hj, hx, C92_process_one hx ⟨h1, Or.inr h2⟩⟩

/-- Cases: a program with an `init` whose caller ignores SIGTERM; one without a namespace whose caller blocks it, with the mask reset. -/
example : ∃ x, noted {} ⟨64, fun _ => none, true⟩ false { flags := { pids := true, do_init := true } } ⟨fun _ => false, fun n => if n = 15 then .ignored else .standard⟩ = some x ∧ x.killEnds = true := by
  have h : ∃ x, noted {} ⟨64, fun _ => none, true⟩ false { flags := { pids := true, do_init := true } } ⟨fun _ => false, fun n => if n = 15 then .ignored else .standard⟩ = some x := ⟨_, rfl⟩
  obtain ⟨x, h⟩ := h
  exact ⟨x, h, C92_ends_partial h (by unfold IsProcessOne; simp) rfl (Or.inl rfl) (Or.inl ⟨rfl, rfl, rfl⟩)⟩

example : ∃ x, noted {} ⟨64, fun _ => none, true⟩ true { flags := { reset_signal_mask := true } } ⟨fun n => n == 15, fun _ => .caught⟩ = some x ∧ x.killEnds = true := by
  have h : ∃ x, noted {} ⟨64, fun _ => none, true⟩ true { flags := { reset_signal_mask := true } } ⟨fun n => n == 15, fun _ => .caught⟩ = some x := ⟨_, rfl⟩
  obtain ⟨x, h⟩ := h
  exact ⟨x, h, C92_ends_partial h (by unfold IsProcessOne; simp) rfl (Or.inr rfl) (Or.inr (Or.inl (by decide)))⟩

example : ∃ x, noted {} ⟨64, fun _ => none, true⟩ true {} ⟨fun n => n == 15, fun _ => .caught⟩ = some x ∧ x.killEnds = false := by
  have h : ∃ x, noted {} ⟨64, fun _ => none, true⟩ true {} ⟨fun n => n == 15, fun _ => .caught⟩ = some x := ⟨_, rfl⟩
  obtain ⟨x, h⟩ := h
  exact ⟨x, h, C92_blocked h rfl rfl⟩

example : ∃ x, noted {} ⟨64, fun _ => none, true⟩ true {} ⟨fun _ => false, fun n => if n = 15 then .ignored else .standard⟩ = some x ∧ x.killEnds = false := by
  have h : ∃ x, noted {} ⟨64, fun _ => none, true⟩ true {} ⟨fun _ => false, fun n => if n = 15 then .ignored else .standard⟩ = some x := ⟨_, rfl⟩
  obtain ⟨x, h⟩ := h
  exact ⟨x, h, C92_ignored h (by unfold HasInit; simp) rfl rfl⟩

end Minijail
