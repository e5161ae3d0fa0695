import Verif.Proof.Wait
/-! C31: what `minijail_wait` and `minijail_kill` return. -/
set_option autoImplicit false
set_option linter.unusedSimpArgs false
namespace Minijail
open Spec

variable {f : Fate} {pid : Int} {l rest : List WaitAns} {c' : Child} {r : Int}

/-- Waiting for a program that was started and not yet waited for reports how it ends: its exit code, 128 plus the signal that killed it, 253 for
SIGSYS; however often the call is interrupted and whether the program has ended already. -/
theorem C31_wait {c : Child} (hp : 0 < pid) (h : Answers f c l c') (hc : c ≠ .reaped) (hw : minijailWait pid l = some (r, rest)) :
    r = report f ∧ 0 ≤ r ∧ Answers f .reaped rest c' := by
  rw [minijailWait, if_neg (by omega)] at hw
  obtain ⟨e, ha⟩ := wait_running h hc hw
  exact ⟨e, by rw [e]; exact report_nonneg f, ha⟩

/-- Waiting again fails with ECHILD. -/
theorem C31_again (h : Answers f .reaped l c') (hw : minijailWait pid l = some (r, rest)) : r = -10 ∧ Answers f .reaped rest c' := by
  rw [minijailWait] at hw
  split at hw
  · simp only [Option.some.injEq, Prod.mk.injEq] at hw
    exact ⟨by rw [← hw.1]; rfl, by rw [← hw.2]; exact h⟩
  · exact wait_reaped h rfl hw

/-- Waiting for a jail in which nothing was started fails with ECHILD at once; killing does so too and signals nobody. -/
theorem C31_never_run (hp : pid ≤ 0) (e : Nat) : minijailWait pid l = some (-10, l) ∧ minijailKill pid e l = (none, some (-10, l)) := by
  simp [minijailWait, minijailKill, hp, ECHILD]

/-- The call goes on waiting only as long as it is interrupted. -/
theorem C31_waits (hw : minijailWait pid l = none) : ∀ a ∈ l, a = .err 4 := by
  rw [minijailWait] at hw
  split at hw
  · simp at hw
  · exact wait_none l hw

/-- Any other failure of `waitpid` is reported as such. -/
theorem C31_error (hp : 0 < pid) {e : Nat} (he : e ≠ 4) (hl : ∀ a ∈ l, a = .err 4) : minijailWait pid (l ++ .err e :: rest) = some (-(e : Int), rest) := by
  rw [minijailWait, if_neg (by omega)]
  induction l with
  | nil => simp [waitLoop, EINTR, he]
  | cons a l ih =>
    rw [hl a (by simp), List.cons_append, waitLoop, if_neg (by simp [EINTR])]
    exact ih fun b hb => hl b (by simp [hb])

/-- Killing the program and waiting for it reports how it ends in the same way; a signal that cannot be sent is reported. -/
theorem C31_kill {c : Child} (hp : 0 < pid) (h : Answers f c l c') (hc : c ≠ .reaped) {e : Nat} {x : Option Int}
    (hw : minijailKill pid e l = (x, some (r, rest))) : x = some pid ∧ (e = 0 → r = report f) ∧ (e ≠ 0 → r = -e) := by
  rw [minijailKill, if_neg (by omega)] at hw
  by_cases he : e = 0
  · subst he
    simp only [ne_eq, not_true, if_false, Prod.mk.injEq] at hw
    exact ⟨hw.1.symm, fun _ => (C31_wait hp h hc hw.2).1, fun h => absurd rfl h⟩
  · simp only [ne_eq, he, not_false_eq_true, if_true, Prod.mk.injEq, Option.some.injEq] at hw
    exact ⟨hw.1.symm, fun h => absurd h he, fun _ => hw.2.1.symm⟩

/-- Every status word is covered, also those no process leaves: with `n` the lowest seven bits, 0 means an exit, 127 a stop (the word is returned
as it is), anything else a signal. -/
theorem C31_total (st : BitVec 32) :
    ((st &&& 0x7f#32).toNat = 0 → waitResult st = ((st >>> 8) &&& 0xff#32).toNat) ∧
    ((st &&& 0x7f#32).toNat = 127 → waitResult st = st.toInt) ∧
    (∀ n, (st &&& 0x7f#32).toNat = n → 0 < n → n < 127 → waitResult st = if n = 31 then 253 else 128 + (n : Int)) := by
  have hlt : (st &&& 0x7f#32).toNat < 128 := by
    rw [BitVec.toNat_and]; exact Nat.lt_of_le_of_lt Nat.and_le_right (by decide)
  have hs : ∀ n : Fin 128, decide (((((BitVec.ofNat 32 n.val) + 1#32).setWidth 8).sshiftRight 1).toInt > 0) = (0 < n.val && n.val < 127) := by
    decide +kernel
  have hsig : wifsignaled st = (0 < (st &&& 0x7f#32).toNat && (st &&& 0x7f#32).toNat < 127) := by
    have := hs ⟨_, hlt⟩
    rw [wifsignaled, ← this]; simp
  have hex : wifexited st = true ↔ (st &&& 0x7f#32).toNat = 0 := by
    rw [wifexited, beq_iff_eq]
    exact ⟨fun h => by rw [h]; rfl, fun h => BitVec.eq_of_toNat_eq (by rw [h]; rfl)⟩
  refine ⟨fun h => ?_, fun h => ?_, fun n h h0 h1 => ?_⟩
  · rw [waitResult, hex.2 h, wexitstatus]
    have : (st &&& 0xff00#32) >>> 8 = (st >>> 8) &&& 0xff#32 := by
      rw [BitVec.ushiftRight_and_distrib]; rfl
    simp [this]
  · have hx : wifexited st = false := by
      rw [Bool.eq_false_iff]; intro hx; have := hex.1 hx; omega
    rw [waitResult, hx, hsig, h]; simp
  · have hx : wifexited st = false := by
      rw [Bool.eq_false_iff]; intro hx; have := hex.1 hx; omega
    rw [waitResult, hx, hsig, h, wtermsig, h]
    simp only [SIGSYS, ERR_JAIL, ERR_SIG_BASE, h0, h1]
    by_cases e : n = 31
    · simp [e]
    · have : ¬ (n : Int) = 31 := by omega
      simp [e, this]

/-- The report does not tell ends apart that a caller may want to tell apart: killed by SIGTERM and exit code 143, a policy violation and exit code
253. -/
theorem C31_ambiguous : report (.killed 15 false (by decide)) = report (.exited 143) ∧ report (.killed 31 true (by decide)) = report (.exited 253) := by
  decide

/-- A program that exits with 3 after the call was interrupted twice; and a second call. -/
example : ∃ l, Answers (.exited 3) .running l .reaped ∧ minijailWait 7 l = some (3, [.err 10]) := by
  refine ⟨_, .interrupted _ _ _ (.ends _ _ (.interrupted _ _ _ (.reaps _ _ (.none _ _ (.nil _))))), by decide +kernel⟩

end Minijail
