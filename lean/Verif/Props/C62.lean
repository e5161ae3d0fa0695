import Verif.Spec.Rust
import Verif.Props.C31
import Mathlib.Tactic.SplitIfs
/-! C62: what `wait` and `kill` of the Rust crate say about the end of a program. -/
set_option autoImplicit false
set_option linter.unusedSimpArgs false
namespace Minijail
open Spec

theorem translate_report (f : Fate) : translateWaitError (report f) =
    match f with
    | .exited c => if c = 0#8 then .ok else if c.toNat = 127 then .err .noCommand else if c.toNat = 126 then .err .noAccess
        else if 129 ≤ c.toNat ∧ c.toNat ≤ 192 then .err (.killed (c.toNat - 128)) else .err (.returnCode c.toNat)
    | .killed s _ _ => if s = 31 then .err (.returnCode 253) else .err (.killed s) := by
  cases f with
  | exited c =>
    revert c
    decide +kernel
  | killed s core h =>
    have key : ∀ s : Fin 65, 1 ≤ s.val → translateWaitError (if s.val = 31 then 253 else 128 + (s.val : Int)) =
        if s.val = 31 then .err (.returnCode 253) else .err (.killed s.val) := by decide +kernel
    exact key ⟨s, by omega⟩ h.1

theorem rustWait_report {f : Fate} {pid : Int} {l rest : List WaitAns} {c c' : Child} {w : RustWaited} (hp : 0 < pid) (h : Answers f c l c')
    (hc : c ≠ .reaped) (hw : rustWait pid l = some (w, rest)) : w = translateWaitError (report f) ∧ Answers f .reaped rest c' := by
  unfold rustWait at hw
  cases hm : minijailWait pid l with
  | none => rw [hm] at hw; cases hw
  | some r =>
    rw [hm] at hw
    simp only [Option.map_some, Option.some.injEq, Prod.mk.injEq] at hw
    obtain ⟨a, -, b⟩ := C31_wait (r := r.1) (rest := r.2) hp h hc hm
    rw [← hw.1, ← hw.2, a]
    exact ⟨rfl, b⟩

variable {f : Fate} {pid : Int} {l rest : List WaitAns} {c c' : Child} {w : RustWaited}

/-- **C62**: `wait` says `Ok` exactly if the program exited with 0. -/
theorem C62_ok (hp : 0 < pid) (h : Answers f c l c') (hc : c ≠ .reaped) (hw : rustWait pid l = some (w, rest)) : w = .ok ↔ f = .exited 0#8 := by
  rw [(rustWait_report hp h hc hw).1, translate_report]
  cases f with
  | exited c => simp only [Fate.exited.injEq]; constructor <;> intro h <;> split_ifs at * <;> simp_all
  | killed s core h => simp only [reduceCtorEq, iff_false]; split_ifs <;> simp

/-- **C62**, programs that no policy killed and that do not exit with a code that stands for something else. -/
theorem C62_tells_partial (hp : 0 < pid) (h : Answers f c l c') (hc : c ≠ .reaped) (hw : rustWait pid l = some (w, rest))
    (hx : ∀ code, f = .exited code → ¬ Taken code) (hs : ∀ core hsig, f ≠ .killed 31 core hsig) : TellsEnd f w := by
  rw [(rustWait_report hp h hc hw).1, translate_report]
  cases f with
  | exited c =>
    have := hx c rfl
    unfold Taken at this
    simp only [TellsEnd]
    by_cases h0 : c = 0#8
    · simp [h0]
    · rw [if_neg h0, if_neg h0, if_neg (by omega), if_neg (by omega), if_neg (by omega)]
  | killed s core hsig =>
    have : s ≠ 31 := by rintro rfl; exact hs core hsig rfl
    simp [TellsEnd, this]

/-- **C62**: whatever the program does, `wait` does not panic, and what it says is one of this: the program did not succeed. -/
theorem C62_total (hp : 0 < pid) (h : Answers f c l c') (hc : c ≠ .reaped) (hw : rustWait pid l = some (w, rest)) :
    w = .ok ∨ w = .err .noCommand ∨ w = .err .noAccess ∨ (∃ s, 1 ≤ s ∧ s ≤ 64 ∧ w = .err (.killed s)) ∨
      ∃ code, 1 ≤ code ∧ code ≤ 255 ∧ w = .err (.returnCode code) := by
  rw [(rustWait_report hp h hc hw).1, translate_report]
  cases f with
  | exited c =>
    simp only
    have hlt := c.isLt
    by_cases h0 : c = 0#8
    · simp [h0]
    · have hne : c.toNat ≠ 0 := fun hz => h0 (BitVec.eq_of_toNat_eq hz)
      split_ifs with h1 h2 h3
      · simp
      · simp
      · exact .inr (.inr (.inr (.inl ⟨_, by omega, by omega, rfl⟩)))
      · exact .inr (.inr (.inr (.inr ⟨_, by omega, by omega, rfl⟩)))
  | killed s core hsig =>
    simp only
    split_ifs with h1
    · exact .inr (.inr (.inr (.inr ⟨253, by decide, by decide, rfl⟩)))
    · exact .inr (.inr (.inr (.inl ⟨s, hsig.1, hsig.2, rfl⟩)))

/-- **C62**: what is said to be a missing command or one that cannot be run has exited with the library's code for it. -/
theorem C62_command (hp : 0 < pid) (h : Answers f c l c') (hc : c ≠ .reaped) (hw : rustWait pid l = some (w, rest)) :
    (w = .err .noCommand ↔ f = .exited 127#8) ∧ (w = .err .noAccess ↔ f = .exited 126#8) := by
  rw [(rustWait_report hp h hc hw).1, translate_report]
  clear h hw
  cases f with
  | exited c => simp only [Fate.exited.injEq]; clear hc; revert c; decide +kernel
  | killed s core h => simp only [reduceCtorEq, iff_false]; constructor <;> split_ifs <;> simp

/-- **C62**: what is not an exit and is not waited for is an error: a jail that was not run, one that was waited for before, a failing
`waitpid`. -/
theorem C62_wait_fails :
    (pid ≤ 0 → ∀ e, rustWait pid l = some (.err (.wait (-10)), l) ∧ rustKill pid e l = (none, some (.err (.wait (-10)), l))) ∧
    (Answers f .reaped l c' → rustWait pid l = some (w, rest) → w = .err (.wait (-10))) ∧
    (∀ e, 0 < pid → e ≠ 0 → e ≠ 4 → (∀ a ∈ l, a = .err 4) → rustWait pid (l ++ .err e :: rest) = some (.err (.wait (-(e : Int))), rest)) := by
  refine ⟨fun hp e => ?_, fun h hw => ?_, fun e hp h0 he hl => ?_⟩
  · obtain ⟨a, b⟩ := C31_never_run (l := l) hp e
    unfold rustWait rustKill
    rw [a, b]
    exact ⟨rfl, rfl⟩
  · unfold rustWait at hw
    cases hm : minijailWait pid l with
    | none => rw [hm] at hw; cases hw
    | some r =>
      rw [hm] at hw
      simp only [Option.map_some, Option.some.injEq, Prod.mk.injEq] at hw
      obtain ⟨a, -⟩ := C31_again (r := r.1) (rest := r.2) h hm
      rw [← hw.1, a]
      rfl
  · unfold rustWait
    rw [C31_error hp he hl]
    simp only [Option.map_some, translateWaitError]
    rw [if_neg (by omega), if_pos (by omega)]

/-- **C62**: `kill` signals the program that was started, and says the same as `wait` about its end, or that it could not be signalled. -/
theorem C62_kill (hp : 0 < pid) (h : Answers f c l c') (hc : c ≠ .reaped) {e : Nat} {x : Option Int}
    (hw : rustKill pid e l = (x, some (w, rest))) :
    x = some pid ∧ (e = 0 → rustWait pid l = some (w, rest)) ∧ (e ≠ 0 → w = .err (.wait (-(e : Int)))) := by
  unfold rustKill at hw
  have hk : minijailKill pid e l = (some pid, if e ≠ 0 then some (-(e : Int), l) else minijailWait pid l) := by
    unfold minijailKill
    rw [if_neg (by omega)]
    by_cases he : e = 0
    · rw [if_neg (by simp [he]), if_neg (by simp [he])]
    · rw [if_pos (by simpa using he), if_pos (by simpa using he)]
  rw [hk] at hw
  simp only [Prod.mk.injEq] at hw
  refine ⟨hw.1.symm, fun he => ?_, fun he => ?_⟩
  · rw [if_neg (by simp [he])] at hw
    exact hw.2
  · rw [if_pos he] at hw
    have := hw.2
    simp only [Option.map_some, Option.some.injEq, Prod.mk.injEq] at this
    rw [← this.1, translateWaitError, if_neg (by omega), if_pos (by omega)]

/-- **C62 does not hold** for a program that the policy killed: no `wait` says so; it says that the program exited with 253. -/
theorem C62_policy_violated (hp : 0 < pid) (h : Answers f c l c') (hc : c ≠ .reaped) (hw : rustWait pid l = some (w, rest)) :
    (∀ n, w ≠ .err (.seccompViolation n)) ∧ ∀ core hsig, f = .killed 31 core hsig → w = .err (.returnCode 253) ∧ ¬ TellsEnd f w := by
  have hr := (rustWait_report hp h hc hw).1
  constructor
  · intro n hn
    rcases C62_total hp h hc hw with h1 | h1 | h1 | ⟨s, -, -, h1⟩ | ⟨s, -, -, h1⟩ <;> rw [h1] at hn <;> cases hn
  · rintro core hsig rfl
    rw [translate_report] at hr
    simp only [if_true] at hr
    subst hr
    refine ⟨rfl, ?_⟩
    simp [TellsEnd]

/-- **C62 does not hold** for a program that exits with a code that stands for something else: it is taken for that. -/
theorem C62_code_violated (code : BitVec 8) (hcode : Taken code) (hf : f = .exited code) (hp : 0 < pid) (h : Answers f c l c') (hc : c ≠ .reaped)
    (hw : rustWait pid l = some (w, rest)) : ¬ TellsEnd f w := by
  have hr := (rustWait_report hp h hc hw).1
  subst hf
  rw [translate_report] at hr
  subst hr
  have key : ∀ code : BitVec 8, (code.toNat = 126 ∨ code.toNat = 127 ∨ (129 ≤ code.toNat ∧ code.toNat ≤ 192)) →
      ¬ (if code = 0#8 then
          (if code = 0#8 then RustWaited.ok else if code.toNat = 127 then .err .noCommand else if code.toNat = 126 then .err .noAccess
            else if 129 ≤ code.toNat ∧ code.toNat ≤ 192 then .err (.killed (code.toNat - 128)) else .err (.returnCode code.toNat)) = .ok
        else
          (if code = 0#8 then RustWaited.ok else if code.toNat = 127 then .err .noCommand else if code.toNat = 126 then .err .noAccess
            else if 129 ≤ code.toNat ∧ code.toNat ≤ 192 then .err (.killed (code.toNat - 128)) else .err (.returnCode code.toNat)) =
              .err (.returnCode code.toNat)) := by decide +kernel
  exact key code hcode

/-- A program that exits with 3 after the call was interrupted; one that SIGTERM kills; one that a policy kills. -/
example : (∃ l, Answers (.exited 3) .running l .reaped ∧ rustWait 7 l = some (.err (.returnCode 3), [])) ∧
    (∃ l, Answers (.killed 15 false (by decide)) .running l .reaped ∧ rustWait 7 l = some (.err (.killed 15), [])) ∧
    ∃ l, Answers (.killed 31 true (by decide)) .running l .reaped ∧ rustWait 7 l = some (.err (.returnCode 253), []) :=
  ⟨⟨_, .interrupted _ _ _ (.ends _ _ (.reaps _ _ (.nil _))), by decide +kernel⟩, ⟨_, .ends _ _ (.reaps _ _ (.nil _)), by decide +kernel⟩,
    _, .ends _ _ (.reaps _ _ (.nil _)), by decide +kernel⟩

example : Taken 126#8 ∧ Taken 143#8 ∧ ¬ Taken 128#8 ∧ ¬ Taken 253#8 := by unfold Taken; decide

end Minijail
