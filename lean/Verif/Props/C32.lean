import Verif.Proof.Wait
/-! C32: the `init` process of a new pid namespace. -/
set_option autoImplicit false
set_option linter.unusedSimpArgs false
namespace Minijail
open Spec

variable {root : Int} {l l1 l2 : List (Int × Fate)} {f : Fate}

/-- `init` does not exit as long as children remain: whatever dies, it goes on waiting (as long as nobody sends it SIGTERM). -/
theorem C32_waits (h : ∀ x ∈ l, 0 < x.1) : minijailInit root (l.map fun x => .reaped x.1 (word x.2)) = none := by
  obtain ⟨s, e⟩ := init_any root l 0#32 [] h
  rw [List.append_nil] at e
  rw [minijailInit, e]; rfl

/-- When all have died it exits with the exit code of the program, or 254 if a signal killed the program, in whatever order they died. (Missing:
the system may give the number of the dead program to a later process, see `C32_violated_reuse`; SIGTERM, see `C32_violated_term`.) -/
theorem C32_report_partial (hr : 0 < root) (h1 : ∀ x ∈ l1, 0 < x.1) (h2 : ∀ x ∈ l2, 0 < x.1 ∧ x.1 ≠ root) :
    minijailInit root (deaths (l1 ++ (root, f) :: l2)) = some (initReport f) := by
  rw [minijailInit, deaths, init_root root hr l1 l2 f _ h1 h2, initLoop, init_word]

/-- So the caller of `minijail_wait` is told the exit code of the program, or 254. -/
theorem C32_wait_partial (hr : 0 < root) (h1 : ∀ x ∈ l1, 0 < x.1) (h2 : ∀ x ∈ l2, 0 < x.1 ∧ x.1 ≠ root) {arg : Int}
    (hi : minijailInit root (deaths (l1 ++ (root, f) :: l2)) = some arg) {pid r : Int} (hp : 0 < pid) {a rest : List WaitAns} {c' : Child}
    (ha : Answers (exitFate arg) .running a c') (hw : minijailWait pid a = some (r, rest)) : r = initReport f := by
  rw [C32_report_partial hr h1 h2, Option.some.injEq] at hi
  rw [minijailWait, if_neg (by omega)] at hw
  rw [(wait_running ha (by simp) hw).1, ← hi]
  cases f with
  | exited c => simp [initReport, exitFate, report, BitVec.toNat_ofInt]
  | killed s b h => rfl

/-- SIGTERM makes `init` hand the whole status word to `_exit`, which keeps only its lowest eight bits: whatever the exit code of the program was,
`init` reports success. -/
theorem C32_violated_term (hr : 0 < root) (h1 : ∀ x ∈ l1, 0 < x.1) (h2 : ∀ x ∈ l2, 0 < x.1 ∧ x.1 ≠ root) (c : BitVec 8) :
    ∃ arg, minijailInit root ((l1 ++ (root, .exited c) :: l2).map (fun x => .reaped x.1 (word x.2)) ++ [.sigterm]) = some arg ∧
      exitFate arg = .exited 0 := by
  refine ⟨(word (.exited c)).toInt, ?_, ?_⟩
  · rw [minijailInit, init_root root hr l1 l2 _ _ h1 h2, initLoop]
  · revert c; decide +kernel

/-- The same when the program is still running. -/
theorem C32_violated_early (h : ∀ x ∈ l, 0 < x.1 ∧ x.1 ≠ root) :
    minijailInit root (l.map (fun x => .reaped x.1 (word x.2)) ++ [.sigterm]) = some 0 := by
  rw [minijailInit, init_skip root l _ _ h]; rfl

/-- A process that gets the number of the dead program replaces its status: the program failed with code 1, `init` reports 0. -/
theorem C32_violated_reuse : minijailInit 2 (deaths [(2, .exited 1), (3, .exited 0), (2, .exited 0)]) = some 0 := by decide +kernel

/-- A program that is killed by a filter, with two orphans, one of which dies first. -/
example : minijailInit 2 (deaths ([(5, .exited 0)] ++ (2, .killed 31 true (by decide)) :: [(6, .killed 9 false (by decide))])) = some 254 := by
  decide +kernel

end Minijail
