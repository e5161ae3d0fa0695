import Verif.Spec.Wait
/-! Lemmas about status words. -/
set_option autoImplicit false
set_option linter.unusedSimpArgs false
namespace Minijail
open Spec

theorem exited_word (c : BitVec 8) : wifexited (word (.exited c)) = true ∧ wexitstatus (word (.exited c)) = c.toNat := by
  revert c; decide +kernel

theorem killed_nat : ∀ (s : Fin 65) (b : Bool), 1 ≤ s.val →
    wifexited (BitVec.ofNat 32 (s.val + if b then 128 else 0)) = false ∧ wifsignaled (BitVec.ofNat 32 (s.val + if b then 128 else 0)) = true ∧
    wtermsig (BitVec.ofNat 32 (s.val + if b then 128 else 0)) = s.val := by decide +kernel

theorem killed_word (s : Nat) (b : Bool) (h : 1 ≤ s ∧ s ≤ 64) : wifexited (word (.killed s b h)) = false ∧
    wifsignaled (word (.killed s b h)) = true ∧ wtermsig (word (.killed s b h)) = s :=
  killed_nat ⟨s, by omega⟩ b h.1

theorem result_word (f : Fate) : waitResult (word f) = report f := by
  cases f with
  | exited c => simp [waitResult, exited_word, report]
  | killed s b h =>
    obtain ⟨h1, h2, h3⟩ := killed_word s b h
    simp only [waitResult, h1, h2, h3, report, SIGSYS, ERR_JAIL, ERR_SIG_BASE]
    by_cases e : s = 31
    · simp [e]
    · have : ¬ (s : Int) = 31 := by omega
      simp [e, this]

theorem report_nonneg (f : Fate) : 0 ≤ report f := by
  cases f with
  | exited c => simp [report]
  | killed s b h => simp only [report]; split <;> omega

theorem init_word (f : Fate) : initEnd (word f) = initReport f := by
  cases f with
  | exited c => simp [initEnd, exited_word, initReport]
  | killed s b h => simp [initEnd, killed_word, initReport, ERR_INIT]

theorem wait_running {f : Fate} {l : List WaitAns} {c' : Child} {r : Int} {rest : List WaitAns} {c : Child} (h : Answers f c l c')
    (hc : c ≠ .reaped) (hw : waitLoop l = some (r, rest)) : r = report f ∧ Answers f .reaped rest c' := by
  induction h with
  | nil => simp [waitLoop] at hw
  | interrupted c c' l h ih => exact ih hc (by simpa [waitLoop, EINTR] using hw)
  | ends c' l h ih => exact ih (by simp) hw
  | reaps c' l h ih =>
    simp only [waitLoop, Option.some.injEq, Prod.mk.injEq] at hw
    exact ⟨by rw [← hw.1, result_word], by rw [← hw.2]; exact h⟩
  | none => exact absurd rfl hc

theorem wait_reaped {f : Fate} {l : List WaitAns} {c' : Child} {r : Int} {rest : List WaitAns} {c : Child} (h : Answers f c l c')
    (hc : c = .reaped) (hw : waitLoop l = some (r, rest)) : r = -10 ∧ Answers f .reaped rest c' := by
  induction h with
  | nil => simp [waitLoop] at hw
  | interrupted c c' l h ih => exact ih hc (by simpa [waitLoop, EINTR] using hw)
  | ends c' l h ih => exact absurd hc (by simp)
  | reaps c' l h ih => exact absurd hc (by simp)
  | none c' l h =>
    simp only [waitLoop, EINTR, ne_eq, Nat.reduceEqDiff, not_false_eq_true, if_true, Option.some.injEq, Prod.mk.injEq] at hw
    exact ⟨by rw [← hw.1]; rfl, by rw [← hw.2]; exact h⟩

theorem wait_none : ∀ l : List WaitAns, waitLoop l = none → ∀ a ∈ l, a = .err 4
  | [], _ => by simp
  | .status st :: l, h => by simp [waitLoop] at h
  | .err e :: l, h => by
    by_cases he : e = 4
    · subst he
      have := wait_none l (by simpa [waitLoop, EINTR] using h)
      intro a ha
      rcases List.mem_cons.1 ha with rfl | ha
      · rfl
      · exact this a ha
    · simp [waitLoop, EINTR, he] at h

theorem init_skip (root : Int) : ∀ (l : List (Int × Fate)) (s : BitVec 32) (rest : List InitEv), (∀ x ∈ l, 0 < x.1 ∧ x.1 ≠ root) →
    initLoop root s (l.map (fun x => .reaped x.1 (word x.2)) ++ rest) = initLoop root s rest
  | [], _, _, _ => rfl
  | (p, f) :: l, s, rest, h => by
    have := h (p, f) (by simp)
    simp only [List.map_cons, List.cons_append, initLoop, if_pos this.1, if_neg this.2]
    exact init_skip root l s rest fun x hx => h x (by simp [hx])

theorem init_any (root : Int) : ∀ (l : List (Int × Fate)) (s : BitVec 32) (rest : List InitEv), (∀ x ∈ l, 0 < x.1) →
    ∃ s', initLoop root s (l.map (fun x => .reaped x.1 (word x.2)) ++ rest) = initLoop root s' rest
  | [], s, _, _ => ⟨s, rfl⟩
  | (p, f) :: l, s, rest, h => by
    have := h (p, f) (by simp)
    simp only [List.map_cons, List.cons_append, initLoop, if_pos this]
    exact init_any root l _ rest fun x hx => h x (by simp [hx])

theorem init_root (root : Int) (hr : 0 < root) (l1 l2 : List (Int × Fate)) (f : Fate) (rest : List InitEv) (h1 : ∀ x ∈ l1, 0 < x.1)
    (h2 : ∀ x ∈ l2, 0 < x.1 ∧ x.1 ≠ root) (s : BitVec 32) :
    initLoop root s ((l1 ++ (root, f) :: l2).map (fun x => .reaped x.1 (word x.2)) ++ rest) = initLoop root (word f) rest := by
  rw [List.map_append, List.append_assoc]
  obtain ⟨s', e⟩ := init_any root l1 s (((root, f) :: l2).map (fun x => InitEv.reaped x.1 (word x.2)) ++ rest) h1
  rw [e]
  simp only [List.map_cons, List.cons_append, initLoop, if_pos hr, if_true]
  exact init_skip root l2 _ rest h2

end Minijail
