import Verif.Proof.FdsClosed
/-! C46: standard streams requested as pipes. -/
set_option linter.unusedSimpArgs false
set_option autoImplicit false
namespace Minijail

namespace Spec

/-- After setup the standard stream `n` is the pipe end that was requested for it, if one was; else what it was. -/
def StreamIs (t' : FdTable) (n : Nat) (t : FdTable) : Option Nat → Prop
  | none => t' n = t n
  | some p => SameFile t' n t p ∧ Inherited t' n

end Spec

/-- **C46**, when no pipe end has one of the numbers 0, 1, 2: each requested standard stream refers to its pipe and survives
`execve`, those not requested stay as they were, all six pipe ends are closed and nothing else changes. Missing: pipe ends
numbered 0, 1 or 2. -/
theorem C46_partial (env : FdEnv) (t t' : FdTable) (pin pout perr : Option Nat × Option Nat)
    (hbig : ∀ p, some p ∈ [pin.1, pin.2, pout.1, pout.2, perr.1, perr.2] → 2 < p)
    (h : setupChildStdFds env t pin pout perr = some t') :
    Spec.StreamIs t' 0 t pin.1 ∧ Spec.StreamIs t' 1 t pout.2 ∧ Spec.StreamIs t' 2 t perr.2 ∧
    ∀ n, 2 < n → t' n = if some n ∈ [pin.1, pin.2, pout.1, pout.2, perr.1, perr.2] then none else t n := by
  unfold setupChildStdFds at h
  cases g0 : stdDup env t pin.1 0 with
  | none => rw [g0] at h; cases h
  | some u0 =>
  rw [g0] at h
  simp only at h
  cases g1 : stdDup env u0 pout.2 1 with
  | none => rw [g1] at h; cases h
  | some u1 =>
  rw [g1] at h
  simp only at h
  cases g2 : stdDup env u1 perr.2 2 with
  | none => rw [g2] at h; cases h
  | some u2 =>
  rw [g2] at h
  simp only [Option.some.injEq] at h
  obtain ⟨k0, k0', k0''⟩ := stdDup_spec env _ _ _ _ g0
  obtain ⟨k1, k1', k1''⟩ := stdDup_spec env _ _ _ _ g1
  obtain ⟨k2, k2', k2''⟩ := stdDup_spec env _ _ _ _ g2
  have hsmall : ∀ n ≤ 2, t' n = u2 n := fun n hn => by
    rw [← h, foldl_closeEnd, if_neg]
    intro hm
    have := hbig n hm
    omega
  refine ⟨?_, ?_, ?_, ?_⟩
  · have e : t' 0 = u0 0 := by rw [hsmall 0 (by omega), k2 0 (by omega), k1 0 (by omega)]
    cases hp : pin.1 with
    | none => show t' 0 = t 0; rw [e, k0' hp]
    | some p =>
      have hb := hbig p (by simp [hp])
      rcases k0'' p hp with ⟨rfl, -⟩ | ⟨-, f, hf, hr⟩
      · omega
      · exact ⟨⟨_, f, e.trans hr, hf, rfl⟩, _, e.trans hr, rfl⟩
  · have e : t' 1 = u1 1 := by rw [hsmall 1 (by omega), k2 1 (by omega)]
    cases hp : pout.2 with
    | none => show t' 1 = t 1; rw [e, k1' hp, k0 1 (by omega)]
    | some p =>
      have hb := hbig p (by simp [hp])
      rcases k1'' p hp with ⟨rfl, -⟩ | ⟨-, f, hf, hr⟩
      · omega
      · rw [k0 p (by omega)] at hf
        exact ⟨⟨_, f, e.trans hr, hf, rfl⟩, _, e.trans hr, rfl⟩
  · have e : t' 2 = u2 2 := hsmall 2 (by omega)
    cases hp : perr.2 with
    | none => show t' 2 = t 2; rw [e, k2' hp, k1 2 (by omega), k0 2 (by omega)]
    | some p =>
      have hb := hbig p (by simp [hp])
      rcases k2'' p hp with ⟨rfl, -⟩ | ⟨-, f, hf, hr⟩
      · omega
      · rw [k1 p (by omega), k0 p (by omega)] at hf
        exact ⟨⟨_, f, e.trans hr, hf, rfl⟩, _, e.trans hr, rfl⟩
  · intro n hn
    rw [← h, foldl_closeEnd, k2 n (by omega), k1 n (by omega), k0 n (by omega)]

/-- **C46 does not hold** in general: when the caller runs with its standard streams closed, `pipe` returns 0 and 1, and closing
the temporary pipe ends (libminijail.c:3378-3384) closes the program's standard output. -/
theorem C46_violated : ∃ (t t' : FdTable) (pout : Option Nat × Option Nat), (∀ p, some p ∈ [pout.1, pout.2] → t p ≠ none) ∧
    setupChildStdFds ⟨fun _ _ => false, id⟩ t (none, none) pout (none, none) = some t' ∧ pout.2 ≠ none ∧ t' 1 = none :=
  ⟨fun n => if n ≤ 1 then some ⟨n, false⟩ else none, _, (some 0, some 1), by simp, rfl, by decide, rfl⟩

/-- The hypotheses of `C46_partial` are met. -/
example : ∃ t', setupChildStdFds ⟨fun _ _ => false, id⟩ (fun n => if n ≤ 9 then some ⟨100 + n, true⟩ else none)
      (some 3, some 4) (none, none) (some 5, some 6) = some t' ∧
    (List.range 8).map t' = [some ⟨103, false⟩, some ⟨101, true⟩, some ⟨106, false⟩, none, none, none, none, some ⟨107, true⟩] :=
  ⟨_, rfl, by decide +kernel⟩

end Minijail
