import Verif.Proof.FdsSetup
/-! C45: the library preloaded into the program finds its configuration at the announced descriptor. -/
set_option autoImplicit false
namespace Minijail

/-- **C45**, when the announced number is no requested child fd: it then still refers to the configuration pipe. Missing: when it
is one. -/
theorem C45_partial (env : FdEnv) (hw : Spec.LogSafe env) (t0 : FdTable) (es : List FdMap) (s : RunPipes) (elf : Option Nat)
    (r : ChildFds) (hopen : ∀ e ∈ es, t0 e.parent ≠ none) (hpipe : ∀ p, some p ∈ s.ends → t0 p ≠ none)
    (helf : ∀ p, elf = some p → t0 p ≠ none) (n : Nat) (hn : announcedConfigFd s = some n)
    (hnew : n ∉ es.map (·.parent)) (hnc : n ∉ es.map (·.child)) (h : setupChildFds env t0 es s.ends elf = some r) :
    ∃ rest, r.pipes = some n :: rest ∧ r.table n = t0 n := by
  have hs := setup_spec env hw t0 es s.ends elf r hopen hpipe helf h
  have hf := hs.2.2.2.2.1
  unfold announcedConfigFd at hn
  have htab := hs.2.2.2.1 n (hpipe n (by unfold RunPipes.ends; simp [hn])) hnc hnew
  unfold RunPipes.ends at hf
  rw [hn] at hf
  cases hp : r.pipes with
  | nil => rw [hp] at hf; cases hf
  | cons q rest =>
    rw [hp] at hf
    cases hf with
    | cons hq _ =>
      cases q with
      | none => exact hq.elim
      | some p' =>
        simp only at hq
        rw [hq.2.2 hnc]
        exact ⟨rest, rfl, htab⟩

/-- **C45 does not hold** in general: when a requested child fd has the number of the pipe's read end, the pipe is moved away
(libminijail.c:3946) after its number was announced (libminijail.c:3131). The announced descriptor then refers to the caller's
file: the preloaded library reads its configuration from there. -/
theorem C45_violated : ∃ (t0 : FdTable) (es : List FdMap) (s : RunPipes) (r : ChildFds) (n : Nat),
    (∀ e ∈ es, t0 e.parent ≠ none) ∧ (∀ p, some p ∈ s.ends → t0 p ≠ none) ∧ (∀ p, some p ∈ s.ends → p ∉ es.map (·.parent)) ∧
    announcedConfigFd s = some n ∧ setupChildFds ⟨fun _ _ => false, id⟩ t0 es s.ends none = some r ∧
    r.table n = some ⟨103, false⟩ ∧ t0 3 = some ⟨103, false⟩ ∧ t0 n = some ⟨104, false⟩ :=
  ⟨fun n => if n ≤ 5 then some ⟨100 + n, false⟩ else none, [⟨3, 4⟩], ⟨(some 4, some 5), (none, none), (none, none), (none, none), (none, none)⟩,
    _, 4, by decide, by simp [RunPipes.ends], by simp [RunPipes.ends], rfl, rfl, rfl, rfl, rfl⟩

/-- The hypotheses of `C45_partial` are met, with a conflict elsewhere. -/
example : ∃ r, setupChildFds ⟨fun _ _ => false, id⟩ (fun n => if n ≤ 9 then some ⟨100 + n, false⟩ else none) [⟨3, 6⟩, ⟨2, 3⟩]
      (RunPipes.ends ⟨(some 4, some 5), (some 6, some 7), (none, none), (none, none), (none, none)⟩) none = some r ∧
    r.pipes.take 4 = [some 4, some 5, some 1023, some 7] :=
  ⟨_, rfl, by decide +kernel⟩

end Minijail
