import Verif.Model.Probes
import Verif.Model.Bpf
import Verif.Props.C24
/-! C87: filters on kernels of all ages. -/
set_option linter.unusedSimpArgs false
set_option autoImplicit false
namespace Minijail
open Probes
open Spec (SeccompKernel Able FilterInForce NoFilter Entered Happened)

theorem prctl_null (k : SeccompKernel) : errnoOf (k.prctl true) = if k.filters then some 14 else some 22 := by
  unfold SeccompKernel.prctl errnoOf; cases k.filters <;> rfl

theorem seccomp_tsync_null (k : SeccompKernel) : errnoOf (k.seccomp true false true) =
    if k.call then (if k.filters && k.tsync then some 14 else some 22) else some 38 := by
  unfold SeccompKernel.seccomp errnoOf; cases k.filters <;> cases k.call <;> cases k.tsync <;> cases k.spec <;> rfl

/-- **C87**, builds in which a kernel without filters is an error (the default): whatever the kernel, a filter that is set stays in the jail with everything asked for, but for allowing
speculation. -/
theorem C87_kept (k : SeccompKernel) (env : ApiEnv) (j : Jail) (prog : List Insn) (j' : Jail) (h : call (envFor k false env) j (.setSeccompFilters prog) = .ok j') :
    j' = { j with filter_len := prog.length, filter_prog := some prog,
                  flags := { j.flags with seccomp_filter_allow_speculation := j.flags.seccomp_filter_allow_speculation && specAvailable k } } := by
  have hs : shouldUseFilters (envFor k false env) j =
      (true, { j with flags := { j.flags with seccomp_filter_allow_speculation := j.flags.seccomp_filter_allow_speculation && specAvailable k } }) := by
    unfold shouldUseFilters
    rw [if_neg (by simp [envFor]), if_neg (by simp [envFor])]
    show (if j.flags.seccomp_filter_allow_speculation = true ∧ (!specAvailable k) = true then _ else _) = _
    cases hj : j.flags.seccomp_filter_allow_speculation with
    | false => rw [if_neg (by simp)]; cases j; cases ‹Flags›; simp_all
    | true =>
      cases hsp : specAvailable k with
      | false => rw [if_pos (by simp)]; simp
      | true => rw [if_neg (by simp)]; cases j; cases ‹Flags›; simp_all
  simp only [call, setSeccompFilters, hs] at h
  split at h
  · rename_i h0; simp at h0
  · split at h
    · cases h
    · split at h
      · cases h
      · cases h; rfl

/-- Builds in which it is not an error: the filter stays if the kernel is able to put it in force, and otherwise nothing of it is left. -/
theorem C87_soft (k : SeccompKernel) (env : ApiEnv) (j : Jail) (prog : List Insn) (j' : Jail) (h : call (envFor k true env) j (.setSeccompFilters prog) = .ok j') :
    (Able k j.flags.seccomp_filter_tsync → j'.filter_prog = some prog ∧ j'.flags.seccomp_filter = j.flags.seccomp_filter ∧ j'.flags.seccomp_filter_tsync = j.flags.seccomp_filter_tsync ∧
      j'.flags.no_new_privs = j.flags.no_new_privs) ∧
    (¬ Able k j.flags.seccomp_filter_tsync → NoFilter j') := by
  have e1 : (envFor k true env).modeFilterErrno = some 22 ∧ (envFor k true env).softfail = true ↔ k.filters = false := by
    simp only [envFor, prctl_null]; cases k.filters <;> simp
  have e2 : (j.flags.seccomp_filter_tsync = true ∧ ((envFor k true env).tsyncErrno = some 38 ∨ (envFor k true env).tsyncErrno = some 22) ∧ (envFor k true env).softfail = true) ↔
      (j.flags.seccomp_filter_tsync = true ∧ ¬ (k.call = true ∧ k.filters = true ∧ k.tsync = true)) := by
    simp only [envFor, seccomp_tsync_null]; cases k.filters <;> cases k.call <;> cases k.tsync <;> simp
  simp only [call, setSeccompFilters] at h
  by_cases h1 : k.filters = false
  · have hs : shouldUseFilters (envFor k true env) j = (false, clearSeccompOptions j) := by unfold shouldUseFilters; rw [if_pos (e1.2 h1)]
    rw [hs] at h
    simp only [Bool.not_false, if_true] at h
    cases h
    exact ⟨fun ha => absurd ha.1 (by rw [h1]; decide), fun _ => ⟨rfl, rfl⟩⟩
  · by_cases h2 : j.flags.seccomp_filter_tsync = true ∧ ¬ (k.call = true ∧ k.filters = true ∧ k.tsync = true)
    · have hs : shouldUseFilters (envFor k true env) j = (false, clearSeccompOptions j) := by
        unfold shouldUseFilters
        rw [if_neg (fun x => h1 (e1.1 x)), if_pos (e2.2 h2)]
      rw [hs] at h
      simp only [Bool.not_false, if_true] at h
      cases h
      exact ⟨fun ha => absurd ⟨(ha.2 h2.1).1, ha.1, (ha.2 h2.1).2⟩ h2.2, fun _ => ⟨rfl, rfl⟩⟩
    · have hable : Able k j.flags.seccomp_filter_tsync := by
        refine ⟨by simpa using h1, fun ht => ?_⟩
        have := Classical.not_not.1 (fun hh => h2 ⟨ht, hh⟩)
        exact ⟨this.1, this.2.2⟩
      refine ⟨fun _ => ?_, fun hn => absurd hable hn⟩
      have hs : ∃ b, shouldUseFilters (envFor k true env) j = (true, { j with flags := { j.flags with seccomp_filter_allow_speculation := b } }) := by
        unfold shouldUseFilters
        rw [if_neg (fun x => h1 (e1.1 x)), if_neg (fun x => h2 (e2.1 x))]
        split
        · exact ⟨false, rfl⟩
        · exact ⟨j.flags.seccomp_filter_allow_speculation, rfl⟩
      obtain ⟨b, hs⟩ := hs
      rw [hs] at h
      dsimp only at h
      split at h
      · rename_i h0; simp at h0
      · split at h
        · cases h
        · split at h
          · cases h
          · cases h; exact ⟨rfl, rfl, rfl, rfl⟩

/-- **C87**: a program runs only if the kernel was able to put the filter in force as it was asked for, and then it is. -/
theorem C87_enforced {env : EnterEnv} {j : Jail} {sys : Kernel} {t : List Ev} (k : SeccompKernel) (h : Entered env j sys t) (hk : AnsweredBy k t) (hf : j.flags.seccomp_filter = true)
    (hasan : env.asan = false) (hp : j.filter_prog ≠ none) : FilterInForce j t ∧ Able k j.flags.seccomp_filter_tsync := by
  have hin := (C24_applied_partial h).filter hf hasan
  refine ⟨⟨_, hin⟩, ?_⟩
  cases hprog : j.filter_prog with
  | none => exact absurd hprog hp
  | some p =>
    rw [hprog] at hin
    have := hk _ _ _ _ hin
    unfold installAnswer SeccompKernel.seccomp SeccompKernel.prctl at this
    unfold Able
    revert this
    cases j.flags.seccomp_filter_tsync <;> cases j.flags.seccomp_filter_allow_speculation <;> cases k.filters <;> cases k.call <;> cases k.tsync <;> cases k.spec <;> simp

theorem enterBind_ok {α β : Type} {p : EnterM α} {f : α → EnterM β} {k : Kernel} {h h' : List Ev} {a : α} (e : p k h = (.ok a, h')) : (p >>= f) k h = f a k h' := by
  show (match p k h with
    | (.ok a, h') => f a k h'
    | (.die, h') => (.die, h')
    | (.exit c, h') => (.exit c, h')) = _
  rw [e]

/-- The part of **C87** that holds about running: on a kernel that is able to put the filter in force, the step that installs it succeeds, and allowing speculation is asked for only where it is
known. Missing: kernels without the call `seccomp`, if speculation is to be allowed (`C87_violated`). -/
theorem C87_runs_partial (k : SeccompKernel) (soft : Bool) (env : ApiEnv) (eenv : EnterEnv) (j : Jail) (prog : List Insn) (j' : Jail) (sys : Kernel)
    (h : call (envFor k soft env) j (.setSeccompFilters prog) = .ok j') (hf : j.flags.seccomp_filter = true) (hasan : eenv.asan = false) (hk : Serves k sys)
    (hable : Able k j.flags.seccomp_filter_tsync) (hcall : j.flags.seccomp_filter_allow_speculation = true → k.call = true) (t : List Ev) :
    ∃ t', setSeccompFilter eenv j' sys t = (.ok (), t ++ t') ∧
      (Sys.seccompFilter j.flags.seccomp_filter_tsync (j.flags.seccomp_filter_allow_speculation && k.spec) (some prog), 0) ∈ t' := by
  have hspec : k.call = true → specAvailable k = k.spec := by
    obtain ⟨a, -⟩ := hable
    intro hc
    unfold specAvailable SeccompKernel.seccomp
    rw [a, hc]
    cases k.spec <;> rfl
  have hj : j' = { j with filter_len := prog.length, filter_prog := some prog, flags := { j.flags with seccomp_filter_allow_speculation := j.flags.seccomp_filter_allow_speculation && k.spec } } := by
    have hs : shouldUseFilters (envFor k soft env) j =
        (true, { j with flags := { j.flags with seccomp_filter_allow_speculation := j.flags.seccomp_filter_allow_speculation && k.spec } }) := by
      unfold shouldUseFilters
      rw [if_neg (by simp only [envFor, prctl_null, hable.1]; simp), if_neg (by
        simp only [envFor, seccomp_tsync_null]
        rintro ⟨ht, hx, -⟩
        rw [(hable.2 ht).1, (hable.2 ht).2, hable.1] at hx
        simp at hx)]
      show (if j.flags.seccomp_filter_allow_speculation = true ∧ (!specAvailable k) = true then _ else _) = _
      cases hjs : j.flags.seccomp_filter_allow_speculation with
      | false => rw [if_neg (by simp)]; cases j; cases ‹Flags›; simp_all
      | true =>
        rw [hspec (hcall hjs)]
        cases hsp : k.spec with
        | false => rw [if_pos (by simp)]; simp
        | true => rw [if_neg (by simp)]; cases j; cases ‹Flags›; simp_all
    simp only [call, setSeccompFilters, hs] at h
    split at h
    · rename_i h0; simp at h0
    · split at h
      · cases h
      · split at h
        · cases h
        · cases h; rfl
  have hans : installAnswer k j.flags.seccomp_filter_tsync (j.flags.seccomp_filter_allow_speculation && k.spec) = 0 := by
    obtain ⟨a, b⟩ := hable
    unfold installAnswer SeccompKernel.seccomp SeccompKernel.prctl
    revert hcall b
    rw [a]
    cases j.flags.seccomp_filter_tsync <;> cases j.flags.seccomp_filter_allow_speculation <;> cases k.call <;> cases k.tsync <;> cases k.spec <;> simp
  have hmust : ∀ (c : Sys) (t : List Ev), sys t c = 0 → must c sys t = (.ok (), t ++ [(c, 0)]) := by
    intro c t hc
    show (match (Out.ok (sys t c), t ++ [(c, sys t c)]) with
      | (.ok a, h') => dieIf (a ≠ 0) sys h'
      | (.die, h') => (.die, h')
      | (.exit c, h') => (.exit c, h')) = _
    rw [hc]
    rfl
  have hfirst : ∃ t1, (ifM ((eenv.defaultRetLog || j'.flags.seccomp_filter_logging) = true) (whenM (!eenv.retLogAvailable) (must .sigsysHandler))
      (whenM j'.flags.seccomp_filter_tsync (must .sigsysDefault))) sys t = (.ok (), t ++ t1) := by
    unfold ifM whenM
    split
    · split
      · exact ⟨_, hmust _ _ (hk.handler _)⟩
      · exact ⟨[], by rw [List.append_nil]; rfl⟩
    · split
      · exact ⟨_, hmust _ _ (hk.default _)⟩
      · exact ⟨[], by rw [List.append_nil]; rfl⟩
  obtain ⟨t1, h1⟩ := hfirst
  refine ⟨t1 ++ [(Sys.seccompFilter j.flags.seccomp_filter_tsync (j.flags.seccomp_filter_allow_speculation && k.spec) (some prog), 0)], ?_, by simp⟩
  have hwhen : (j'.flags.seccomp_filter && !eenv.asan) = true := by rw [hj, hasan]; simp [hf]
  unfold setSeccompFilter whenM
  rw [if_pos hwhen]
  refine Eq.trans (b := must (.seccompFilter j'.flags.seccomp_filter_tsync j'.flags.seccomp_filter_allow_speculation j'.filter_prog) sys (t ++ t1)) ?_ ?_
  · exact enterBind_ok (p := ifM _ _ _) (by unfold whenM at h1; exact h1)
  · rw [hj]
    rw [hmust _ _ (by rw [hk.filter]; exact hans), List.append_assoc]

/-- A jail with a filter and an environment in which nothing goes wrong. -/
def filterJail (tsync spec : Bool) : Jail := { flags := { seccomp_filter := true, seccomp_filter_tsync := tsync, seccomp_filter_allow_speculation := spec, no_new_privs := true } }

/-- A system in which this kernel answers the requests for filters, and everything else succeeds. -/
def servedBy (k : SeccompKernel) : Kernel := fun _ c =>
  match c with
  | .seccompFilter tsync spec _ => installAnswer k tsync spec
  | _ => 0

theorem servedBy_serves (k : SeccompKernel) : Serves k (servedBy k) := ⟨fun _ _ _ _ => rfl, fun _ => rfl, fun _ => rfl⟩

/-- How the step ends that installs the filter, after the configuration on that kernel. -/
def filterStep (k : SeccompKernel) (tsync spec : Bool) : Option (Out Unit × List Ev) :=
  match call (envFor k false {}) (filterJail tsync spec) (.setSeccompFilters [bpfRetAllow]) with
  | .ok j => some (setSeccompFilter {} j (servedBy k) [])
  | _ => none

/-- **C87 does not hold** on kernels that have filters and not the call `seccomp` (3.5 to 3.16), if speculation is to be allowed: the answer ENOSYS is taken for knowing the flag, and the process ends;
without the wish it would run. -/
theorem C87_violated : Able ⟨true, false, false, false⟩ false ∧
    filterStep ⟨true, false, false, false⟩ false true = some (.die, [(.seccompFilter false true (some [bpfRetAllow]), -38)]) ∧
    filterStep ⟨true, false, false, false⟩ false false = some (.ok (), [(.seccompFilter false false (some [bpfRetAllow]), 0)]) :=
  ⟨⟨rfl, by simp⟩, by decide +kernel, by decide +kernel⟩

/-- The hypotheses can be met: a kernel of today, and one that does not know the flag for speculation. -/
example : Able ⟨true, true, true, true⟩ true ∧ filterStep ⟨true, true, true, true⟩ true true =
    some (.ok (), [(.sigsysDefault, 0), (.seccompFilter true true (some [bpfRetAllow]), 0)]) := ⟨⟨rfl, by simp⟩, by decide +kernel⟩
example : Able ⟨true, true, true, false⟩ true ∧ filterStep ⟨true, true, true, false⟩ true true =
    some (.ok (), [(.sigsysDefault, 0), (.seccompFilter true false (some [bpfRetAllow]), 0)]) := ⟨⟨rfl, by simp⟩, by decide +kernel⟩
/-- A kernel without filters: the process ends, or in builds that allow it nothing is left of the filter. -/
example : filterStep ⟨false, true, false, false⟩ false false = some (.die, [(.seccompFilter false false (some [bpfRetAllow]), -22)]) := by decide +kernel
example : ∃ j', call (envFor ⟨false, true, false, false⟩ true {}) (filterJail false false) (.setSeccompFilters [bpfRetAllow]) = .ok j' ∧ NoFilter j' ∧ j'.flags.no_new_privs = false :=
  ⟨_, rfl, ⟨rfl, rfl⟩, rfl⟩

/-- And a jail that is entered on such a kernel. -/
example : ∃ t, Entered {} { filterJail true false with filter_prog := some [bpfRetAllow] } (servedBy ⟨true, true, true, true⟩) t ∧ AnsweredBy ⟨true, true, true, true⟩ t := by
  refine ⟨[(.noNewPrivs, 0), (.sigsysDefault, 0), (.seccompFilter true false (some [bpfRetAllow]), 0)], by unfold Entered; decide +kernel, ?_⟩
  intro tsync spec p r h
  simp only [List.mem_cons, Prod.mk.injEq, reduceCtorEq, false_and, List.not_mem_nil, or_false, false_or, Sys.seccompFilter.injEq] at h
  obtain ⟨⟨rfl, rfl, -⟩, rfl⟩ := h
  rfl

end Minijail
