import Verif.Proof.SignalState
import Verif.Proof.EnterFinal
/-! Which requests of `minijail_enter` have to do with signals. -/
set_option autoImplicit false
set_option linter.unusedSimpArgs false
namespace Minijail.Sigs
open Spec

/-- The request has to do with signals. -/
def isSig : Sys → Bool
  | .sigsysHandler | .sigsysDefault => true
  | _ => false

/-- The requests of successful runs that have to do with signals are these. -/
def Says {α : Type} (m : EnterM α) (c : List Sys) : Prop := ∀ k h a h', Runs m k h a h' → ∃ s, h' = h ++ s ∧ (s.map Prod.fst).filter isSig = c

/-- There are none. -/
def Quiet {α : Type} (m : EnterM α) : Prop := Says m []

variable {α β : Type}

theorem quiet_pure (a : α) : Quiet (pure a : EnterM α) := fun k h b h' r => ⟨[], by simp [(runs_pure.1 r).2], rfl⟩
theorem quiet_exit (c : Nat) : Quiet (exitNow c : EnterM α) := fun k h b h' r => (runs_exit r).elim
theorem says_sys {c : Sys} : Says (sys c) ([c].filter isSig) := fun k h b h' r => ⟨[(c, b)], (runs_sys.1 r).2, rfl⟩
theorem quiet_sys {c : Sys} (hc : isSig c = false) : Quiet (sys c) := by
  have := says_sys (c := c)
  rw [List.filter_cons_of_neg (by simp [hc])] at this
  exact this
theorem quiet_dieIf (p : Prop) [Decidable p] : Quiet (dieIf p) := fun k h b h' r => ⟨[], by simp [(runs_dieIf.1 r).2], rfl⟩
theorem says_bind {p : EnterM α} {f : α → EnterM β} {c d : List Sys} (hp : Says p c) (hf : ∀ a, Says (f a) d) : Says (p >>= f) (c ++ d) := by
  intro k h b h' r
  obtain ⟨a, h1, r1, r2⟩ := runs_bind.1 r
  obtain ⟨s, e, hs⟩ := hp k h a h1 r1
  obtain ⟨s', e', hs'⟩ := hf a k h1 b h' r2
  refine ⟨s ++ s', by rw [e', e]; simp, ?_⟩
  rw [List.map_append, List.filter_append, hs, hs']
theorem quiet_bind {p : EnterM α} {f : α → EnterM β} (hp : Quiet p) (hf : ∀ a, Quiet (f a)) : Quiet (p >>= f) := says_bind hp hf
theorem quiet_ifM {p : Prop} [Decidable p] {a b : EnterM α} (ha : Quiet a) (hb : Quiet b) : Quiet (ifM p a b) := by
  unfold ifM; split_ifs <;> assumption
theorem quiet_when {b : Bool} {p : EnterM Unit} (hp : Quiet p) : Quiet (whenM b p) := by
  unfold whenM; split_ifs
  · exact hp
  · exact quiet_pure ()
theorem says_must {c : Sys} : Says (must c) ([c].filter isSig) := by
  have := says_bind (says_sys (c := c)) (fun r => quiet_dieIf (r ≠ 0))
  rw [List.append_nil] at this
  exact this
theorem quiet_must {c : Sys} (hc : isSig c = false) : Quiet (must c) := quiet_bind (quiet_sys hc) fun _ => quiet_dieIf _
theorem quiet_for {f : α → EnterM Unit} (hf : ∀ a, Quiet (f a)) : ∀ l, Quiet (forM' f l)
  | [] => quiet_pure ()
  | x :: xs => quiet_bind (hf x) fun _ => quiet_for hf xs
theorem quiet_first : ∀ {cs : List Sys}, (∀ c ∈ cs, isSig c = false) → Quiet (firstFailing cs)
  | [], _ => quiet_pure 0
  | c :: cs, h => quiet_bind (quiet_sys (h c (by simp))) fun _ => quiet_ifM (quiet_pure _) (quiet_first fun d hd => h d (by simp [hd]))

macro "sigquiet" : tactic => `(tactic| repeat' (first
  | exact quiet_pure _ | exact quiet_exit _ | exact quiet_dieIf _ | exact quiet_sys rfl | exact quiet_must rfl | assumption
  | refine quiet_bind ?_ (fun _ => ?_) | refine quiet_ifM ?_ ?_ | refine quiet_when ?_ | refine quiet_for (fun _ => ?_) _))

theorem quiet_hooks (j : Jail) (e : Nat) : Quiet (runHooks j e) := by unfold runHooks; sigquiet
theorem quiet_cleanup (env : EnterEnv) : Quiet (mountDevCleanup env) := by unfold mountDevCleanup; sigquiet
theorem dev_quiet : ∀ c ∈ deviceNodes ++ deviceSymlinks ++ [Sys.mkdirat (bstr "shm") 0o1777], isSig c = false := by
  intro c hc
  simp only [deviceNodes, deviceSymlinks, List.mem_append, List.mem_cons, List.not_mem_nil, or_false] at hc
  rcases hc with ((rfl | rfl | rfl | rfl | rfl) | rfl | rfl | rfl | rfl | rfl) | rfl <;> rfl
theorem quiet_dev (env : EnterEnv) : Quiet (mountDev env) := by
  have h1 := quiet_cleanup env
  have h2 := quiet_first dev_quiet
  unfold mountDev; sigquiet
theorem quiet_fin (env : EnterEnv) (j : Jail) : Quiet (mountDevFinalize env j) := by
  have h1 := quiet_cleanup env
  unfold mountDevFinalize
  refine quiet_bind (quiet_first ?_) ?_
  · intro c hc
    simp only [List.mem_cons, List.not_mem_nil, or_false] at hc
    rcases hc with rfl | rfl <;> rfl
  · intro _; sigquiet
theorem quiet_step (j : Jail) (d : Option BStr) (m : Mountpoint) : Quiet (mountStep j d m) := by unfold mountStep; dsimp only; sigquiet
theorem quiet_one (j : Jail) (d : Option BStr) : ∀ ms, Quiet (mountOne j d ms)
  | [] => quiet_pure 0
  | m :: ms => by
    have h1 := quiet_step j d m
    have h2 := quiet_one j d ms
    unfold mountOne; sigquiet
theorem quiet_mounts (env : EnterEnv) (j : Jail) : Quiet (processMounts env j) := by
  have h1 := quiet_dev env
  have h2 := quiet_fin env j
  have h3 := quiet_cleanup env
  have h4 := fun d => quiet_one j d j.mounts
  unfold processMounts
  refine quiet_bind (by sigquiet) fun _ => quiet_bind (h4 _) fun _ => ?_
  sigquiet
theorem quiet_chroot (j : Jail) : Quiet (enterChroot j) := by
  have h1 := quiet_hooks j PRE_CHROOT
  unfold enterChroot; sigquiet
theorem quiet_open (p : Option BStr) : Quiet (mustOpen p) := by unfold mustOpen; sigquiet
theorem quiet_pivot (j : Jail) : Quiet (enterPivotRoot j) := by
  have h1 := quiet_hooks j PRE_CHROOT
  have h2 := quiet_open (some (bstr "/"))
  have h3 := quiet_open j.chrootdir
  unfold enterPivotRoot; sigquiet
theorem quiet_tmp (env : EnterEnv) (j : Jail) : Quiet (mountTmp env j) := by unfold mountTmp; sigquiet
theorem quiet_proc (j : Jail) : Quiet (remountProcReadonly j) := by unfold remountProcReadonly; sigquiet
theorem quiet_ugid (j : Jail) : Quiet (dropUgid j) := by unfold dropUgid; sigquiet
theorem quiet_bset (b : BitVec 64) (n : Nat) : Quiet (dropCapbset b n) := by unfold dropCapbset; sigquiet
theorem quiet_caps (j : Jail) (n : Nat) : Quiet (dropCaps j n) := by
  have h1 := quiet_bset j.caps n
  unfold dropCaps; dsimp only; sigquiet
theorem quiet_lock (env : EnterEnv) (s : BitVec 64) (b : Bool) : Quiet (lockSecurebits env s b) := by unfold lockSecurebits; dsimp only; sigquiet
theorem quiet_landlock (j : Jail) : Quiet (landlock j) := by unfold landlock; sigquiet
/-- What a jail asks for that has to do with signals. -/
def sigRequests (env : EnterEnv) (j : Jail) : List Sys :=
  if catches env j then [.sigsysHandler] else if standards env j then [.sigsysDefault] else []

theorem says_filter (env : EnterEnv) (j : Jail) : Says (setSeccompFilter env j) (sigRequests env j) := by
  unfold setSeccompFilter
  have hf : Quiet (must (.seccompFilter j.flags.seccomp_filter_tsync j.flags.seccomp_filter_allow_speculation j.filter_prog)) := quiet_must rfl
  unfold sigRequests catches standards whenM ifM
  have h1 : Says (must .sigsysHandler) [.sigsysHandler] := says_must
  have h2 : Says (must .sigsysDefault) [.sigsysDefault] := says_must
  have h0 : Says (pure () : EnterM Unit) [] := quiet_pure ()
  cases hfl : j.flags.seccomp_filter <;> cases ha : env.asan <;> cases hd : (env.defaultRetLog || j.flags.seccomp_filter_logging) <;>
    cases hr : env.retLogAvailable <;> cases ht : j.flags.seccomp_filter_tsync <;> rw [ht] at hf <;>
    first
      | exact h0
      | exact says_bind h1 fun _ => hf
      | exact says_bind h2 fun _ => hf
      | exact says_bind h0 fun _ => hf
theorem quiet_strict (env : EnterEnv) : Quiet (enterStrict env) := by unfold enterStrict; sigquiet
theorem quiet_last (j : Jail) : Quiet (getLastCap j) := by unfold getLastCap; sigquiet


theorem quiet_names (j : Jail) : Quiet (enterNamespaces j) := by unfold enterNamespaces; sigquiet
theorem says_drop (env : EnterEnv) (j : Jail) (n : Nat) : Says (dropPrivileges env j n) (sigRequests env j) := by
  have h1 := quiet_ugid j
  have h2 := quiet_caps j n
  have h3 := quiet_landlock j
  have h4 := says_filter env j
  have h5 : Quiet (must .noNewPrivs) := quiet_must rfl
  unfold dropPrivileges ifM
  split
  · exact says_bind h1 fun _ => says_bind h2 fun _ => says_bind h5 fun _ => says_bind h3 fun _ => h4
  · have := says_bind h3 fun _ => says_bind h4 fun _ => says_bind h1 fun _ => h2
    simpa using this

/-- What a jail that was entered has asked for that has to do with signals. -/
theorem says_enter {env : EnterEnv} {j : Jail} {k : Kernel} {t : List Ev} (h : Entered env j k t) : (t.map Prod.fst).filter isSig = sigRequests env j := by
  have r : Runs (minijailEnter env j) k [] () t := h
  have q : Says (minijailEnter env j) (sigRequests env j) := by
    unfold minijailEnter
    have h0 := quiet_names j
    have h1 := quiet_mounts env j
    have h2 := quiet_chroot j
    have h3 := quiet_pivot j
    have h4 := quiet_tmp env j
    have h5 := quiet_proc j
    have h6 := quiet_hooks j PRE_DROP_CAPS
    have h10 := quiet_strict env
    have h11 := quiet_last j
    refine says_bind (c := []) h11 fun last => says_bind (c := []) (quiet_dieIf _) fun _ => says_bind (c := []) (quiet_dieIf _) fun _ => says_bind (c := []) h0 fun _ =>
      says_bind (c := []) h1 fun _ => says_bind (c := []) (quiet_when h2) fun _ => says_bind (c := []) (quiet_when h3) fun _ => says_bind (c := []) (quiet_when h4) fun _ =>
      says_bind (c := []) (quiet_when h5) fun _ => says_bind (c := []) h6 fun _ => says_bind (c := []) (quiet_when (quiet_bset j.cap_bset last)) fun _ =>
      says_bind (c := []) (quiet_when (quiet_lock env j.securebits_skip_mask (!j.flags.set_ambient_caps))) fun _ => ?_
    have e := says_bind (says_drop env j last) fun _ => says_bind (quiet_when (b := j.flags.alt_syscall) (quiet_must (c := .altSyscall j.alt_syscall_table) rfl)) fun _ =>
      quiet_when (b := j.flags.seccomp) h10
    rw [List.append_nil, List.append_nil] at e
    exact e
  obtain ⟨s, e, hs⟩ := q _ _ _ _ r
  rw [e]
  exact hs

theorem request_quiet {s : Sig} {c : Sys} (h : isSig c = false) : requestSignals s c = s := by
  cases c <;> first | rfl | cases h

theorem requests_filter : ∀ (l : List Sys) (s : Sig), l.foldl requestSignals s = (l.filter isSig).foldl requestSignals s
  | [], s => rfl
  | c :: l, s => by
    cases hc : isSig c with
    | false => rw [List.filter_cons_of_neg (by simp [hc]), List.foldl_cons, request_quiet hc, requests_filter l s]
    | true => rw [List.filter_cons_of_pos hc, List.foldl_cons, List.foldl_cons, requests_filter l]

theorem enterSignals_requests {env : EnterEnv} {w : SigLibc} {j : Jail} (hs : w.error SYS = none) (hm : w.mask = true) (s : Sig) :
    enterSignals env w j s = some ((sigRequests env j).foldl requestSignals s) := by
  unfold enterSignals catchSigsys sigRequests catches standards
  rw [hs, hm]
  cases hfl : j.flags.seccomp_filter <;> cases ha : env.asan <;> cases hd : (env.defaultRetLog || j.flags.seccomp_filter_logging) <;>
    cases hr : env.retLogAvailable <;> cases ht : j.flags.seccomp_filter_tsync <;> rfl

end Minijail.Sigs
