import Verif.Model.Loopback
import Verif.Proof.EnterFinal
/-! Which requests of `minijail_enter` have to do with network devices. -/
set_option autoImplicit false
set_option linter.unusedSimpArgs false
namespace Minijail.Loopback
open Spec

/-- The request has to do with network devices. -/
def isNet : Sys → Bool
  | .unshare .net | .setns _ .net | .loopback => true
  | _ => false

/-- Successful runs make no such request. -/
def Quiet {α : Type} (m : EnterM α) : Prop := ∀ k h a h', Runs m k h a h' → ∃ s, h' = h ++ s ∧ ∀ e ∈ s, isNet e.1 = false

variable {α β : Type}

theorem quiet_pure (a : α) : Quiet (pure a : EnterM α) := fun k h b h' r => ⟨[], by simp [(runs_pure.1 r).2], by simp⟩
theorem quiet_exit (c : Nat) : Quiet (exitNow c : EnterM α) := fun k h b h' r => (runs_exit r).elim
theorem quiet_sys {c : Sys} (hc : isNet c = false) : Quiet (sys c) := fun k h b h' r => ⟨[(c, b)], (runs_sys.1 r).2, by simpa using hc⟩
theorem quiet_dieIf (p : Prop) [Decidable p] : Quiet (dieIf p) := fun k h b h' r => ⟨[], by simp [(runs_dieIf.1 r).2], by simp⟩
theorem quiet_bind {p : EnterM α} {f : α → EnterM β} (hp : Quiet p) (hf : ∀ a, Quiet (f a)) : Quiet (p >>= f) := by
  intro k h b h' r
  obtain ⟨a, h1, r1, r2⟩ := runs_bind.1 r
  obtain ⟨s, e, hs⟩ := hp k h a h1 r1
  obtain ⟨s', e', hs'⟩ := hf a k h1 b h' r2
  refine ⟨s ++ s', by rw [e', e]; simp, fun x hx => ?_⟩
  rcases List.mem_append.1 hx with h | h
  · exact hs x h
  · exact hs' x h
theorem quiet_ifM {p : Prop} [Decidable p] {a b : EnterM α} (ha : Quiet a) (hb : Quiet b) : Quiet (ifM p a b) := by
  unfold ifM; split_ifs <;> assumption
theorem quiet_when {b : Bool} {p : EnterM Unit} (hp : Quiet p) : Quiet (whenM b p) := by
  unfold whenM; split_ifs
  · exact hp
  · exact quiet_pure ()
theorem quiet_must {c : Sys} (hc : isNet c = false) : Quiet (must c) := quiet_bind (quiet_sys hc) fun _ => quiet_dieIf _
theorem quiet_for {f : α → EnterM Unit} (hf : ∀ a, Quiet (f a)) : ∀ l, Quiet (forM' f l)
  | [] => quiet_pure ()
  | x :: xs => quiet_bind (hf x) fun _ => quiet_for hf xs
theorem quiet_first : ∀ {cs : List Sys}, (∀ c ∈ cs, isNet c = false) → Quiet (firstFailing cs)
  | [], _ => quiet_pure 0
  | c :: cs, h => quiet_bind (quiet_sys (h c (by simp))) fun _ => quiet_ifM (quiet_pure _) (quiet_first fun d hd => h d (by simp [hd]))

macro "quiet" : tactic => `(tactic| repeat' (first
  | exact quiet_pure _ | exact quiet_exit _ | exact quiet_dieIf _ | exact quiet_sys rfl | exact quiet_must rfl | assumption
  | refine quiet_bind ?_ (fun _ => ?_) | refine quiet_ifM ?_ ?_ | refine quiet_when ?_ | refine quiet_for (fun _ => ?_) _))

theorem quiet_hooks (j : Jail) (e : Nat) : Quiet (runHooks j e) := by unfold runHooks; quiet
theorem quiet_cleanup (env : EnterEnv) : Quiet (mountDevCleanup env) := by unfold mountDevCleanup; quiet
theorem dev_quiet : ∀ c ∈ deviceNodes ++ deviceSymlinks ++ [Sys.mkdirat (bstr "shm") 0o1777], isNet c = false := by
  intro c hc
  simp only [deviceNodes, deviceSymlinks, List.mem_append, List.mem_cons, List.not_mem_nil, or_false] at hc
  rcases hc with ((rfl | rfl | rfl | rfl | rfl) | rfl | rfl | rfl | rfl | rfl) | rfl <;> rfl
theorem quiet_dev (env : EnterEnv) : Quiet (mountDev env) := by
  have h1 := quiet_cleanup env
  have h2 := quiet_first dev_quiet
  unfold mountDev; quiet
theorem quiet_fin (env : EnterEnv) (j : Jail) : Quiet (mountDevFinalize env j) := by
  have h1 := quiet_cleanup env
  unfold mountDevFinalize
  refine quiet_bind (quiet_first ?_) ?_
  · intro c hc
    simp only [List.mem_cons, List.not_mem_nil, or_false] at hc
    rcases hc with rfl | rfl <;> rfl
  · intro _; quiet
theorem quiet_step (j : Jail) (d : Option BStr) (m : Mountpoint) : Quiet (mountStep j d m) := by unfold mountStep; dsimp only; quiet
theorem quiet_one (j : Jail) (d : Option BStr) : ∀ ms, Quiet (mountOne j d ms)
  | [] => quiet_pure 0
  | m :: ms => by
    have h1 := quiet_step j d m
    have h2 := quiet_one j d ms
    unfold mountOne; quiet
theorem quiet_mounts (env : EnterEnv) (j : Jail) : Quiet (processMounts env j) := by
  have h1 := quiet_dev env
  have h2 := quiet_fin env j
  have h3 := quiet_cleanup env
  have h4 := fun d => quiet_one j d j.mounts
  unfold processMounts
  refine quiet_bind (by quiet) fun _ => quiet_bind (h4 _) fun _ => ?_
  quiet
theorem quiet_chroot (j : Jail) : Quiet (enterChroot j) := by
  have h1 := quiet_hooks j PRE_CHROOT
  unfold enterChroot; quiet
theorem quiet_open (p : Option BStr) : Quiet (mustOpen p) := by unfold mustOpen; quiet
theorem quiet_pivot (j : Jail) : Quiet (enterPivotRoot j) := by
  have h1 := quiet_hooks j PRE_CHROOT
  have h2 := quiet_open (some (bstr "/"))
  have h3 := quiet_open j.chrootdir
  unfold enterPivotRoot; quiet
theorem quiet_tmp (env : EnterEnv) (j : Jail) : Quiet (mountTmp env j) := by unfold mountTmp; quiet
theorem quiet_proc (j : Jail) : Quiet (remountProcReadonly j) := by unfold remountProcReadonly; quiet
theorem quiet_ugid (j : Jail) : Quiet (dropUgid j) := by unfold dropUgid; quiet
theorem quiet_bset (b : BitVec 64) (n : Nat) : Quiet (dropCapbset b n) := by unfold dropCapbset; quiet
theorem quiet_caps (j : Jail) (n : Nat) : Quiet (dropCaps j n) := by
  have h1 := quiet_bset j.caps n
  unfold dropCaps; dsimp only; quiet
theorem quiet_lock (env : EnterEnv) (s : BitVec 64) (b : Bool) : Quiet (lockSecurebits env s b) := by unfold lockSecurebits; dsimp only; quiet
theorem quiet_landlock (j : Jail) : Quiet (landlock j) := by unfold landlock; quiet
theorem quiet_filter (env : EnterEnv) (j : Jail) : Quiet (setSeccompFilter env j) := by unfold setSeccompFilter; quiet
theorem quiet_drop (env : EnterEnv) (j : Jail) (n : Nat) : Quiet (dropPrivileges env j n) := by
  have h1 := quiet_ugid j
  have h2 := quiet_caps j n
  have h3 := quiet_landlock j
  have h4 := quiet_filter env j
  unfold dropPrivileges; quiet
theorem quiet_strict (env : EnterEnv) : Quiet (enterStrict env) := by unfold enterStrict; quiet
theorem quiet_last (j : Jail) : Quiet (getLastCap j) := by unfold getLastCap; quiet

/-- The trace of a jail that was entered: namespaces, and before and after nothing about network devices. -/
theorem net_trace {env : EnterEnv} {j : Jail} {k : Kernel} {t : List Ev} (h : Entered env j k t) : ∃ X lo kr Z, t = X ++ (nsTrace j lo kr ++ Z) ∧
    (∀ e ∈ X, isNet e.1 = false) ∧ ∀ e ∈ Z, isNet e.1 = false := by
  have r : Runs (minijailEnter env j) k [] () t := h
  unfold minijailEnter at r
  obtain ⟨last, h1, r1, r⟩ := runs_bind.1 r
  obtain ⟨_, h2, r2, r⟩ := runs_bind.1 r
  obtain ⟨_, h3, r3, r⟩ := runs_bind.1 r
  obtain ⟨_, h4, r4, r⟩ := runs_bind.1 r
  obtain ⟨X, e1, hX⟩ := quiet_last j _ _ _ _ r1
  have e2 := (runs_dieIf.1 r2).2
  have e3 := (runs_dieIf.1 r3).2
  obtain ⟨lo, kr, -, e4⟩ := runs_ns j r4
  have q : Quiet (do
      processMounts env j
      whenM j.flags.chroot (enterChroot j)
      whenM j.flags.pivot_root (enterPivotRoot j)
      whenM j.flags.mount_tmp (mountTmp env j)
      whenM j.flags.remount_proc_ro (remountProcReadonly j)
      runHooks j PRE_DROP_CAPS
      whenM j.flags.capbset_drop (dropCapbset j.cap_bset last)
      whenM j.flags.use_caps (lockSecurebits env j.securebits_skip_mask (!j.flags.set_ambient_caps))
      dropPrivileges env j last
      whenM j.flags.alt_syscall (must (.altSyscall j.alt_syscall_table))
      whenM j.flags.seccomp (enterStrict env)) := by
    have h1 := quiet_mounts env j
    have h2 := quiet_chroot j
    have h3 := quiet_pivot j
    have h4 := quiet_tmp env j
    have h5 := quiet_proc j
    have h6 := quiet_hooks j PRE_DROP_CAPS
    have h7 := quiet_bset j.cap_bset last
    have h8 := quiet_lock env j.securebits_skip_mask (!j.flags.set_ambient_caps)
    have h9 := quiet_drop env j last
    have h10 := quiet_strict env
    quiet
  obtain ⟨Z, e5, hZ⟩ := q _ _ _ _ r
  refine ⟨X, lo, kr, Z, ?_, hX, hZ⟩
  rw [e5, e4, e3, e2, e1]
  simp

theorem net_off {c : Sys} (h : isNet c = false) (hc : isNet c = true) : False := by rw [h] at hc; exact nomatch hc

theorem netRun_append {t u : List Ev} : ∀ {s s' : NetState}, NetRun s (t ++ u) s' ↔ ∃ m, NetRun s t m ∧ NetRun m u s' := by
  induction t with
  | nil => intro s s'; simp [NetRun]
  | cons e t ih =>
    intro s s'
    simp only [List.cons_append, NetRun, ih]
    constructor
    · rintro ⟨m, h1, n, h2, h3⟩; exact ⟨n, ⟨m, h1, h2⟩, h3⟩
    · rintro ⟨n, ⟨m, h1, h2⟩, h3⟩; exact ⟨m, h1, n, h2, h3⟩

theorem netStep_quiet {e : Ev} (he : isNet e.1 = false) {s s' : NetState} (h : NetStep s e s') : s' = s := by
  obtain ⟨c, r⟩ := e
  cases c
  case unshare n => cases n <;> first | exact h | exact (net_off he rfl).elim
  case setns fd n => cases n <;> first | exact h | exact (net_off he rfl).elim
  case loopback => exact (net_off he rfl).elim
  all_goals exact h

theorem netRun_quiet {t : List Ev} : ∀ {s s' : NetState}, (∀ e ∈ t, isNet e.1 = false) → NetRun s t s' → s' = s := by
  induction t with
  | nil => intro s s' _ h; exact h
  | cons e t ih =>
    intro s s' ht h
    obtain ⟨m, h1, h2⟩ := h
    rw [ih (fun x hx => ht x (by simp [hx])) h2]
    exact netStep_quiet (ht e (by simp)) h1

/-- The requests of a jail that have to do with network devices. -/
def netEvents (j : Jail) (lo : Int) : List Ev :=
  if j.flags.enter_net then [(.setns j.netns_fd .net, 0)]
  else if j.flags.net then (.unshare .net, 0) :: (if j.flags.net_loopback then [(.loopback, lo)] else []) else []

theorem ns_net (j : Jail) (lo kr : Int) : ∃ X Z, nsTrace j lo kr = X ++ (netEvents j lo ++ Z) ∧ (∀ e ∈ X, isNet e.1 = false) ∧ ∀ e ∈ Z, isNet e.1 = false := by
  refine ⟨done ((if j.flags.enter_vfs then [.setns j.mountns_fd .mount] else []) ++
    ((if j.flags.vfs then [.unshare .mount] ++ (if decide (j.remount_mode ≠ 0#64) then
      [.mount none (bstr "/") none (MS_REC ||| j.remount_mode) none] ++
      j.remounts.flatMap fun t => [.mount none t.mount_name none (MS_REC ||| t.remount_mode) none] else []) else []) ++
    ((if j.flags.ipc then [.unshare .ipc] else []) ++
    (if j.flags.uts then [.unshare .uts] ++ (if j.hostname.isSome then [.sethostname (j.hostname.getD [])] else []) else [])))),
    done (if j.flags.ns_cgroups then [.unshare .cgroup] else []) ++ (if j.flags.new_session_keyring then [(.keyring, kr)] else []), ?_, ?_, ?_⟩
  · unfold nsTrace nsPlanA netEvents
    simp only [done_append, List.append_assoc]
    cases j.flags.enter_net <;> cases j.flags.net <;> cases j.flags.net_loopback <;> simp [done]
  · intro x hx
    have hc := (done_ok hx).2
    simp only [List.mem_append] at hc
    rcases hc with hc | hc | hc | hc
    · split_ifs at hc <;> simp at hc; rw [hc]; rfl
    · split_ifs at hc with h1 h2
      · simp only [List.mem_append, List.mem_singleton, List.mem_flatMap] at hc
        rcases hc with hc | hc | ⟨_, _, hc⟩ <;> rw [hc] <;> rfl
      · simp at hc; rw [hc]; rfl
      · simp at hc
    · split_ifs at hc <;> simp at hc; rw [hc]; rfl
    · split_ifs at hc <;> simp at hc
      · rcases hc with hc | hc <;> rw [hc] <;> rfl
      · rw [hc]; rfl
  · intro x hx
    rcases List.mem_append.1 hx with hx | hx
    · have hc := (done_ok hx).2
      split_ifs at hc <;> simp at hc; rw [hc]; rfl
    · split_ifs at hx <;> simp at hx; rw [hx]; rfl

/-- What a jail that was entered did to network devices. -/
theorem net_run {env : EnterEnv} {j : Jail} {k : Kernel} {t : List Ev} (h : Entered env j k t) {s s' : NetState} (hr : NetRun s t s') :
    ∃ lo, NetRun s (netEvents j lo) s' ∧ ((j.flags.enter_net = false ∧ j.flags.net = true ∧ j.flags.net_loopback = true) → (Sys.loopback, lo) ∈ t) ∧
      ∀ r, (Sys.loopback, r) ∈ t → (j.flags.enter_net = false ∧ j.flags.net = true ∧ j.flags.net_loopback = true) ∧ r = lo := by
  obtain ⟨X, lo, kr, Z, e, hX, hZ⟩ := net_trace h
  obtain ⟨X', Z', e', hX', hZ'⟩ := ns_net j lo kr
  rw [e'] at e
  subst e
  refine ⟨lo, ?_, ?_, ?_⟩
  · simp only [List.append_assoc] at hr
    obtain ⟨a, h1, hr⟩ := netRun_append.1 hr
    obtain ⟨b, h2, hr⟩ := netRun_append.1 hr
    obtain ⟨c, h3, hr⟩ := netRun_append.1 hr
    obtain ⟨d, h4, hr⟩ := netRun_append.1 hr
    rw [netRun_quiet hX h1] at h2
    rw [netRun_quiet hX' h2] at h3
    rw [netRun_quiet hZ hr, netRun_quiet hZ' h4]
    exact h3
  · rintro ⟨h1, h2, h3⟩
    simp [netEvents, h1, h2, h3]
  · intro r hm
    have hn : (Sys.loopback, r) ∈ netEvents j lo := by
      simp only [List.mem_append] at hm
      rcases hm with hm | (hm | hm | hm) | hm
      · exact (net_off (hX _ hm) rfl).elim
      · exact (net_off (hX' _ hm) rfl).elim
      · exact hm
      · exact (net_off (hZ' _ hm) rfl).elim
      · exact (net_off (hZ _ hm) rfl).elim
    unfold netEvents at hn
    cases h1 : j.flags.enter_net <;> cases h2 : j.flags.net <;> cases h3 : j.flags.net_loopback <;> simp [h1, h2, h3] at hn
    exact ⟨⟨rfl, rfl, rfl⟩, hn⟩

end Minijail.Loopback
