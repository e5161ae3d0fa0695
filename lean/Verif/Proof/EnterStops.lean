import Verif.Proof.EnterFacts
/-! A request that fails ends `minijail_enter` at once: every run, whatever its outcome. -/
set_option autoImplicit false
set_option linter.unusedSimpArgs false
namespace Minijail
open Spec

/-- Nothing failed that has to end the process. -/
def Good (env : EnterEnv) (s : List Ev) : Prop := ∀ e ∈ s, Failed e.1 e.2 → Tolerated env e.1 e.2 ∨ MountCheck e.1 e.2
/-- Only the temporary /dev is taken away. -/
def Cleanup (env : EnterEnv) (s : List Ev) : Prop := ∀ e ∈ s, e.1 = .umount env.devPath ∨ e.1 = .rmdir env.devPath
/-- At most one thing failed, and nothing follows. -/
def Ends (env : EnterEnv) (s : List Ev) : Prop := Good env s ∨ ∃ a e b, s = a ++ e :: b ∧ Good env a ∧ Cleanup env b

variable {env : EnterEnv} {α β : Type}

theorem good_nil : Good env [] := by intro e he; simp at he
theorem good_append {s t : List Ev} (hs : Good env s) (ht : Good env t) : Good env (s ++ t) := by
  intro e he
  rcases List.mem_append.1 he with h | h
  · exact hs e h
  · exact ht e h
theorem good_one {e : Ev} (h : Failed e.1 e.2 → Tolerated env e.1 e.2 ∨ MountCheck e.1 e.2) : Good env [e] := by
  intro x hx; simp at hx; subst hx; exact h
theorem cleanup_good {s : List Ev} (h : Cleanup env s) : Good env s := by
  intro e he _
  rcases h e he with h | h
  · exact Or.inl (Or.inr (Or.inr (Or.inr (Or.inr (Or.inr (Or.inl h))))))
  · exact Or.inl (Or.inr (Or.inr (Or.inr (Or.inr (Or.inr (Or.inr h))))))
theorem ends_good {s t : List Ev} (hs : Good env s) (ht : Ends env t) : Ends env (s ++ t) := by
  rcases ht with ht | ⟨a, e, b, rfl, ha, hb⟩
  · exact Or.inl (good_append hs ht)
  · exact Or.inr ⟨s ++ a, e, b, by simp, good_append hs ha, hb⟩
theorem ends_cleanup {s t : List Ev} (hs : Ends env s) (ht : Cleanup env t) : Ends env (s ++ t) := by
  rcases hs with hs | ⟨a, e, b, rfl, ha, hb⟩
  · exact Or.inl (good_append hs (cleanup_good ht))
  · refine Or.inr ⟨a, e, b ++ t, by simp, ha, fun x hx => ?_⟩
    rcases List.mem_append.1 hx with h | h
    · exact hb x h
    · exact ht x h
theorem ends_one (e : Ev) : Ends env [e] := Or.inr ⟨[], e, [], rfl, good_nil, by intro x hx; simp at hx⟩

/-- What a run adds to the trace: good if it goes on with a value for which `P` holds, else an end. -/
def SafeP (env : EnterEnv) (P : α → Prop) (p : EnterM α) : Prop := ∀ k h, ∃ s, (p k h).2 = h ++ s ∧ Ends env s ∧ ∀ a, (p k h).1 = .ok a → P a → Good env s

/-- Good whenever it goes on. -/
def Safe (env : EnterEnv) (p : EnterM α) : Prop := SafeP env (fun _ => True) p

theorem bind_apply (p : EnterM α) (f : α → EnterM β) (k : Kernel) (h : List Ev) : (p >>= f) k h = match p k h with
    | (.ok a, h') => f a k h' | (.die, h') => (.die, h') | (.exit c, h') => (.exit c, h') := rfl

theorem dieIf_true {p : Prop} [Decidable p] (hp : p) (k : Kernel) (h : List Ev) : dieIf p k h = (.die, h) := by
  unfold dieIf
  rw [if_pos hp]; rfl

theorem failed_mountFlags {p : BStr} {r : Int} (h : Failed (.mountFlags p) r) : r < 0 := h
theorem failed_validBind {p : BStr} {r : Int} (h : Failed (.validBind p) r) : r = 0 := h

theorem safe_pure (a : α) : Safe env (pure a : EnterM α) := fun _ h => ⟨[], by simp [pure], Or.inl good_nil, fun _ _ _ => good_nil⟩
theorem safeP_pure (P : α → Prop) (a : α) : SafeP env P (pure a : EnterM α) := fun _ h => ⟨[], by simp [pure], Or.inl good_nil, fun _ _ _ => good_nil⟩
theorem safe_die : Safe env (dieNow : EnterM α) := fun _ h => ⟨[], by simp [dieNow], Or.inl good_nil, fun _ _ _ => good_nil⟩
theorem safe_exit (c : Nat) : Safe env (exitNow c : EnterM α) := fun _ h => ⟨[], by simp [exitNow], Or.inl good_nil, fun _ _ _ => good_nil⟩

/-- After a value for which `P` does not hold only cleaning up may follow. -/
theorem safeP_bind {P : α → Prop} {Q : β → Prop} {p : EnterM α} {f : α → EnterM β} (hp : SafeP env P p) (hf : ∀ a, P a → SafeP env Q (f a))
    (hc : ∀ a, ¬ P a → ∀ k h, ∃ s, (f a k h).2 = h ++ s ∧ Cleanup env s ∧ ∀ b, (f a k h).1 = .ok b → ¬ Q b) : SafeP env Q (p >>= f) := by
  intro k h
  obtain ⟨s, e, hs, hg⟩ := hp k h
  have hb : (p >>= f) k h = match p k h with
    | (.ok a, h') => f a k h' | (.die, h') => (.die, h') | (.exit c, h') => (.exit c, h') := rfl
  rw [hb]
  generalize p k h = x at e hg
  obtain ⟨o, h'⟩ := x
  simp only at e
  subst e
  cases o with
  | die => exact ⟨s, rfl, hs, by simp⟩
  | exit c => exact ⟨s, rfl, hs, by simp⟩
  | ok a =>
    dsimp only
    by_cases ha : P a
    · have hgs := hg a rfl ha
      obtain ⟨s', e', hs', hg'⟩ := hf a ha k (h ++ s)
      exact ⟨s ++ s', by rw [e']; simp, ends_good hgs hs', fun b hb hq => good_append hgs (hg' b hb hq)⟩
    · obtain ⟨s', e', hs', hn⟩ := hc a ha k (h ++ s)
      exact ⟨s ++ s', by rw [e']; simp, ends_cleanup hs hs', fun b hb hq => absurd hq (hn b hb)⟩

theorem safe_bind {Q : β → Prop} {p : EnterM α} {f : α → EnterM β} (hp : Safe env p) (hf : ∀ a, SafeP env Q (f a)) : SafeP env Q (p >>= f) :=
  safeP_bind hp (fun a _ => hf a) (fun a h => absurd trivial h)

theorem safe_ifM {P : α → Prop} {p : Prop} [Decidable p] {a b : EnterM α} (ha : p → SafeP env P a) (hb : ¬ p → SafeP env P b) : SafeP env P (ifM p a b) := by
  unfold ifM
  split
  · exact ha ‹_›
  · exact hb ‹_›

theorem safe_dieIf {p : Prop} [Decidable p] : Safe env (dieIf p) := by
  unfold dieIf
  split
  · exact safe_die
  · exact safe_pure ()

theorem safe_when {b : Bool} {p : EnterM Unit} (hp : b = true → Safe env p) : Safe env (whenM b p) := by
  unfold whenM
  split
  · exact hp ‹_›
  · exact safe_pure ()

theorem safe_for {f : α → EnterM Unit} (l : List α) (hf : ∀ a ∈ l, Safe env (f a)) : Safe env (forM' f l) := by
  induction l with
  | nil => exact safe_pure ()
  | cons x l ih =>
    unfold forM'
    exact safe_bind (hf x (by simp)) (fun _ => ih (fun a ha => hf a (by simp [ha])))

theorem safeP_sys {c : Sys} {P : Int → Prop} (h : ∀ r, P r → Failed c r → Tolerated env c r ∨ MountCheck c r) : SafeP env P (sys c) :=
  fun k hh => ⟨[(c, k hh c)], rfl, ends_one _, fun a ha hP => by
    have : a = k hh c := by
      have : Out.ok (k hh c) = Out.ok a := ha
      injection this with h; exact h.symm
    subst this; exact good_one (h _ hP)⟩

theorem silent_die {p : Prop} [Decidable p] (hp : p) (k : Kernel) (h : List Ev) : ∃ s, (dieIf p k h).2 = h ++ s ∧ Cleanup env s ∧
    ∀ b, (dieIf p k h).1 = .ok b → ¬ True := by
  unfold dieIf
  rw [if_pos hp]
  exact ⟨[], by simp [dieNow], by intro e he; simp at he, by intro b hb; exact absurd hb (by simp [dieNow])⟩

theorem safe_must {c : Sys} (hc : isCheck c = false) : Safe env (must c) := by
  unfold must
  refine safeP_bind (P := fun r => r = 0) (safeP_sys fun r hr hf => ?_) (fun _ _ => safe_dieIf) (fun a ha k h => silent_die ha k h)
  rw [hr] at hf; exact absurd hf (failed_zero hc)

theorem safe_ask {c : Sys} (hc : isCheck c = false) (hv : hasValue c = true) {f : Int → EnterM α} (q : Int → Prop) [DecidablePred q]
    (hq : ∀ r : Int, r < 0 → q r) (hf : ∀ r : Int, 0 ≤ r → Safe env (f r)) : Safe env (do let r ← sys c; dieIf (q r); f r) := by
  refine safeP_bind (P := fun r => 0 ≤ r) (safeP_sys fun r hr hf => absurd hf (failed_val hc hv hr)) (fun r hr => ?_) (fun r hr k h => ?_)
  · exact safe_bind safe_dieIf (fun _ => hf r hr)
  · have hd : q r := hq r (by omega)
    have : (do dieIf (q r); f r) k h = (Out.die, h) := by
      rw [bind_apply, dieIf_true hd]
    refine ⟨[], by rw [this]; simp, by intro e he; simp at he, fun b hb => ?_⟩
    rw [this] at hb; exact absurd hb (by simp)

theorem safe_ask' {c : Sys} (hc : isCheck c = false) (hv : hasValue c = true) : Safe env (do let r ← sys c; dieIf (r < 0)) := by
  refine safeP_bind (P := fun r => 0 ≤ r) (safeP_sys fun r hr hf => absurd hf (failed_val hc hv hr)) (fun r hr => safe_dieIf) (fun r hr k h => ?_)
  exact silent_die (by omega) k h

theorem safe_free {c : Sys} (h : ∀ r, Tolerated env c r) : Safe env (sys c) := safeP_sys fun r _ _ => Or.inl (h r)

theorem safe_firstFailing : ∀ (cs : List Sys), (∀ c ∈ cs, isCheck c = false) → SafeP env (fun r => r = 0) (firstFailing cs)
  | [], _ => safeP_pure _ 0
  | c :: cs, h => by
    unfold firstFailing
    refine safeP_bind (P := fun r => r = 0) (safeP_sys fun r hr hf => ?_) (fun r hr => ?_) (fun r hr k hh => ?_)
    · rw [hr] at hf; exact absurd hf (failed_zero (h c (by simp)))
    · exact safe_ifM (fun hn => absurd hr hn) (fun _ => safe_firstFailing cs (fun c hc => h c (by simp [hc])))
    · unfold ifM
      rw [if_pos hr]
      refine ⟨[], by simp [pure], by intro e he; simp at he, fun b hb hz => ?_⟩
      have : Out.ok r = Out.ok b := hb
      injection this with h; exact hr (h.trans hz)

theorem cleanup_run (k : Kernel) (h : List Ev) : ∃ s, (mountDevCleanup env k h).2 = h ++ s ∧ Cleanup env s ∧ (mountDevCleanup env k h).1 = .ok () := by
  refine ⟨[(.umount env.devPath, k h (.umount env.devPath)), (.rmdir env.devPath, k (h ++ [(.umount env.devPath, k h (.umount env.devPath))]) (.rmdir env.devPath))], ?_, ?_, rfl⟩
  · exact (List.append_assoc h [_] [_])
  · intro e he
    simp only [List.mem_cons, List.not_mem_nil, or_false] at he
    rcases he with rfl | rfl
    · exact Or.inl rfl
    · exact Or.inr rfl

theorem safe_cleanup : Safe env (mountDevCleanup env) := by
  unfold mountDevCleanup
  exact safe_bind (safe_free fun r => Or.inr (Or.inr (Or.inr (Or.inr (Or.inr (Or.inl rfl))))))
    (fun _ => safe_bind (safe_free fun r => Or.inr (Or.inr (Or.inr (Or.inr (Or.inr (Or.inr rfl)))))) (fun _ => safe_pure ()))

/-- A step that hands on a value different from 0 after cleaning up. -/
theorem hand_on (r : Int) (hr : r ≠ 0) (k : Kernel) (h : List Ev) :
    ∃ s, ((do mountDevCleanup env; pure r : EnterM Int) k h).2 = h ++ s ∧ Cleanup env s ∧
      ∀ b, ((do mountDevCleanup env; pure r : EnterM Int) k h).1 = .ok b → ¬ b = 0 := by
  obtain ⟨s, e, hs, ho⟩ := cleanup_run (env := env) k h
  have : (do mountDevCleanup env; pure r : EnterM Int) k h = match mountDevCleanup env k h with
    | (.ok a, h') => (.ok r, h') | (.die, h') => (.die, h') | (.exit c, h') => (.exit c, h') := rfl
  rw [this]
  generalize mountDevCleanup env k h = x at e ho
  obtain ⟨o, h'⟩ := x
  simp only at e ho
  subst ho e
  refine ⟨s, rfl, hs, fun b hb hz => ?_⟩
  have : Out.ok r = Out.ok b := hb
  injection this with h; exact hr (h.trans hz)

theorem safe_mountDev : SafeP env (fun r => r = 0) (mountDev env) := by
  unfold mountDev
  refine safe_bind (safe_must rfl) (fun _ => ?_)
  refine safeP_bind (P := fun r => r = 0) (safeP_sys fun r hr hf => ?_) (fun r hr => ?_) (fun r hr k h => ?_)
  · rw [hr] at hf; exact absurd hf (failed_zero rfl)
  · refine safe_ifM (fun hn => absurd hr hn) (fun _ => ?_)
    refine safeP_bind (P := fun r => 0 ≤ r) (safeP_sys fun r hr hf => absurd hf (failed_val rfl rfl hr)) (fun fd hfd => ?_) (fun fd hfd k h => ?_)
    · refine safeP_bind (P := fun r => r = 0) (safe_ifM (fun hn => absurd hfd (by omega)) (fun _ => safe_firstFailing _ dev_check)) (fun r hr => ?_)
        (fun r hr k h => ?_)
      · exact safe_ifM (fun hn => absurd hr hn) (fun _ => safeP_pure _ 0)
      · unfold ifM; rw [if_pos hr]; exact hand_on r hr k h
    · have hd : fd < 0 := by omega
      unfold ifM
      rw [if_pos hd]
      exact hand_on 1 (by decide) k h
  · unfold ifM
    rw [if_pos hr]
    refine ⟨[(.rmdir env.devPath, k h (.rmdir env.devPath))], rfl, ?_, fun b hb hz => ?_⟩
    · intro e he; simp at he; exact Or.inr (by rw [he])
    · have : Out.ok r = Out.ok b := hb
      injection this with h; exact hr (h.trans hz)

theorem safe_finalize (j : Jail) : SafeP env (fun r => r = 0) (mountDevFinalize env j) := by
  unfold mountDevFinalize
  refine safeP_bind (P := fun r => r = 0) (safe_firstFailing _ (by simp [isCheck])) (fun r hr => ?_) (fun r hr k h => ?_)
  · exact safe_bind safe_cleanup (fun _ => safeP_pure _ _)
  · rw [if_pos hr]; exact hand_on (-1) (by decide) k h

theorem silent_pure {P : α → Prop} {a : α} (h : ¬ P a) (k : Kernel) (hh : List Ev) :
    ∃ s, ((pure a : EnterM α) k hh).2 = hh ++ s ∧ Cleanup env s ∧ ∀ b, ((pure a : EnterM α) k hh).1 = .ok b → ¬ P b :=
  ⟨[], by simp [pure], by intro e he; simp at he, fun b hb => by
    have : Out.ok a = Out.ok b := hb
    injection this with e; rw [← e]; exact h⟩

theorem safe_mountStep (j : Jail) (dev : Option BStr) (m : Mountpoint) : SafeP env (fun r => r.1 = 0) (mountStep j dev m) := by
  have zero : ∀ c r, isCheck c = false → r = 0 → Failed c r → Tolerated env c r ∨ MountCheck c r := fun c r hc hr hf => by
    rw [hr] at hf; exact absurd hf (failed_zero hc)
  unfold mountStep
  dsimp only
  refine safeP_bind (P := fun r => r = 0) (safeP_sys fun r hr => zero _ r rfl hr) (fun r hr => ?_) (fun r hr k h => ?_)
  rotate_left
  · unfold ifM; rw [if_pos hr]; exact silent_pure (P := fun r : Int × Bool => r.1 = 0) (a := (r, false)) hr k h
  refine safe_ifM (fun hn => absurd hr hn) (fun _ => ?_)
  refine safe_bind (safe_ifM (fun _ => safeP_sys fun r _ hf => ?_) (fun _ => safe_pure 0)) (fun o => ?_)
  · exact Or.inr (Or.inl ⟨⟨_, rfl⟩, failed_mountFlags hf⟩)
  refine safe_ifM (fun _ => safeP_pure _ _) (fun _ => ?_)
  refine safe_bind (safe_ifM (fun _ => safeP_sys fun r _ hf => ?_) (fun _ => safe_pure 1)) (fun v => ?_)
  · exact Or.inr (Or.inr ⟨⟨_, rfl⟩, failed_validBind hf⟩)
  refine safe_ifM (fun _ => safeP_pure _ _) (fun _ => ?_)
  refine safeP_bind (P := fun r => r = 0) (safeP_sys fun r hr => zero _ r rfl hr) (fun r hr => ?_) (fun r hr k h => ?_)
  rotate_left
  · unfold ifM; rw [if_pos hr]; exact silent_pure (P := fun r : Int × Bool => r.1 = 0) (a := (r, false)) hr k h
  refine safe_ifM (fun hn => absurd hr hn) (fun _ => ?_)
  refine safeP_bind (P := fun r => r = 0) (safe_ifM (fun _ => safeP_sys fun r hr => zero _ r rfl hr) (fun _ => safeP_pure _ 0)) (fun r hr => ?_)
    (fun r hr k h => ?_)
  rotate_left
  · unfold ifM; rw [if_pos hr]; exact silent_pure (P := fun r : Int × Bool => r.1 = 0) (a := (r, false)) hr k h
  exact safe_ifM (fun hn => absurd hr hn) (fun _ => safeP_pure _ _)

theorem mountStep_next {j : Jail} {dev : Option BStr} {m : Mountpoint} {k : Kernel} {h h' : List Ev} {x : Int}
    (r1 : Runs (mountStep j dev m) k h (x, true) h') : x = 0 := by
  unfold mountStep at r1
  dsimp only at r1
  obtain ⟨_, _, _, q⟩ := runs_bind.1 r1
  rcases runs_ifM.1 q with ⟨_, q⟩ | ⟨_, q⟩
  · simpa using (runs_pure.1 q).1
  obtain ⟨_, _, _, q⟩ := runs_bind.1 q
  rcases runs_ifM.1 q with ⟨_, q⟩ | ⟨_, q⟩
  · simpa using (runs_pure.1 q).1
  obtain ⟨_, _, _, q⟩ := runs_bind.1 q
  rcases runs_ifM.1 q with ⟨_, q⟩ | ⟨_, q⟩
  · simpa using (runs_pure.1 q).1
  obtain ⟨_, _, _, q⟩ := runs_bind.1 q
  rcases runs_ifM.1 q with ⟨_, q⟩ | ⟨_, q⟩
  · simpa using (runs_pure.1 q).1
  obtain ⟨_, _, _, q⟩ := runs_bind.1 q
  rcases runs_ifM.1 q with ⟨_, q⟩ | ⟨_, q⟩
  · simpa using (runs_pure.1 q).1
  · simpa using (runs_pure.1 q).1

/-- The step goes on only with 0. -/
theorem safe_mountStep' (j : Jail) (dev : Option BStr) (m : Mountpoint) :
    SafeP env (fun r => r.2 = true ∨ r.1 = 0) (mountStep j dev m) := by
  intro k h
  obtain ⟨s, e, hs, hg⟩ := safe_mountStep (env := env) j dev m k h
  refine ⟨s, e, hs, fun a ha hp => hg a ha ?_⟩
  rcases hp with hp | hp
  · obtain ⟨x, b⟩ := a
    simp only at hp
    subst hp
    exact mountStep_next (j := j) (dev := dev) (m := m) (k := k) (h := h) (h' := (mountStep j dev m k h).2) (by
      show mountStep j dev m k h = _
      rw [← ha])
  · exact hp

theorem safe_mountOne (j : Jail) (dev : Option BStr) : ∀ ms, SafeP env (fun r => r = 0) (mountOne j dev ms)
  | [] => safeP_pure _ 0
  | m :: ms => by
    unfold mountOne
    refine safeP_bind (safe_mountStep' j dev m) (fun r hr => ?_) (fun r hr k h => ?_)
    · exact safe_ifM (fun _ => safe_mountOne j dev ms) (fun _ => safeP_pure _ _)
    · have h2 : ¬ r.2 = true := fun h => hr (Or.inl h)
      have h1 : ¬ r.1 = 0 := fun h => hr (Or.inr h)
      unfold ifM; rw [if_neg h2]; exact silent_pure (P := fun r : Int => r = 0) h1 k h

theorem safe_die_after {p : EnterM Int} (hp : SafeP env (fun r => r = 0) p) : Safe env (do let r ← p; dieIf (r ≠ 0)) :=
  safeP_bind hp (fun _ _ => safe_dieIf) (fun _ ha k h => silent_die ha k h)

theorem safe_process (j : Jail) : Safe env (processMounts env j) := by
  unfold processMounts
  refine safe_bind (safe_when fun _ => safe_die_after safe_mountDev) (fun _ => ?_)
  refine safeP_bind (P := fun r => r = 0) (safe_mountOne j _ _) (fun r hr => ?_) (fun r hr k h => ?_)
  · refine safe_bind (safe_when fun hn => ?_) (fun _ => safe_when fun _ => safe_die_after (safe_finalize j))
    exact absurd hr (by simpa using hn)
  · have hn : decide (r ≠ 0) = true := by simpa using hr
    have key : ∀ k h, ∃ s, ((do whenM j.flags.mount_dev (mountDevCleanup env); exitNow ERR_MOUNT : EnterM Unit) k h) = (.exit ERR_MOUNT, h ++ s) ∧
        Cleanup env s := by
      intro k h
      cases j.flags.mount_dev
      · exact ⟨[], by simp [whenM, exitNow, pure, bind], by intro e he; simp at he⟩
      · obtain ⟨s, e, hs, ho⟩ := cleanup_run (env := env) k h
        refine ⟨s, ?_, hs⟩
        have : (do whenM true (mountDevCleanup env); exitNow ERR_MOUNT : EnterM Unit) k h = match mountDevCleanup env k h with
          | (.ok a, h') => (.exit ERR_MOUNT, h') | (.die, h') => (.die, h') | (.exit c, h') => (.exit c, h') := rfl
        rw [this]
        generalize mountDevCleanup env k h = x at e ho
        obtain ⟨o, h'⟩ := x
        simp only at e ho
        subst ho e; rfl
    obtain ⟨s, e, hs⟩ := key k h
    have run : ∀ f : EnterM Unit, (do whenM (decide (r ≠ 0)) (do whenM j.flags.mount_dev (mountDevCleanup env); exitNow ERR_MOUNT); f) k h =
        (.exit ERR_MOUNT, h ++ s) := by
      intro f
      rw [hn]
      rw [bind_apply]
      unfold whenM at e ⊢
      rw [if_pos rfl, e]
    refine ⟨s, by rw [run], hs, fun b hb => ?_⟩
    rw [run] at hb; exact absurd hb (by simp)

theorem safe_hooks (j : Jail) (ev : Nat) : Safe env (runHooks j ev) := safe_for _ (fun _ _ => safe_must rfl)

theorem safe_namespaces (j : Jail) : Safe env (enterNamespaces j) := by
  unfold enterNamespaces
  refine safe_bind (safe_when fun _ => safe_must rfl) (fun _ => ?_)
  refine safe_bind (safe_when fun _ => safe_bind (safe_must rfl) (fun _ => safe_when fun _ => safe_bind (safe_must rfl) (fun _ =>
    safe_for _ (fun _ _ => safe_bind safe_dieIf (fun _ => safe_must rfl))))) (fun _ => ?_)
  refine safe_bind (safe_when fun _ => safe_must rfl) (fun _ => ?_)
  refine safe_bind (safe_when fun _ => safe_bind (safe_must rfl) (fun _ => safe_when fun _ => safe_must rfl)) (fun _ => ?_)
  refine safe_bind (safe_ifM (fun _ => safe_must rfl) (fun _ => safe_when fun _ => safe_bind (safe_must rfl) (fun _ => safe_when fun _ =>
    safe_bind (safe_free fun r => Or.inl rfl) (fun _ => safe_pure ())))) (fun _ => ?_)
  refine safe_bind (safe_when fun _ => safe_must rfl) (fun _ => safe_when fun _ => safe_ask' rfl rfl)

theorem safe_chroot (j : Jail) : Safe env (enterChroot j) :=
  safe_bind (safe_hooks j _) (fun _ => safe_bind (safe_must rfl) (fun _ => safe_must rfl))

theorem safe_open (p : Option BStr) : Safe env (mustOpen p) := safe_ask' rfl rfl

theorem safe_pivot (j : Jail) : Safe env (enterPivotRoot j) := by
  unfold enterPivotRoot
  repeat' first
    | exact safe_must rfl
    | refine safe_bind (safe_hooks j _) (fun _ => ?_)
    | refine safe_bind (safe_open _) (fun _ => ?_)
    | refine safe_bind (safe_must rfl) (fun _ => ?_)

theorem safe_bound (keep : BitVec 64) (last : Nat) : Safe env (dropCapbset keep last) := safe_for _ (fun _ _ => safe_must rfl)

theorem safe_ids (j : Jail) : Safe env (dropUgid j) := by
  unfold dropUgid
  refine safe_bind safe_dieIf (fun _ => safe_bind (safe_ifM (fun _ => safe_must rfl) (fun _ => safe_ifM (fun _ => safe_must rfl) (fun _ =>
    safe_when fun _ => safe_must rfl))) (fun _ => safe_bind (safe_when fun _ => safe_must rfl) (fun _ => safe_when fun _ => safe_must rfl)))

theorem safe_caps (j : Jail) (last : Nat) : Safe env (dropCaps j last) := by
  unfold dropCaps
  refine safe_when fun _ => safe_bind (safe_must rfl) (fun _ => safe_bind (safe_must rfl) (fun _ => safe_bind (safe_when fun _ => safe_bound _ _)
    (fun _ => safe_bind (safe_must rfl) (fun _ => safe_when fun _ => ?_))))
  exact safe_ask rfl rfl (· < 0) (fun _ h => h) (fun _ _ => safe_bind (safe_must rfl) (fun _ => safe_for _ (fun _ _ => safe_must rfl)))

theorem safe_lock (skip : BitVec 64) (req : Bool) : Safe env (lockSecurebits env skip req) := by
  unfold lockSecurebits
  dsimp only
  refine safe_bind (safe_ifM (fun _ => safe_pure _) (fun _ => safe_ask rfl rfl (· < 0) (fun _ h => h) (fun _ _ => safe_pure _))) (fun bits => ?_)
  generalize bits &&& ~~~0xc0#64 &&& ~~~skip = b
  refine safe_ifM (fun _ => safe_pure ()) (fun _ => ?_)
  refine safeP_bind (P := fun r => 0 ≤ r ∨ r = -1) (safeP_sys fun r hr hf => ?_) (fun r hr => ?_) (fun r hr k h => ?_)
  · rcases hr with hr | hr
    · exact absurd hf (failed_val rfl rfl hr)
    · exact Or.inl (Or.inr (Or.inr (Or.inr (Or.inr (Or.inl ⟨⟨_, rfl⟩, hr⟩)))))
  · refine safeP_bind (P := fun r => 0 ≤ r ∨ r = -1) (safe_ifM (fun _ => safeP_sys fun r hr hf => ?_) (fun _ => safeP_pure _ _)) (fun _ _ => safe_dieIf)
      (fun r hr k h => silent_die (by omega) k h)
    rcases hr with hr | hr
    · exact absurd hf (failed_val rfl rfl hr)
    · exact Or.inl (Or.inr (Or.inr (Or.inr (Or.inr (Or.inl ⟨⟨_, rfl⟩, hr⟩)))))
  · have hn : ¬ (r < 0 ∧ r = -1 ∧ b &&& 0xf00#64 ≠ 0#64) := fun h => hr (Or.inr h.2.1)
    have run : ∀ f : Int → EnterM Int, (do let r ← ifM (r < 0 ∧ r = -1 ∧ b &&& 0xf00#64 ≠ 0#64) (f r) (pure r); dieIf (r < 0)) k h = (Out.die, h) := by
      intro f
      unfold ifM
      rw [if_neg hn]
      show dieIf (r < 0) k h = _
      unfold dieIf
      rw [if_pos (by omega)]; rfl
    refine ⟨[], by rw [run (fun _ => sys _)]; simp, by intro e he; simp at he, fun x hx => ?_⟩
    rw [run (fun _ => sys _)] at hx; exact absurd hx (by simp)

theorem safe_landlock (j : Jail) : Safe env (landlock j) := by
  unfold landlock
  refine safe_ifM (fun _ => safe_pure ()) (fun _ => safe_bind (safe_free fun r => Or.inr (Or.inr (Or.inl rfl))) (fun _ => safe_bind
    (safe_when fun _ => safe_for _ (fun _ _ => safe_bind (safe_free fun r => Or.inr (Or.inl ⟨_, _, rfl⟩)) (fun _ => safe_pure ()))) (fun _ =>
      safe_when fun _ => safe_must rfl)))

theorem safe_filter (j : Jail) : Safe env (setSeccompFilter env j) :=
  safe_when fun _ => safe_bind (safe_ifM (fun _ => safe_when fun _ => safe_must rfl) (fun _ => safe_when fun _ => safe_must rfl)) (fun _ => safe_must rfl)

theorem safe_privileges (j : Jail) (last : Nat) : Safe env (dropPrivileges env j last) := by
  unfold dropPrivileges
  refine safe_ifM (fun _ => ?_) (fun _ => ?_)
  · exact safe_bind (safe_ids j) (fun _ => safe_bind (safe_caps j last) (fun _ => safe_bind (safe_must rfl) (fun _ => safe_bind (safe_landlock j)
      (fun _ => safe_filter j))))
  · exact safe_bind (safe_landlock j) (fun _ => safe_bind (safe_filter j) (fun _ => safe_bind (safe_ids j) (fun _ => safe_caps j last)))

theorem safe_strict : Safe env (enterStrict env) := by
  unfold enterStrict
  refine safeP_bind (P := fun r => r = 0 ∨ (r = -22 ∧ env.softfail = true)) (safeP_sys fun r hr hf => ?_) (fun _ _ => safe_dieIf) (fun r hr k h => ?_)
  · rcases hr with rfl | hr
    · exact absurd hf (failed_zero rfl)
    · exact Or.inl (Or.inr (Or.inr (Or.inr (Or.inl ⟨rfl, hr⟩))))
  · exact silent_die ⟨fun h => hr (Or.inl h), fun h => hr (Or.inr h)⟩ k h

theorem safe_enter (j : Jail) : Safe env (minijailEnter env j) := by
  unfold minijailEnter
  refine safe_bind (safe_ifM (fun _ => safe_ask rfl rfl (fun r => r < 0 ∨ r > 64) (fun _ h => Or.inl h) (fun _ _ => safe_pure _)) (fun _ => safe_pure 0)) (fun last => ?_)
  refine safe_bind safe_dieIf (fun _ => safe_bind safe_dieIf (fun _ => safe_bind (safe_namespaces j) (fun _ => safe_bind (safe_process j) (fun _ => ?_))))
  refine safe_bind (safe_when fun _ => safe_chroot j) (fun _ => safe_bind (safe_when fun _ => safe_pivot j) (fun _ => ?_))
  refine safe_bind (safe_when fun _ => safe_must rfl) (fun _ => ?_)
  refine safe_bind (safe_when fun _ => safe_bind (safe_when fun _ => safe_must rfl) (fun _ => safe_must rfl)) (fun _ => ?_)
  refine safe_bind (safe_hooks j _) (fun _ => safe_bind (safe_when fun _ => safe_bound _ _) (fun _ => safe_bind (safe_when fun _ => safe_lock _ _) (fun _ => ?_)))
  refine safe_bind (safe_privileges j last) (fun _ => safe_bind (safe_when fun _ => safe_must rfl) (fun _ => safe_when fun _ => safe_strict))

end Minijail
