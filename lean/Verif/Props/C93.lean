import Verif.Proof.Threads
import Verif.Props.C61
/-! C93: the Rust crate forks a caller that has one thread, and no other. -/
set_option autoImplicit false
set_option linter.unusedSimpArgs false
namespace Minijail
open Threads

/-- The threads that count: all that are not said to be kernel threads. -/
def counted (ts : List Threads.Thread) : Nat := (ts.filter fun t => t.kthread != some true).length

/-- What the files of the threads are: those that vanish cannot be read. -/
def statusFiles (ts : List (Option Threads.Thread)) : List (Option BStr) := ts.map (Option.map Thread.text)

theorem kthread_line {t : Threads.Thread} (ht : t.Proper) : holds (bstr "\nKthread:\t1\n") t.text = true ↔ t.kthread = some true := by
  have e : bstr "\nKthread:\t1\n" = 10#8 :: (bstr "Kthread:\t1" ++ [10#8]) := by decide +kernel
  have hname : 10#8 ∉ bstr "Name:\t" := by decide +kernel
  have h1 : 10#8 ∉ bstr "Kthread:\t" ++ bstr "1" := by decide +kernel
  have h0 : 10#8 ∉ bstr "Kthread:\t" ++ bstr "0" := by decide +kernel
  have ej : bstr "Kthread:\t" ++ bstr "1" = bstr "Kthread:\t1" := by decide +kernel
  have ne : bstr "Kthread:\t" ++ bstr "0" ≠ bstr "Kthread:\t1" := by decide +kernel
  have pre : bstr "Kthread:" <+: bstr "Kthread:\t1" := by decide +kernel
  have hall : ∀ x ∈ t.lines, 10#8 ∉ x := by
    intro x hx
    unfold Thread.lines at hx
    simp only [List.mem_cons, List.mem_append] at hx
    rcases hx with rfl | hx | hx | hx
    · intro q
      rcases List.mem_append.1 q with q | q
      · exact hname q
      · exact escaped_line _ q
    · exact (ht x (List.mem_append_left _ hx)).1
    · cases hk : t.kthread with
      | none => rw [Thread.kthreadLine, hk] at hx; simp at hx
      | some k =>
        rw [Thread.kthreadLine, hk] at hx
        cases k
        · simp only [List.mem_singleton] at hx; rw [hx]; exact h0
        · simp only [List.mem_singleton] at hx; rw [hx]; exact h1
    · exact (ht x (List.mem_append_right _ hx)).1
  rw [e]
  have hx := holds_text (p := bstr "Kthread:\t1") (by rw [← ej]; exact h1) (bstr "Name:\t" ++ escaped t.name) (t.before ++ (t.kthreadLine ++ t.after)) hall
  refine Iff.trans hx ?_
  simp only [List.mem_append]
  constructor
  · rintro (q | q | q)
    · exact absurd pre (ht _ (List.mem_append_left _ q)).2
    · cases hk : t.kthread with
      | none => rw [Thread.kthreadLine, hk] at q; simp at q
      | some k =>
        rw [Thread.kthreadLine, hk] at q
        cases k
        · simp only [List.mem_singleton] at q; exact absurd q.symm ne
        · rfl
    · exact absurd pre (ht _ (List.mem_append_right _ q)).2
  · intro hk
    rw [Thread.kthreadLine, hk]
    right; left
    simp only [List.mem_singleton]
    exact ej.symm

/-- A thread is taken for a kernel thread if and only if the kernel says that it is one, whatever name the thread has given itself. -/
theorem C93_kthread {t : Threads.Thread} (ht : t.Proper) {b : Bool} (h : taskIsKthread (some t.text) = some b) : b = true ↔ t.kthread = some true := by
  unfold taskIsKthread at h
  simp only at h
  split at h
  · cases h; exact kthread_line ht
  · cases h

theorem count_none : ∀ (ts : List (Option Threads.Thread)), none ∉ (statusFiles ts).map taskIsKthread → (∀ t, some t ∈ ts → t.Proper) →
    ∃ us : List Threads.Thread, ts = us.map some ∧ ((statusFiles ts).map taskIsKthread).count (some false) = counted us
  | [], _, _ => ⟨[], rfl, rfl⟩
  | o :: ts, h, hp => by
    have hs : statusFiles (o :: ts) = o.map Thread.text :: statusFiles ts := rfl
    rw [hs, List.map_cons] at h
    obtain ⟨us, e, hc⟩ := count_none ts (fun q => h (List.mem_cons_of_mem _ q)) fun t q => hp t (List.mem_cons_of_mem _ q)
    cases o with
    | none => exact absurd (List.mem_cons_self) h
    | some t =>
      refine ⟨t :: us, by rw [e]; rfl, ?_⟩
      rw [hs, List.map_cons, List.count_cons, hc]
      cases hk : taskIsKthread (some t.text) with
      | none => exact absurd (by simp [hk]) h
      | some b =>
        have hb := C93_kthread (hp t (by simp)) hk
        have e2 : taskIsKthread (Option.map Thread.text (some t)) = some b := hk
        rw [e2]
        unfold counted
        cases b
        · have hne : t.kthread ≠ some true := fun q => Bool.noConfusion (hb.2 q)
          rw [List.filter_cons_of_pos (by simpa using hne)]
          simp
        · have he : t.kthread = some true := hb.1 rfl
          rw [List.filter_cons_of_neg (by simp [he])]
          simp

/-- `fork` forks only if all threads could be looked at and one of them counts, unless the check was disabled. -/
theorem C93_safe {env : RustEnv} {ts : List (Option Threads.Thread)} {j j' : Jail} {fds : List (BitVec 32 × BitVec 32)} {devNull : Option (BitVec 32)}
    (hp : ∀ t, some t ∈ ts → t.Proper) (h : rustFork env false (countThreads (statusFiles ts)) j fds devNull = .starts j') :
    ∃ us : List Threads.Thread, ts = us.map some ∧ counted us = 1 := by
  rcases C61_threads _ _ _ _ _ _ _ h with q | q
  · cases q
  · obtain ⟨h1, h2⟩ := (C61_count _).1 q
    obtain ⟨us, e, hc⟩ := count_none ts h1 hp
    exact ⟨us, e, by rw [← hc, h2]⟩

/-- If one thread counts the check is passed. Missing: the names of all threads have to be valid UTF-8. -/
theorem C93_allows_partial {us : List Threads.Thread} (hp : ∀ t ∈ us, t.Proper) (hu : ∀ t ∈ us, Utf8 t.text) (h : counted us = 1) :
    countThreads (statusFiles (us.map some)) = some 1 := by
  have hn : none ∉ (statusFiles (us.map some)).map taskIsKthread := by
    intro q
    unfold statusFiles at q
    simp only [List.map_map, List.mem_map, Function.comp] at q
    obtain ⟨t, ht, hq⟩ := q
    have := hu t ht
    unfold Utf8 at this
    simp [taskIsKthread, this] at hq
  refine (C61_count _).2 ⟨hn, ?_⟩
  obtain ⟨us', e, hc⟩ := count_none _ hn (fun t q => by
    obtain ⟨t', h1, h2⟩ := List.mem_map.1 q
    cases h2
    exact hp _ h1)
  have : us = us' := List.map_injective_iff.2 (Option.some_injective _) e
  rw [hc, ← this, h]

/-- More than one thread is refused, whatever their names. -/
theorem C93_refuses {env : RustEnv} {us : List Threads.Thread} {j : Jail} {fds : List (BitVec 32 × BitVec 32)} {devNull : Option (BitVec 32)} (hp : ∀ t ∈ us, t.Proper)
    (h : 1 < counted us) (j' : Jail) : rustFork env false (countThreads (statusFiles (us.map some))) j fds devNull ≠ .starts j' := by
  intro q
  obtain ⟨us', e, hc⟩ := C93_safe (fun t q => by
    obtain ⟨t', h1, h2⟩ := List.mem_map.1 q
    cases h2
    exact hp _ h1) q
  have : us = us' := List.map_injective_iff.2 (Option.some_injective _) e
  rw [this, hc] at h
  omega

/-- A thread with the name `name` as the kernel cuts it, to 15 bytes. -/
def cutName (name : BStr) : Threads.Thread := ⟨name.take 15, [bstr "Umask:\t0022"], some false, [bstr "Threads:\t1"]⟩

/-- Eight times the letter `ä`. -/
def umlauts : BStr := (List.replicate 8 [0xC3#8, 0xA4#8]).flatten

/-- The full claim fails: a caller with one thread whose name, eight times `ä`, was cut in the middle of a letter is not forked. -/
theorem C93_violated : ∃ t : Threads.Thread, t.Proper ∧ Utf8 umlauts ∧ t = cutName umlauts ∧ counted [t] = 1 ∧
    ∀ (env : RustEnv) (j : Jail) (fds : List (BitVec 32 × BitVec 32)) (devNull : Option (BitVec 32)),
      rustFork env false (countThreads (statusFiles [some t])) j fds devNull = .err .checkingMultiThreaded j := by
  have hc : countThreads (statusFiles [some (cutName umlauts)]) = none := by decide +kernel
  refine ⟨cutName umlauts, ?_, by unfold Utf8; decide +kernel, rfl, by decide +kernel, fun env j fds devNull => by rw [hc]; rfl⟩
  unfold Thread.Proper
  decide +kernel

/-- A thread that has taken a name that spells the line is no kernel thread; a caller with it and one more thread is refused, and with a kernel thread it is not. -/
example : ∃ t : Threads.Thread, t = cutName (bstr "\nKthread:\t1\n") ∧ t.Proper ∧ Utf8 t.text ∧ taskIsKthread (some t.text) = some false ∧ counted [t, cutName (bstr "main")] = 2 ∧
    counted [t, { cutName (bstr "kvm") with kthread := some true }] = 1 := by
  refine ⟨_, rfl, by unfold Thread.Proper; decide +kernel, by unfold Utf8; decide +kernel, by decide +kernel, by decide +kernel, by decide +kernel⟩

example : countThreads (statusFiles ([cutName (bstr "\nKthread:\t1\n"), { cutName (bstr "kvm") with kthread := some true }].map some)) = some 1 :=
  C93_allows_partial (by unfold Thread.Proper; decide +kernel) (by unfold Utf8; decide +kernel) (by decide +kernel)

end Minijail
