import Verif.Proof.Lifecycle
/-! C70: waiting, killing and forwarding concern the program that was started. -/
set_option linter.unusedSimpArgs false
set_option autoImplicit false
namespace Minijail
open Spec Lifecycle

variable {sg : Signals} {evs : List LifeEv} {j w : Nat}

/-- Whatever happens on the system: as long as nobody has been told how the program last run in the jail has ended, killing the jail sends the signal to this program,
running or ended, and to nothing else (if that is permitted). (Missing: after that, see `C70_kill_violated`.) -/
theorem C70_kill_partial (h : lastRun j (lifeRun sg evs).log = some w) (hu : Unreaped w (lifeRun sg evs).log) (permitted : Bool) :
    (lifeStep sg (lifeRun sg evs) (.kill j permitted)).log =
      (if permitted then Note.killed j w else .refused j (-1)) :: (lifeRun sg evs).log := by
  obtain ⟨hp, e, ht⟩ := jail_task (inv_life sg evs) h hu
  simp only [lifeStep]
  rw [if_neg (by omega), ht]
  cases permitted <;> rfl

/-- And waiting for it waits until this program has ended, and tells just how that was. (Missing: after that, see `C70_wait_violated`.) -/
theorem C70_wait_partial (h : lastRun j (lifeRun sg evs).log = some w) (hu : Unreaped w (lifeRun sg evs).log) :
    (∀ st, .ended w st ∈ (lifeRun sg evs).log →
      (lifeStep sg (lifeRun sg evs) (.wait j)).log = .reported j w (waitResult st) :: (lifeRun sg evs).log) ∧
    ((∀ st, .ended w st ∉ (lifeRun sg evs).log) → lifeStep sg (lifeRun sg evs) (.wait j) = lifeRun sg evs) := by
  have I := inv_life sg evs
  obtain ⟨hp, e, ht⟩ := jail_task I h hu
  have he := I.ended _ _ ht
  have hp' : ¬ (lifeRun sg evs).initpid j ≤ 0 := by omega
  simp only at he
  constructor
  · intro st hm
    have := (he st).1 hm
    subst this
    simp only [lifeStep]
    rw [if_neg hp', ht]
    simp [waitpidAnswer, minijailWait, hp', waitLoop]
  · intro hn
    have : e = none := by
      cases e with
      | none => rfl
      | some st => exact absurd ((he st).2 rfl) (hn st)
    subst this
    simp only [lifeStep]
    rw [if_neg hp', ht]
    simp [waitpidAnswer]

/-- A jail that has not been run: nothing is signalled, nobody is waited for. -/
theorem C70_not_run (h : lastRun j (lifeRun sg evs).log = none) (permitted : Bool) :
    (lifeStep sg (lifeRun sg evs) (.kill j permitted)).log = .refused j (-10) :: (lifeRun sg evs).log ∧
    (lifeStep sg (lifeRun sg evs) (.wait j)).log = .refused j (-10) :: (lifeRun sg evs).log := by
  have := ((inv_life sg evs).jail j).1 h
  simp only [lifeStep, this]
  exact ⟨rfl, rfl⟩

/-- What is told about a process is how it has ended, and this is told once. -/
theorem C70_told (v : Int) (h : .reported j w v ∈ (lifeRun sg evs).log) :
    (∃ st, .ended w st ∈ (lifeRun sg evs).log ∧ (∀ st', .ended w st' ∈ (lifeRun sg evs).log → st' = st) ∧ v = waitResult st) ∧
    (lifeRun sg evs).log.countP (tells w) = 1 := by
  have I := inv_life sg evs
  obtain ⟨st, h1, h2⟩ := I.value j w v h
  refine ⟨⟨st, h1, fun st' h' => I.endedOne _ _ _ h' h1, h2⟩, ?_⟩
  have h3 := (I.told w).1
  have : 0 < (lifeRun sg evs).log.countP (tells w) := List.countP_pos_iff.2 ⟨_, h, by simp [tells]⟩
  omega

/-- What the notes of a careful caller's jails are about: the program that the jail had last been run with. -/
theorem careful_steps {s : System} (I : Inv s)
    (hk : ∀ l1 l2 j w, s.log = l1 ++ .killed j w :: l2 → lastRun j l2 = some w)
    (hr : ∀ l1 l2 j w v, s.log = l1 ++ .reported j w v :: l2 → lastRun j l2 = some w)
    (ht : ∀ w, .taken w ∉ s.log) (hc : Careful sg s evs) :
    (∀ l1 l2 j w, (evs.foldl (lifeStep sg) s).log = l1 ++ .killed j w :: l2 → lastRun j l2 = some w) ∧
    (∀ l1 l2 j w v, (evs.foldl (lifeStep sg) s).log = l1 ++ .reported j w v :: l2 → lastRun j l2 = some w) := by
  induction evs generalizing s with
  | nil => exact ⟨hk, hr⟩
  | cons e es ih =>
    have hmemran : ∀ j w v, .reported j w v ∈ s.log → ∃ f, .ran j w f ∈ s.log := by
      intro j w v h
      obtain ⟨l1, l2, e⟩ := List.append_of_mem h
      obtain ⟨f, hf⟩ := lastRun_mem (hr l1 l2 j w v e)
      exact ⟨f, by rw [e]; simp [hf]⟩
    -- what is due is not reaped
    have hdue : ∀ j, Due j s.log → ∃ w, lastRun j s.log = some w ∧ Unreaped w s.log := by
      rintro j ⟨w, h1, h2⟩
      refine ⟨w, h1, ?_, ht w⟩
      intro k v hm
      obtain ⟨f, hf⟩ := hmemran k w v hm
      obtain ⟨g, hg⟩ := lastRun_mem h1
      have := I.ranOne _ _ _ _ _ hf hg
      subst this
      exact h2 v hm
    rw [List.foldl_cons]
    obtain ⟨hthis, hrest⟩ := hc
    have I' := inv_step (sg := sg) I e
    have main : (∀ l1 l2 j w, (lifeStep sg s e).log = l1 ++ .killed j w :: l2 → lastRun j l2 = some w) ∧
        (∀ l1 l2 j w v, (lifeStep sg s e).log = l1 ++ .reported j w v :: l2 → lastRun j l2 = some w) ∧ ∀ w, .taken w ∉ (lifeStep sg s e).log := by
      -- a note on top that is about nothing, or about the right program
      have top : ∀ n : Note, (∀ j w, n = .killed j w → lastRun j s.log = some w) → (∀ j w v, n = .reported j w v → lastRun j s.log = some w) →
          (∀ w, n ≠ .taken w) → (∀ l1 l2 j w, n :: s.log = l1 ++ .killed j w :: l2 → lastRun j l2 = some w) ∧
          (∀ l1 l2 j w v, n :: s.log = l1 ++ .reported j w v :: l2 → lastRun j l2 = some w) ∧ ∀ w, .taken w ∉ n :: s.log := by
        intro n h1 h2 h3
        refine ⟨?_, ?_, ?_⟩
        · intro l1 l2 j w h
          cases l1 with
          | nil => simp only [List.nil_append, List.cons.injEq] at h; rw [← h.2]; exact h1 j w h.1
          | cons x l1 => simp only [List.cons_append, List.cons.injEq] at h; exact hk l1 l2 j w h.2
        · intro l1 l2 j w v h
          cases l1 with
          | nil => simp only [List.nil_append, List.cons.injEq] at h; rw [← h.2]; exact h2 j w v h.1
          | cons x l1 => simp only [List.cons_append, List.cons.injEq] at h; exact hr l1 l2 j w v h.2
        · intro w h
          rcases List.mem_cons.1 h with h | h
          · exact h3 w h.symm
          · exact ht w h
      cases e with
      | run j f pid =>
        simp only [lifeStep]
        by_cases h : pid = 0 ∨ (s.tasks pid).isSome
        · rw [if_pos h]; exact ⟨hk, hr, ht⟩
        · rw [if_neg h]; exact top _ (by simp) (by simp) (by simp)
      | starts c pid =>
        simp only [lifeStep]
        split
        · exact ⟨hk, hr, ht⟩
        · exact ⟨hk, hr, ht⟩
      | ends pid st =>
        simp only [lifeStep]
        split
        · exact top _ (by simp) (by simp) (by simp)
        · exact ⟨hk, hr, ht⟩
      | vanishes pid =>
        simp only [lifeStep]
        split
        · split
          · exact ⟨hk, hr, ht⟩
          · exact ⟨hk, hr, ht⟩
        · exact ⟨hk, hr, ht⟩
      | takes pid => exact absurd hthis (by simp)
      | wait j =>
        obtain ⟨w, h1, h2⟩ := hdue j hthis
        obtain ⟨hp, e, htask⟩ := jail_task I h1 h2
        simp only [lifeStep]
        rw [if_neg (by omega), htask]
        cases e with
        | none => exact ⟨hk, hr, ht⟩
        | some st =>
          simp only [waitpidAnswer]
          exact top _ (by simp) (by intro k x v h; cases h; exact h1) (by simp)
      | kill j permitted =>
        obtain ⟨w, h1, h2⟩ := hdue j hthis
        obtain ⟨hp, e, htask⟩ := jail_task I h1 h2
        simp only [lifeStep]
        rw [if_neg (by omega), htask]
        cases permitted with
        | false => exact top _ (by simp) (by simp) (by simp)
        | true => exact top _ (by intro k x h; cases h; exact h1) (by simp) (by simp)
      | signal sig =>
        simp only [lifeStep]
        split
        · exact ⟨hk, hr, ht⟩
        · split
          · exact ⟨hk, hr, ht⟩
          · split
            · exact ⟨hk, hr, ht⟩
            · exact top _ (by simp) (by simp) (by simp)
    exact ih I' main.1 main.2.1 main.2.2 hrest

/-- A caller who waits for, or kills, each jail only between running it and being told how the program has ended, and does not reap the programs by other means:
all that is killed, and all that is reported, is the program with which the jail had last been run. Whatever other processes do, and whichever numbers they get. -/
theorem C70_careful (hc : Careful sg .start evs) (l1 l2 : List Note) :
    (∀ j w, (lifeRun sg evs).log = l1 ++ .killed j w :: l2 → lastRun j l2 = some w) ∧
    (∀ j w v, (lifeRun sg evs).log = l1 ++ .reported j w v :: l2 → lastRun j l2 = some w) := by
  have := careful_steps (sg := sg) (evs := evs) inv_start (by simp [System.start]) (by simp [System.start]) (by simp [System.start]) hc
  exact ⟨fun j w => this.1 l1 l2 j w, fun j w v => this.2 l1 l2 j w v⟩

/-- A signal that is forwarded reaches the program that was last started with signals to be forwarded, as long as nobody has been told how it has ended. (Missing: after
that, see `C70_forward_violated`; and the programs of other jails, see `C70_forward_violated_two`.) -/
theorem C70_forward_partial (h : lastForwarded (lifeRun sg evs).log = some w) (hu : Unreaped w (lifeRun sg evs).log) (sig : Nat)
    (hd : (lifeRun sg evs).disposition sig = .forwards) :
    (lifeStep sg (lifeRun sg evs) (.signal sig)).log = .forwarded sig w :: (lifeRun sg evs).log := by
  obtain ⟨hp, e, ht⟩ := fwd_task (inv_life sg evs) h hu
  simp only [lifeStep]
  rw [if_neg (by rw [hd]; simp), if_neg (by omega), ht]

theorem sigaction_all (sg : Signals) (l : List Nat) (d : Nat → Disposition) (x : Nat) :
    (l.foldl (sigactionForward sg) d) x = if x ∈ l ∧ sg.refused x = false then .forwards else d x := by
  induction l generalizing d with
  | nil => simp
  | cons y l ih =>
    rw [List.foldl_cons, ih]
    unfold sigactionForward
    by_cases hx : x ∈ l ∧ sg.refused x = false
    · rw [if_pos hx, if_pos ⟨by simp [hx.1], hx.2⟩]
    · rw [if_neg hx]
      cases hy : sg.refused y with
      | true =>
        rw [if_pos rfl, if_neg]
        rintro ⟨h1, h2⟩
        rcases List.mem_cons.1 h1 with rfl | h1
        · rw [hy] at h2; cases h2
        · exact hx ⟨h1, h2⟩
      | false =>
        simp only [Bool.false_eq_true, if_false]
        by_cases he : x = y
        · subst he; rw [if_pos rfl, if_pos ⟨by simp, hy⟩]
        · rw [if_neg he, if_neg]
          rintro ⟨h1, h2⟩
          rcases List.mem_cons.1 h1 with rfl | h1
          · exact he rfl
          · exact hx ⟨h1, h2⟩

theorem mem_drop_range {n k x : Nat} : x ∈ (List.range n).drop k ↔ k ≤ x ∧ x < n := by
  rw [List.mem_iff_getElem?]
  simp only [List.getElem?_drop]
  constructor
  · rintro ⟨i, hi⟩
    have := List.getElem?_eq_some_iff.1 hi
    obtain ⟨h1, h2⟩ := this
    simp at h1 h2
    omega
  · rintro ⟨h1, h2⟩
    exact ⟨x - k, by rw [List.getElem?_range (by omega)]; congr 1; omega⟩

/-- Which signals are forwarded once a program has been started with this option: all that can be caught but SIGCHLD, whose effect becomes the standard one. The numbers
are those of Linux: `NSIG` 65, the real-time signals up to 64. -/
theorem C70_which (hn : sg.nsig = 65) (h1 : 17 < sg.rtmin) (h2 : sg.rtmax ≤ 64) (d : Nat → Disposition) (sig : Nat) (hs : 1 ≤ sig ∧ sig ≤ 64) :
    installSignalHandlers sg d sig = if sig = 17 then .standard else if sg.refused sig then d sig else .forwards := by
  unfold installSignalHandlers
  simp only [sigaction_all, mem_drop_range, hn, SIGCHLD]
  by_cases hsig : sig = 17
  · rw [if_pos hsig, if_neg (by omega), if_pos hsig]
  · rw [if_neg hsig]
    simp only [if_neg hsig]
    cases hr : sg.refused sig with
    | true => simp [hsig]
    | false =>
      simp only [hsig, if_false, and_true, Bool.false_eq_true]
      rw [if_pos (c := 1 ≤ sig ∧ sig < 65) (by omega)]
      simp

/-- Once a program has been started with signals to be forwarded, they stay forwarded. -/
theorem C70_stays (hn : sg.nsig = 65) (h1 : 17 < sg.rtmin) (h2 : sg.rtmax ≤ 64) (sig : Nat) (hs : 1 ≤ sig ∧ sig ≤ 64) (hc : sig ≠ 17)
    (hr : sg.refused sig = false) (h : (lastForwarded (lifeRun sg evs).log).isSome) : (lifeRun sg evs).disposition sig = .forwards := by
  have key : ∀ (evs : List LifeEv) (s : System), ((lastForwarded s.log).isSome → s.disposition sig = .forwards) →
      (lastForwarded (evs.foldl (lifeStep sg) s).log).isSome → (evs.foldl (lifeStep sg) s).disposition sig = .forwards := by
    intro evs
    induction evs with
    | nil => intro s h; exact h
    | cons e es ih =>
      intro s hs'
      rw [List.foldl_cons]
      apply ih
      cases e with
      | run j f pid =>
        simp only [lifeStep]
        split
        · exact hs'
        · cases f with
          | true =>
            intro _
            simp only [if_true]
            rw [C70_which hn h1 h2 _ sig hs, if_neg hc, hr]
            rfl
          | false => intro h; exact hs' h
      | starts c pid => simp only [lifeStep]; split <;> exact hs'
      | ends pid st => simp only [lifeStep]; split <;> exact hs'
      | vanishes pid =>
        simp only [lifeStep]
        split
        · split <;> exact hs'
        · exact hs'
      | takes pid => simp only [lifeStep]; split <;> exact hs'
      | wait j =>
        simp only [lifeStep]
        split
        · exact hs'
        · split <;> exact hs'
      | kill j p =>
        simp only [lifeStep]
        split
        · exact hs'
        · split
          · exact hs'
          · split <;> exact hs'
      | signal x =>
        simp only [lifeStep]
        split
        · exact hs'
        · split
          · exact hs'
          · split <;> exact hs'
  exact key evs .start (by simp [System.start, lastForwarded]) h

/-- Linux on x86-64 with glibc: SIGKILL and SIGSTOP cannot be caught, 32 and 33 are the library's. -/
def exSignals : Signals := ⟨65, 34, 64, fun s => s == 9 || s == 19 || s == 32 || s == 33⟩

/-- A jail keeps the number of its program after it has been told that the program has ended. If the system gives the number to another process, killing the jail again
kills that one, here a process that the caller has not even started. -/
theorem C70_kill_violated : ∃ evs : List LifeEv, ∃ j w v, lastRun j (lifeRun exSignals evs).log = some w ∧ .reported j w v ∈ (lifeRun exSignals evs).log ∧
    ∃ x, x ≠ w ∧ (∀ k f, .ran k x f ∉ (lifeRun exSignals evs).log) ∧ .killed j x ∈ (lifeStep exSignals (lifeRun exSignals evs) (.kill j true)).log := by
  refine ⟨[.run 0 false 100, .ends 100 0#32, .wait 0, .starts false 100], 0, 0, 0, by decide +kernel, by decide +kernel, 1, by decide, ?_, by decide +kernel⟩
  have : (lifeRun exSignals [.run 0 false 100, .ends 100 0#32, .wait 0, .starts false 100]).log = [.reported 0 0 0, .ended 0 0#32, .ran 0 0 false] := by
    decide +kernel
  rw [this]
  intro k f h
  simp at h

/-- Likewise, waiting for it again reports how the program of another jail has ended; the jail of that program is then told that there is none. -/
theorem C70_wait_violated : ∃ evs : List LifeEv, (lifeRun exSignals evs).log =
    [.refused 1 (-10), .reported 0 1 7, .ended 1 1792#32, .ran 1 1 false, .reported 0 0 0, .ended 0 0#32, .ran 0 0 false] :=
  ⟨[.run 0 false 100, .ends 100 0#32, .wait 0, .run 1 false 100, .ends 100 1792#32, .wait 0, .wait 1], by decide +kernel⟩

/-- Signals go on being forwarded to the number after the program's end has been reported. -/
theorem C70_forward_violated : ∃ evs : List LifeEv, ∃ w x, lastForwarded (lifeRun exSignals evs).log = some w ∧ x ≠ w ∧
    .forwarded 15 x ∈ (lifeRun exSignals evs).log :=
  ⟨[.run 0 true 100, .ends 100 0#32, .wait 0, .starts false 100, .signal 15], 0, 1, by decide +kernel, by decide, by decide +kernel⟩

/-- With two programs running, both started with signals to be forwarded, only the second gets them. -/
theorem C70_forward_violated_two : ∃ evs : List LifeEv, .ran 0 0 true ∈ (lifeRun exSignals evs).log ∧ Unreaped 0 (lifeRun exSignals evs).log ∧
    .forwarded 15 1 ∈ (lifeRun exSignals evs).log ∧ .forwarded 15 0 ∉ (lifeRun exSignals evs).log := by
  refine ⟨[.run 0 true 100, .run 1 true 101, .signal 15], by decide +kernel, ?_, by decide +kernel, by decide +kernel⟩
  rw [unreaped_iff]
  decide +kernel

theorem not_reported {j w : Nat} {l : List Note} (h : l.all (fun n => match n with
      | .reported k x _ => !(k == j && x == w)
      | _ => true) = true) (v : Int) : .reported j w v ∉ l := by
  intro hm
  have := List.all_eq_true.1 h _ hm
  simp at this

/-- A case of a careful caller: two jails, the first run again after its end, the system giving the first number to the second jail's program. -/
example : Careful exSignals .start [.run 0 true 100, .ends 100 256#32, .wait 0, .run 1 false 100, .starts true 102, .run 0 true 101, .kill 1 true, .signal 2, .ends 100 15#32, .wait 1,
      .ends 101 0#32, .wait 0] ∧
    (lifeRun exSignals [.run 0 true 100, .ends 100 256#32, .wait 0, .run 1 false 100, .starts true 102, .run 0 true 101, .kill 1 true, .signal 2, .ends 100 15#32, .wait 1,
      .ends 101 0#32, .wait 0]).log =
    [.reported 0 3 0, .ended 3 0#32, .reported 1 1 143, .ended 1 15#32, .forwarded 2 3, .killed 1 1, .ran 0 3 true, .ran 1 1 false, .reported 0 0 1,
      .ended 0 256#32, .ran 0 0 true] := by
  refine ⟨?_, by decide +kernel⟩
  refine ⟨trivial, trivial, ⟨0, by decide +kernel, ?_⟩, trivial, trivial, trivial, ⟨1, by decide +kernel, ?_⟩, trivial, trivial, ⟨1, by decide +kernel, ?_⟩, trivial,
    ⟨3, by decide +kernel, ?_⟩, trivial⟩
  all_goals exact not_reported (by decide +kernel)

/-- A case of a program that has ended and has not been waited for. -/
example : lastRun 0 (lifeRun exSignals [.run 0 true 100, .starts false 7, .ends 100 15#32]).log = some 0 ∧
    Unreaped 0 (lifeRun exSignals [.run 0 true 100, .starts false 7, .ends 100 15#32]).log ∧
    lastForwarded (lifeRun exSignals [.run 0 true 100, .starts false 7, .ends 100 15#32]).log = some 0 ∧
    (lifeRun exSignals [.run 0 true 100, .starts false 7, .ends 100 15#32]).disposition 2 = .forwards ∧
    .ended 0 15#32 ∈ (lifeRun exSignals [.run 0 true 100, .starts false 7, .ends 100 15#32]).log ∧ waitResult 15#32 = 143 := by
  refine ⟨by decide +kernel, ?_, by decide +kernel, by decide +kernel, by decide +kernel, by decide +kernel⟩
  rw [unreaped_iff]
  decide +kernel

end Minijail
