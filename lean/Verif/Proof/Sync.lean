import Verif.Spec.Sync
/-! The invariant of the two processes. -/
set_option linter.unusedSimpArgs false
set_option autoImplicit false
namespace Minijail
open Spec

/-- What was done and tolerated, in order, with what is still to do. -/
def WorkedOff (j : Jail) (s : SyncState) : Prop :=
  ∃ l : List (Setup × Bool), l.map (·.1) ++ s.todo = parentPlan j ∧ s.did = (l.filter (·.2)).map (·.1) ∧ s.missed = (l.filter (!·.2)).map (·.1)

/-- What always holds: the plan is worked off in order; the child is past the barrier only if the parent let go of the pipe. -/
structure SyncInv (j : Jail) (s : SyncState) : Prop where
  order : WorkedOff j s
  missed : ∀ a ∈ s.missed, a = .denySetgroups
  finished : s.parent = .finished → s.todo = []
  working : s.parent = .setup ∨ s.parent = .failed ∨ s.parent = .killed → s.parentWrite = syncChild j
  killed : s.parent = .killed → s.doomed = true
  gone : s.parent = .gone → s.left = true ∨ s.doomed = true ∨ s.todo = []
  past : PastSetup s → syncChild j = true → s.parentWrite = false
  failed : s.parent = .failed → syncChild j = true
  doomed : s.doomed = true → ¬ PastSetup s ∧ syncChild j = true

theorem plan_sync {j : Jail} (h : parentPlan j ≠ []) : syncChild j = true := by
  unfold parentPlan at h
  unfold syncChild
  apply Classical.byContradiction
  intro hn
  simp only [Bool.or_eq_true, bne_iff_ne, ne_eq, not_or, Bool.not_eq_true, Decidable.not_not] at hn
  obtain ⟨⟨⟨⟨h1, h2⟩, h3⟩, h4⟩, h5⟩ := hn
  exact h (by simp [h1, h2, h3, h4, h5])

theorem inv_start (j : Jail) : SyncInv j (syncStart j) := by
  constructor <;> simp [syncStart, PastSetup, WorkedOff]

theorem todo_sync {j : Jail} {s : SyncState} (h : WorkedOff j s) (ht : s.todo ≠ []) : syncChild j = true := by
  obtain ⟨l, h, -⟩ := h
  exact plan_sync (by rw [← h]; simp [ht])

theorem inv_step {j : Jail} {s : SyncState} (I : SyncInv j s) (e : SyncEv) : SyncInv j (syncStep j s e) := by
  have toFailed : s.parent = .setup → s.todo ≠ [] → SyncInv j { s with parent := .failed } := fun hp ht =>
    ⟨I.order, I.missed, by simp, fun _ => I.working (.inl hp), by simp, by simp, I.past, fun _ => todo_sync I.order ht, I.doomed⟩
  cases e with
  | setup =>
    simp only [syncStep]
    split
    · next a rest hp ht =>
      obtain ⟨l, h1, h2, h3⟩ := I.order
      refine ⟨⟨l ++ [(a, true)], ?_, ?_, ?_⟩, I.missed, by simp [hp], fun _ => I.working (.inl hp), by simp [hp], by simp [hp], I.past, by simp [hp], I.doomed⟩
      · simp [← h1, ht]
      · simp [h2]
      · simp [h3]
    · exact I
  | setupEnoent =>
    simp only [syncStep]
    split
    · exact I
    · next rest hp ht =>
      obtain ⟨l, h1, h2, h3⟩ := I.order
      refine ⟨⟨l ++ [(.denySetgroups, false)], ?_, ?_, ?_⟩, ?_, by simp [hp], fun _ => I.working (.inl hp), by simp [hp], by simp [hp], I.past, by simp [hp], I.doomed⟩
      · simp [← h1, ht]
      · simp [h2]
      · simp [h3]
      · intro a ha
        rcases List.mem_append.1 ha with ha | ha
        · exact I.missed a ha
        · simpa using ha
    · next hp ht => exact toFailed hp (by simp [ht])
    · exact I
  | setupFails =>
    simp only [syncStep]
    split
    · exact I
    · next hp ht => exact toFailed hp (by simp [ht])
    · exact I
  | parentGoes =>
    simp only [syncStep]
    split
    · next hp ht =>
      refine ⟨I.order, I.missed, fun _ => ht, by simp, by simp, by simp, fun h hs => by simp [hs], by simp, I.doomed⟩
    · next hp =>
      have hs := I.failed hp
      have hw := I.working (.inr (.inl hp))
      refine ⟨I.order, I.missed, by simp, fun _ => hw, by simp, by simp, I.past, by simp, fun _ => ⟨fun h => ?_, hs⟩⟩
      have := I.past h hs
      rw [hw, hs] at this
      simp at this
    · next hp =>
      refine ⟨I.order, I.missed, by simp, by simp, by simp, fun _ => .inr (.inl (I.killed hp)), fun _ _ => rfl, by simp, I.doomed⟩
    · exact I
  | parentEnds =>
    simp only [syncStep]
    split
    · exact I
    · next hp => exact ⟨I.order, I.missed, by simp, by simp, by simp, fun _ => .inr (.inr (I.finished hp)), fun _ _ => rfl, by simp, I.doomed⟩
    · next hp => exact ⟨I.order, I.missed, by simp, by simp, by simp, fun _ => .inr (.inl (I.killed hp)), fun _ _ => rfl, by simp, I.doomed⟩
    · exact ⟨I.order, I.missed, by simp, by simp, by simp, fun _ => .inl rfl, fun _ _ => rfl, by simp, I.doomed⟩
  | childGoes =>
    simp only [syncStep]
    split
    · next hc =>
      split
      · next hs => exact ⟨I.order, I.missed, I.finished, I.working, I.killed, I.gone, by simp [PastSetup], I.failed, fun _ => ⟨by simp [PastSetup], hs⟩⟩
      · next hs =>
        refine ⟨I.order, I.missed, I.finished, I.working, I.killed, I.gone, fun _ h => absurd h hs, I.failed, fun h => absurd (I.doomed h).2 hs⟩
    · next hc =>
      split
      · next h =>
        simp only [Bool.and_eq_true, Bool.not_eq_true'] at h
        exact ⟨I.order, I.missed, I.finished, I.working, I.killed, I.gone, fun _ _ => h.1.1, I.failed, fun hd => by rw [h.2] at hd; simp at hd⟩
      · exact I
    · next hc =>
      have hp : PastSetup s := .inl hc
      exact ⟨I.order, I.missed, I.finished, I.working, I.killed, I.gone, fun _ hs => I.past hp hs, I.failed, fun hd => absurd hp (I.doomed hd).1⟩
    · exact I
  | childEnds =>
    simp only [syncStep]
    exact ⟨I.order, I.missed, I.finished, I.working, I.killed, I.gone, by simp [PastSetup], I.failed, fun hd => ⟨by simp [PastSetup], (I.doomed hd).2⟩⟩

theorem inv_foldl {j : Jail} (evs : List SyncEv) : ∀ s, SyncInv j s → SyncInv j (evs.foldl (syncStep j) s) := by
  induction evs with
  | nil => intro s h; exact h
  | cons e evs ih => intro s h; exact ih _ (inv_step h e)

theorem inv_run (j : Jail) (evs : List SyncEv) : SyncInv j (syncRun j evs) := inv_foldl evs _ (inv_start j)

/-- Once the child is past the barrier, either the plan is worked off or something else ended the parent before. -/
theorem past_done {j : Jail} {s : SyncState} (I : SyncInv j s) (hp : PastSetup s) : s.left = true ∨ s.todo = [] := by
  by_cases hs : syncChild j = true
  · have hw := I.past hp hs
    have hd : s.doomed ≠ true := fun h => (I.doomed h).1 hp
    cases h : s.parent with
    | setup => rw [I.working (.inl h), hs] at hw; simp at hw
    | failed => rw [I.working (.inr (.inl h)), hs] at hw; simp at hw
    | killed => rw [I.working (.inr (.inr h)), hs] at hw; simp at hw
    | finished => exact .inr (I.finished h)
    | gone =>
      rcases I.gone h with h | h | h
      · exact .inl h
      · exact absurd h hd
      · exact .inr h
  · right
    apply Classical.byContradiction
    intro ht
    exact hs (todo_sync I.order ht)

/-- Who holds the write end. -/
structure PipeInv (j : Jail) (s : SyncState) : Prop where
  reading : s.child = .reading → s.childWrite = false
  finished : s.parent = .finished → s.parentWrite = false
  gone : s.parent = .gone → s.parentWrite = false

theorem pipe_run (j : Jail) (evs : List SyncEv) : PipeInv j (syncRun j evs) := by
  have start : PipeInv j (syncStart j) := by constructor <;> simp [syncStart]
  have step : ∀ s e, SyncInv j s → PipeInv j s → PipeInv j (syncStep j s e) := by
    intro s e I P
    cases e with
    | setup =>
      simp only [syncStep]
      split
      · next hp _ => exact ⟨P.reading, by simp [hp], by simp [hp]⟩
      · exact P
    | setupEnoent =>
      simp only [syncStep]
      split
      · exact P
      · next hp _ => exact ⟨P.reading, by simp [hp], by simp [hp]⟩
      · exact ⟨P.reading, by simp, by simp⟩
      · exact P
    | setupFails =>
      simp only [syncStep]
      split
      · exact P
      · exact ⟨P.reading, by simp, by simp⟩
      · exact P
    | parentGoes =>
      simp only [syncStep]
      split
      · next hp _ =>
        refine ⟨P.reading, fun _ => ?_, by simp⟩
        dsimp only
        split
        · rfl
        · next h => rw [I.working (.inl hp)]; simpa using h
      · exact ⟨P.reading, by simp, by simp⟩
      · exact ⟨P.reading, by simp, by simp⟩
      · exact P
    | parentEnds =>
      simp only [syncStep]
      split
      · exact P
      all_goals exact ⟨P.reading, by simp, by simp⟩
    | childGoes =>
      simp only [syncStep]
      split
      · split
        · exact ⟨by simp, P.finished, P.gone⟩
        · exact ⟨by simp, P.finished, P.gone⟩
      · split
        · exact ⟨by simp, P.finished, P.gone⟩
        · exact P
      · exact ⟨by simp, P.finished, P.gone⟩
      · exact P
    | childEnds => exact ⟨by simp [syncStep], P.finished, P.gone⟩
  have all : ∀ (evs : List SyncEv) s, SyncInv j s → PipeInv j s → PipeInv j (evs.foldl (syncStep j) s) := by
    intro evs
    induction evs with
    | nil => intro s _ P; exact P
    | cons e evs ih => intro s I P; exact ih _ (inv_step I e) (step s e I P)
  exact all evs _ (inv_start j) start

theorem setup_all (j : Jail) : ∀ (n : Nat) (s : SyncState), s.parent = .setup → s.todo.length = n →
    ((List.replicate n SyncEv.setup ++ [SyncEv.parentGoes]).foldl (syncStep j) s).parent = .finished ∧
    ((List.replicate n SyncEv.setup ++ [SyncEv.parentGoes]).foldl (syncStep j) s).child = s.child ∧
    ((List.replicate n SyncEv.setup ++ [SyncEv.parentGoes]).foldl (syncStep j) s).doomed = s.doomed ∧
    ((List.replicate n SyncEv.setup ++ [SyncEv.parentGoes]).foldl (syncStep j) s).left = s.left := by
  intro n
  induction n with
  | zero =>
    intro s hp ht
    have ht : s.todo = [] := by simpa using ht
    simp [syncStep, hp, ht]
  | succ n ih =>
    intro s hp ht
    cases h : s.todo with
    | nil => rw [h] at ht; simp at ht
    | cons a rest =>
      rw [List.replicate_succ, List.cons_append, List.foldl_cons]
      have e : syncStep j s .setup = { s with todo := rest, did := s.did ++ [a] } := by simp [syncStep, hp, h]
      rw [e]
      exact ih { s with todo := rest, did := s.did ++ [a] } hp (by rw [h] at ht; simpa using ht)

/-- A plan that is worked off is what was asked for. -/
theorem worked_setup {j : Jail} {s : SyncState} (h : WorkedOff j s) (hm : ∀ a ∈ s.missed, a = .denySetgroups) (ht : s.todo = []) :
    SetUp j s.did s.missed := by
  obtain ⟨l, h1, h2, h3⟩ := h
  rw [ht, List.append_nil] at h1
  have hmem : ∀ a ∈ parentPlan j, a ≠ .denySetgroups → a ∈ s.did := by
    intro a ha hne
    rw [← h1] at ha
    obtain ⟨⟨x, b⟩, hx, rfl⟩ := List.mem_map.1 ha
    cases b with
    | true => rw [h2]; exact List.mem_map.2 ⟨(x, true), List.mem_filter.2 ⟨hx, rfl⟩, rfl⟩
    | false => exact absurd (hm x (by rw [h3]; exact List.mem_map.2 ⟨(x, false), List.mem_filter.2 ⟨hx, rfl⟩, rfl⟩)) hne
  refine ⟨?_, ?_, ?_, ?_, ?_, ?_, ?_, hm⟩
  · intro h; exact hmem _ (by simp [parentPlan, h]) (by simp)
  · intro h; exact hmem _ (by simp [parentPlan, h]) (by simp)
  · intro h c hc; exact hmem _ (by simp only [parentPlan, h, if_true, List.mem_append, List.mem_map]; exact .inl (.inl (.inr ⟨c, hc, rfl⟩))) (by simp)
  · intro r hr
    have hn : j.rlimit_count ≠ 0 := by intro h; rw [h] at hr; simp at hr
    exact hmem _ (by simp only [parentPlan, hn, ne_eq, not_false_eq_true, if_true, List.mem_append, List.mem_map]; exact .inl (.inr ⟨r, hr, rfl⟩)) (by simp)
  · intro h m e; exact hmem _ (by simp [parentPlan, ugidMapSetup, h, e]) (by simp)
  · intro h m e; exact hmem _ (by simp [parentPlan, ugidMapSetup, h, e]) (by simp)
  · intro h hd m e
    -- the plan ends in the two steps
    obtain ⟨pre, hpre, hno⟩ : ∃ pre, parentPlan j = pre ++ [.denySetgroups, .gidMap m] ∧ .gidMap m ∉ pre := by
      refine ⟨(if j.flags.forward_signals then [.handlers] else []) ++ (if j.flags.pid_file then [.pidFile j.pid_file_path] else []) ++
        (if j.flags.cgroups then (j.cgroups.take j.cgroup_count).map .cgroup else []) ++
        (if j.rlimit_count ≠ 0 then (j.rlimits.take j.rlimit_count).map .rlimit else []) ++ (match j.uidmap with
          | some m => [.uidMap m]
          | none => []), ?_, ?_⟩
      · simp [parentPlan, ugidMapSetup, h, hd, e]
        cases j.uidmap <;> rfl
      · simp only [List.mem_append, not_or]
        refine ⟨⟨⟨⟨?_, ?_⟩, ?_⟩, ?_⟩, ?_⟩ <;> split <;> simp [← List.map_take, -List.map_take]
    rw [hpre] at h1
    obtain ⟨l1, l2, rfl, e1, e2⟩ := List.map_eq_append_iff.1 h1
    match l2, e2 with
    | [(x, b), (y, c)], e2 =>
      simp only [List.map_cons, List.map_nil, List.cons.injEq, and_true] at e2
      obtain ⟨rfl, rfl⟩ := e2
      have hc : c = true := by
        cases c with
        | true => rfl
        | false =>
          have := hm (.gidMap m) (by rw [h3]; simp)
          simp at this
      subst hc
      cases b with
      | false => right; rw [h3]; simp
      | true =>
        left
        refine ⟨(l1.filter (·.2)).map (·.1), [.gidMap m], by rw [h2]; simp, by simp, ?_⟩
        intro hx
        obtain ⟨z, hz, hz'⟩ := List.mem_map.1 hx
        exact hno (by rw [← e1]; exact List.mem_map.2 ⟨z, (List.mem_filter.1 hz).1, hz'⟩)

end Minijail
