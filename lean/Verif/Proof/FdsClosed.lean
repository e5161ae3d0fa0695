import Verif.Proof.FdsSetup
/-! Which descriptors are open after the setup of descriptors in the child. -/
set_option linter.unusedSimpArgs false
set_option autoImplicit false
namespace Minijail

theorem ensure_open (env : FdEnv) (hw : ∀ t, env.warn t = t) (cs : List Nat) (t t' : FdTable) (child : Option Nat) (p p' i : Nat)
    (h : ensureNoFdConflict env cs t child p i = some (t', p')) (n : Nat) (hn : t' n ≠ none) : t n ≠ none ∨ n = p' := by
  unfold ensureNoFdConflict at h
  split at h
  · cases h; exact .inl hn
  · dsimp only at h
    split at h
    · cases h
    · split at h
      · cases h
      · rename_i hd
        cases h
        obtain ⟨_, -, -, -, h3⟩ := dup2_spec env _ _ _ _ hd
        by_cases he : n = p'
        · exact .inr he
        · rw [hw, h3 n he] at hn; exact .inl hn

theorem prepare_open (env : FdEnv) (hw : ∀ t, env.warn t = t) (cs : List Nat) (t t' : FdTable) (i : Nat) (es es' : List FdMap)
    (h : prepareFrom env cs t i es = some (t', es')) (n : Nat) (hn : t' n ≠ none) : t n ≠ none ∨ n ∈ es'.map (·.parent) := by
  induction es generalizing t i es' with
  | nil => cases h; exact .inl hn
  | cons e es ih =>
    unfold prepareFrom at h
    split at h
    · cases h
    · cases he : ensureNoFdConflict env cs t (some e.child) e.parent i with
      | none => rw [he] at h; cases h
      | some r =>
        obtain ⟨t1, p1⟩ := r
        rw [he] at h
        simp only at h
        cases hr : prepareFrom env cs t1 (i + 1) es with
        | none => rw [hr] at h; cases h
        | some r =>
          obtain ⟨t2, es2⟩ := r
          rw [hr] at h
          cases h
          rcases ih t1 (i + 1) es2 hr with h1 | h1
          · rcases ensure_open env hw cs t t1 _ _ p1 i he n h1 with h2 | h2
            · exact .inl h2
            · exact .inr (by simp [h2])
          · exact .inr (by simp only [List.map_cons, List.mem_cons]; exact .inr h1)

theorem avoid_open (env : FdEnv) (hw : ∀ t, env.warn t = t) (cs : List Nat) (t t' : FdTable) (ps ps' : List (Option Nat))
    (h : avoidPipeConflicts env cs t ps = some (t', ps')) (n : Nat) (hn : t' n ≠ none) : t n ≠ none ∨ some n ∈ ps' := by
  induction ps generalizing t ps' with
  | nil => cases h; exact .inl hn
  | cons q ps ih =>
    cases q with
    | none =>
      unfold avoidPipeConflicts at h
      cases hr : avoidPipeConflicts env cs t ps with
      | none => rw [hr] at h; cases h
      | some r =>
        rw [hr] at h
        cases h
        exact (ih t r.2 hr).imp id fun h => by simp [h]
    | some p =>
      unfold avoidPipeConflicts at h
      cases he : ensureNoFdConflict env cs t none p cs.length with
      | none => rw [he] at h; cases h
      | some r =>
        obtain ⟨t1, p1⟩ := r
        rw [he] at h
        simp only at h
        cases hr : avoidPipeConflicts env cs t1 ps with
        | none => rw [hr] at h; cases h
        | some r =>
          rw [hr] at h
          cases h
          rcases ih t1 r.2 hr with h1 | h1
          · rcases ensure_open env hw cs t t1 _ _ p1 _ he n h1 with h2 | h2
            · exact .inl h2
            · exact .inr (by simp [h2])
          · exact .inr (by simp [h1])

theorem redirectDup_open (env : FdEnv) (t t' : FdTable) (es : List FdMap) (h : redirectDup env t es = some t') (n : Nat)
    (hn : t' n ≠ none) : t n ≠ none ∨ n ∈ es.map (·.child) := by
  induction es generalizing t with
  | nil => cases h; exact .inl hn
  | cons e es ih =>
    have key : ∀ t1, (∀ m, m ≠ e.child → t1 m = t m) → redirectDup env t1 es = some t' → t n ≠ none ∨ n ∈ (e :: es).map (·.child) := by
      intro t1 h1 h2
      by_cases hc : n = e.child
      · exact .inr (by simp [hc])
      · rcases ih t1 h2 with h3 | h3
        · rw [h1 n hc] at h3; exact .inl h3
        · exact .inr (by simp only [List.map_cons, List.mem_cons]; exact .inr h3)
    unfold redirectDup at h
    split at h
    · split at h
      · exact key t (fun _ _ => rfl) h
      · exact key _ (fun m hm => by simp [FdTable.set, hm]) h
    · split at h
      · cases h
      · rename_i hd
        obtain ⟨_, -, -, -, h3⟩ := dup2_spec env _ _ _ _ hd
        exact key _ h3 h

/-- What is open after the setup of descriptors. -/
theorem setup_open (env : FdEnv) (hw : ∀ t, env.warn t = t) (t0 : FdTable) (es : List FdMap) (pipes : List (Option Nat))
    (elf : Option Nat) (r : ChildFds) (hopen : ∀ e ∈ es, t0 e.parent ≠ none)
    (h : setupChildFds env t0 es pipes elf = some r) (n : Nat) (hn : r.table n ≠ none) :
    n ∈ es.map (·.child) ∨ (t0 n ≠ none ∧ n ∉ es.map (·.parent)) ∨ some n ∈ r.pipes ∨ r.elf = some n := by
  have hsafe : Spec.LogSafe env := fun t n _ => by rw [hw]
  unfold setupChildFds at h
  cases h1 : preparePreservedFds env t0 es with
  | none => rw [h1] at h; cases h
  | some r1 =>
  obtain ⟨t1, es'⟩ := r1
  rw [h1] at h
  simp only at h
  obtain ⟨-, hfa, -⟩ := prepare_spec env hsafe _ t0 t0 t1 Grows.rfl' es es' [] (List.nil_append _).symm hopen h1
  have hcs : es'.map (·.child) = es.map (·.child) := fds_children_eq hfa fun _ _ h => h.1
  rw [hcs] at h
  cases h2 : avoidPipeConflicts env (es.map (·.child)) t1 pipes with
  | none => rw [h2] at h; cases h
  | some r2 =>
  obtain ⟨t2, pipes'⟩ := r2
  rw [h2] at h
  simp only at h
  have hel : ∃ t3 elf', (∀ n, t3 n ≠ none → t2 n ≠ none ∨ elf' = some n) ∧
      (match redirectFds env t3 es' with | none => none | some t => some ⟨t, pipes', elf'⟩) = some r := by
    cases elf with
    | none => exact ⟨t2, none, fun _ h => .inl h, h⟩
    | some p =>
      simp only at h
      cases he : ensureNoFdConflict env (es.map (·.child)) t2 none p (es.map (·.child)).length with
      | none => rw [he] at h; cases h
      | some r3 =>
        rw [he] at h
        exact ⟨r3.1, some r3.2, fun n hn => (ensure_open env hw _ _ _ _ _ _ _ he n hn).imp id fun h => by rw [h], h⟩
  obtain ⟨t3, elf', h3, h4⟩ := hel
  unfold redirectFds at h4
  cases h5 : redirectDup env t3 es' with
  | none => rw [h5] at h4; cases h4
  | some t4 =>
  rw [h5] at h4
  simp only [Option.some.injEq] at h4
  subst h4
  simp only at hn ⊢
  rw [redirectClose_spec, hcs] at hn
  by_cases hc : n ∈ es.map (·.child)
  · exact .inl hc
  refine .inr ?_
  split at hn
  · exact absurd rfl hn
  · rename_i hnp
    have hnp : n ∉ es'.map (·.parent) := fun hm => hnp ⟨hc, hm⟩
    rcases redirectDup_open env t3 t4 es' h5 n hn with h6 | h6
    · rcases h3 n h6 with h7 | h7
      · rcases avoid_open env hw _ t1 t2 _ _ h2 n h7 with h8 | h8
        · rcases prepare_open env hw _ t0 t1 0 es es' h1 n h8 with h9 | h9
          · refine .inl ⟨h9, fun hm => hnp ?_⟩
            obtain ⟨e, he, rfl⟩ := List.mem_map.mp hm
            obtain ⟨e', he', -, -, h10 | h10⟩ := fds_forall₂_mem_left hfa he
            · rw [← h10]; exact List.mem_map_of_mem he'
            · exact absurd h10.1 hc
          · exact absurd h9 hnp
        · exact .inr (.inl h8)
      · exact .inr (.inr h7)
    · rw [hcs] at h6; exact absurd h6 hc

theorem closeEntries_spec (inh : List Nat) (d : Nat) (t : FdTable) (es : List (Option Nat)) (n : Nat) :
    closeEntries inh d t es n = if some n ∈ es ∧ n ∉ inh ∧ n ≠ d then none else t n := by
  induction es generalizing t with
  | nil => simp [closeEntries]
  | cons e es ih =>
    cases e with
    | none => simp [closeEntries, ih]
    | some m =>
      unfold closeEntries
      rw [ih]
      by_cases hm : n = m
      · subst hm
        by_cases h1 : n ∈ inh
        · simp [h1]
        · by_cases h2 : n = d
          · simp [h2]
          · simp [h1, h2, closeFd, FdTable.set]
      · have : (if (!inh.contains m && m != d) = true then closeFd t m else t) n = t n := by
          split
          · simp [closeFd, FdTable.set, hm]
          · rfl
        rw [this]
        simp [hm]

theorem foldl_closeEnd (l : List (Option Nat)) (t : FdTable) (n : Nat) :
    l.foldl closeEnd t n = if some n ∈ l then none else t n := by
  induction l generalizing t with
  | nil => simp
  | cons a l ih =>
    rw [List.foldl_cons, ih]
    cases a with
    | none => simp [closeEnd]
    | some m =>
      by_cases hm : n = m
      · simp [hm, closeEnd, closeFd, FdTable.set]
      · simp [hm, closeEnd, closeFd, FdTable.set]

theorem closeEnd_apply (t : FdTable) (o : Option Nat) (n : Nat) : closeEnd t o n = if o = some n then none else t n := by
  have := foldl_closeEnd [o] t n
  simp only [List.foldl_cons, List.foldl_nil, List.mem_singleton] at this
  rw [this]
  simp only [eq_comm]

theorem stdDup_spec (env : FdEnv) (t t' : FdTable) (src : Option Nat) (dst : Nat) (h : stdDup env t src dst = some t') :
    (∀ n, n ≠ dst → t' n = t n) ∧ (src = none → t' = t) ∧
    ∀ p, src = some p → (p = dst ∧ t' = t) ∨ (p ≠ dst ∧ ∃ f, t p = some f ∧ t' dst = some ⟨f.file, false⟩) := by
  unfold stdDup at h
  cases src with
  | none => cases h; exact ⟨fun _ _ => rfl, fun _ => rfl, fun p h => by cases h⟩
  | some p =>
    simp only at h
    by_cases hp : p = dst
    · rw [if_pos hp] at h
      cases h
      exact ⟨fun _ _ => rfl, fun _ => rfl, fun q hq => by cases hq; exact .inl ⟨hp, rfl⟩⟩
    · rw [if_neg hp] at h
      obtain ⟨f, hf, h1, -, h3⟩ := dup2_spec env _ _ _ _ h
      exact ⟨h3, (fun h => by cases h), fun q hq => by cases hq; exact .inr ⟨hp, f, hf, h1 hp⟩⟩

end Minijail
