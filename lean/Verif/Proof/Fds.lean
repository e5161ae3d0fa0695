import Verif.Spec.Fds
import Mathlib.Data.List.Nodup
import Mathlib.Data.List.Forall2
import Mathlib.Tactic.SplitIfs
/-! Lemmas about the setup of descriptors in the child. -/
set_option linter.unusedSimpArgs false
set_option autoImplicit false
namespace Minijail

/-- Every open descriptor of `t` is the same in `t'`. -/
def Grows (t t' : FdTable) : Prop := ∀ n, t n ≠ none → t' n = t n

theorem Grows.rfl' {t : FdTable} : Grows t t := fun _ _ => rfl

theorem Grows.trans {t t' t'' : FdTable} (h : Grows t t') (h' : Grows t' t'') : Grows t t'' := by
  intro n hn
  rw [h' n (by rw [h n hn]; exact hn), h n hn]

theorem isPreservedChildFd_iff {cs : List Nat} {fd i : Nat} : isPreservedChildFd cs fd i = true ↔ fd ∈ cs.take i := by
  unfold isPreservedChildFd
  rw [List.contains_iff_mem]
  by_cases h : i ≤ cs.length
  · rw [Nat.min_eq_left h]
  · rw [Nat.min_eq_right (by omega), List.take_length, List.take_of_length_le (by omega)]

theorem isPreservedChildFd_all {cs : List Nat} {fd : Nat} : isPreservedChildFd cs fd cs.length = true ↔ fd ∈ cs := by
  rw [isPreservedChildFd_iff, List.take_length]

theorem findUnused_spec (cs : List Nat) (t : FdTable) (n fd : Nat) (h : findUnused cs t n = some fd) : fd ∉ cs ∧ t fd = none := by
  induction n with
  | zero =>
    unfold findUnused at h
    split at h
    · cases h
    · rename_i hc
      cases h
      simp only [Bool.or_eq_true, not_or, isPreservedChildFd_all, fdIsOpen] at hc
      exact ⟨hc.1, by simpa using hc.2⟩
  | succ n ih =>
    unfold findUnused at h
    split at h
    · exact ih h
    · rename_i hc
      cases h
      simp only [Bool.or_eq_true, not_or, isPreservedChildFd_all, fdIsOpen] at hc
      exact ⟨hc.1, by simpa using hc.2⟩

theorem dup2_spec (env : FdEnv) (t t' : FdTable) (old new : Nat) (h : dup2 env t old new = some t') :
    ∃ f, t old = some f ∧ (old ≠ new → t' new = some ⟨f.file, false⟩) ∧ (old = new → t' = t) ∧ ∀ n, n ≠ new → t' n = t n := by
  unfold dup2 at h
  cases ho : t old with
  | none => rw [ho] at h; cases h
  | some f =>
    rw [ho] at h
    simp only at h
    split_ifs at h with h1 h2
    · cases h; exact ⟨f, rfl, fun h => absurd h2 h, fun _ => rfl, fun _ _ => rfl⟩
    · cases h
      refine ⟨f, rfl, fun _ => by simp [FdTable.set], fun h => absurd h h2, fun n hn => by simp [FdTable.set, hn]⟩

/-- What `ensure_no_fd_conflict` achieves. -/
theorem ensure_spec (env : FdEnv) (hw : Spec.LogSafe env) (cs : List Nat) (t t' : FdTable) (child : Option Nat) (p p' i : Nat)
    (f : OpenFile) (hp : t p = some f) (h : ensureNoFdConflict env cs t child p i = some (t', p')) :
    Grows t t' ∧ (∃ g, t' p' = some g ∧ g.file = f.file) ∧
      ((p' = p ∧ p ∉ cs.take i) ∨ (p ∈ cs.take i ∧ t p' = none ∧ (p' ∉ cs ∨ child = some p'))) := by
  unfold ensureNoFdConflict at h
  split_ifs at h with hc
  · cases h
    refine ⟨Grows.rfl', ⟨f, hp, rfl⟩, .inl ⟨rfl, fun hm => ?_⟩⟩
    rw [isPreservedChildFd_iff.mpr hm] at hc
    cases hc
  · have hin : p ∈ cs.take i := by
      rw [← isPreservedChildFd_iff]
      simpa using hc
    have key : ∀ fd, t fd = none → (fd ∉ cs ∨ child = some fd) →
        (match dup2 env t p fd with | none => none | some t => some (env.warn t, fd)) = some (t', p') →
        Grows t t' ∧ (∃ g, t' p' = some g ∧ g.file = f.file) ∧
      ((p' = p ∧ p ∉ cs.take i) ∨ (p ∈ cs.take i ∧ t p' = none ∧ (p' ∉ cs ∨ child = some p'))) := by
      intro fd hfd hcs h
      cases hd : dup2 env t p fd with
      | none => rw [hd] at h; cases h
      | some t1 =>
        rw [hd] at h
        cases h
        obtain ⟨f', hf', h1, h2, h3⟩ := dup2_spec env t t1 p p' hd
        rw [hp] at hf'
        cases hf'
        have hne : p ≠ p' := by rintro rfl; rw [hp] at hfd; cases hfd
        refine ⟨?_, ⟨⟨f.file, false⟩, ?_, rfl⟩, .inr ⟨hin, hfd, hcs⟩⟩
        · intro n hn
          have hnp : n ≠ p' := by rintro rfl; exact hn hfd
          rw [hw t1 n (by rw [h3 n hnp]; exact hn), h3 n hnp]
        · rw [hw t1 p' (by rw [h1 hne]; simp), h1 hne]
    have unused : ∀ fd, findUnused cs t 1023 = some fd → t fd = none ∧ (fd ∉ cs ∨ child = some fd) := fun fd hfd => by
      have := findUnused_spec cs t 1023 fd hfd
      exact ⟨this.2, .inl this.1⟩
    cases child with
    | none =>
      simp only at h
      cases hu : findUnused cs t 1023 with
      | none => rw [hu] at h; cases h
      | some fd => rw [hu] at h; exact key fd (unused fd hu).1 (unused fd hu).2 h
    | some c =>
      simp only at h
      by_cases ho : fdIsOpen t c = true
      · rw [if_pos ho] at h
        cases hu : findUnused cs t 1023 with
        | none => rw [hu] at h; cases h
        | some fd => rw [hu] at h; exact key fd (unused fd hu).1 (unused fd hu).2 h
      · rw [if_neg ho] at h
        exact key c (by simpa [fdIsOpen] using ho) (.inr rfl) h

theorem Grows.none {t t' : FdTable} (h : Grows t t') {n : Nat} (hn : t' n = none) : t n = none := by
  by_contra hc
  rw [h n hc] at hn
  exact hc hn

/-- What `prepare_preserved_fds` achieves, from index `pre.length` on; `t0` is the table before the first step. -/
theorem prepare_spec (env : FdEnv) (hw : Spec.LogSafe env) (cs : List Nat) (t0 t t' : FdTable) (h0 : Grows t0 t) (es es' : List FdMap)
    (pre : List Nat) (hcs : cs = pre ++ es.map (·.child)) (hp : ∀ e ∈ es, t0 e.parent ≠ none)
    (h : prepareFrom env cs t pre.length es = some (t', es')) :
    Grows t t' ∧ List.Forall₂ (fun e e' => e'.child = e.child ∧ Spec.SameFile t' e'.parent t0 e.parent ∧
      (e'.parent = e.parent ∨ e.parent ∈ cs ∧ t0 e'.parent = none)) es es' ∧
      (∀ a e b, es' = a ++ e :: b → e.child ∉ pre ++ a.map (·.child) ∧ e.parent ∉ pre ++ a.map (·.child)) := by
  induction es generalizing t pre es' with
  | nil => cases h; exact ⟨Grows.rfl', .nil, fun a e b h => by simp at h⟩
  | cons e es ih =>
    unfold prepareFrom at h
    split_ifs at h with hdup
    cases he : ensureNoFdConflict env cs t (some e.child) e.parent pre.length with
    | none => rw [he] at h; cases h
    | some r =>
      obtain ⟨t1, p1⟩ := r
      rw [he] at h
      simp only at h
      cases hr : prepareFrom env cs t1 (pre.length + 1) es with
      | none => rw [hr] at h; cases h
      | some r =>
        obtain ⟨t2, es2⟩ := r
        rw [hr] at h
        cases h
        cases hf : t0 e.parent with
        | none => exact absurd hf (hp e (by simp))
        | some f =>
        have hft : t e.parent = some f := by rw [h0 _ (by rw [hf]; simp)]; exact hf
        obtain ⟨hg, ⟨g, hg1, hg2⟩, hpos⟩ := ensure_spec env hw cs t t1 (some e.child) e.parent p1 pre.length f hft he
        have htake : cs.take pre.length = pre := by rw [hcs]; simp
        rw [isPreservedChildFd_iff, htake] at hdup
        rw [htake] at hpos
        obtain ⟨ih1, ih2, ih3⟩ := ih t1 (h0.trans hg) es2 (pre ++ [e.child]) (by rw [hcs]; simp)
          (fun x hx => hp x (by simp [hx]))
          (by rw [List.length_append]; exact hr)
        refine ⟨hg.trans ih1, .cons ⟨rfl, ⟨g, f, ?_, hf, hg2⟩, ?_⟩ ih2, ?_⟩
        · rw [ih1 p1 (by rw [hg1]; simp)]; exact hg1
        · rcases hpos with ⟨h1, -⟩ | ⟨hin, h1, -⟩
          · exact .inl h1
          · exact .inr ⟨by rw [hcs]; simp [hin], h0.none h1⟩
        · intro a x b hab
          cases a with
          | nil =>
            simp only [List.nil_append, List.cons.injEq] at hab
            obtain ⟨rfl, -⟩ := hab
            simp only [List.map_nil, List.append_nil]
            refine ⟨hdup, ?_⟩
            rcases hpos with ⟨h1, h2⟩ | ⟨-, h1, h2⟩
            · rw [h1]; exact h2
            · rcases h2 with h2 | h2
              · intro hm; exact h2 (by rw [hcs]; simp [hm])
              · cases h2; exact hdup
          | cons y a =>
            simp only [List.cons_append, List.cons.injEq] at hab
            obtain ⟨rfl, hab⟩ := hab
            have := ih3 a x b hab
            simpa [List.append_assoc] using this

/-- What `avoid_pipe_conflicts` achieves. -/
theorem avoid_spec (env : FdEnv) (hw : Spec.LogSafe env) (cs : List Nat) (t0 t t' : FdTable) (h0 : Grows t0 t) (ps ps' : List (Option Nat))
    (hp : ∀ p, some p ∈ ps → t0 p ≠ none) (h : avoidPipeConflicts env cs t ps = some (t', ps')) :
    Grows t t' ∧ List.Forall₂ (fun q q' => match q, q' with
      | none, none => True
      | some p, some p' => Spec.SameFile t' p' t0 p ∧ p' ∉ cs ∧ (p' = p ∨ p ∈ cs ∧ t p' = none)
      | _, _ => False) ps ps' := by
  induction ps generalizing t ps' with
  | nil => cases h; exact ⟨Grows.rfl', .nil⟩
  | cons q ps ih =>
    cases q with
    | none =>
      unfold avoidPipeConflicts at h
      cases hr : avoidPipeConflicts env cs t ps with
      | none => rw [hr] at h; cases h
      | some r =>
        rw [hr] at h
        cases h
        obtain ⟨h1, h2⟩ := ih t h0 r.2 (fun p hp' => hp p (by simp [hp'])) hr
        exact ⟨h1, .cons trivial h2⟩
    | some p =>
      unfold avoidPipeConflicts at h
      cases he : ensureNoFdConflict env cs t none p cs.length with
      | none => rw [he] at h; cases h
      | some r =>
        obtain ⟨t1, p1⟩ := r
        rw [he] at h
        simp only at h
        cases hr : avoidPipeConflicts env cs t1 ps with
        | none => rw [hr] at h; cases h
        | some r =>
          rw [hr] at h
          cases h
          cases hf : t0 p with
          | none => exact absurd hf (hp p (by simp))
          | some f =>
          have hft : t p = some f := by rw [h0 _ (by rw [hf]; simp)]; exact hf
          obtain ⟨hg, ⟨g, hg1, hg2⟩, hpos⟩ := ensure_spec env hw cs t t1 none p p1 cs.length f hft he
          rw [List.take_length] at hpos
          obtain ⟨ih1, ih2⟩ := ih t1 (h0.trans hg) r.2 (fun p hp' => hp p (by simp [hp'])) hr
          refine ⟨hg.trans ih1, .cons ⟨⟨g, f, ?_, hf, hg2⟩, ?_, ?_⟩ (ih2.imp ?_)⟩
          · rw [ih1 p1 (by rw [hg1]; simp)]; exact hg1
          · rcases hpos with ⟨h1, h2⟩ | ⟨-, h1, h2 | h2⟩
            · rw [h1]; exact h2
            · exact h2
            · cases h2
          · exact hpos.imp (·.1) fun h => ⟨h.1, h.2.1⟩
          · intro q q' hq
            cases q <;> cases q' <;> simp only at hq ⊢
            exact ⟨hq.1, hq.2.1, hq.2.2.imp id fun h => ⟨h.1, hg.none h.2⟩⟩

/-- What the first loop of `redirect_fds` achieves. -/
theorem redirectDup_spec (env : FdEnv) (t t' : FdTable) (es : List FdMap) (hn : (es.map (·.child)).Nodup)
    (hpar : ∀ a e b, es = a ++ e :: b → e.parent ∉ a.map (·.child)) (h : redirectDup env t es = some t')
    (hopen : ∀ e ∈ es, t e.parent ≠ none) :
    (∀ e ∈ es, ∃ f, t e.parent = some f ∧ t' e.child = some ⟨f.file, false⟩) ∧ ∀ n, n ∉ es.map (·.child) → t' n = t n := by
  induction es generalizing t with
  | nil => cases h; exact ⟨by simp, fun _ _ => rfl⟩
  | cons e es ih =>
    have hstep : ∃ t1 f, t e.parent = some f ∧ t1 e.child = some ⟨f.file, false⟩ ∧ (∀ n, n ≠ e.child → t1 n = t n) ∧
        redirectDup env t1 es = some t' := by
      unfold redirectDup at h
      cases hf : t e.parent with
      | none => exact absurd hf (hopen e (by simp))
      | some f =>
        split_ifs at h with heq
        · rw [← heq, hf] at h
          simp only at h
          refine ⟨_, f, rfl, ?_, ?_, h⟩
          · simp [FdTable.set, heq]
          · intro n hne; simp [FdTable.set, heq, hne]
        · cases hd : dup2 env t e.parent e.child with
          | none => rw [hd] at h; cases h
          | some t1 =>
            rw [hd] at h
            obtain ⟨f', hf', h1, -, h3⟩ := dup2_spec env t t1 _ _ hd
            rw [hf] at hf'
            cases hf'
            exact ⟨t1, f, rfl, h1 heq, h3, h⟩
    obtain ⟨t1, f, hf, hc, ho, hr⟩ := hstep
    simp only [List.map_cons, List.nodup_cons] at hn
    have hne : ∀ x ∈ es, x.parent ≠ e.child := by
      intro x hx
      obtain ⟨a, b, rfl⟩ := List.append_of_mem hx
      have := hpar (e :: a) x b rfl
      simp only [List.map_cons, List.mem_cons, not_or] at this
      exact this.1
    obtain ⟨ih1, ih2⟩ := ih t1 hn.2 (fun a x b hab => by
        have := hpar (e :: a) x b (by rw [hab]; rfl)
        simp only [List.map_cons, List.mem_cons, not_or] at this
        exact this.2) hr (fun x hx => by rw [ho _ (hne x hx)]; exact hopen x (by simp [hx]))
    refine ⟨?_, ?_⟩
    · intro x hx
      rcases List.mem_cons.mp hx with rfl | hx
      · exact ⟨f, hf, by rw [ih2 _ hn.1]; exact hc⟩
      · obtain ⟨g, hg, hg'⟩ := ih1 x hx
        exact ⟨g, by rw [← ho _ (hne x hx)]; exact hg, hg'⟩
    · intro n hnn
      simp only [List.map_cons, List.mem_cons, not_or] at hnn
      rw [ih2 n hnn.2, ho n hnn.1]

/-- What the second loop of `redirect_fds` achieves. -/
theorem redirectClose_spec (cs : List Nat) (t : FdTable) (es : List FdMap) (n : Nat) :
    redirectClose cs t es n = if n ∉ cs ∧ n ∈ es.map (·.parent) then none else t n := by
  induction es generalizing t with
  | nil => simp [redirectClose]
  | cons e es ih =>
    unfold redirectClose
    rw [ih]
    by_cases hc : isPreservedChildFd cs e.parent cs.length = true
    · rw [if_pos hc]
      rw [isPreservedChildFd_all] at hc
      by_cases hn : n ∈ cs
      · simp [hn]
      · have : n ≠ e.parent := by rintro rfl; exact hn hc
        simp [hn, this]
    · rw [if_neg hc]
      rw [isPreservedChildFd_all] at hc
      by_cases hne : n = e.parent
      · subst hne
        simp [hc, closeFd, FdTable.set]
      · simp [closeFd, FdTable.set, hne]

end Minijail
