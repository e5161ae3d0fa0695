import Verif.Model.StartedFds
import Verif.Proof.RunParent
import Verif.Proof.FdsSetup
import Verif.Proof.FdsClosed
import Verif.Props.C46
import Verif.Props.C23
import Mathlib.Data.List.Perm.Subperm
import Mathlib.Data.List.Range
/-! Standard streams of a program that was started. -/
set_option autoImplicit false
set_option linter.unusedSimpArgs false
namespace Minijail
open Spec

theorem findUnused_all (cs : List Nat) (t : FdTable) (k n : Nat) (h : findUnused cs t k = some n) : n ≤ k ∧ ∀ m, n < m → m ≤ k → m ∈ cs ∨ t m ≠ none := by
  induction k with
  | zero =>
    unfold findUnused at h
    split_ifs at h
    cases h
    exact ⟨Nat.le_refl _, fun m h1 h2 => by omega⟩
  | succ k ih =>
    unfold findUnused at h
    split_ifs at h with hc
    · obtain ⟨i1, i2⟩ := ih h
      refine ⟨by omega, fun m h1 h2 => ?_⟩
      by_cases hm : m = k + 1
      · subst hm
        simp only [isPreservedChildFd, fdIsOpen, Nat.min_self, List.take_length, Bool.or_eq_true, List.contains_iff_mem] at hc
        rcases hc with hc | hc
        · exact .inl hc
        · exact .inr (by intro h0; rw [h0] at hc; cases hc)
      · exact i2 m h1 (by omega)
    · cases h
      exact ⟨Nat.le_refl _, fun m h1 h2 => by omega⟩

/-- Not many numbers are in use, so that one near 1023 is found. -/
theorem findUnused_far (cs L : List Nat) (t : FdTable) (hL : ∀ n, t n ≠ none → n ∈ L) (k n : Nat) (h : findUnused cs t k = some n) :
    k ≤ n + (L.length + cs.length) := by
  obtain ⟨h1, h2⟩ := findUnused_all cs t k n h
  have hsub : List.range' (n + 1) (k - n) ⊆ L ++ cs := by
    intro m hm
    simp only [List.mem_range'_1] at hm
    rcases h2 m (by omega) (by omega) with h | h
    · exact List.mem_append_right _ h
    · exact List.mem_append_left _ (hL m h)
  have := ((List.nodup_range' (step := 1) (by decide)).subperm hsub).length_le
  simp only [List.length_range', List.length_append] at this
  omega

theorem ensure_far (env : FdEnv) (hw : ∀ t, env.warn t = t) (cs L : List Nat) (t t' : FdTable) (p p' i : Nat) (hL : ∀ n, t n ≠ none → n ∈ L)
    (h : ensureNoFdConflict env cs t none p i = some (t', p')) : p' = p ∨ 1023 ≤ p' + (L.length + cs.length) := by
  unfold ensureNoFdConflict at h
  split at h
  · cases h; exact .inl rfl
  · dsimp only at h
    split at h
    · cases h
    · rename_i fd hfd
      split at h
      · cases h
      · cases h
        exact .inr (findUnused_far cs L t hL _ _ hfd)

theorem avoid_far (env : FdEnv) (hw : ∀ t, env.warn t = t) (cs L : List Nat) (t t' : FdTable) (ps ps' : List (Option Nat)) (hL : ∀ n, t n ≠ none → n ∈ L)
    (h : avoidPipeConflicts env cs t ps = some (t', ps')) (p' : Nat) (hp : some p' ∈ ps') :
    some p' ∈ ps ∨ 1023 ≤ p' + (L.length + ps.length + cs.length) := by
  induction ps generalizing t ps' L with
  | nil => cases h; exact .inl hp
  | cons q ps ih =>
    cases q with
    | none =>
      unfold avoidPipeConflicts at h
      cases hr : avoidPipeConflicts env cs t ps with
      | none => rw [hr] at h; cases h
      | some r =>
        obtain ⟨u, qs⟩ := r
        rw [hr] at h
        cases h
        rcases List.mem_cons.1 hp with hp | hp
        · cases hp
        · rcases ih L t qs hL hr hp with h | h
          · exact .inl (List.mem_cons_of_mem _ h)
          · right; simp only [List.length_cons]; omega
    | some q =>
      unfold avoidPipeConflicts at h
      cases he : ensureNoFdConflict env cs t none q cs.length with
      | none => rw [he] at h; cases h
      | some r0 =>
        obtain ⟨u, q'⟩ := r0
        rw [he] at h
        simp only at h
        cases hr : avoidPipeConflicts env cs u ps with
        | none => rw [hr] at h; cases h
        | some r =>
          obtain ⟨v, qs⟩ := r
          rw [hr] at h
          cases h
          rcases List.mem_cons.1 hp with hp | hp
          · cases hp
            rcases ensure_far env hw cs L t u q p' _ hL he with rfl | h
            · exact .inl List.mem_cons_self
            · right; omega
          · have hL' : ∀ n, u n ≠ none → n ∈ q' :: L := by
              intro n hn
              rcases ensure_open env hw cs t u none q q' _ he n hn with h | h
              · exact List.mem_cons_of_mem _ (hL n h)
              · rw [h]; exact List.mem_cons_self
            rcases ih (q' :: L) u qs hL' hr hp with h | h
            · exact .inl (List.mem_cons_of_mem _ h)
            · right; simp only [List.length_cons] at h ⊢; omega

theorem setup_far (env : FdEnv) (hw : ∀ t, env.warn t = t) (L : List Nat) (t : FdTable) (es : List FdMap) (pipes : List (Option Nat)) (elf : Option Nat) (r : ChildFds)
    (hL : ∀ n, t n ≠ none → n ∈ L) (hopen : ∀ e ∈ es, t e.parent ≠ none) (h : setupChildFds env t es pipes elf = some r) (p' : Nat) (hp : some p' ∈ r.pipes) :
    some p' ∈ pipes ∨ 1023 ≤ p' + (L.length + 2 * es.length + pipes.length) := by
  have hsafe : Spec.LogSafe env := fun t n _ => by rw [hw]
  unfold setupChildFds at h
  cases h1 : preparePreservedFds env t es with
  | none => rw [h1] at h; cases h
  | some r1 =>
  obtain ⟨t1, es'⟩ := r1
  rw [h1] at h
  simp only at h
  obtain ⟨-, hfa, -⟩ := prepare_spec env hsafe _ t t t1 Grows.rfl' es es' [] (List.nil_append _).symm hopen h1
  have hlen : es'.length = es.length := hfa.length_eq.symm
  have hL1 : ∀ n, t1 n ≠ none → n ∈ L ++ es'.map (·.parent) := by
    intro n hn
    rcases prepare_open env hw _ t t1 0 es es' h1 n hn with h | h
    · exact List.mem_append_left _ (hL n h)
    · exact List.mem_append_right _ h
  cases h2 : avoidPipeConflicts env (es'.map (·.child)) t1 pipes with
  | none => rw [h2] at h; cases h
  | some r2 =>
  obtain ⟨t2, pipes'⟩ := r2
  rw [h2] at h
  simp only at h
  have hr : r.pipes = pipes' := by
    split at h
    · cases h
    · split at h
      · cases h
      · cases h; rfl
  rw [hr] at hp
  rcases avoid_far env hw _ _ t1 t2 pipes pipes' hL1 h2 p' hp with h | h
  · exact .inl h
  · right
    simp only [List.length_append, List.length_map, hlen] at h
    omega

/-- How an end of a pipe is moved. -/
def MovedEnd (t t1 : FdTable) (es : List FdMap) (q q' : Option Nat) : Prop :=
  match q, q' with
  | none, none => True
  | some p, some p' => (p ∉ es.map (·.parent) → Spec.SameFile t1 p' t p) ∧ p' ∉ es.map (·.child) ∧ (p ∉ es.map (·.child) → p' = p)
  | _, _ => False

theorem MovedEnd.move {t t1 : FdTable} {es : List FdMap} {q q' : Option Nat} (h : MovedEnd t t1 es q q') {p : Nat} (hp : q = some p) (hs : p ∉ es.map (·.parent)) :
    ∃ p', q' = some p' ∧ SameFile t1 p' t p ∧ (p ∉ es.map (·.child) → p' = p) := by
  subst hp
  cases q' with
  | none => exact h.elim
  | some p' => exact ⟨p', rfl, h.1 hs, h.2.2⟩

theorem MovedEnd.back {t t1 : FdTable} {es : List FdMap} {q q' : Option Nat} (h : MovedEnd t t1 es q q') {p' : Nat} (hp : q' = some p') : ∃ p, q = some p := by
  subst hp
  cases q with
  | none => exact h.elim
  | some p => exact ⟨p, rfl⟩

/-- The standard streams of a program that was started are the pipes, and it has no other descriptor for an end of them. -/
theorem childFdsSetup_streams (env : FdEnv) (hw : ∀ t, env.warn t = t) (L : List Nat) (t : FdTable) (es : List FdMap) (s : RunPipes) (elf : Option Nat) (r : ChildFds)
    (hL : ∀ n, t n ≠ none → n ∈ L) (hfew : L.length + 2 * es.length ≤ 1010)
    (hopen : ∀ e ∈ es, t e.parent ≠ none) (hpipe : ∀ p, some p ∈ s.ends → t p ≠ none) (helf : ∀ p, elf = some p → t p ≠ none)
    (hsep : ∀ p, some p ∈ s.ends → p ∉ es.map (·.parent)) (helfsep : ∀ p, elf = some p → p ∉ es.map (·.parent) ∧ some p ∉ s.ends)
    (hbig : ∀ p, some p ∈ s.ends → 2 < p) (hnd : (s.ends.filterMap id).Nodup)
    (hfile : ∀ p n f g, some p ∈ s.ends → t p = some f → t n = some g → f.file = g.file → n = p)
    (h : childFdsSetup env t es s elf = some r) :
    ((∀ p, s.stdin.1 = some p → SameFile r.table 0 t p ∧ Inherited r.table 0) ∧ (∀ p, s.stdout.2 = some p → SameFile r.table 1 t p ∧ Inherited r.table 1) ∧
      (∀ p, s.stderr.2 = some p → SameFile r.table 2 t p ∧ Inherited r.table 2)) ∧
    ∀ p n, some p ∈ s.ends.drop 4 → SameFile r.table n t p → (n = 0 ∧ s.stdin.1 = some p) ∨ (n = 1 ∧ s.stdout.2 = some p) ∨ (n = 2 ∧ s.stderr.2 = some p) := by
  have hsafe : Spec.LogSafe env := fun t n _ => by rw [hw]
  unfold childFdsSetup at h
  cases h1 : setupChildFds env t es s.ends elf with
  | none => rw [h1] at h; cases h
  | some r1 =>
  have hsp := setup_spec env hsafe t es s.ends elf r1 hopen hpipe helf h1
  have hfar := setup_far env hw L t es s.ends elf r1 hL hopen h1
  have hop := setup_open env hw t es s.ends elf r1 hopen h1
  have hbig' : ∀ p', some p' ∈ r1.pipes → 2 < p' := by
    intro p' hp
    rcases hfar p' hp with h | h
    · exact hbig p' h
    · have : s.ends.length = 10 := rfl
      omega
  obtain ⟨t1, ps, elf1⟩ := r1
  have hlen : ps.length = 10 := hsp.2.2.2.2.1.length_eq.symm
  rw [h1] at h
  simp only at hsp hbig' hop
  obtain ⟨c0, c1, s0, s1, i0, i1, o0, o1, e0, e1, rfl⟩ : ∃ c0 c1 s0 s1 i0 i1 o0 o1 e0 e1, ps = [c0, c1, s0, s1, i0, i1, o0, o1, e0, e1] := by
    match ps, hlen with
    | [c0, c1, s0, s1, i0, i1, o0, o1, e0, e1], _ => exact ⟨c0, c1, s0, s1, i0, i1, o0, o1, e0, e1, rfl⟩
  simp only at h
  have hf : List.Forall₂ (MovedEnd t t1 es) s.ends [c0, c1, s0, s1, i0, i1, o0, o1, e0, e1] := hsp.2.2.2.2.1
  have helf' : MovedEnd t t1 es elf elf1 := by
    have h9 := hsp.2.2.2.2.2
    unfold MovedEnd
    cases elf <;> cases elf1 <;> exact h9
  have hfa := hf
  unfold RunPipes.ends at hf
  cases hf with | cons f0 hf =>
  cases hf with | cons f1 hf =>
  cases hf with | cons f2 hf =>
  cases hf with | cons f3 hf =>
  cases hf with | cons f4 hf =>
  cases hf with | cons f5 hf =>
  cases hf with | cons f6 hf =>
  cases hf with | cons f7 hf =>
  cases hf with | cons f8 hf =>
  cases hf with | cons f9 hf =>
  cases g : setupChildStdFds env (closeEnd (closeEnd t1 s1) s0) (i0, i1) (o0, o1) (e0, e1) with
  | none => simp only [g] at h; cases h
  | some u =>
  simp only [g, Option.some.injEq] at h
  obtain ⟨k0, k1, k2, k3⟩ := C46_partial env _ _ _ _ _ (by
    intro p hp
    exact hbig' p (List.mem_of_mem_drop (i := 4) (l := [c0, c1, s0, s1, i0, i1, o0, o1, e0, e1]) hp)) g
  have m0 : s.config.1 ∈ s.ends := by simp [RunPipes.ends]
  have m1 : s.config.2 ∈ s.ends := by simp [RunPipes.ends]
  have m2 : s.sync.1 ∈ s.ends := by simp [RunPipes.ends]
  have m3 : s.sync.2 ∈ s.ends := by simp [RunPipes.ends]
  have m4 : s.stdin.1 ∈ s.ends := by simp [RunPipes.ends]
  have m7 : s.stdout.2 ∈ s.ends := by simp [RunPipes.ends]
  have m9 : s.stderr.2 ∈ s.ends := by simp [RunPipes.ends]
  have hdrop : ∀ p, some p ∈ s.ends.drop 4 → some p ∈ s.ends := fun p hp => List.mem_of_mem_drop hp
  -- the ends of the other two pipes are others
  have other : ∀ p, some p ∈ s.ends.drop 4 → some p ≠ s.config.1 ∧ some p ≠ s.config.2 ∧ some p ≠ s.sync.1 ∧ some p ≠ s.sync.2 := by
    intro p hp
    have hsplit : s.ends.filterMap id = [s.config.1, s.config.2, s.sync.1, s.sync.2].filterMap id ++ (s.ends.drop 4).filterMap id := by
      rw [← List.filterMap_append]; rfl
    rw [hsplit] at hnd
    have hdis := (List.nodup_append.1 hnd).2.2
    have hp' : p ∈ (s.ends.drop 4).filterMap id := List.mem_filterMap.2 ⟨some p, hp, rfl⟩
    have no : ∀ q, q ∈ [s.config.1, s.config.2, s.sync.1, s.sync.2] → some p ≠ q := by
      intro q hq hc
      subst hc
      exact hdis p (List.mem_filterMap.2 ⟨some p, hq, rfl⟩) p hp' rfl
    exact ⟨no _ (by simp), no _ (by simp), no _ (by simp), no _ (by simp)⟩
  -- a moved end for `p` comes from `p`
  have from' : ∀ q q', MovedEnd t t1 es q q' → q ∈ s.ends → ∀ n p, some p ∈ s.ends → q' = some n → SameFile t1 n t p → q = some p := by
    intro q q' hq hm n p hp hn hs
    obtain ⟨z, rfl⟩ := hq.back hn
    obtain ⟨z', hz, ⟨f', g', hf', hg', hfg'⟩, -⟩ := hq.move rfl (hsep z hm)
    rw [hn] at hz
    cases hz
    obtain ⟨f, g, hf, hg, hfg⟩ := hs
    rw [hf'] at hf
    cases hf
    rw [hfile p z g g' hp hg hg' (hfg.symm.trans hfg')]
  have keep : ∀ p p', some p ∈ s.ends.drop 4 → SameFile t1 p' t p → closeEnd (closeEnd t1 s1) s0 p' = t1 p' := by
    intro p p' hp hs
    obtain ⟨-, -, n2, n3⟩ := other p hp
    rw [closeEnd_apply, if_neg (fun hc => n2 (from' _ _ f2 m2 _ p (hdrop p hp) hc hs).symm), closeEnd_apply, if_neg (fun hc => n3 (from' _ _ f3 m3 _ p (hdrop p hp) hc hs).symm)]
  have fin : ∀ n, n ≤ 2 → r.table n = u n := by
    intro n hn
    rw [← h]
    simp only
    rw [closeEnd_apply, if_neg]
    intro hc
    have := hbig' n (by simp [hc])
    omega
  have join : ∀ n q q', n ≤ 2 → MovedEnd t t1 es q q' → q ∈ s.ends.drop 4 → StreamIs u n (closeEnd (closeEnd t1 s1) s0) q' →
      ∀ p, q = some p → SameFile r.table n t p ∧ Inherited r.table n := by
    intro n q q' hn hq hm hs p hp
    subst hp
    obtain ⟨p', rfl, hsame, -⟩ := hq.move rfl (hsep p (hdrop p hm))
    obtain ⟨⟨f, g, hf, hg, hfg⟩, hinh⟩ := hs
    rw [keep p p' hm hsame] at hg
    obtain ⟨f', g', hf', hg', hfg'⟩ := hsame
    rw [hf'] at hg
    cases hg
    unfold SameFile Inherited
    rw [fin n hn]
    exact ⟨⟨f, g', hf, hg', hfg.trans hfg'⟩, hinh⟩
  have A0 := join 0 _ _ (by omega) f4 (by simp [RunPipes.ends]) k0
  have A1 := join 1 _ _ (by omega) f7 (by simp [RunPipes.ends]) k1
  have A2 := join 2 _ _ (by omega) f9 (by simp [RunPipes.ends]) k2
  -- which descriptors are for an end of a pipe
  have claim : ∀ p n, some p ∈ s.ends → SameFile t1 n t p → some n ∈ [c0, c1, s0, s1, i0, i1, o0, o1, e0, e1] := by
    intro p n hp hs
    have hs' := hs
    obtain ⟨f, g, hf, hg, hfg⟩ := hs
    by_cases hc : n ∈ es.map (·.child)
    · exfalso
      obtain ⟨e, he, rfl⟩ := List.mem_map.1 hc
      obtain ⟨⟨f', g', hf', hg', hfg'⟩, -⟩ := hsp.2.1 e he
      rw [hf] at hf'
      cases hf'
      exact hsep p hp (by rw [← hfile p e.parent g g' hp hg hg' (hfg.symm.trans hfg')]; exact List.mem_map_of_mem he)
    · rcases hop n (by rw [hf]; simp) with h | h | h | h
      · exact absurd h hc
      · have := hsp.2.2.2.1 n h.1 hc h.2
        rw [hf] at this
        have hnp : n = p := hfile p n g f hp hg this.symm hfg.symm
        subst hnp
        have all : ∀ (l l' : List (Option Nat)), List.Forall₂ (MovedEnd t t1 es) l l' → some n ∈ l → some n ∈ l' := by
          intro l l' hl
          induction hl with
          | nil => intro h; cases h
          | @cons a b l l' hab _ ih =>
            intro hm
            rcases List.mem_cons.1 hm with hm | hm
            · obtain ⟨p', hp', -, heq⟩ := hab.move hm.symm (hsep n hp)
              rw [hp', heq hc]
              exact List.mem_cons_self
            · exact List.mem_cons_of_mem _ (ih hm)
        exact all _ _ hfa hp
      · exact h
      · exfalso
        obtain ⟨z, hz⟩ := helf'.back h
        obtain ⟨z', hz', ⟨f', g', hf', hg', hfg'⟩, -⟩ := helf'.move hz (helfsep z hz).1
        rw [h] at hz'
        cases hz'
        rw [hf] at hf'
        cases hf'
        have := hfile p z g g' hp hg hg' (hfg.symm.trans hfg')
        subst this
        exact (helfsep z hz).2 hp
  refine ⟨⟨A0, A1, A2⟩, ?_⟩
  intro p n hp hs
  have hpe := hdrop p hp
  obtain ⟨n0, n1, n2, n3⟩ := other p hp
  have low : ∀ n q q', n ≤ 2 → MovedEnd t t1 es q q' → q ∈ s.ends → StreamIs u n (closeEnd (closeEnd t1 s1) s0) q' →
      (∀ p, q = some p → SameFile r.table n t p ∧ Inherited r.table n) → SameFile r.table n t p → q = some p := by
    intro n q q' hn hq hm hst hq0 ⟨f, g, hf, hg, hfg⟩
    cases hqv : q with
    | some z =>
      obtain ⟨⟨f', g', hf', hg', hfg'⟩, -⟩ := hq0 z hqv
      rw [hf] at hf'
      cases hf'
      rw [hfile p z g g' hpe hg hg' (hfg.symm.trans hfg')]
    | none =>
      exfalso
      subst hqv
      cases q' with
      | some z => exact hq
      | none =>
        have hst' : u n = closeEnd (closeEnd t1 s1) s0 n := hst
        rw [fin n hn, hst', closeEnd_apply] at hf
        split at hf
        · cases hf
        · rw [closeEnd_apply] at hf
          split at hf
          · cases hf
          · have := hbig' n (claim p n hpe ⟨f, g, hf, hg, hfg⟩)
            omega
  by_cases hn : 2 < n
  · exfalso
    obtain ⟨f, g, hf, hg, hfg⟩ := hs
    rw [← h] at hf
    simp only at hf
    rw [closeEnd_apply] at hf
    split at hf
    · cases hf
    · rename_i hc1
      rw [k3 n hn] at hf
      split at hf
      · cases hf
      · rename_i h6
        rw [closeEnd_apply] at hf
        split at hf
        · cases hf
        · rename_i hs0
          rw [closeEnd_apply] at hf
          split at hf
          · cases hf
          · rename_i hs1
            have hs : SameFile t1 n t p := ⟨f, g, hf, hg, hfg⟩
            have hm := claim p n hpe hs
            simp only [List.mem_cons, List.not_mem_nil, or_false] at hm h6
            rcases hm with hm | hm | hm | hm | hm
            · exact n0 (from' _ _ f0 m0 n p hpe hm.symm hs).symm
            · exact hc1 hm.symm
            · exact hs0 hm.symm
            · exact hs1 hm.symm
            · exact h6 hm
  · have : n = 0 ∨ n = 1 ∨ n = 2 := by omega
    rcases this with rfl | rfl | rfl
    · exact .inl ⟨rfl, low 0 _ _ (by omega) f4 m4 k0 A0 hs⟩
    · exact .inr (.inl ⟨rfl, low 1 _ _ (by omega) f7 m7 k1 A1 hs⟩)
    · exact .inr (.inr ⟨rfl, low 2 _ _ (by omega) f9 m9 k2 A2 hs⟩)

end Minijail
