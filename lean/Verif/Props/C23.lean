import Verif.Proof.FdsClosed
/-! C23: with `close_open_fds` only the allowed descriptors survive. -/
set_option linter.unusedSimpArgs false
set_option autoImplicit false
namespace Minijail

/-- **C23**: when `/proc/self/fd` lists every open descriptor, then after closing, a descriptor is what it was if it is in the
list of descriptors to keep, and closed otherwise. `d` is the descriptor that reading the directory used. -/
theorem C23_exact (t : FdTable) (d : Nat) (f : OpenFile) (entries : List (Option Nat)) (inheritable : List Nat) (t' : FdTable)
    (hd : t d = none) (hlist : ∀ n, t n ≠ none → some n ∈ entries) (h : closeOpenFds t (some (d, f)) entries inheritable = some t') :
    ∀ n, t' n = if n ∈ inheritable then t n else none := by
  intro n
  simp only [closeOpenFds, Option.some.injEq] at h
  subst h
  unfold closeFd
  by_cases hnd : n = d
  · subst hnd; simp [FdTable.set, hd]
  · simp only [FdTable.set, hnd, if_false]
    rw [closeEntries_spec]
    simp only [FdTable.set, hnd, if_false]
    by_cases hi : n ∈ inheritable
    · simp [hi]
    · by_cases ho : t n = none
      · simp [hi, ho]
      · simp [hi, hlist n ho, hnd]

/-- **C23**: if the directory cannot be read, the process dies. -/
theorem C23_unreadable (t : FdTable) (entries : List (Option Nat)) (inheritable : List Nat) :
    closeOpenFds t none entries inheritable = none := rfl

/-- **C23**: the list of descriptors to keep fits the array made for it (libminijail.c:3897-3898), for up to 128 preserved
descriptors. -/
theorem C23_array (s : RunPipes) (es : List FdMap) (elf : Option Nat) (h : es.length ≤ 128) :
    (inheritableFds s.ends es elf).length ≤ 11 + 128 := by
  unfold inheritableFds
  simp only [List.length_append, List.length_map]
  have h1 := List.length_filterMap_le (id : Option Nat → Option Nat) s.ends
  have h2 : s.ends.length = 10 := rfl
  have h3 : elf.toList.length ≤ 1 := by cases elf <;> simp
  omega

/-- **C23**, the whole way from `fork` to `execve`: the program finds no open descriptor but the requested child fds, standard
streams that were requested as pipes, the configuration pipe and its own file. -/
theorem C23_program (env : FdEnv) (hw : ∀ t, env.warn t = t) (t : FdTable) (d : Nat) (f : OpenFile) (entries : List (Option Nat))
    (es : List FdMap) (s : RunPipes) (elf : Option Nat) (r : ChildFds) (hd : t d = none)
    (hlist : ∀ n, t n ≠ none → some n ∈ entries)
    (hopen : ∀ e ∈ es, t e.parent ≠ none) (hpipe : ∀ p, some p ∈ s.ends → t p ≠ none) (helf : ∀ p, elf = some p → t p ≠ none)
    (h : childFdsAtExec env t (some (d, f)) entries es s elf = some r) (n : Nat) (hn : r.table n ≠ none) :
    n ∈ es.map (·.child) ∨ (n = 0 ∧ s.stdin.1 ≠ none) ∨ (n = 1 ∧ s.stdout.2 ≠ none) ∨ (n = 2 ∧ s.stderr.2 ≠ none) ∨
      r.pipes = [some n] ∨ r.elf = some n := by
  have hsafe : Spec.LogSafe env := fun t n _ => by rw [hw]
  unfold childFdsAtExec childFdsSetup at h
  cases h0 : closeOpenFds t (some (d, f)) entries (inheritableFds s.ends es elf) with
  | none => rw [h0] at h; cases h
  | some t0 =>
  rw [h0] at h
  have hx := C23_exact t d f entries _ t0 hd hlist h0
  have hopen0 : ∀ e ∈ es, t0 e.parent ≠ none := fun e he => by
    rw [hx, if_pos]
    · exact hopen e he
    · unfold inheritableFds; simp only [List.mem_append]; exact .inl (.inr (List.mem_map_of_mem he))
  have hpipe0 : ∀ p, some p ∈ s.ends → t0 p ≠ none := fun p hp => by
    rw [hx, if_pos]
    · exact hpipe p hp
    · unfold inheritableFds
      simp only [List.mem_append]
      exact .inl (.inl (List.mem_filterMap.mpr ⟨some p, hp, rfl⟩))
  have helf0 : ∀ p, elf = some p → t0 p ≠ none := fun p hp => by
    rw [hx, if_pos]
    · exact helf p hp
    · subst hp; unfold inheritableFds; simp
  simp only at h
  cases h1 : setupChildFds env t0 es s.ends elf with
  | none => rw [h1] at h; cases h
  | some r1 =>
  have hsp := setup_spec env hsafe t0 es s.ends elf r1 hopen0 hpipe0 helf0 h1
  have hop := setup_open env hw t0 es s.ends elf r1 hopen0 h1
  obtain ⟨t1, ps, elf1⟩ := r1
  have hlen : ps.length = 10 := hsp.2.2.2.2.1.length_eq.symm
  rw [h1] at h
  simp only at hsp hop
  obtain ⟨c0, c1, s0, s1, i0, i1, o0, o1, e0, e1, rfl⟩ : ∃ c0 c1 s0 s1 i0 i1 o0 o1 e0 e1,
      ps = [c0, c1, s0, s1, i0, i1, o0, o1, e0, e1] := by
    match ps, hlen with
    | [c0, c1, s0, s1, i0, i1, o0, o1, e0, e1], _ => exact ⟨c0, c1, s0, s1, i0, i1, o0, o1, e0, e1, rfl⟩
  simp only at h
  have hf := hsp.2.2.2.2.1
  have hnone : ∀ q q' : Option Nat, (match q, q' with
      | none, none => True
      | some p, some p' => (p ∉ es.map (·.parent) → Spec.SameFile t1 p' t0 p) ∧ p' ∉ es.map (·.child) ∧
        (p ∉ es.map (·.child) → p' = p)
      | _, _ => False) → q' ≠ none → q ≠ none := by
    rintro (_ | q) (_ | q') hq hq'
    · exact hq'
    · exact hq.elim
    · simp
    · simp
  unfold RunPipes.ends at hf
  cases hf with | cons f0 hf =>
  cases hf with | cons f1 hf =>
  cases hf with | cons f2 hf =>
  cases hf with | cons f3 hf =>
  cases hf with | cons f4 hf =>
  cases hf with | cons f5 hf =>
  cases hf with | cons f6 hf =>
  cases hf with | cons f7 hf =>
  cases hf with | cons f8 hf =>
  cases hf with | cons f9 hf =>
  unfold setupChildStdFds at h
  cases g0 : stdDup env (closeEnd (closeEnd t1 s1) s0) i0 0 with
  | none => simp only [g0] at h; cases h
  | some u0 =>
  simp only [g0] at h
  cases g1 : stdDup env u0 o1 1 with
  | none => simp only [g1] at h; cases h
  | some u1 =>
  simp only [g1] at h
  cases g2 : stdDup env u1 e1 2 with
  | none => simp only [g2] at h; cases h
  | some u2 =>
  simp only [g2, Option.some.injEq] at h
  subst h
  simp only at hn ⊢
  rw [closeEnd_apply, foldl_closeEnd] at hn
  have n1 : c1 ≠ some n := fun hc => by simp [hc] at hn
  rw [if_neg n1] at hn
  have n2 : some n ∉ [i0, i1, o0, o1, e0, e1] := fun hc => by rw [if_pos hc] at hn; exact hn rfl
  rw [if_neg n2] at hn
  obtain ⟨k0, k0', -⟩ := stdDup_spec env _ _ _ _ g0
  obtain ⟨k1, k1', -⟩ := stdDup_spec env _ _ _ _ g1
  obtain ⟨k2, k2', -⟩ := stdDup_spec env _ _ _ _ g2
  -- either a standard stream, or open before
  have hcase : (n = 0 ∧ s.stdin.1 ≠ none) ∨ (n = 1 ∧ s.stdout.2 ≠ none) ∨ (n = 2 ∧ s.stderr.2 ≠ none) ∨
      closeEnd (closeEnd t1 s1) s0 n ≠ none := by
    by_cases z2 : n = 2 ∧ e1 ≠ none
    · exact .inr (.inr (.inl ⟨z2.1, hnone _ _ f9 z2.2⟩))
    · have : u2 n = u1 n := by
        by_cases hn2 : n = 2
        · rw [k2' (by by_contra hc; exact z2 ⟨hn2, hc⟩)]
        · exact k2 n hn2
      rw [this] at hn
      by_cases z1 : n = 1 ∧ o1 ≠ none
      · exact .inr (.inl ⟨z1.1, hnone _ _ f7 z1.2⟩)
      · have : u1 n = u0 n := by
          by_cases hn1 : n = 1
          · rw [k1' (by by_contra hc; exact z1 ⟨hn1, hc⟩)]
          · exact k1 n hn1
        rw [this] at hn
        by_cases z0 : n = 0 ∧ i0 ≠ none
        · exact .inl ⟨z0.1, hnone _ _ f4 z0.2⟩
        · have : u0 n = closeEnd (closeEnd t1 s1) s0 n := by
            by_cases hn0 : n = 0
            · rw [k0' (by by_contra hc; exact z0 ⟨hn0, hc⟩)]
            · exact k0 n hn0
          rw [this] at hn
          exact .inr (.inr (.inr hn))
  rcases hcase with hc | hc | hc | hc
  · exact .inr (.inl hc)
  · exact .inr (.inr (.inl hc))
  · exact .inr (.inr (.inr (.inl hc)))
  rw [closeEnd_apply, closeEnd_apply] at hc
  have n3 : s0 ≠ some n := fun h => by simp [h] at hc
  rw [if_neg n3] at hc
  have n4 : s1 ≠ some n := fun h => by simp [h] at hc
  rw [if_neg n4] at hc
  have hpipes : some n ∈ [c0, c1, s0, s1, i0, i1, o0, o1, e0, e1] → [c0] = [some n] := by
    intro hm
    simp only [List.mem_cons, List.not_mem_nil, or_false, not_or] at hm n2
    rcases hm with h | h | h | h | h | h | h | h | h | h
    · rw [h]
    · exact absurd h.symm n1
    · exact absurd h.symm n3
    · exact absurd h.symm n4
    · exact absurd h n2.1
    · exact absurd h n2.2.1
    · exact absurd h n2.2.2.1
    · exact absurd h n2.2.2.2.1
    · exact absurd h n2.2.2.2.2.1
    · exact absurd h n2.2.2.2.2.2
  rcases hop n hc with h | ⟨h, hp⟩ | h | h
  · exact .inl h
  · -- open before and no parent fd: a pipe end or the program's file, and not moved unless it is a child fd
    by_cases hcs : n ∈ es.map (·.child)
    · exact .inl hcs
    · rw [hx] at h
      have hin : n ∈ inheritableFds s.ends es elf := by
        by_contra hc
        rw [if_neg hc] at h
        exact h rfl
      unfold inheritableFds at hin
      simp only [List.mem_append, List.mem_filterMap, id_eq, exists_eq_right] at hin
      rcases hin with (hin | hin) | hin
      · obtain ⟨q, hq, hr⟩ := fds_forall₂_mem_left hsp.2.2.2.2.1 hin
        cases q with
        | none => exact hr.elim
        | some p' =>
          simp only at hr
          rw [hr.2.2 hcs] at hq
          exact .inr (.inr (.inr (.inr (.inl (hpipes hq)))))
      · exact absurd hin hp
      · have he : elf = some n := by simpa [Option.mem_toList] using hin
        have hs2 := hsp.2.2.2.2.2
        subst he
        cases elf1 with
        | none => exact hs2.elim
        | some p' =>
          simp only at hs2
          rw [hs2.2.2 hcs]
          exact .inr (.inr (.inr (.inr (.inr rfl))))
  · exact .inr (.inr (.inr (.inr (.inl (hpipes h)))))
  · exact .inr (.inr (.inr (.inr (.inr h))))

/-- **C23** with C22, the whole way from `fork` to `execve`: each requested child fd that no pipe takes as a standard stream is the file its
parent fd was, and the program inherits it. -/
theorem C23_requested (env : FdEnv) (hw : Spec.LogSafe env) (t : FdTable) (d : Nat) (f : OpenFile) (entries : List (Option Nat))
    (es : List FdMap) (s : RunPipes) (elf : Option Nat) (r : ChildFds) (hd : t d = none)
    (hlist : ∀ n, t n ≠ none → some n ∈ entries)
    (hopen : ∀ e ∈ es, t e.parent ≠ none) (hpipe : ∀ p, some p ∈ s.ends → t p ≠ none) (helf : ∀ p, elf = some p → t p ≠ none)
    (h : childFdsAtExec env t (some (d, f)) entries es s elf = some r) (e : FdMap) (he : e ∈ es)
    (hstd : (e.child = 0 → s.stdin.1 = none) ∧ (e.child = 1 → s.stdout.2 = none) ∧ (e.child = 2 → s.stderr.2 = none)) :
    Spec.SameFile r.table e.child t e.parent ∧ Spec.Inherited r.table e.child := by
  unfold childFdsAtExec childFdsSetup at h
  cases h0 : closeOpenFds t (some (d, f)) entries (inheritableFds s.ends es elf) with
  | none => rw [h0] at h; cases h
  | some t0 =>
  rw [h0] at h
  have hx := C23_exact t d f entries _ t0 hd hlist h0
  have heq : ∀ e ∈ es, t0 e.parent = t e.parent := fun e he => by
    rw [hx, if_pos]
    unfold inheritableFds; simp only [List.mem_append]; exact .inl (.inr (List.mem_map_of_mem he))
  have hopen0 : ∀ e ∈ es, t0 e.parent ≠ none := fun e he => by rw [heq e he]; exact hopen e he
  have hpipe0 : ∀ p, some p ∈ s.ends → t0 p ≠ none := fun p hp => by
    rw [hx, if_pos]
    · exact hpipe p hp
    · unfold inheritableFds
      simp only [List.mem_append]
      exact .inl (.inl (List.mem_filterMap.mpr ⟨some p, hp, rfl⟩))
  have helf0 : ∀ p, elf = some p → t0 p ≠ none := fun p hp => by
    rw [hx, if_pos]
    · exact helf p hp
    · subst hp; unfold inheritableFds; simp
  simp only at h
  cases h1 : setupChildFds env t0 es s.ends elf with
  | none => rw [h1] at h; cases h
  | some r1 =>
  have hsp := setup_spec env hw t0 es s.ends elf r1 hopen0 hpipe0 helf0 h1
  obtain ⟨t1, ps, elf1⟩ := r1
  have hlen : ps.length = 10 := hsp.2.2.2.2.1.length_eq.symm
  rw [h1] at h
  simp only at hsp
  obtain ⟨c0, c1, s0, s1, i0, i1, o0, o1, e0, e1, rfl⟩ : ∃ c0 c1 s0 s1 i0 i1 o0 o1 e0 e1,
      ps = [c0, c1, s0, s1, i0, i1, o0, o1, e0, e1] := by
    match ps, hlen with
    | [c0, c1, s0, s1, i0, i1, o0, o1, e0, e1], _ => exact ⟨c0, c1, s0, s1, i0, i1, o0, o1, e0, e1, rfl⟩
  simp only at h
  have hf := hsp.2.2.2.2.1
  have hnone : ∀ q q' : Option Nat, (match q, q' with
      | none, none => True
      | some p, some p' => (p ∉ es.map (·.parent) → Spec.SameFile t1 p' t0 p) ∧ p' ∉ es.map (·.child) ∧
        (p ∉ es.map (·.child) → p' = p)
      | _, _ => False) → q = none → q' = none := by
    rintro (_ | q) (_ | q') hq hq'
    · rfl
    · exact hq.elim
    · cases hq'
    · cases hq'
  have hnot : ∀ q' ∈ [c0, c1, s0, s1, i0, i1, o0, o1, e0, e1], q' ≠ some e.child := by
    rintro q' hq' rfl
    obtain ⟨q, -, hr⟩ := fds_forall₂_mem_right hf hq'
    cases q with
    | none => exact hr
    | some p => exact hr.2.1 (List.mem_map_of_mem he)
  have same := hsp.2.1 e he
  unfold RunPipes.ends at hf
  cases hf with | cons f0 hf =>
  cases hf with | cons f1 hf =>
  cases hf with | cons f2 hf =>
  cases hf with | cons f3 hf =>
  cases hf with | cons f4 hf =>
  cases hf with | cons f5 hf =>
  cases hf with | cons f6 hf =>
  cases hf with | cons f7 hf =>
  cases hf with | cons f8 hf =>
  cases hf with | cons f9 hf =>
  unfold setupChildStdFds at h
  cases g0 : stdDup env (closeEnd (closeEnd t1 s1) s0) i0 0 with
  | none => simp only [g0] at h; cases h
  | some u0 =>
  simp only [g0] at h
  cases g1 : stdDup env u0 o1 1 with
  | none => simp only [g1] at h; cases h
  | some u1 =>
  simp only [g1] at h
  cases g2 : stdDup env u1 e1 2 with
  | none => simp only [g2] at h; cases h
  | some u2 =>
  simp only [g2, Option.some.injEq] at h
  obtain ⟨k0, k0', -⟩ := stdDup_spec env _ _ _ _ g0
  obtain ⟨k1, k1', -⟩ := stdDup_spec env _ _ _ _ g1
  obtain ⟨k2, k2', -⟩ := stdDup_spec env _ _ _ _ g2
  have x2 : u2 e.child = u1 e.child := by
    by_cases hc : e.child = 2
    · rw [k2' (hnone _ _ f9 (hstd.2.2 hc))]
    · exact k2 _ hc
  have x1 : u1 e.child = u0 e.child := by
    by_cases hc : e.child = 1
    · rw [k1' (hnone _ _ f7 (hstd.2.1 hc))]
    · exact k1 _ hc
  have x0 : u0 e.child = closeEnd (closeEnd t1 s1) s0 e.child := by
    by_cases hc : e.child = 0
    · rw [k0' (hnone _ _ f4 (hstd.1 hc))]
    · exact k0 _ hc
  have hnot6 : some e.child ∉ [i0, i1, o0, o1, e0, e1] := fun hm =>
    hnot _ (List.mem_of_mem_drop (i := 4) (l := [c0, c1, s0, s1, i0, i1, o0, o1, e0, e1]) hm) rfl
  have heq1 : r.table e.child = t1 e.child := by
    rw [← h]
    simp only
    rw [closeEnd_apply, if_neg (hnot c1 (by simp)), foldl_closeEnd, if_neg hnot6, x2, x1, x0, closeEnd_apply, if_neg (hnot s0 (by simp)), closeEnd_apply, if_neg (hnot s1 (by simp))]
  unfold Spec.SameFile Spec.Inherited at same ⊢
  rw [heq1, ← heq e he]
  exact same

/-- The descriptors in the example: 0 to 15 are open. -/
def exampleTable23 : FdTable := fun n => if n ≤ 15 then some ⟨100 + n, false⟩ else none

/-- The hypotheses are met: 3 and 4 are kept as 4 and 0, stdout goes to a pipe, all else is closed. -/
example : (match childFdsAtExec ⟨fun _ _ => false, id⟩ exampleTable23 (some (16, ⟨0, true⟩))
      (none :: none :: (List.range 17).map some) [⟨3, 4⟩, ⟨4, 0⟩] ⟨(some 5, some 6), (some 7, some 8), (none, none), (some 9, some 10), (none, none)⟩
      (some 11) with
    | none => none
    | some r => some ((List.range 17).map fun n => (r.table n).map (·.file), r.pipes, r.elf)) =
    some ([some 104, some 110, none, none, some 103, some 105, none, none, none, none, none, some 111, none, none, none, none, none],
      [some 5], some 11) := by
  decide +kernel

end Minijail
