import Verif.Proof.Resolve
import Verif.Spec.Labels
/-! C06: label resolution sends every jump to its label, or fails. -/
set_option linter.unusedSimpArgs false
set_option autoImplicit false
namespace Minijail

private theorem resolveFrom_complete (count : Nat) (p : List Insn) : ∀ off, off + p.length < 2 ^ 32 - 1 →
    (∀ (i : Nat) (l : BitVec 32), p[i]? = some (bpfJumpLbl l) → l.toNat < count) →
    (∀ (i : Nat) (l : BitVec 32), p[i]? = some (bpfJumpLbl l) → ∃ j, i < j ∧ p[j]? = some (bpfLbl l)) →
    (∀ (i : Nat) (l : BitVec 32), p[i]? = some (bpfLbl l) → l.toNat < count) →
    (∀ (i j : Nat) (l : BitVec 32), p[i]? = some (bpfLbl l) → p[j]? = some (bpfLbl l) → i = j) →
    ∃ q loc, resolveFrom count off p = .ok (q, loc) := by
  induction p with
  | nil => intro off _ _ _ _ _; exact ⟨[], Locs.init, rfl⟩
  | cons i p ih =>
    intro off hlen hjk hf hlk hu
    simp only [List.length_cons] at hlen
    obtain ⟨q, loc, hq⟩ := ih (off + 1) (by omega)
      (fun i l h => hjk (i + 1) l (by simpa using h))
      (fun i l h => by
        obtain ⟨j, hj, hp⟩ := hf (i + 1) l (by simpa using h)
        cases j with
        | zero => omega
        | succ j => exact ⟨j, by omega, by simpa using hp⟩)
      (fun i l h => hlk (i + 1) l (by simpa using h))
      (fun i j l h1 h2 => by
        have := hu (i + 1) (j + 1) l (by simpa using h1) (by simpa using h2); omega)
    have R := resolveFrom_spec count p (off + 1) q loc (by omega) hq
    have key : ∃ x, resolveStep count off i loc = .ok x := by
      rcases insn_cases i with ⟨l, rfl⟩ | ⟨l, rfl⟩ | ⟨hj, hl⟩
      · rw [resolveStep_jump]
        have h1 := hjk 0 l (by simp)
        obtain ⟨j, hj, hp⟩ := hf 0 l (by simp)
        cases j with
        | zero => omega
        | succ j =>
          rw [List.getElem?_cons_succ] at hp
          have h2 := ((R.locs l j).1 hp)
          have h3 : loc l.toNat ≠ NOLOC := by
            rw [h2.1]; exact ofNat_ne_noloc (by omega)
          rw [if_neg (by omega), if_neg h3]
          exact ⟨_, rfl⟩
      · rw [resolveStep_label]
        have h1 := hlk 0 l (by simp)
        have h3 : loc l.toNat = NOLOC := by
          rcases R.range l.toNat with h' | ⟨j, hj, h'⟩
          · exact h'
          · have h4 := (R.locs l j).2 ⟨h', hj⟩
            have := hu 0 (j + 1) l (by simp) (by simpa using h4)
            omega
        rw [if_neg (by omega), if_neg (by simpa using h3)]
        exact ⟨_, rfl⟩
      · rw [resolveStep_other _ _ _ _ hj hl]
        exact ⟨_, rfl⟩
    obtain ⟨⟨i', loc'⟩, hx⟩ := key
    exact ⟨i' :: q, loc', by simp [resolveFrom, hq, hx]⟩

private theorem resolveFrom_no_ub (count : Nat) (p : List Insn) : ∀ off,
    (∀ (i : Nat) (l : BitVec 32), p[i]? = some (bpfLbl l) → l.toNat < count) →
    resolveFrom count off p ≠ .ub ∧ resolveFrom count off p ≠ .die := by
  induction p with
  | nil => intro off _; simp [resolveFrom]
  | cons i p ih =>
    intro off hlk
    have h := ih (off + 1) (fun i l h => hlk (i + 1) l (by simpa using h))
    simp only [resolveFrom]
    cases hr : resolveFrom count (off + 1) p with
    | ub => exact absurd hr h.1
    | die => exact absurd hr h.2
    | fail => simp
    | ok x =>
      obtain ⟨q, loc⟩ := x
      simp only [Res.bind_ok]
      rcases insn_cases i with ⟨l, rfl⟩ | ⟨l, rfl⟩ | ⟨hj, hl⟩
      · rw [resolveStep_jump]; split
        · simp
        · split <;> simp
      · rw [resolveStep_label, if_neg (by have := hlk 0 l (by simp); omega)]
        split <;> simp
      · rw [resolveStep_other _ _ _ _ hj hl]; simp

/-- Soundness: when resolution succeeds, the result is the program with all jumps landing on the
definitions of their labels; all symbolic jumps are forward and to unique labels. -/
theorem C06_resolve_sound (count : Nat) (p q : List Insn) (h : bpfResolveJumps count p = .ok q) :
    Spec.ResolvesTo p q ∧ Spec.Resolvable count p := by
  unfold bpfResolveJumps at h
  split at h
  · simp at h
  · next hl =>
    simp only [Res.bind_eq_ok] at h
    obtain ⟨⟨q', loc⟩, h1, h2⟩ := h
    simp only [Res.pure_eq, Res.ok.injEq] at h2
    subst h2
    simp only [BPF_MAXINSNS] at hl
    have hl' : 0 + p.length < 2 ^ 32 - 1 := by omega
    have R := resolveFrom_spec count p 0 q' loc hl' h1
    have lt_of {i : Nat} {x : Insn} (h : p[i]? = some x) : i < p.length := by
      by_contra hc
      rw [List.getElem?_eq_none (by omega)] at h
      simp at h
    constructor
    · constructor
      · exact R.len
      · intro i l hi
        obtain ⟨_, n, hn1, hn2⟩ := R.jumps i l hi
        have := lt_of hn1
        exact ⟨n, by omega, hn1, hn2⟩
      · intro i l hi; exact (R.labels i l hi).1
      · intro i x hi hj hlb; exact R.other i x hi hj hlb
    · constructor
      · omega
      · intro i l hi; exact (R.jumps i l hi).1
      · intro i l hi
        obtain ⟨_, n, hn1, hn2⟩ := R.jumps i l hi
        exact ⟨i + 1 + n, by omega, hn1⟩
      · intro i l hi; exact (R.labels i l hi).2
      · intro i j l hi hj; exact R.label_unique hl' hi hj

/-- Completeness: resolution succeeds exactly on the resolvable programs, so duplicate labels, missing
labels, backward jumps and programs over 4096 instructions are never accepted, and nothing else is refused. -/
theorem C06_resolve_iff (count : Nat) (p : List Insn) :
    (∃ q, bpfResolveJumps count p = .ok q) ↔ Spec.Resolvable count p := by
  constructor
  · rintro ⟨q, h⟩; exact (C06_resolve_sound count p q h).2
  · intro H
    have hs := H.short
    obtain ⟨q, loc, hq⟩ := resolveFrom_complete count p 0 (by omega) H.jumpKnown H.forward H.labelKnown H.unique
    refine ⟨q, ?_⟩
    unfold bpfResolveJumps
    rw [if_neg (by simp only [BPF_MAXINSNS]; omega), hq]
    rfl

/-- As long as all defined labels are in the table, resolution stays inside the table: it succeeds or
reports an error. -/
theorem C06_resolve_safe (count : Nat) (p : List Insn)
    (hk : ∀ (i : Nat) (l : BitVec 32), p[i]? = some (Spec.labelDef l) → l.toNat < count) :
    (∃ q, bpfResolveJumps count p = .ok q) ∨ bpfResolveJumps count p = .fail := by
  have h := resolveFrom_no_ub count p 0 hk
  unfold bpfResolveJumps
  split
  · simp
  · cases hr : resolveFrom count 0 p with
    | ub => exact absurd hr h.1
    | die => exact absurd hr h.2
    | fail => simp
    | ok x => simp

/-- Two crossing jumps and two labels: the hypotheses of the three theorems are met. -/
example : bpfResolveJumps 2 [Spec.jumpTo 1, Spec.jumpTo 0, Spec.labelDef 1, ⟨0x06, 0, 0, 7⟩, Spec.labelDef 0,
      ⟨0x06, 0, 0, 9⟩] =
    .ok [Spec.skipOver 1, Spec.skipOver 2, Spec.skipOver 0, ⟨0x06, 0, 0, 7⟩, Spec.skipOver 0, ⟨0x06, 0, 0, 9⟩] := by
  rfl

/-- A backward jump is refused. -/
example : bpfResolveJumps 1 [Spec.labelDef 0, Spec.jumpTo 0] = .fail := by rfl

end Minijail
