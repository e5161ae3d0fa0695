import Verif.Proof.OfflineTotal
import Verif.Spec.KernelCheck
/-! The kernel accepts what the offline compiler emits (C41). -/
set_option autoImplicit false
set_option linter.unusedSimpArgs false
namespace Minijail.Offline
open Spec

theorem snd_get {l : List SockFilter} (h : Snd l) {pc : Nat} {i : SockFilter} (hi : l[pc]? = some i) : okInsn i (l.length - pc - 1) := by
  induction l generalizing pc with
  | nil => simp at hi
  | cons j l ih =>
    cases pc with
    | zero =>
      simp only [List.getElem?_cons_zero, Option.some.injEq] at hi
      subst hi
      simpa using h.1
    | succ pc =>
      rw [List.getElem?_cons_succ] at hi
      have := ih h.2 hi
      rw [List.length_cons]
      rwa [show l.length + 1 - (pc + 1) - 1 = l.length - pc - 1 by omega]

theorem code_toNat {i : SockFilter} (h : Fits i) : (toInsn i).code.toNat = i.code := by
  simp only [toInsn, BitVec.toNat_ofNat]
  exact Nat.mod_eq_of_lt h.1

theorem insn_accepted {len pc : Nat} {i : SockFilter} (hf : Fits i) (h : okInsn i (len - pc - 1)) (hpc : pc < len) : insnAccepted len pc (toInsn i) := by
  have hk : (toInsn i).k.toNat = i.k := by simp only [toInsn, BitVec.toNat_ofNat]; exact Nat.mod_eq_of_lt hf.2.2.2
  have ht : (toInsn i).jt.toNat = i.jt := by simp only [toInsn, BitVec.toNat_ofNat]; exact Nat.mod_eq_of_lt hf.2.1
  have hj : (toInsn i).jf.toNat = i.jf := by simp only [toInsn, BitVec.toNat_ofNat]; exact Nat.mod_eq_of_lt hf.2.2.1
  unfold insnAccepted
  rw [code_toNat hf]
  rcases h with ⟨e, h1, h2⟩ | ⟨e, h1⟩ | e | ⟨⟨op, e⟩, h1, h2⟩
  · rw [e]; exact ⟨by rw [hk]; exact h2, by rw [hk]; exact h1⟩
  · rw [e]; show (toInsn i).k.toNat < len - pc - 1; rw [hk]; exact h1
  · rw [e]; exact trivial
  · rw [e]
    have : pc + (toInsn i).jt.toNat + 1 < len ∧ pc + (toInsn i).jf.toNat + 1 < len := by rw [ht, hj]; omega
    cases op <;> exact this

theorem loads_accepted {l : List SockFilter} (hf : ∀ i ∈ l, Fits i) (h : Snd l) : ∀ memvalid masks, loadsAccepted (l.map toInsn) memvalid masks := by
  induction l with
  | nil => intro _ _; exact trivial
  | cons i l ih =>
    intro memvalid masks
    have ih := ih (fun j hj => hf j (List.mem_cons_of_mem _ hj)) h.2
    rw [List.map_cons, loadsAccepted]
    rw [code_toNat (hf i (List.mem_cons_self ..))]
    rcases h.1 with ⟨e, -⟩ | ⟨e, -⟩ | e | ⟨⟨op, e⟩, -⟩
    · rw [e]; exact ih _ _
    · rw [e]; exact ih _ _
    · rw [e]; exact ih _ _
    · rw [e]; cases op <;> exact ih _ _

theorem kernel_accepts {l : List SockFilter} (hf : ∀ i ∈ l, Fits i) (h : Done l) (hl : l.length ≤ 4096) : KernelAccepts (l.map toInsn) := by
  obtain ⟨h1, i, h2, h3⟩ := h
  refine ⟨?_, by rw [List.length_map]; exact hl, ?_, ⟨toInsn i, by rw [List.getLast?_map, h2]; rfl, ?_⟩, loads_accepted hf h1 _ _⟩
  · intro e
    rw [List.map_eq_nil_iff.1 e] at h2
    simp at h2
  · intro pc j hj
    rw [List.getElem?_map, Option.map_eq_some_iff] at hj
    obtain ⟨i, hi, rfl⟩ := hj
    obtain ⟨q, -⟩ := List.getElem?_eq_some_iff.1 hi
    rw [List.length_map]
    exact insn_accepted (hf i (List.mem_of_getElem? hi)) (snd_get h1 hi) q
  · rw [code_toNat (hf i (List.mem_of_getLast? h2)), h3]
    rfl

end Minijail.Offline
