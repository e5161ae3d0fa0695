import Verif.Spec.KernelCheck
import Mathlib.Tactic.SplitIfs
/-! A program that the kernel accepts always returns a verdict. -/
set_option linter.unusedSimpArgs false
set_option autoImplicit false
namespace Minijail

/-- The scratch words in `mask` are written. -/
def Written (r : Regs) (mask : BitVec 16) : Prop := ∀ k, mask.getLsbD k = true → (r.m k).isSome

theorem Written.and_left {r : Regs} {a b : BitVec 16} (h : Written r a) : Written r (a &&& b) := by
  intro k hk; simp at hk; exact h k hk.1

theorem load_some (be : Bool) (d : SeccompData) (k : Nat) (h : k % 4 = 0) (h' : k < 64) : ∃ w, d.load be k = some w := by
  unfold SeccompData.load
  rw [if_pos h]
  have : (d.words be).length = 16 := by cases be <;> rfl
  exact ⟨_, List.getElem?_eq_getElem (by omega)⟩

/-- Inclusion of masks. -/
def MSub (a b : BitVec 16) : Prop := ∀ k, a.getLsbD k = true → b.getLsbD k = true

theorem Written.mono {r : Regs} {a b : BitVec 16} (h : Written r b) (hab : MSub a b) : Written r a :=
  fun k hk => h k (hab k hk)

theorem msub_and_left (a b : BitVec 16) : MSub (a &&& b) a := by intro k hk; simp at hk; exact hk.1
theorem msub_and_right (a b : BitVec 16) : MSub (a &&& b) b := by intro k hk; simp at hk; exact hk.2
theorem MSub.refl (a : BitVec 16) : MSub a a := fun _ h => h
theorem MSub.trans {a b c : BitVec 16} (h : MSub a b) (h' : MSub b c) : MSub a c := fun k hk => h' k (h k hk)

theorem landMask_sub (mv n f m) : MSub (Spec.andAt mv n f m) (f m) := by
  unfold Spec.andAt; split
  · exact msub_and_left _ _
  · exact MSub.refl _

theorem landMask_at (mv n f) : MSub (Spec.andAt mv n f n) mv := by
  unfold Spec.andAt; rw [if_pos rfl]; exact msub_and_right _ _

open Spec in
theorem loads_tail (i : Insn) (rest : List Insn) (mv : BitVec 16) (masks : Nat → BitVec 16)
    (h : loadsAccepted (i :: rest) mv masks) :
    ∃ mv' masks', loadsAccepted rest mv' masks' ∧ ∀ n, MSub (masks' n) (masks (n + 1)) := by
  simp only [loadsAccepted] at h
  split at h
  · exact ⟨_, _, h, fun n => MSub.refl _⟩
  · exact ⟨_, _, h.2, fun n => MSub.refl _⟩
  · exact ⟨_, _, h, fun n => landMask_sub _ _ _ _⟩
  · exact ⟨_, _, h, fun n => (landMask_sub _ _ _ _).trans (landMask_sub _ _ _ _)⟩
  · exact ⟨_, _, h, fun n => (landMask_sub _ _ _ _).trans (landMask_sub _ _ _ _)⟩
  · exact ⟨_, _, h, fun n => (landMask_sub _ _ _ _).trans (landMask_sub _ _ _ _)⟩
  · exact ⟨_, _, h, fun n => (landMask_sub _ _ _ _).trans (landMask_sub _ _ _ _)⟩
  · exact ⟨_, _, h, fun n => MSub.refl _⟩

open Spec in
/-- Execution of the accepted rest of a program, `n` instructions to skip. -/
theorem exec_accepted (be : Bool) (d : SeccompData) (p : List Insn) : ∀ (n : Nat) (r : Regs) (mv : BitVec 16)
    (masks : Nat → BitVec 16) (len pc : Nat), n < p.length → len = pc + p.length →
    (∀ j i, p[j]? = some i → insnAccepted len (pc + j) i) → (∃ i, p.getLast? = some i ∧ i.code.toNat = 0x06) →
    loadsAccepted p mv masks → (n = 0 → Written r (mv &&& masks 0)) → (n ≠ 0 → Written r (masks n)) →
    ∃ v, exec be d p n r = .ret v := by
  induction p with
  | nil => intro n r mv masks len pc hn; simp at hn
  | cons i rest ih =>
    intro n r mv masks len pc hn hlen hins hlast hload h0 h1
    have hlast' : rest ≠ [] → ∃ i, rest.getLast? = some i ∧ i.code.toNat = 0x06 := by
      intro hr
      obtain ⟨x, hx, hc⟩ := hlast
      refine ⟨x, ?_, hc⟩
      rw [List.getLast?_cons_of_ne_nil hr] at hx; exact hx
    have hins' : ∀ j i', rest[j]? = some i' → insnAccepted len (pc + 1 + j) i' := by
      intro j i' hj
      have := hins (j + 1) i' (by simpa using hj)
      rwa [show pc + (j + 1) = pc + 1 + j by omega] at this
    simp only [List.length_cons] at hn hlen
    have hI := hins 0 i (by simp)
    simp only [Nat.add_zero] at hI
    have hrest : i.code.toNat ≠ 0x06 → rest ≠ [] := by
      intro hc hr
      subst hr
      obtain ⟨x, hx, hc'⟩ := hlast
      simp at hx
      subst hx
      exact hc hc'
    have hpos : rest ≠ [] → 0 < rest.length := List.length_pos_iff.2
    cases n with
    | succ n =>
      rw [exec]
      have hne : rest ≠ [] := by rintro rfl; simp at hn
      have H := h1 (by omega)
      obtain ⟨mv', masks', hl, hm⟩ := loads_tail _ _ _ _ hload
      refine ih n r mv' masks' len (pc + 1) (by omega) (by omega) hins' (hlast' hne) hl ?_ ?_
      · intro hn; subst hn
        exact (H.mono (hm 0)).mono (msub_and_right _ _)
      · intro _; exact H.mono (hm n)
    | zero =>
      have H := h0 rfl
      clear h0 h1
      have hne := hrest
      clear hrest
      simp only [loadsAccepted] at hload
      unfold insnAccepted at hI
      rw [exec]
      generalize i.code.toNat = c at *
      have hjmp : ∀ m mvj mj, m < rest.length → loadsAccepted rest mvj mj → MSub (mj m) (mv &&& masks 0) →
          ∃ v, exec be d rest m r = .ret v := by
        intro m mvj mj hm hl hs
        refine ih m r mvj mj len (pc + 1) hm (by omega) hins' (hlast' (by rintro rfl; simp at hm)) hl ?_ ?_
        · intro h0; subst h0; exact (H.mono hs).mono (msub_and_right _ _)
        · intro _; exact H.mono hs
      split
      · -- load
        simp only at hI hload
        have hr := hne (by decide)
        have := hpos hr
        obtain ⟨w, hw⟩ := load_some be d _ hI.1 hI.2
        rw [hw]
        exact ih 0 _ _ _ len (pc + 1) this (by omega) hins' (hlast' hr) hload (fun _ => Written.and_left H) (by simp)
      · simp only at hI hload
        have hr := hne (by decide)
        have := hpos hr
        obtain ⟨w, hw⟩ := Option.isSome_iff_exists.1 (H _ hload.1)
        rw [hw]
        exact ih 0 _ _ _ len (pc + 1) this (by omega) hins' (hlast' hr) hload.2 (fun _ => Written.and_left H) (by simp)
      · simp only at hI hload
        have hr := hne (by decide)
        have := hpos hr
        rw [if_pos hI]
        refine ih 0 _ _ _ len (pc + 1) this (by omega) hins' (hlast' hr) hload (fun _ => Written.and_left ?_) (by simp)
        intro k hk
        simp only [Regs.store]
        split
        · rfl
        · next hki =>
          apply H k
          simp only [BitVec.getLsbD_or, Bool.or_eq_true, BitVec.getLsbD_shiftLeft] at hk
          rcases hk with hk | hk
          · exact hk
          · exfalso
            simp at hk
            omega
      · simp only at hI hload
        exact hjmp _ _ _ (by omega) hload (landMask_at _ _ _)
      all_goals
        try
          simp only at hI hload
          split
          · exact hjmp _ _ _ (by omega) hload (landMask_at _ _ _)
          · exact hjmp _ _ _ (by omega) hload ((landMask_sub _ _ _ _).trans (landMask_at _ _ _))
      · exact ⟨_, rfl⟩
      · split at hI <;> simp_all

/-- A program that the kernel accepts gives a verdict on every system call. -/
theorem accepted_returns (be : Bool) (p : List Insn) (h : Spec.KernelAccepts p) (d : SeccompData) :
    ∃ v, runFilter be p d = .ret v := by
  refine exec_accepted be d p 0 _ 0#16 _ p.length 0 (List.length_pos_iff.2 h.nonempty) (by omega) ?_ h.endsInReturn h.loads ?_ (by simp)
  · intro j i hj; rw [Nat.zero_add]; exact h.insns j i hj
  · intro _ k hk; simp at hk

end Minijail
