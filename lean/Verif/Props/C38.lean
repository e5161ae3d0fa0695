import Verif.Proof.EnterFinal
import Verif.Props.EnterExample
/-! C38: the securebits of a process that dropped capabilities. Bit 0 is SECBIT_NOROOT, 2 NO_SETUID_FIXUP, 4 KEEP_CAPS, 6 NO_CAP_AMBIENT_RAISE,
8 EXEC_RESTRICT_FILE, 10 EXEC_DENY_INTERACTIVE, each followed by its lock. `p` is the process before, `q` after `minijail_enter` returned. -/
set_option autoImplicit false
set_option linter.unusedSimpArgs false
namespace Minijail
open Spec

variable {env : EnterEnv} {j : Jail} {k : Kernel} {t : List Ev} {g : Option BStr → BitVec 32 → List (BitVec 32)} {p q : Proc}

/-- A bit the library was built to know, or the lock of one. -/
def Spec.KnownBit (env : EnterEnv) (i : Nat) : Prop := env.secureAllBits.getLsbD i = true ∨ (0 < i ∧ env.secureAllBits.getLsbD (i - 1) = true)

/-- Every known bit and lock outside the skip mask is set, except the two about ambient capabilities; the newest four are given up if the
system does not permit the first attempt, and KEEP_CAPS is left alone if ambient capabilities are wanted and it is locked as clear. -/
theorem C38_locked (h : Entered env j k t) (hp : Evolves g p t q) (hu : j.flags.use_caps = true) {i : Nat} (hi : i < 64) (hk : KnownBit env i)
    (hs : j.securebits_skip_mask.getLsbD i = false) (h6 : i ≠ 6) (h7 : i ≠ 7)
    (h4 : i = 4 → j.flags.set_ambient_caps = true →
      ∀ cur : Int, (Sys.getSecurebits, cur) ∈ t → (BitVec.ofInt 64 cur).getLsbD 5 = false ∨ (BitVec.ofInt 64 cur).getLsbD 4 = true)
    (h8 : 8 ≤ i → i < 12 → ∀ b, (Sys.setSecurebits b, -1) ∉ t) : q.securebits.getLsbD i = true := by
  obtain ⟨E⟩ := trace_of h
  obtain ⟨cur, drop, r, h1, h2, hc⟩ := secure_final E hp hu
  have hb : (lockBits env j.securebits_skip_mask drop).getLsbD i = true := by
    rw [lockBits_get env _ _ _ hi, hs]
    have hk' : (env.secureAllBits.getLsbD i || (decide (0 < i) && env.secureAllBits.getLsbD (i - 1))) = true := by
      rcases hk with hk | ⟨h0, hk⟩
      · rw [hk]; rfl
      · rw [hk]; simp [h0]
    rw [hk']
    have hd : (drop && decide (i = 4)) = false := by
      cases hd : drop
      · rfl
      · by_cases e : i = 4
        · cases ha : j.flags.set_ambient_caps
          · rw [h1 (by rw [ha]; rfl)] at hd; exact absurd hd (by simp)
          · obtain ⟨hm, _, hdr⟩ := h2 (by rw [ha]; rfl)
            rcases h4 e ha cur hm with h | h <;> rw [hdr, h] at hd <;> simp at hd
        · simp [e]
    rw [hd]; simp [h6, h7]
  rcases hc with ⟨h0, _⟩ | ⟨_, hq⟩ | ⟨hm, _, hq⟩
  · rw [h0] at hb; simp at hb
  · rw [hq]; exact hb
  · rw [hq]
    have : ¬ (8 ≤ i ∧ i < 12) := fun hh => h8 hh.1 hh.2 _ hm
    rw [BitVec.getLsbD_and, hb, BitVec.getLsbD_not, f00_get, decide_eq_false this]
    simp [hi]

/-- A bit that is asked for is a known one, is outside the skip mask and does not concern raising ambient capabilities. -/
theorem C38_requests (h : Entered env j k t) {b : BitVec 64} {r : Int} (hm : (Sys.setSecurebits b, r) ∈ t) {i : Nat} (hb : b.getLsbD i = true) :
    KnownBit env i ∧ j.securebits_skip_mask.getLsbD i = false ∧ i ≠ 6 ∧ i ≠ 7 := by
  obtain ⟨E⟩ := trace_of h
  have hi := BitVec.lt_of_getLsbD hb
  obtain ⟨drop, hx⟩ := secure_event E hm
  have hl : (lockBits env j.securebits_skip_mask drop).getLsbD i = true := by
    rcases hx with rfl | rfl
    · exact hb
    · rw [BitVec.getLsbD_and] at hb; exact (Bool.and_eq_true _ _ ▸ hb).1
  rw [lockBits_get env _ _ _ hi] at hl
  simp only [Bool.and_eq_true, Bool.or_eq_true, Bool.not_eq_true', decide_eq_true_eq] at hl
  refine ⟨?_, hl.2, ?_, ?_⟩
  · rcases hl.1.1.1 with h | h
    · exact Or.inl h
    · exact Or.inr h
  · intro e; exact absurd hl.1.2 (by simp [e])
  · intro e; exact absurd hl.1.2 (by simp [e])

/-- After a request the word has none of the bits in the skip mask and none of the two about ambient capabilities. If nothing was asked for and
there is no hook, it is as before. -/
theorem C38_word (h : Entered env j k t) (hp : Evolves g p t q) (hu : j.flags.use_caps = true) :
    (∃ b, ∃ r : Int, 0 ≤ r ∧ (Sys.setSecurebits b, r) ∈ t ∧ q.securebits = b) ∨
    ((∀ b r, (Sys.setSecurebits b, r) ∉ t) ∧ (j.hooks = [] → q.securebits = p.securebits) ∧
      ∀ i, i < 64 → KnownBit env i → j.securebits_skip_mask.getLsbD i = true ∨ i = 4 ∨ i = 6 ∨ i = 7) := by
  obtain ⟨E⟩ := trace_of h
  exact secure_word E hp hu

/-- Bits in the skip mask are not preserved. A process has NO_SETUID_FIXUP (bit 2) set and enters a jail that restricts capabilities and asks to
leave exactly that bit alone: afterwards the bit is clear. -/
theorem C38_violated : ∃ j k t p q, Entered {} j k t ∧ Evolves oneGroup p t q ∧ j.hooks = [] ∧ j.flags.use_caps = true ∧
    j.securebits_skip_mask = 4#64 ∧ p.securebits = 4#64 ∧ q.securebits.getLsbD 2 = false := by
  refine ⟨{ richJail with securebits_skip_mask := 4#64 }, obliging, (minijailEnter {} { richJail with securebits_skip_mask := 4#64 } obliging []).2,
    { rootProc with securebits := 4#64 }, _, ?_, evolves_after _ _, rfl, rfl, rfl, rfl, ?_⟩
  · have h : ∀ x : Out Unit × List Ev, x.1 = .ok () → x = (.ok (), x.2) := by
      rintro ⟨a, b⟩ h; simp only at h; rw [h]
    exact h _ (by decide +kernel)
  · decide +kernel

/-- What holds of the skip mask: no request ever sets one of its bits. That bits which are set stay set is missing, see `C38_violated`. -/
theorem C38_skip_partial (h : Entered env j k t) (hp : Evolves g p t q) (hu : j.flags.use_caps = true) (hh : j.hooks = []) {i : Nat}
    (hs : j.securebits_skip_mask.getLsbD i = true) (hq : q.securebits.getLsbD i = true) : p.securebits.getLsbD i = true := by
  rcases C38_word h hp hu with ⟨b, r, _, hm, hb⟩ | ⟨_, h1, _⟩
  · rw [hb] at hq
    rw [(C38_requests h hm hq).2.1] at hs
    exact absurd hs (by simp)
  · rw [← h1 hh]; exact hq

/-- The example jail skips nothing: all bits known to the library but the two about ambient capabilities are set. -/
example : (after rootProc richTrace).securebits = 0xf3f#64 := by decide +kernel

example : (after rootProc richTrace).securebits.getLsbD 3 = true :=
  C38_locked rich_entered (evolves_after _ _) rfl (by decide) (Or.inr (by decide)) (by decide) (by decide) (by decide) (by simp) (by simp)

end Minijail
