import Verif.Proof.Exec
import Verif.Spec.Ops
/-! Helper lemmas: an atom's code decides the intended relation. -/
set_option linter.unusedSimpArgs false
set_option autoImplicit false
namespace Minijail

variable {d : SeccompData}

theorem toNat0_8 : BitVec.toNat (0 : BitVec 8) = 0 := rfl
theorem toNat0_32 : BitVec.toNat (0 : BitVec 32) = 0 := rfl
theorem toNat1_32 : BitVec.toNat (1 : BitVec 32) = 1 := rfl

theorem load_lo (i : Nat) (hi : i < 6) :
    ∃ x, d.arg i = some x ∧ d.load false (loArg (BitVec.ofNat 32 i)).toNat = some (lo32 x) ∧
      d.load false (hiArg (BitVec.ofNat 32 i)).toNat = some (hi32 x) := by
  interval_cases i <;>
    exact ⟨_, rfl, by simp [SeccompData.load, loArg, SeccompData.words, halves, extract_lo],
      by simp [SeccompData.load, hiArg, SeccompData.words, halves, extract_hi]⟩

theorem exec_loadArg64 (t : Target) (ht : t.bits64 = true) (i : Nat) (hi : i < 6) (q : List Insn)
    (r : Regs) : ∃ x, d.arg i = some x ∧
      ∃ r1 : Regs, r1.a = hi32 x ∧ r1.m 0 = some (lo32 x) ∧
        exec false d (bpfLoadArg t (BitVec.ofNat 32 i) ++ q) 0 r = exec false d q 0 r1 := by
  obtain ⟨x, hx, hlo, hhi⟩ := load_lo (d := d) i hi
  refine ⟨x, hx, ?_⟩
  simp only [bpfLoadArg, ht, if_true, bpfStmt, LD_ABS, ST, List.cons_append, List.nil_append]
  rw [exec_ldabs _ _ _ _ _ _ hlo, exec_st]
  simp only [toNat0_32, Nat.zero_lt_succ, if_true]
  rw [exec_ldabs _ _ _ _ _ _ hhi, exec_st]
  simp only [toNat1_32, Nat.reduceLT, if_true]
  exact ⟨_, rfl, by simp [Regs.store], rfl⟩

theorem exec_loadArg32 (t : Target) (ht : t.bits64 = false) (i : Nat) (hi : i < 6) (q : List Insn)
    (r : Regs) : ∃ x, d.arg i = some x ∧
      ∃ r1 : Regs, r1.a = lo32 x ∧
        exec false d (bpfLoadArg t (BitVec.ofNat 32 i) ++ q) 0 r = exec false d q 0 r1 := by
  obtain ⟨x, hx, hlo, hhi⟩ := load_lo (d := d) i hi
  refine ⟨x, hx, ?_⟩
  simp only [bpfLoadArg, ht, bpfStmt, LD_ABS, ST, List.cons_append, List.nil_append]
  simp only [Bool.false_eq_true, if_false, List.cons_append, List.nil_append]
  rw [exec_ldabs _ _ _ _ _ _ hlo]
  exact ⟨_, rfl, rfl⟩

section comp
variable {be : Bool} (c x : BitVec 64) (jt jf : BitVec 8) (q : List Insn) (r : Regs)

/-- Distances used by `bpf_arg_comp` never overflow `unsigned char`. -/
theorem skip_toNat (n : BitVec 8) (hn : n.toNat ≤ 3) (j : BitVec 8) (hj : j.toNat ≤ 1) :
    (n + j).toNat = n.toNat + j.toNat := by
  rw [BitVec.toNat_add]; omega

theorem exec_jeq64 (hjf : jf.toNat ≤ 1) (ha : r.a = hi32 x) (hm : r.m 0 = some (lo32 x)) :
    ∃ r', exec be d (bpfCompJeq64 c jt jf ++ q) 0 r =
      exec be d q (if x = c then jt.toNat else jf.toNat) r' := by
  have h2 : (SKIPN 2 + jf).toNat = jf.toNat + 2 := by
    rw [SKIPN, skip_toNat 2 (by decide) jf hjf]; simp [Nat.add_comm]
  simp only [bpfCompJeq64, bpfCompJeq32, bpfJump, bpfStmt, JEQ, LD_MEM, List.cons_append,
    List.nil_append, exec_jeq, ha, NEXT]
  by_cases h : hi32 x = hi32 c
  · simp only [h, if_true, toNat0_8]
    rw [exec_ldmem _ _ _ _ _ (lo32 x) hm]
    refine ⟨{ r with a := lo32 x }, ?_⟩
    simp only [exec_jeq, eq_iff_halves x c, h, true_and]
  · refine ⟨r, ?_⟩
    have hne : x ≠ c := by rintro rfl; exact h rfl
    simp only [h, if_false, hne, h2, exec_cons_succ]

theorem gt_iff_halves : c.toNat < x.toNat ↔ (hi32 c).toNat < (hi32 x).toNat ∨
    (hi32 x = hi32 c ∧ (lo32 c).toNat < (lo32 x).toNat) := by
  rw [toNat_split c, toNat_split x, ← BitVec.toNat_inj]
  have := lo32_lt c; have := lo32_lt x
  omega

theorem ge_iff_halves : c.toNat ≤ x.toNat ↔ (hi32 c).toNat < (hi32 x).toNat ∨
    (hi32 x = hi32 c ∧ (lo32 c).toNat ≤ (lo32 x).toNat) := by
  rw [toNat_split c, toNat_split x, ← BitVec.toNat_inj]
  have := lo32_lt c; have := lo32_lt x
  omega

theorem exec_jgt64 (hjt : jt.toNat ≤ 1) (hjf : jf.toNat ≤ 1) (ha : r.a = hi32 x)
    (hm : r.m 0 = some (lo32 x)) :
    ∃ r', exec be d (bpfCompJgt64 c jt jf ++ q) 0 r =
      exec be d q (if c.toNat < x.toNat then jt.toNat else jf.toNat) r' := by
  have h2 : (SKIPN 2 + jf).toNat = jf.toNat + 2 := by
    rw [SKIPN, skip_toNat 2 (by decide) jf hjf]; simp [Nat.add_comm]
  have h2' : (SKIPN 2 + jt).toNat = jt.toNat + 2 := by
    rw [SKIPN, skip_toNat 2 (by decide) jt hjt]; simp [Nat.add_comm]
  have h3 : (SKIPN 3 + jt).toNat = jt.toNat + 3 := by
    rw [SKIPN, skip_toNat 3 (by decide) jt hjt]; simp [Nat.add_comm]
  simp only [bpfCompJgt64, bpfCompJgt32, bpfCompJeq32, bpfJump, bpfStmt, JEQ, JGT, LD_MEM]
  by_cases hz : hi32 c = 0
  · simp only [hz, if_true, List.cons_append, List.nil_append, exec_jgt, ha, NEXT]
    by_cases h : (0 : BitVec 32).toNat < (hi32 x).toNat
    · refine ⟨r, ?_⟩
      have : c.toNat < x.toNat := (gt_iff_halves c x).2 (Or.inl (by rw [hz]; exact h))
      simp only [h, this, if_true, h2', exec_cons_succ]
    · have hx : hi32 x = hi32 c := by
        rw [hz]; apply BitVec.eq_of_toNat_eq; simp only [toNat0_32] at *; omega
      simp only [h, if_false]
      rw [toNat0_8, exec_ldmem _ _ _ _ _ (lo32 x) hm]
      refine ⟨{ r with a := lo32 x }, ?_⟩
      simp only [exec_jgt, gt_iff_halves c x, hx, Nat.lt_irrefl, false_or, true_and]
  · simp only [hz, if_false, List.cons_append, List.nil_append, exec_jgt, ha, NEXT]
    by_cases h : (hi32 c).toNat < (hi32 x).toNat
    · refine ⟨r, ?_⟩
      have : c.toNat < x.toNat := (gt_iff_halves c x).2 (Or.inl h)
      simp only [h, this, if_true, h3, exec_cons_succ]
    · simp only [h, if_false]
      rw [toNat0_8, exec_jeq]
      simp only [ha]
      by_cases hx : hi32 x = hi32 c
      · simp only [hx, if_true]
        rw [toNat0_8, exec_ldmem _ _ _ _ _ (lo32 x) hm]
        refine ⟨{ r with a := lo32 x }, ?_⟩
        simp only [exec_jgt, gt_iff_halves c x, hx, Nat.lt_irrefl, false_or, true_and]
      · refine ⟨r, ?_⟩
        have : ¬ c.toNat < x.toNat := by rw [gt_iff_halves c x]; tauto
        simp only [hx, this, if_false, h2, exec_cons_succ]

theorem exec_jge64 (hjt : jt.toNat ≤ 1) (hjf : jf.toNat ≤ 1) (ha : r.a = hi32 x)
    (hm : r.m 0 = some (lo32 x)) :
    ∃ r', exec be d (bpfCompJge64 c jt jf ++ q) 0 r =
      exec be d q (if c.toNat ≤ x.toNat then jt.toNat else jf.toNat) r' := by
  have h2 : (SKIPN 2 + jf).toNat = jf.toNat + 2 := by
    rw [SKIPN, skip_toNat 2 (by decide) jf hjf]; simp [Nat.add_comm]
  have h2' : (SKIPN 2 + jt).toNat = jt.toNat + 2 := by
    rw [SKIPN, skip_toNat 2 (by decide) jt hjt]; simp [Nat.add_comm]
  have h3 : (SKIPN 3 + jt).toNat = jt.toNat + 3 := by
    rw [SKIPN, skip_toNat 3 (by decide) jt hjt]; simp [Nat.add_comm]
  simp only [bpfCompJge64, bpfCompJge32, bpfCompJgt32, bpfCompJeq32, bpfJump, bpfStmt, JEQ, JGT, JGE,
    LD_MEM]
  by_cases hz : hi32 c = 0
  · simp only [hz, if_true, List.cons_append, List.nil_append, exec_jgt, ha, NEXT]
    by_cases h : (0 : BitVec 32).toNat < (hi32 x).toNat
    · refine ⟨r, ?_⟩
      have : c.toNat ≤ x.toNat := (ge_iff_halves c x).2 (Or.inl (by rw [hz]; exact h))
      simp only [h, this, if_true, h2', exec_cons_succ]
    · have hx : hi32 x = hi32 c := by
        rw [hz]; apply BitVec.eq_of_toNat_eq; simp only [toNat0_32] at *; omega
      simp only [h, if_false]
      rw [toNat0_8, exec_ldmem _ _ _ _ _ (lo32 x) hm]
      refine ⟨{ r with a := lo32 x }, ?_⟩
      simp only [exec_jge, ge_iff_halves c x, hx, Nat.lt_irrefl, false_or, true_and]
  · simp only [hz, if_false, List.cons_append, List.nil_append, exec_jgt, ha, NEXT]
    by_cases h : (hi32 c).toNat < (hi32 x).toNat
    · refine ⟨r, ?_⟩
      have : c.toNat ≤ x.toNat := (ge_iff_halves c x).2 (Or.inl h)
      simp only [h, this, if_true, h3, exec_cons_succ]
    · simp only [h, if_false]
      rw [toNat0_8, exec_jeq]
      simp only [ha]
      by_cases hx : hi32 x = hi32 c
      · simp only [hx, if_true]
        rw [toNat0_8, exec_ldmem _ _ _ _ _ (lo32 x) hm]
        refine ⟨{ r with a := lo32 x }, ?_⟩
        simp only [exec_jge, ge_iff_halves c x, hx, Nat.lt_irrefl, false_or, true_and]
      · refine ⟨r, ?_⟩
        have : ¬ c.toNat ≤ x.toNat := by rw [ge_iff_halves c x]; tauto
        simp only [hx, this, if_false, h2, exec_cons_succ]

theorem exec_jset64 (hjt : jt.toNat ≤ 1) (ha : r.a = hi32 x) (hm : r.m 0 = some (lo32 x)) :
    ∃ r', exec be d (bpfCompJset64 c jt jf ++ q) 0 r =
      exec be d q (if x &&& c ≠ 0 then jt.toNat else jf.toNat) r' := by
  have h2' : (SKIPN 2 + jt).toNat = jt.toNat + 2 := by
    rw [SKIPN, skip_toNat 2 (by decide) jt hjt]; simp [Nat.add_comm]
  simp only [bpfCompJset64, bpfCompJset32, bpfJump, bpfStmt, JSET, LD_MEM, List.cons_append,
    List.nil_append, exec_jset, ha, NEXT]
  by_cases h : hi32 x &&& hi32 c ≠ 0
  · refine ⟨r, ?_⟩
    have : x &&& c ≠ 0 := (and_ne_zero_iff_halves x c).2 (Or.inl h)
    simp only [if_pos h, if_pos this, h2', exec_cons_succ]
  · simp only [if_neg h]
    rw [toNat0_8, exec_ldmem _ _ _ _ _ (lo32 x) hm]
    refine ⟨{ r with a := lo32 x }, ?_⟩
    have : (x &&& c ≠ 0) ↔ (lo32 x &&& lo32 c ≠ 0) := by
      rw [and_ne_zero_iff_halves x c]; tauto
    simp only [exec_jset, this]

end comp

theorem branch_pos (n : BitVec 32) (q : List Insn) (r : Regs) {E : Verdict} {P Q : Prop} [Decidable P]
    (h : E = exec false d (bpfJumpLbl n :: q) (if P then SKIP.toNat else NEXT.toNat) r) (hPQ : P ↔ Q) :
    (Q → E = exec false d q 0 r) ∧ (¬ Q → E = exec false d q n.toNat r) := by
  constructor
  · intro hq
    rw [h, if_pos (hPQ.2 hq)]
    exact exec_cons_succ _ _ _ _
  · intro hq
    rw [h, if_neg (fun hp => hq (hPQ.1 hp))]
    exact exec_ja _ _ _ _ _

theorem branch_neg (n : BitVec 32) (q : List Insn) (r : Regs) {E : Verdict} {P Q : Prop} [Decidable P]
    (h : E = exec false d (bpfJumpLbl n :: q) (if P then NEXT.toNat else SKIP.toNat) r) (hPQ : P ↔ ¬ Q) :
    (Q → E = exec false d q 0 r) ∧ (¬ Q → E = exec false d q n.toNat r) := by
  constructor
  · intro hq
    rw [h, if_neg (fun hp => (hPQ.1 hp) hq)]
    exact exec_cons_succ _ _ _ _
  · intro hq
    rw [h, if_pos (hPQ.2 hq)]
    exact exec_ja _ _ _ _ _

/-- An atom's code falls through when the comparison holds and otherwise takes its final jump. -/
theorem exec_argComp (t : Target) (op : Op) (i : Nat) (hi : i < 6)
    (c : BitVec 64) (n : BitVec 32) (q : List Insn) (r : Regs) :
    ∃ r',
      (op.cmp.holds (Spec.argValue t.longBits d i) (c.toNat % 2 ^ t.longBits) →
        exec false d (bpfArgComp t op (BitVec.ofNat 32 i) c n ++ q) 0 r = exec false d q 0 r') ∧
      (¬ op.cmp.holds (Spec.argValue t.longBits d i) (c.toNat % 2 ^ t.longBits) →
        exec false d (bpfArgComp t op (BitVec.ofNat 32 i) c n ++ q) 0 r = exec false d q n.toNat r') := by
  cases h64 : t.bits64 with
  | true =>
    have hw : t.longBits = 64 := by simp [Target.longBits, h64]
    simp only [bpfArgComp, List.append_assoc]
    obtain ⟨x, hx, r1, ha, hm, he⟩ := exec_loadArg64 (d := d) t h64 i hi
      (compFunction t op c (if opFlip op then NEXT else SKIP) (if opFlip op then SKIP else NEXT) ++
        ([bpfJumpLbl n] ++ q)) r
    rw [he]
    have hav : Spec.argValue t.longBits d i = x.toNat := by
      simp [Spec.argValue, hx, hw, Nat.mod_eq_of_lt x.isLt]
    have hcv : c.toNat % 2 ^ t.longBits = c.toNat := by rw [hw]; exact Nat.mod_eq_of_lt c.isLt
    rw [hav, hcv]
    have j0 : NEXT.toNat ≤ 1 := by decide
    have j1 : SKIP.toNat ≤ 1 := by decide
    cases op <;>
      simp only [compFunction, opFlip, bpfCompJeq, bpfCompJgt, bpfCompJge, bpfCompJset, bpfCompJin, h64, if_true,
        Bool.false_eq_true, if_false, Op.cmp, Spec.Cmp.holds, List.cons_append, List.nil_append]
    · obtain ⟨r', h⟩ := exec_jeq64 (be := false) (d := d) c x SKIP NEXT (bpfJumpLbl n :: q) r1 j0 ha hm
      exact ⟨r', branch_pos n q r' h BitVec.toNat_inj.symm⟩
    · obtain ⟨r', h⟩ := exec_jeq64 (be := false) (d := d) c x NEXT SKIP (bpfJumpLbl n :: q) r1 j1 ha hm
      exact ⟨r', branch_neg n q r' h (by rw [← BitVec.toNat_inj]; simp)⟩
    · obtain ⟨r', h⟩ := exec_jge64 (be := false) (d := d) c x NEXT SKIP (bpfJumpLbl n :: q) r1 j0 j1 ha hm
      exact ⟨r', branch_neg n q r' h (by omega)⟩
    · obtain ⟨r', h⟩ := exec_jgt64 (be := false) (d := d) c x NEXT SKIP (bpfJumpLbl n :: q) r1 j0 j1 ha hm
      exact ⟨r', branch_neg n q r' h (by omega)⟩
    · obtain ⟨r', h⟩ := exec_jgt64 (be := false) (d := d) c x SKIP NEXT (bpfJumpLbl n :: q) r1 j1 j0 ha hm
      exact ⟨r', branch_pos n q r' h (by omega)⟩
    · obtain ⟨r', h⟩ := exec_jge64 (be := false) (d := d) c x SKIP NEXT (bpfJumpLbl n :: q) r1 j1 j0 ha hm
      exact ⟨r', branch_pos n q r' h (by omega)⟩
    · obtain ⟨r', h⟩ := exec_jset64 (be := false) (d := d) c x SKIP NEXT (bpfJumpLbl n :: q) r1 j1 ha hm
      exact ⟨r', branch_pos n q r' h (and_ne_zero_iff_bits x c)⟩
    · obtain ⟨r', h⟩ := exec_jset64 (be := false) (d := d) (~~~c) x NEXT SKIP (bpfJumpLbl n :: q) r1 j0 ha hm
      exact ⟨r', branch_neg n q r' h (and_not_ne_zero_iff_bits x c)⟩
  | false =>
    have hw : t.longBits = 32 := by simp [Target.longBits, h64]
    simp only [bpfArgComp, List.append_assoc]
    obtain ⟨x, hx, r1, ha, he⟩ := exec_loadArg32 (d := d) t h64 i hi
      (compFunction t op c (if opFlip op then NEXT else SKIP) (if opFlip op then SKIP else NEXT) ++
        ([bpfJumpLbl n] ++ q)) r
    rw [he]
    have hav : Spec.argValue t.longBits d i = (lo32 x).toNat := by
      simp [Spec.argValue, hx, hw, lo32]
    have hcv : c.toNat % 2 ^ t.longBits = (lo32 c).toNat := by rw [hw]; simp [lo32]
    rw [hav, hcv]
    have hneg : lo32 (~~~c) = ~~~ (lo32 c) := by simp [lo32, BitVec.setWidth_not]
    refine ⟨r1, ?_⟩
    cases op <;>
      simp only [compFunction, opFlip, bpfCompJeq, bpfCompJgt, bpfCompJge, bpfCompJset, bpfCompJin, h64, if_true,
        bpfCompJeq32, bpfCompJgt32, bpfCompJge32, bpfCompJset32, bpfJump, JEQ, JGT, JGE, JSET,
        exec_jeq, exec_jgt, exec_jge, exec_jset, ha, hneg,
        Bool.false_eq_true, if_false, Op.cmp, Spec.Cmp.holds, List.cons_append, List.nil_append]
    · exact branch_pos n q r1 rfl BitVec.toNat_inj.symm
    · exact branch_neg n q r1 rfl (by rw [← BitVec.toNat_inj]; simp)
    · exact branch_neg n q r1 rfl (by omega)
    · exact branch_neg n q r1 rfl (by omega)
    · exact branch_pos n q r1 rfl (by omega)
    · exact branch_pos n q r1 rfl (by omega)
    · exact branch_pos n q r1 rfl (and_ne_zero_iff_bits (lo32 x) (lo32 c))
    · exact branch_neg n q r1 rfl (and_not_ne_zero_iff_bits (lo32 x) (lo32 c))

/-- The instructions written by `bpf_arg_comp` exactly fill the buffer it allocates. -/
theorem bpfArgComp_length (t : Target) (op : Op) (i : BitVec 32) (c : BitVec 64) (n : BitVec 32) :
    (bpfArgComp t op i c n).length = bpfArgCompLen t op c := by
  have hz : hi32 c = 0 ↔ c >>> 32 = 0 := by
    rw [← BitVec.toNat_inj, ← BitVec.toNat_inj]
    simp only [hi32, BitVec.toNat_setWidth, BitVec.toNat_ushiftRight, Nat.shiftRight_eq_div_pow]
    have h0 : BitVec.toNat (0 : BitVec 32) = 0 := rfl
    have h1 : BitVec.toNat (0 : BitVec 64) = 0 := rfl
    rw [h0, h1]
    have := c.isLt
    omega
  cases h : t.bits64 <;> cases op <;>
    simp only [bpfArgComp, compFunction, opFlip, bpfArgCompLen, bpfLoadArg, bpfCompJeq, bpfCompJgt, bpfCompJge, bpfCompJset, bpfCompJin, h,
      bpfCompJeq64, bpfCompJgt64, bpfCompJge64, bpfCompJset64,
      bpfCompJeq32, bpfCompJgt32, bpfCompJge32, bpfCompJset32, hz] <;> simp <;> split <;> simp

end Minijail
