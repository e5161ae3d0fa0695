import Verif.Proof.Atom
import Verif.Proof.Resolve
/-! Straight-line segments of symbolic programs. -/
set_option linter.unusedSimpArgs false
set_option autoImplicit false
namespace Minijail

variable {be : Bool} {d : SeccompData}

/-- Runs a piece of code without symbolic instructions: the verdict, or how many instructions of what follows are
to be skipped. -/
def runSeg (be : Bool) (d : SeccompData) : List Insn → Nat → Regs → Verdict ⊕ (Nat × Regs)
  | [], n, r => .inr (n, r)
  | _ :: rest, n + 1, r => runSeg be d rest n r
  | i :: rest, 0, r =>
    match i.code.toNat with
    | 0x20 =>
      match d.load be i.k.toNat with
      | some w => runSeg be d rest 0 { r with a := w }
      | none => .inl .bad
    | 0x60 =>
      match r.m i.k.toNat with
      | some w => runSeg be d rest 0 { r with a := w }
      | none => .inl .bad
    | 0x02 => if i.k.toNat < 16 then runSeg be d rest 0 (r.store i.k.toNat) else .inl .bad
    | 0x05 => runSeg be d rest i.k.toNat r
    | 0x15 => runSeg be d rest (if r.a = i.k then i.jt.toNat else i.jf.toNat) r
    | 0x25 => runSeg be d rest (if i.k.toNat < r.a.toNat then i.jt.toNat else i.jf.toNat) r
    | 0x35 => runSeg be d rest (if i.k.toNat ≤ r.a.toNat then i.jt.toNat else i.jf.toNat) r
    | 0x45 => runSeg be d rest (if r.a &&& i.k ≠ 0 then i.jt.toNat else i.jf.toNat) r
    | 0x06 => .inl (.ret i.k)
    | _ => .inl .bad

/-- The instruction is not symbolic. -/
def Plain (i : Insn) : Prop := i.code ≠ JA

theorem exec_seg (b q : List Insn) (n : Nat) (r : Regs) :
    exec be d (b ++ q) n r = match runSeg be d b n r with
      | .inl v => v
      | .inr (n', r') => exec be d q n' r' := by
  induction b generalizing n r with
  | nil => simp [runSeg]
  | cons i b ih =>
    cases n with
    | succ n => simp [runSeg, exec, ih]
    | zero =>
      simp only [List.cons_append, exec, runSeg]
      generalize i.code.toNat = cc
      split
      · cases d.load be i.k.toNat <;> simp only [ih]
      · cases r.m i.k.toNat <;> simp only [ih]
      · by_cases h : i.k.toNat < 16 <;> simp only [h, if_true, if_false, ih]
      all_goals simp only [ih]

theorem execL_seg (b q : List Insn) (hb : ∀ i ∈ b, Plain i) (n : Nat) (r : Regs) :
    execL be d (b ++ q) (.skip n) r = match runSeg be d b n r with
      | .inl v => v
      | .inr (n', r') => execL be d q (.skip n') r' := by
  induction b generalizing n r with
  | nil => simp [runSeg]
  | cons i b ih =>
    have hi : i.code ≠ JA := hb i (by simp)
    have ih := ih (fun j hj => hb j (List.mem_cons_of_mem _ hj))
    have h1 : i ≠ bpfJumpLbl i.k := by
      intro h; apply hi; rw [h]; rfl
    have h2 : i ≠ bpfLbl i.k := by
      intro h; apply hi; rw [h]; rfl
    cases n with
    | succ n => simp [runSeg, execL, ih]
    | zero =>
      simp only [List.cons_append, execL, runSeg, h1, h2, if_false]
      generalize i.code.toNat = cc
      split
      · cases d.load be i.k.toNat <;> simp only [ih]
      · cases r.m i.k.toNat <;> simp only [ih]
      · by_cases h : i.k.toNat < 16 <;> simp only [h, if_true, if_false, ih]
      all_goals simp only [ih]

/-- The code of an atom without its final jump. -/
def atomBody (t : Target) (op : Op) (argidx : BitVec 32) (c : BitVec 64) : List Insn :=
  bpfLoadArg t argidx ++ compFunction t op c (if opFlip op then NEXT else SKIP) (if opFlip op then SKIP else NEXT)

theorem bpfArgComp_eq (t op argidx c id) : bpfArgComp t op argidx c id = atomBody t op argidx c ++ [bpfJumpLbl id] := by
  simp [bpfArgComp, atomBody]

theorem atomBody_plain (t op argidx c) : ∀ i ∈ atomBody t op argidx c, Plain i := by
  unfold atomBody bpfLoadArg
  cases op <;> cases h : t.bits64 <;>
    simp only [compFunction, bpfCompJeq, bpfCompJgt, bpfCompJge, bpfCompJset, bpfCompJin, h, if_true, if_false,
      bpfCompJeq64, bpfCompJgt64, bpfCompJge64, bpfCompJset64, bpfCompJeq32, bpfCompJgt32, bpfCompJge32,
      bpfCompJset32, bpfJump, bpfStmt, Bool.false_eq_true] <;>
    (try split) <;>
    simp [Plain, JA, JEQ, JGT, JGE, JSET, LD_MEM, LD_ABS, ST]

/-- An atom's body skips the jump after it when the comparison holds and runs into it otherwise. -/
theorem runSeg_atom (t : Target) (op : Op) (i : Nat) (hi : i < 6) (c : BitVec 64) (r : Regs) :
    ∃ r',
      (op.cmp.holds (Spec.argValue t.longBits d i) (c.toNat % 2 ^ t.longBits) →
        runSeg false d (atomBody t op (BitVec.ofNat 32 i) c) 0 r = .inr (1, r')) ∧
      (¬ op.cmp.holds (Spec.argValue t.longBits d i) (c.toNat % 2 ^ t.longBits) →
        runSeg false d (atomBody t op (BitVec.ofNat 32 i) c) 0 r = .inr (0, r')) := by
  have K := fun (n : BitVec 32) q => exec_argComp (d := d) t op i hi c n q r
  simp only [bpfArgComp_eq, List.append_assoc, exec_seg, List.cons_append, List.nil_append] at K
  let R (k : BitVec 32) : Insn := ⟨0x06, 0, 0, k⟩
  by_cases hh : op.cmp.holds (Spec.argValue t.longBits d i) (c.toNat % 2 ^ t.longBits)
  · obtain ⟨r1, h1, _⟩ := K 1 [R 1, R 2]
    obtain ⟨r2, h2, _⟩ := K 1 [R 3, R 2]
    replace h1 := h1 hh
    replace h2 := h2 hh
    cases hs : runSeg false d (atomBody t op (BitVec.ofNat 32 i) c) 0 r with
    | inl v =>
      rw [hs] at h1 h2
      simp only [R, exec_ret] at h1 h2
      rw [h1] at h2
      simp at h2
    | inr x =>
      obtain ⟨n, r'⟩ := x
      rw [hs] at h1
      simp only [R, exec_ret] at h1
      refine ⟨r', fun _ => ?_, fun h => absurd hh h⟩
      match n, h1 with
      | 0, h1 => simp [exec, bpfJumpLbl, bpfJump, JA] at h1
      | 1, _ => rfl
      | 2, h1 => simp [exec, bpfJumpLbl, bpfJump, JA] at h1
      | n + 3, h1 => simp [exec, bpfJumpLbl, bpfJump, JA] at h1
  · obtain ⟨r1, _, h1⟩ := K 1 [R 1, R 2, R 3]
    obtain ⟨r2, _, h2⟩ := K 2 [R 1, R 2, R 3]
    replace h1 := h1 hh
    replace h2 := h2 hh
    have e1 : BitVec.toNat (1 : BitVec 32) = 1 := rfl
    have e2 : BitVec.toNat (2 : BitVec 32) = 2 := rfl
    rw [e1] at h1
    rw [e2] at h2
    cases hs : runSeg false d (atomBody t op (BitVec.ofNat 32 i) c) 0 r with
    | inl v =>
      rw [hs] at h1 h2
      simp only [R, exec_ret, exec_cons_succ] at h1 h2
      rw [h1] at h2
      simp at h2
    | inr x =>
      obtain ⟨n, r'⟩ := x
      rw [hs] at h1 h2
      simp only [R, exec_ret, exec_cons_succ] at h1 h2
      refine ⟨r', fun h => absurd h hh, fun _ => ?_⟩
      match n, h1, h2 with
      | 0, _, _ => rfl
      | 1, h1, _ => simp [exec, bpfJumpLbl, bpfJump, JA] at h1
      | 2, h1, h2 => simp [exec, bpfJumpLbl, bpfJump, JA] at h2
      | 3, h1, h2 => simp [exec, bpfJumpLbl, bpfJump, JA] at h1
      | n + 4, h1, h2 => simp [exec, bpfJumpLbl, bpfJump, JA] at h1

/-- An atom in a symbolic program. -/
theorem execL_atom (t : Target) (op : Op) (i : Nat) (hi : i < 6) (c : BitVec 64) (id : BitVec 32) (q : List Insn) (r : Regs) :
    ∃ r',
      (op.cmp.holds (Spec.argValue t.longBits d i) (c.toNat % 2 ^ t.longBits) →
        execL false d (bpfArgComp t op (BitVec.ofNat 32 i) c id ++ q) (.skip 0) r = execL false d q (.skip 0) r') ∧
      (¬ op.cmp.holds (Spec.argValue t.longBits d i) (c.toNat % 2 ^ t.longBits) →
        execL false d (bpfArgComp t op (BitVec.ofNat 32 i) c id ++ q) (.skip 0) r = execL false d q (.seek id) r') := by
  obtain ⟨r', h1, h2⟩ := runSeg_atom (d := d) t op i hi c r
  refine ⟨r', fun h => ?_, fun h => ?_⟩
  · rw [bpfArgComp_eq, List.append_assoc, execL_seg _ _ (atomBody_plain t op _ c), h1 h]
    simp [execL]
  · rw [bpfArgComp_eq, List.append_assoc, execL_seg _ _ (atomBody_plain t op _ c), h2 h]
    simp [execL, bpfJumpLbl, bpfJump]

/-! ### Searching for labels -/

theorem execL_seek_label (l : BitVec 32) (b : List Insn) (r : Regs) :
    execL be d (bpfLbl l :: b) (.seek l) r = execL be d b (.skip 0) r := by simp [execL]

theorem execL_seek_skip (l : BitVec 32) (a b : List Insn) (r : Regs) (h : bpfLbl l ∉ a) :
    execL be d (a ++ b) (.seek l) r = execL be d b (.seek l) r := by
  induction a with
  | nil => rfl
  | cons i a ih =>
    simp only [List.mem_cons, not_or] at h
    simp [execL, Ne.symm h.1, ih h.2]

theorem execL_label (l : BitVec 32) (b : List Insn) (r : Regs) :
    execL be d (bpfLbl l :: b) (.skip 0) r = execL be d b (.skip 0) r := by
  simp [execL, bpfLbl, bpfJumpLbl, bpfJump]

theorem execL_jump (l : BitVec 32) (b : List Insn) (r : Regs) :
    execL be d (bpfJumpLbl l :: b) (.skip 0) r = execL be d b (.seek l) r := by
  simp [execL, bpfJumpLbl, bpfJump]

theorem execL_ret (k : BitVec 32) (b : List Insn) (r : Regs) :
    execL be d (bpfStmt RET k :: b) (.skip 0) r = .ret k := by
  simp [execL, bpfStmt, bpfLbl, bpfJumpLbl, bpfJump, RET, JA]

theorem execL_skip (n : Nat) (i : Insn) (b : List Insn) (r : Regs) :
    execL be d (i :: b) (.skip (n + 1)) r = execL be d b (.skip n) r := by
  simp [execL]

theorem execL_jeq (k : BitVec 32) (jt jf : BitVec 8) (b : List Insn) (r : Regs) :
    execL be d (bpfJump JEQ k jt jf :: b) (.skip 0) r =
      execL be d b (.skip (if r.a = k then jt.toNat else jf.toNat)) r := by
  simp [execL, bpfJump, bpfLbl, bpfJumpLbl, JEQ, JA]
  rfl

theorem execL_ld (k : BitVec 32) (w : BitVec 32) (b : List Insn) (r : Regs) (h : d.load be k.toNat = some w) :
    execL be d (bpfStmt LD_ABS k :: b) (.skip 0) r = execL be d b (.skip 0) { r with a := w } := by
  simp [execL, bpfStmt, bpfLbl, bpfJumpLbl, bpfJump, LD_ABS, JA, h]

/-- A symbolic program without two definitions of the same label. -/
def UniqueLbl (p : List Insn) : Prop := ∀ l, p.count (bpfLbl l) ≤ 1

theorem UniqueLbl.right {a b : List Insn} (h : UniqueLbl (a ++ b)) : UniqueLbl b := by
  intro l; have := h l; rw [List.count_append] at this; omega

theorem UniqueLbl.left {a b : List Insn} (h : UniqueLbl (a ++ b)) : UniqueLbl a := by
  intro l; have := h l; rw [List.count_append] at this; omega

theorem UniqueLbl.not_mem {a b : List Insn} {l : BitVec 32} (h : UniqueLbl (a ++ bpfLbl l :: b)) : bpfLbl l ∉ a := by
  intro hm
  have := h l
  rw [List.count_append, List.count_cons_self] at this
  have := List.count_pos_iff.2 hm
  omega

/-- A jump reaches its label. -/
theorem execL_seek (l : BitVec 32) (a b : List Insn) (r : Regs) (h : UniqueLbl (a ++ bpfLbl l :: b)) :
    execL be d (a ++ bpfLbl l :: b) (.seek l) r = execL be d b (.skip 0) r := by
  rw [execL_seek_skip _ _ _ _ h.not_mem, execL_seek_label]

end Minijail
