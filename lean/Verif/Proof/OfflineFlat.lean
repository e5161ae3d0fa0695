import Verif.Spec.Offline
import Verif.Proof.Exec
import Mathlib.Tactic.SplitIfs
/-! Helper lemmas: flattening a graph of blocks. -/
set_option autoImplicit false
set_option linter.unusedSimpArgs false
namespace Minijail.Offline
open Minijail.Spec

/-- The number fits its field. -/
def Fits (i : SockFilter) : Prop := i.code < 2 ^ 16 ∧ i.jt < 2 ^ 8 ∧ i.jf < 2 ^ 8 ∧ i.k < 2 ^ 32

/-- The instruction, numbers cut to their fields. -/
def toInsn (i : SockFilter) : Insn := ⟨BitVec.ofNat 16 i.code, BitVec.ofNat 8 i.jt, BitVec.ofNat 8 i.jf, BitVec.ofNat 32 i.k⟩

theorem opcodes_some {l : List SockFilter} {p : List Insn} (h : opcodes l = some p) : (∀ i ∈ l, Fits i) ∧ p = l.map toInsn := by
  induction l generalizing p with
  | nil => simp only [opcodes, Option.some.injEq] at h; subst h; simp
  | cons i l ih =>
    simp only [opcodes, SockFilter.encode] at h
    split at h
    · next hf =>
      cases hl : opcodes l with
      | none => rw [hl] at h; simp at h
      | some q =>
        rw [hl] at h
        simp only [Option.bind_eq_bind, Option.bind_some, Option.pure_def, Option.some.injEq] at h
        obtain ⟨h1, h2⟩ := ih hl
        subst h
        refine ⟨?_, by rw [h2]; rfl⟩
        intro j hj
        rcases List.mem_cons.1 hj with rfl | hj
        · exact hf
        · exact h1 j hj
    · simp at h

theorem opcodes_of_fits {l : List SockFilter} (h : ∀ i ∈ l, Fits i) : opcodes l = some (l.map toInsn) := by
  induction l with
  | nil => rfl
  | cons i l ih =>
    have hi : Fits i := h i (List.mem_cons_self ..)
    have hi : i.code < 2 ^ 16 ∧ i.jt < 2 ^ 8 ∧ i.jf < 2 ^ 8 ∧ i.k < 2 ^ 32 := hi
    simp only [opcodes, SockFilter.encode, if_pos hi, ih fun j hj => h j (List.mem_cons_of_mem _ hj)]
    rfl

open Classical in
/-- Where a conditional jump goes. -/
noncomputable def branch (op : JOp) (a : BitVec 32) (k jt jf : Nat) : Nat := if jumpTest op a.toNat k then jt else jf

theorem testBit_lt {x k i : Nat} (h : x < 2 ^ k) (hi : x.testBit i = true) : i < k := by
  by_contra hn
  have : x < 2 ^ i := lt_of_lt_of_le h (Nat.pow_le_pow_right (by decide) (by omega))
  rw [Nat.testBit_lt_two_pow this] at hi
  exact absurd hi (by simp)

theorem and_ne_zero_iff (a b : BitVec 32) : a &&& b ≠ 0 ↔ ∃ bit, a.toNat.testBit bit = true ∧ b.toNat.testBit bit = true := by
  constructor
  · intro h
    by_contra hn
    apply h
    apply BitVec.eq_of_toNat_eq
    apply Nat.eq_of_testBit_eq
    intro i
    simp only [BitVec.toNat_and, Nat.testBit_and, BitVec.ofNat_eq_ofNat, BitVec.toNat_ofNat, Nat.zero_mod, Nat.zero_testBit, Bool.and_eq_false_imp]
    intro h1
    by_contra h2
    exact hn ⟨i, h1, by simpa using h2⟩
  · rintro ⟨i, h1, h2⟩ h
    have := congrArg (fun x : BitVec 32 => x.toNat.testBit i) h
    simp [h1, h2] at this

/-- A conditional jump with fields that fit. -/
theorem exec_cond {be : Bool} {d : SeccompData} (op : JOp) (v jt jf : Nat) (h : Fits ⟨jmpCode op, jt, jf, v⟩) (p : List Insn) (r : Regs) :
    exec be d (toInsn ⟨jmpCode op, jt, jf, v⟩ :: p) 0 r = exec be d p (branch op r.a v jt jf) r := by
  obtain ⟨-, h1, h2, h3⟩ := h
  dsimp only at h1 h2 h3
  have e1 : (BitVec.ofNat 8 jt).toNat = jt := by simp; omega
  have e2 : (BitVec.ofNat 8 jf).toNat = jf := by simp; omega
  have e3 : (BitVec.ofNat 32 v).toNat = v := by simp; omega
  unfold branch
  cases op with
  | jeq =>
    rw [show toInsn ⟨jmpCode .jeq, jt, jf, v⟩ = ⟨0x15, BitVec.ofNat 8 jt, BitVec.ofNat 8 jf, BitVec.ofNat 32 v⟩ from rfl, exec_jeq, e1, e2]
    congr 1
    have : r.a = BitVec.ofNat 32 v ↔ jumpTest .jeq r.a.toNat v := by
      rw [jumpTest, BitVec.toNat_eq, e3]
    by_cases hc : jumpTest .jeq r.a.toNat v
    · rw [if_pos hc, if_pos (this.2 hc)]
    · rw [if_neg hc, if_neg fun q => hc (this.1 q)]
  | jgt =>
    rw [show toInsn ⟨jmpCode .jgt, jt, jf, v⟩ = ⟨0x25, BitVec.ofNat 8 jt, BitVec.ofNat 8 jf, BitVec.ofNat 32 v⟩ from rfl, exec_jgt, e1, e2, e3]
    congr 1
    by_cases hc : jumpTest .jgt r.a.toNat v
    · rw [if_pos hc, if_pos (show v < r.a.toNat from hc)]
    · rw [if_neg hc, if_neg (show ¬ v < r.a.toNat from hc)]
  | jge =>
    rw [show toInsn ⟨jmpCode .jge, jt, jf, v⟩ = ⟨0x35, BitVec.ofNat 8 jt, BitVec.ofNat 8 jf, BitVec.ofNat 32 v⟩ from rfl, exec_jge, e1, e2, e3]
    congr 1
    by_cases hc : jumpTest .jge r.a.toNat v
    · rw [if_pos hc, if_pos (show v ≤ r.a.toNat from hc)]
    · rw [if_neg hc, if_neg (show ¬ v ≤ r.a.toNat from hc)]
  | jset =>
    rw [show toInsn ⟨jmpCode .jset, jt, jf, v⟩ = ⟨0x45, BitVec.ofNat 8 jt, BitVec.ofNat 8 jf, BitVec.ofNat 32 v⟩ from rfl, exec_jset, e1, e2]
    congr 1
    have : r.a &&& BitVec.ofNat 32 v ≠ 0 ↔ jumpTest .jset r.a.toNat v := by
      rw [and_ne_zero_iff, e3]
      exact Iff.rfl
    by_cases hc : jumpTest .jset r.a.toNat v
    · rw [if_pos hc, if_pos (this.2 hc)]
    · rw [if_neg hc, if_neg fun q => hc (this.1 q)]

/-- An unconditional jump. -/
theorem exec_always {be : Bool} {d : SeccompData} (k : Nat) (h : k < 2 ^ 32) (p : List Insn) (r : Regs) :
    exec be d (toInsn ⟨JMP_JA, 0, 0, k⟩ :: p) 0 r = exec be d p k r := by
  rw [show toInsn ⟨JMP_JA, 0, 0, k⟩ = ⟨0x05, 0, 0, BitVec.ofNat 32 k⟩ from rfl, exec_ja]
  congr 1
  simp; omega

/-- `_emit_jmp` reaches its targets. -/
theorem exec_emitJmp {be : Bool} {d : SeccompData} (op : JOp) (v jt jf : Nat) (h : ∀ i ∈ emitJmp op v jt jf, Fits i) (p : List Insn) (r : Regs) :
    exec be d ((emitJmp op v jt jf).map toInsn ++ p) 0 r = exec be d p (branch op r.a v jt jf) r := by
  unfold emitJmp at h ⊢
  split at h
  · next hc =>
    rw [if_pos hc]
    exact exec_cond op v jt jf (h _ (List.mem_singleton.2 rfl)) p r
  · next hc =>
    rw [if_neg hc]
    split at h
    · next hc =>
      rw [if_pos hc]
      have h1 := h _ (List.mem_cons_self ..)
      have h2 := (h _ (List.mem_cons_of_mem _ (List.mem_singleton.2 rfl))).2.2.2
      simp only [List.map_cons, List.map_nil, List.cons_append, List.nil_append]
      rw [exec_cond op v _ _ h1]
      unfold branch
      by_cases hb : jumpTest op r.a.toNat v
      · rw [if_pos hb, if_pos hb, exec_cons_succ]
      · rw [if_neg hb, if_neg hb, exec_always _ h2]
    · next hc =>
      rw [if_neg hc]
      split at h
      · next hc =>
        rw [if_pos hc]
        have h1 := h _ (List.mem_cons_self ..)
        have h2 := (h _ (List.mem_cons_of_mem _ (List.mem_singleton.2 rfl))).2.2.2
        simp only [List.map_cons, List.map_nil, List.cons_append, List.nil_append]
        rw [exec_cond op v _ _ h1]
        unfold branch
        by_cases hb : jumpTest op r.a.toNat v
        · rw [if_pos hb, if_pos hb, exec_always _ h2]
        · rw [if_neg hb, if_neg hb, exec_cons_succ]
      · next hc =>
        rw [if_neg hc]
        have h1 := h _ (List.mem_cons_self ..)
        have h2 := (h _ (List.mem_cons_of_mem _ (List.mem_cons_self ..))).2.2.2
        have h3 := (h _ (List.mem_cons_of_mem _ (List.mem_cons_of_mem _ (List.mem_singleton.2 rfl)))).2.2.2
        simp only [List.map_cons, List.map_nil, List.cons_append, List.nil_append]
        rw [exec_cond op v _ _ h1]
        unfold branch
        by_cases hb : jumpTest op r.a.toNat v
        · rw [if_pos hb, if_pos hb, exec_always _ h2, exec_cons_succ]
        · rw [if_neg hb, if_neg hb, exec_cons_succ, exec_always _ h3]

open Classical in
/-- The machine on instructions whose numbers have any size. -/
noncomputable def execN (d : SeccompData) : List SockFilter → Nat → Regs → Verdict
  | [], _, _ => .bad
  | _ :: p, n + 1, r => execN d p n r
  | i :: p, 0, r =>
    if i.code = LD_W_ABS then
      match d.load false i.k with
      | some w => execN d p 0 { r with a := w }
      | none => .bad
    else if i.code = JMP_JA then execN d p i.k r
    else if i.code = RET then .ret (BitVec.ofNat 32 i.k)
    else if i.code = jmpCode .jeq then execN d p (branch .jeq r.a i.k i.jt i.jf) r
    else if i.code = jmpCode .jgt then execN d p (branch .jgt r.a i.k i.jt i.jf) r
    else if i.code = jmpCode .jge then execN d p (branch .jge r.a i.k i.jt i.jf) r
    else if i.code = jmpCode .jset then execN d p (branch .jset r.a i.k i.jt i.jf) r
    else .bad

theorem execN_succ (d : SeccompData) (i : SockFilter) (p : List SockFilter) (n : Nat) (r : Regs) : execN d (i :: p) (n + 1) r = execN d p n r := rfl

theorem execN_cond (d : SeccompData) (op : JOp) (v jt jf : Nat) (p : List SockFilter) (r : Regs) :
    execN d (⟨jmpCode op, jt, jf, v⟩ :: p) 0 r = execN d p (branch op r.a v jt jf) r := by
  cases op <;> rw [execN] <;> simp [LD_W_ABS, JMP_JA, RET, jmpCode, JOp.code]

theorem execN_ja (d : SeccompData) (k : Nat) (p : List SockFilter) (r : Regs) : execN d (⟨JMP_JA, 0, 0, k⟩ :: p) 0 r = execN d p k r := by
  rw [execN]; simp [LD_W_ABS, JMP_JA]

theorem execN_load {d : SeccompData} {off : Nat} {w : BitVec 32} (hw : d.load false off = some w) (p : List SockFilter) (r : Regs) :
    execN d (⟨LD_W_ABS, 0, 0, off⟩ :: p) 0 r = execN d p 0 { r with a := w } := by
  rw [execN]; simp [hw]

theorem execN_ret (d : SeccompData) (w : Nat) (p : List SockFilter) (r : Regs) : execN d (⟨RET, 0, 0, w⟩ :: p) 0 r = .ret (BitVec.ofNat 32 w) := by
  rw [execN]; simp [LD_W_ABS, JMP_JA, RET]

/-- When all numbers fit, the real machine does the same. -/
theorem exec_of_execN {d : SeccompData} {l : List SockFilter} (hf : ∀ i ∈ l, Fits i) {n : Nat} {r : Regs} (h : execN d l n r ≠ .bad) :
    exec false d (l.map toInsn) n r = execN d l n r := by
  induction l generalizing n r with
  | nil => exact absurd rfl h
  | cons i p ih =>
    have hp : ∀ i ∈ p, Fits i := fun j hj => hf j (List.mem_cons_of_mem _ hj)
    have hi : Fits i := hf i (List.mem_cons_self ..)
    rw [List.map_cons]
    cases n with
    | succ n => rw [exec_cons_succ]; exact ih hp h
    | zero =>
      obtain ⟨c, jt, jf, k⟩ := i
      have ek : (BitVec.ofNat 32 k).toNat = k := by have := hi.2.2.2; simp; exact this
      rw [execN] at h ⊢
      dsimp only at h ⊢
      split_ifs at h ⊢ with c1 c2 c3 c4 c5 c6 c7
      · subst c1
        cases hw : d.load false k with
        | none => rw [hw] at h; exact absurd rfl h
        | some w =>
          rw [hw] at h
          dsimp only at h ⊢
          rw [← ih hp h]
          rw [show toInsn ⟨LD_W_ABS, jt, jf, k⟩ = ⟨0x20, BitVec.ofNat 8 jt, BitVec.ofNat 8 jf, BitVec.ofNat 32 k⟩ from rfl]
          simp only [exec]
          simp [ek, hw]
      · subst c2
        rw [← ih hp h]
        rw [show toInsn ⟨JMP_JA, jt, jf, k⟩ = ⟨0x05, BitVec.ofNat 8 jt, BitVec.ofNat 8 jf, BitVec.ofNat 32 k⟩ from rfl]
        simp only [exec]
        simp [ek]
      · subst c3
        rfl
      · subst c4; rw [exec_cond _ _ _ _ hi]; exact ih hp h
      · subst c5; rw [exec_cond _ _ _ _ hi]; exact ih hp h
      · subst c6; rw [exec_cond _ _ _ _ hi]; exact ih hp h
      · subst c7; rw [exec_cond _ _ _ _ hi]; exact ih hp h
      · exact absurd rfl h

/-- `_emit_jmp` reaches its targets. -/
theorem execN_emitJmp (d : SeccompData) (op : JOp) (v jt jf : Nat) (p : List SockFilter) (r : Regs) :
    execN d (emitJmp op v jt jf ++ p) 0 r = execN d p (branch op r.a v jt jf) r := by
  unfold emitJmp
  split_ifs
  · rw [List.singleton_append, execN_cond]
  all_goals
    simp only [List.cons_append, List.nil_append]
    rw [execN_cond]
    unfold branch
    by_cases hb : jumpTest op r.a.toNat v
    · simp only [if_pos hb, execN_ja, execN_succ]
    · simp only [if_neg hb, execN_ja, execN_succ]

/-- A program that ends with a verdict does not look at what is behind it. -/
theorem execN_append {d : SeccompData} (p q : List SockFilter) (n : Nat) (r : Regs) (h : execN d p n r ≠ .bad) : execN d (p ++ q) n r = execN d p n r := by
  induction p generalizing n r with
  | nil => exact absurd rfl h
  | cons i p ih =>
    cases n with
    | succ n => exact ih _ _ h
    | zero =>
      rw [List.cons_append]
      rw [execN] at h ⊢
      rw [execN]
      split_ifs at h ⊢
      · split at h
        · exact ih _ _ h
        · exact absurd rfl h
      · exact ih _ _ h
      · rfl
      · exact ih _ _ h
      · exact ih _ _ h
      · exact ih _ _ h
      · exact ih _ _ h
      · exact absurd rfl h

theorem execN_drop (d : SeccompData) (l : List SockFilter) (n : Nat) (r : Regs) : execN d l n r = execN d (l.drop n) 0 r := by
  induction l generalizing n with
  | nil => simp [execN]
  | cons i l ih =>
    cases n with
    | zero => rfl
    | succ n => rw [execN_succ, ih, List.drop_succ_cons]

/-! ### Objects -/

/-- The blocks a block refers to are among `H`. -/
def Closed (H : Block → Prop) : Block → Prop
  | .basic _ _ _ => True
  | .validateArch _ b => H b
  | .syscallEntry _ _ _ jt jf => H jt ∧ H jf
  | .wideAtom _ _ _ _ jt jf => H jt ∧ H jf
  | .atom _ _ _ _ jt jf => H jt ∧ H jf

/-- A set of objects whose numbers are below `n`, closed under reference, told apart by their numbers, all with the property `Q`. -/
structure Heap (Q : Block → Prop) (H : Block → Prop) (n : Nat) : Prop where
  lt : ∀ b, H b → b.id < n
  inj : ∀ b c, H b → H c → b.id = c.id → b = c
  closed : ∀ b, H b → Closed H b
  node : ∀ b, H b → Q b

theorem Closed.mono {H H' : Block → Prop} (h : ∀ b, H b → H' b) {b : Block} (hc : Closed H b) : Closed H' b := by
  cases b with
  | basic => trivial
  | validateArch => exact h _ hc
  | syscallEntry => exact ⟨h _ hc.1, h _ hc.2⟩
  | wideAtom => exact ⟨h _ hc.1, h _ hc.2⟩
  | atom => exact ⟨h _ hc.1, h _ hc.2⟩

/-- A new object. -/
theorem Heap.add {Q H : Block → Prop} {n : Nat} (h : Heap Q H n) {b : Block} (hb : b.id = n) (hc : Closed H b) (hq : Q b) :
    Heap Q (fun x => H x ∨ x = b) (n + 1) := by
  refine ⟨?_, ?_, ?_, ?_⟩
  · rintro c (hc | rfl)
    · have := h.lt c hc; omega
    · omega
  · rintro c e (h1 | rfl) (h2 | rfl) q
    · exact h.inj c e h1 h2 q
    · have := h.lt c h1; omega
    · have := h.lt e h2; omega
    · rfl
  · rintro c (h1 | rfl)
    · exact (h.closed c h1).mono fun _ => .inl
    · exact hc.mono fun _ => .inl
  · rintro c (h1 | rfl)
    · exact h.node c h1
    · exact hq

theorem Heap.le {Q H : Block → Prop} {n m : Nat} (h : Heap Q H n) (hm : n ≤ m) : Heap Q H m :=
  ⟨fun b hb => Nat.lt_of_lt_of_le (h.lt b hb) hm, h.inj, h.closed, h.node⟩

theorem Heap.weaken {Q Q' H : Block → Prop} {n : Nat} (h : Heap Q H n) (hq : ∀ b, H b → Q b → Q' b) : Heap Q' H n :=
  ⟨h.lt, h.inj, h.closed, fun b hb => hq b hb (h.node b hb)⟩

/-! ### What a block does -/

open Classical in
/-- The verdict of the code of a block. -/
noncomputable def sem (d : SeccompData) : Block → Regs → Verdict
  | .basic _ _ l, r => execN d l 0 r
  | .validateArch _ _, _ => .bad
  | .syscallEntry _ op nr jt jf, r => if jumpTest op r.a.toNat nr then sem d jt r else sem d jf r
  | .wideAtom _ off op v jt jf, r =>
    match d.load false off with
    | some w => if jumpTest op w.toNat v then sem d jt { r with a := w } else sem d jf { r with a := w }
    | none => .bad
  | .atom _ _ _ _ _ _, _ => .bad

/-- An instruction the kernel lets pass when `m` more follow. -/
def okInsn (i : SockFilter) (m : Nat) : Prop :=
  (i.code = LD_W_ABS ∧ i.k < 64 ∧ i.k % 4 = 0) ∨ (i.code = JMP_JA ∧ i.k < m) ∨ i.code = RET ∨ ((∃ op, i.code = jmpCode op) ∧ i.jt < m ∧ i.jf < m)

/-- All jumps stay in the program. -/
def Snd : List SockFilter → Prop
  | [] => True
  | i :: rest => okInsn i rest.length ∧ Snd rest

/-- The jumps stay in the program, which ends with a verdict. -/
def Done (l : List SockFilter) : Prop := Snd l ∧ ∃ i, l.getLast? = some i ∧ i.code = RET

theorem done_ret (w : Nat) : Done [⟨RET, 0, 0, w⟩] := ⟨⟨.inr (.inr (.inl rfl)), trivial⟩, _, rfl, rfl⟩

/-- Code, not comparisons to be lowered; basic blocks end with a verdict; numbers fit, unless a distance does not. -/
def Code (d : SeccompData) : Block → Prop
  | .basic _ _ l => execN d l 0 Regs.init ≠ .bad ∧ (∀ r, execN d l 0 r = execN d l 0 Regs.init) ∧ (l.length < 2 ^ 32 → ∀ i ∈ l, Fits i) ∧ Done l
  | .validateArch _ _ => False
  | .syscallEntry _ _ nr _ _ => nr < 2 ^ 32
  | .wideAtom _ off _ v _ _ => off < 2 ^ 32 ∧ v < 2 ^ 32 ∧ ∃ w, d.load false off = some w
  | .atom _ _ _ _ _ _ => False

/-- What was emitted for a block does what the block does. -/
def FInv (d : SeccompData) (H : Block → Prop) (s : Flat) : Prop :=
  ∀ i off, s.offsets.lookup i = some off → ∃ n, n ≤ s.instructions.length ∧ off = -(n : Int) ∧
    ∀ b, H b → b.id = i → ∀ r, execN d (s.instructions.drop (s.instructions.length - n)) 0 r = sem d b r

theorem finv_new (d : SeccompData) (H : Block → Prop) : FInv d H Flat.new := by
  intro i off h
  simp [Flat.new] at h

theorem finv_visited {d : SeccompData} {H : Block → Prop} {s : Flat} (h : FInv d H s) (v : List Nat) : FInv d H { s with visited := v } := h

/-- A distance leads to the code. -/
theorem distance_exec {d : SeccompData} {H : Block → Prop} {s : Flat} (h : FInv d H s) {b : Block} (hb : H b) {n : Nat} (hd : s.distance b = some n) (r : Regs) :
    execN d s.instructions n r = sem d b r := by
  unfold Flat.distance at hd
  cases ho : s.offsets.lookup b.id with
  | none => rw [ho] at hd; simp at hd
  | some off =>
    rw [ho] at hd
    simp only [Option.bind_eq_bind, Option.bind_some] at hd
    split at hd
    · simp only [Option.some.injEq] at hd
      obtain ⟨m, hm, rfl, hx⟩ := h _ _ ho
      rw [← hx b hb rfl r, execN_drop]
      congr 2
      omega
    · simp at hd

theorem visit_shape {archNr : Nat} {kill : Action} {s s' : Flat} {b : Block} (h : s.visit archNr kill b = some s') :
    s.offsets.lookup b.id = none ∧ ∃ l, flatInstructions archNr kill s b = some l ∧ s' = { s with
      instructions := l ++ s.instructions, offsets := (b.id, -(Int.ofNat (l ++ s.instructions).length)) :: s.offsets } := by
  unfold Flat.visit at h
  split at h
  · simp at h
  · next hn =>
    cases hl : flatInstructions archNr kill s b with
    | none => rw [hl] at h; simp at h
    | some l =>
      rw [hl] at h
      simp only [Option.bind_eq_bind, Option.bind_some, Option.pure_def, Option.some.injEq] at h
      exact ⟨Option.not_isSome_iff_eq_none.1 hn, l, rfl, h.symm⟩

/-- Adding the code of a block. -/
theorem finv_visit {d : SeccompData} {Q H : Block → Prop} {n : Nat} (hh : Heap Q H n) {archNr : Nat} {kill : Action} {s s' : Flat} {b : Block}
    (hi : FInv d H s) (hb : H b) (h : s.visit archNr kill b = some s')
    (hx : ∀ l, flatInstructions archNr kill s b = some l → ∀ r, execN d (l ++ s.instructions) 0 r = sem d b r) : FInv d H s' := by
  obtain ⟨hn, l, hl, rfl⟩ := visit_shape h
  intro i off ho
  simp only [List.lookup_cons] at ho
  split at ho
  · next hq =>
    simp only [Option.some.injEq] at ho
    subst ho
    refine ⟨(l ++ s.instructions).length, Nat.le_refl _, rfl, fun c hc hci r => ?_⟩
    have : c = b := hh.inj c b hc hb (by rw [hci]; simpa using hq)
    subst this
    simp only [Nat.sub_self, List.drop_zero]
    exact hx l hl r
  · obtain ⟨m, hm, rfl, hx'⟩ := hi _ _ ho
    refine ⟨m, by simp; omega, rfl, fun c hc hci r => ?_⟩
    rw [← hx' c hc hci r]
    have : (l ++ s.instructions).drop ((l ++ s.instructions).length - m) = s.instructions.drop (s.instructions.length - m) := by
      rw [List.length_append, show l.length + s.instructions.length - m = l.length + (s.instructions.length - m) by omega, List.drop_append]
      simp
    simp only [this]

/-- Code is put before code. -/
theorem flatAccept_suffix {archNr : Nat} {kill : Action} (b : Block) {s s' : Flat} (h : flatAccept archNr kill b s = some s') :
    ∃ pre, s'.instructions = pre ++ s.instructions := by
  have V : ∀ {b : Block} {s s' : Flat}, s.visit archNr kill b = some s' → ∃ pre, s'.instructions = pre ++ s.instructions := by
    intro b s s' h
    obtain ⟨-, l, -, rfl⟩ := visit_shape h
    exact ⟨l, rfl⟩
  induction b generalizing s s' with
  | basic i act l =>
    simp only [flatAccept] at h
    split at h
    · simp only [Option.some.injEq] at h; subst h; exact ⟨[], rfl⟩
    · obtain ⟨p, e⟩ := V h
      exact ⟨p, e⟩
  | validateArch i b ih =>
    simp only [flatAccept] at h
    split at h
    · simp only [Option.some.injEq] at h; subst h; exact ⟨[], rfl⟩
    · obtain ⟨s1, h1, h2⟩ := Option.bind_eq_some_iff.1 h
      obtain ⟨p1, e1⟩ := ih h1
      obtain ⟨p2, e2⟩ := V h2
      exact ⟨p2 ++ p1, by rw [e2, e1, List.append_assoc]⟩
  | syscallEntry i op nr jt jf ih1 ih2 =>
    simp only [flatAccept] at h
    split at h
    · simp only [Option.some.injEq] at h; subst h; exact ⟨[], rfl⟩
    · obtain ⟨s1, h1, h⟩ := Option.bind_eq_some_iff.1 h
      obtain ⟨s2, h2, h3⟩ := Option.bind_eq_some_iff.1 h
      obtain ⟨p1, e1⟩ := ih1 h1
      obtain ⟨p2, e2⟩ := ih2 h2
      obtain ⟨p3, e3⟩ := V h3
      exact ⟨p3 ++ (p2 ++ p1), by rw [e3, e2, e1, List.append_assoc, List.append_assoc]⟩
  | wideAtom i off op v jt jf ih1 ih2 =>
    simp only [flatAccept] at h
    split at h
    · simp only [Option.some.injEq] at h; subst h; exact ⟨[], rfl⟩
    · obtain ⟨s1, h1, h⟩ := Option.bind_eq_some_iff.1 h
      obtain ⟨s2, h2, h3⟩ := Option.bind_eq_some_iff.1 h
      obtain ⟨p1, e1⟩ := ih1 h1
      obtain ⟨p2, e2⟩ := ih2 h2
      obtain ⟨p3, e3⟩ := V h3
      exact ⟨p3 ++ (p2 ++ p1), by rw [e3, e2, e1, List.append_assoc, List.append_assoc]⟩
  | atom i off op v jt jf ih1 ih2 =>
    simp only [flatAccept] at h
    split at h
    · simp only [Option.some.injEq] at h; subst h; exact ⟨[], rfl⟩
    · obtain ⟨s1, h1, h⟩ := Option.bind_eq_some_iff.1 h
      obtain ⟨s2, h2, h3⟩ := Option.bind_eq_some_iff.1 h
      obtain ⟨p1, e1⟩ := ih1 h1
      obtain ⟨p2, e2⟩ := ih2 h2
      obtain ⟨p3, e3⟩ := V h3
      exact ⟨p3 ++ (p2 ++ p1), by rw [e3, e2, e1, List.append_assoc, List.append_assoc]⟩

/-- Flattening a graph adds code that does what the graph does. -/
theorem flatAccept_inv {d : SeccompData} {H : Block → Prop} {n : Nat} (hh : Heap (Code d) H n) {archNr : Nat} {kill : Action} (b : Block) {s s' : Flat} (hb : H b)
    (h : flatAccept archNr kill b s = some s') (hi : FInv d H s) : FInv d H s' := by
  induction b generalizing s s' with
  | basic i act l =>
    simp only [flatAccept] at h
    split at h
    · simp only [Option.some.injEq] at h; subst h; exact hi
    · refine finv_visit hh (finv_visited hi _) hb h fun l' hl r => ?_
      simp only [flatInstructions, Option.some.injEq] at hl
      subst hl
      obtain ⟨n1, n2, -⟩ := hh.node _ hb
      rw [execN_append _ _ _ _ (by rw [n2]; exact n1)]
      rfl
  | validateArch i b ih => exact (hh.node _ hb).elim
  | atom i arg op v jt jf => exact (hh.node _ hb).elim
  | syscallEntry i op nr jt jf ih1 ih2 =>
    simp only [flatAccept] at h
    split at h
    · simp only [Option.some.injEq] at h; subst h; exact hi
    · obtain ⟨s1, h1, h⟩ := Option.bind_eq_some_iff.1 h
      obtain ⟨s2, h2, h3⟩ := Option.bind_eq_some_iff.1 h
      have c := hh.closed _ hb
      have i1 := ih1 c.1 h1 (finv_visited hi _)
      have i2 := ih2 c.2 h2 i1
      refine finv_visit hh i2 hb h3 fun l hl r => ?_
      obtain ⟨dt, q1, hl⟩ := Option.bind_eq_some_iff.1 hl
      obtain ⟨df, q2, hl⟩ := Option.bind_eq_some_iff.1 hl
      simp only [Option.pure_def, Option.some.injEq] at hl
      subst hl
      rw [execN_emitJmp]
      unfold branch
      simp only [sem]
      by_cases hc : jumpTest op r.a.toNat nr
      · rw [if_pos hc, if_pos hc]; exact distance_exec i2 c.1 q1 r
      · rw [if_neg hc, if_neg hc]; exact distance_exec i2 c.2 q2 r
  | wideAtom i off op v jt jf ih1 ih2 =>
    simp only [flatAccept] at h
    split at h
    · simp only [Option.some.injEq] at h; subst h; exact hi
    · obtain ⟨s1, h1, h⟩ := Option.bind_eq_some_iff.1 h
      obtain ⟨s2, h2, h3⟩ := Option.bind_eq_some_iff.1 h
      have c := hh.closed _ hb
      have i1 := ih1 c.1 h1 (finv_visited hi _)
      have i2 := ih2 c.2 h2 i1
      refine finv_visit hh i2 hb h3 fun l hl r => ?_
      obtain ⟨dt, q1, hl⟩ := Option.bind_eq_some_iff.1 hl
      obtain ⟨df, q2, hl⟩ := Option.bind_eq_some_iff.1 hl
      simp only [Option.pure_def, Option.some.injEq] at hl
      subst hl
      obtain ⟨-, -, w, hw⟩ := hh.node _ hb
      rw [List.append_assoc, show emitLoadArg off = [⟨LD_W_ABS, 0, 0, off⟩] from rfl, List.singleton_append, execN_load hw, execN_emitJmp]
      unfold branch
      simp only [sem, hw]
      by_cases hc : jumpTest op w.toNat v
      · rw [if_pos hc, if_pos hc]; exact distance_exec i2 c.1 q1 _
      · rw [if_neg hc, if_neg hc]; exact distance_exec i2 c.2 q2 _

/-- Just visited: the code begins the program. -/
theorem flatAccept_head {archNr : Nat} {kill : Action} (b : Block) {s s' : Flat} (h : flatAccept archNr kill b s = some s') (hv : b.id ∉ s.visited) :
    s'.offsets.lookup b.id = some (-(s'.instructions.length : Int)) := by
  have V : ∀ {b : Block} {s s' : Flat}, s.visit archNr kill b = some s' → s'.offsets.lookup b.id = some (-(s'.instructions.length : Int)) := by
    intro b s s' h
    obtain ⟨-, l, -, rfl⟩ := visit_shape h
    simp only [List.lookup_cons, beq_self_eq_true]
    rfl
  cases b with
  | basic i act l => simp only [flatAccept] at h; rw [if_neg (by exact hv)] at h; exact V h
  | validateArch i b =>
    simp only [flatAccept] at h; rw [if_neg (by exact hv)] at h
    obtain ⟨s1, h1, h2⟩ := Option.bind_eq_some_iff.1 h
    exact V h2
  | syscallEntry i op nr jt jf =>
    simp only [flatAccept] at h; rw [if_neg (by exact hv)] at h
    obtain ⟨s1, h1, h⟩ := Option.bind_eq_some_iff.1 h
    obtain ⟨s2, h2, h3⟩ := Option.bind_eq_some_iff.1 h
    exact V h3
  | wideAtom i off op v jt jf =>
    simp only [flatAccept] at h; rw [if_neg (by exact hv)] at h
    obtain ⟨s1, h1, h⟩ := Option.bind_eq_some_iff.1 h
    obtain ⟨s2, h2, h3⟩ := Option.bind_eq_some_iff.1 h
    exact V h3
  | atom i off op v jt jf =>
    simp only [flatAccept] at h; rw [if_neg (by exact hv)] at h
    obtain ⟨s1, h1, h⟩ := Option.bind_eq_some_iff.1 h
    obtain ⟨s2, h2, h3⟩ := Option.bind_eq_some_iff.1 h
    exact V h3

/-- The code of a graph, flattened by a new visitor, does what the graph does. -/
theorem flat_new {d : SeccompData} {H : Block → Prop} {n : Nat} (hh : Heap (Code d) H n) {archNr : Nat} {kill : Action} (b : Block) {s' : Flat} (hb : H b)
    (h : flatAccept archNr kill b Flat.new = some s') (r : Regs) :
    execN d s'.instructions 0 r = sem d b r := by
  have hi := flatAccept_inv hh b hb h (finv_new d H)
  have ho := flatAccept_head b h (by simp [Flat.new])
  obtain ⟨m, hm, e, hx⟩ := hi _ _ ho
  have : m = s'.instructions.length := by omega
  subst this
  have := hx b hb rfl r
  simpa using this

/-! ### Numbers fit their fields -/

theorem emitJmp_fits {op : JOp} {v jt jf n : Nat} (hv : v < 2 ^ 32) (ht : jt ≤ n) (hf : jf ≤ n) (hn : (emitJmp op v jt jf).length + n < 2 ^ 32) : ∀ i ∈ emitJmp op v jt jf, Fits i := by
  have hc : jmpCode op < 2 ^ 16 := by cases op <;> decide
  have hj : JMP_JA < 2 ^ 16 := by decide
  have z0 : 0 < 2 ^ 8 := by decide
  have z1 : 1 < 2 ^ 8 := by decide
  unfold emitJmp at hn ⊢
  split_ifs at hn ⊢ with c1 c2 c3
  · intro i hi
    rw [List.mem_singleton.1 hi]
    exact ⟨hc, c1.1, c1.2, hv⟩
  · intro i hi
    simp only [List.length_cons, List.length_nil] at hn
    rcases List.mem_cons.1 hi with rfl | hi
    · exact ⟨hc, c2, z0, hv⟩
    · rw [List.mem_singleton.1 hi]
      exact ⟨hj, z0, z0, by dsimp only; omega⟩
  · intro i hi
    simp only [List.length_cons, List.length_nil] at hn
    rcases List.mem_cons.1 hi with rfl | hi
    · exact ⟨hc, z0, c3, hv⟩
    · rw [List.mem_singleton.1 hi]
      exact ⟨hj, z0, z0, by dsimp only; omega⟩
  · intro i hi
    simp only [List.length_cons, List.length_nil] at hn
    rcases List.mem_cons.1 hi with rfl | hi
    · exact ⟨hc, z0, z1, hv⟩
    · rcases List.mem_cons.1 hi with rfl | hi
      · exact ⟨hj, z0, z0, by dsimp only; omega⟩
      · rw [List.mem_singleton.1 hi]
        exact ⟨hj, z0, z0, by dsimp only; omega⟩

/-- Numbers fit as long as the program is not too long. -/
def FitInv (s : Flat) : Prop := s.instructions.length < 2 ^ 32 → ∀ i ∈ s.instructions, Fits i

theorem fit_visit {archNr : Nat} {kill : Action} {s s' : Flat} {b : Block} (hi : FitInv s) (h : s.visit archNr kill b = some s')
    (hx : ∀ l, flatInstructions archNr kill s b = some l → l.length + s.instructions.length < 2 ^ 32 → ∀ i ∈ l, Fits i) : FitInv s' := by
  obtain ⟨-, l, hl, rfl⟩ := visit_shape h
  intro hlen i hm
  dsimp only at hlen hm
  rw [List.length_append] at hlen
  rcases List.mem_append.1 hm with hm | hm
  · exact hx l hl hlen i hm
  · exact hi (by omega) i hm

theorem distance_le {d : SeccompData} {H : Block → Prop} {s : Flat} (h : FInv d H s) {b : Block} {n : Nat} (hd : s.distance b = some n) : n ≤ s.instructions.length := by
  unfold Flat.distance at hd
  cases ho : s.offsets.lookup b.id with
  | none => rw [ho] at hd; simp at hd
  | some off =>
    rw [ho] at hd
    simp only [Option.bind_eq_bind, Option.bind_some] at hd
    split at hd
    · simp only [Option.some.injEq] at hd
      obtain ⟨m, hm, rfl, -⟩ := h _ _ ho
      omega
    · simp at hd

theorem flatAccept_fits {d : SeccompData} {H : Block → Prop} {n : Nat} (hh : Heap (Code d) H n) {archNr : Nat} {kill : Action} (b : Block) {s s' : Flat} (hb : H b)
    (h : flatAccept archNr kill b s = some s') (hi : FInv d H s) (hf : FitInv s) : FitInv s' := by
  induction b generalizing s s' with
  | basic i act l =>
    simp only [flatAccept] at h
    split at h
    · simp only [Option.some.injEq] at h; subst h; exact hf
    · refine fit_visit (s := { s with visited := i :: s.visited }) hf h fun l' hl hlen => ?_
      simp only [flatInstructions, Option.some.injEq] at hl
      subst hl
      exact (hh.node _ hb).2.2.1 (by omega)
  | validateArch i b ih => exact (hh.node _ hb).elim
  | atom i arg op v jt jf => exact (hh.node _ hb).elim
  | syscallEntry i op nr jt jf ih1 ih2 =>
    simp only [flatAccept] at h
    split at h
    · simp only [Option.some.injEq] at h; subst h; exact hf
    · obtain ⟨s1, h1, h⟩ := Option.bind_eq_some_iff.1 h
      obtain ⟨s2, h2, h3⟩ := Option.bind_eq_some_iff.1 h
      have c := hh.closed _ hb
      have i1 := flatAccept_inv hh jt c.1 h1 (finv_visited hi _)
      have i2 := flatAccept_inv hh jf c.2 h2 i1
      have f2 := ih2 c.2 h2 i1 (ih1 c.1 h1 (finv_visited hi _) hf)
      refine fit_visit f2 h3 fun l hl hlen => ?_
      obtain ⟨dt, q1, hl⟩ := Option.bind_eq_some_iff.1 hl
      obtain ⟨df, q2, hl⟩ := Option.bind_eq_some_iff.1 hl
      simp only [Option.pure_def, Option.some.injEq] at hl
      subst hl
      exact emitJmp_fits (hh.node _ hb) (distance_le i2 q1) (distance_le i2 q2) hlen
  | wideAtom i off op v jt jf ih1 ih2 =>
    simp only [flatAccept] at h
    split at h
    · simp only [Option.some.injEq] at h; subst h; exact hf
    · obtain ⟨s1, h1, h⟩ := Option.bind_eq_some_iff.1 h
      obtain ⟨s2, h2, h3⟩ := Option.bind_eq_some_iff.1 h
      have c := hh.closed _ hb
      have i1 := flatAccept_inv hh jt c.1 h1 (finv_visited hi _)
      have i2 := flatAccept_inv hh jf c.2 h2 i1
      have f2 := ih2 c.2 h2 i1 (ih1 c.1 h1 (finv_visited hi _) hf)
      refine fit_visit f2 h3 fun l hl hlen => ?_
      obtain ⟨dt, q1, hl⟩ := Option.bind_eq_some_iff.1 hl
      obtain ⟨df, q2, hl⟩ := Option.bind_eq_some_iff.1 hl
      simp only [Option.pure_def, Option.some.injEq] at hl
      subst hl
      obtain ⟨n1, n2, -⟩ := hh.node _ hb
      intro j hj
      rcases List.mem_append.1 hj with hj | hj
      · rw [List.mem_singleton.1 hj]
        exact ⟨(by decide : LD_W_ABS < 2 ^ 16), (by decide : 0 < 2 ^ 8), (by decide : 0 < 2 ^ 8), n1⟩
      · exact emitJmp_fits n2 (distance_le i2 q1) (distance_le i2 q2) (by rw [List.length_append] at hlen; omega) j hj

/-! ### Jumps stay in the program -/

theorem okInsn.mono {i : SockFilter} {m m' : Nat} (h : okInsn i m) (hm : m ≤ m') : okInsn i m' := by
  rcases h with h | ⟨h1, h2⟩ | h | ⟨h1, h2, h3⟩
  · exact .inl h
  · exact .inr (.inl ⟨h1, by omega⟩)
  · exact .inr (.inr (.inl h))
  · exact .inr (.inr (.inr ⟨h1, by omega, by omega⟩))

theorem Snd.append {l m : List SockFilter} (hl : Snd l) (hm : Snd m) : Snd (l ++ m) := by
  induction l with
  | nil => exact hm
  | cons i l ih => exact ⟨hl.1.mono (by show l.length ≤ (l ++ m).length; rw [List.length_append]; omega), ih hl.2⟩

theorem emitJmp_snd {op : JOp} {v jt jf : Nat} {l : List SockFilter} (ht : jt < l.length) (hf : jf < l.length) (hl : Snd l) : Snd (emitJmp op v jt jf ++ l) := by
  have J : ∀ (a b : Nat) (m : List SockFilter), a < m.length → b < m.length → Snd m → Snd (⟨jmpCode op, a, b, v⟩ :: m) :=
    fun a b m h1 h2 h3 => ⟨.inr (.inr (.inr ⟨⟨op, rfl⟩, h1, h2⟩)), h3⟩
  have A : ∀ (k : Nat) (m : List SockFilter), k < m.length → Snd m → Snd (⟨JMP_JA, 0, 0, k⟩ :: m) := fun k m h1 h2 => ⟨.inr (.inl ⟨rfl, h1⟩), h2⟩
  unfold emitJmp
  split_ifs
  · exact J _ _ _ ht hf hl
  · exact J _ _ _ (by simp; omega) (by simp) (A _ _ hf hl)
  · exact J _ _ _ (by simp) (by simp; omega) (A _ _ ht hl)
  · exact J _ _ _ (by simp) (by simp) (A _ _ (by simp; omega) (A _ _ hf hl))

theorem last_append {l m : List SockFilter} (h : ∃ i, m.getLast? = some i ∧ i.code = RET) : ∃ i, (l ++ m).getLast? = some i ∧ i.code = RET := by
  obtain ⟨i, h1, h2⟩ := h
  exact ⟨i, by rw [List.getLast?_append, h1]; rfl, h2⟩

/-- What was emitted keeps its jumps inside, and offsets lead into it. -/
structure SInv (s : Flat) : Prop where
  done : s.instructions ≠ [] → Done s.instructions
  offs : ∀ i off, s.offsets.lookup i = some off → ∃ n, 0 < n ∧ n ≤ s.instructions.length ∧ off = -(n : Int)

theorem sinv_new : SInv Flat.new := ⟨fun h => absurd rfl h, by simp [Flat.new]⟩

theorem SInv.distance {s : Flat} (h : SInv s) {b : Block} {n : Nat} (hd : s.distance b = some n) : n < s.instructions.length := by
  unfold Flat.distance at hd
  cases ho : s.offsets.lookup b.id with
  | none => rw [ho] at hd; simp at hd
  | some off =>
    rw [ho] at hd
    simp only [Option.bind_eq_bind, Option.bind_some] at hd
    split at hd
    · simp only [Option.some.injEq] at hd
      obtain ⟨m, hm0, hm, rfl⟩ := h.offs _ _ ho
      omega
    · simp at hd

theorem sinv_visit {archNr : Nat} {kill : Action} {s s' : Flat} {b : Block} (hi : SInv s) (h : s.visit archNr kill b = some s')
    (hx : ∀ l, flatInstructions archNr kill s b = some l → l ≠ [] ∧ Done (l ++ s.instructions)) : SInv s' := by
  obtain ⟨-, l, hl, rfl⟩ := visit_shape h
  obtain ⟨h1, h2⟩ := hx l hl
  refine ⟨fun _ => h2, fun i off ho => ?_⟩
  simp only [List.lookup_cons] at ho
  split at ho
  · simp only [Option.some.injEq] at ho
    subst ho
    refine ⟨(l ++ s.instructions).length, ?_, Nat.le_refl _, rfl⟩
    have := List.length_pos_iff.2 h1
    rw [List.length_append]
    omega
  · obtain ⟨m, h0, hm, e⟩ := hi.offs _ _ ho
    exact ⟨m, h0, by simp; omega, e⟩

theorem load_bound {d : SeccompData} {off : Nat} {w : BitVec 32} (h : d.load false off = some w) : off < 64 ∧ off % 4 = 0 := by
  unfold SeccompData.load at h
  split at h
  · next h4 =>
    obtain ⟨q, -⟩ := List.getElem?_eq_some_iff.1 h
    have : (d.words false).length = 16 := rfl
    omega
  · simp at h

theorem flatAccept_sound {d : SeccompData} {H : Block → Prop} {n : Nat} (hh : Heap (Code d) H n) {archNr : Nat} {kill : Action} (b : Block) {s s' : Flat} (hb : H b)
    (h : flatAccept archNr kill b s = some s') (hi : SInv s) : SInv s' := by
  induction b generalizing s s' with
  | basic i act l =>
    simp only [flatAccept] at h
    split at h
    · simp only [Option.some.injEq] at h; subst h; exact hi
    · refine sinv_visit (s := { s with visited := i :: s.visited }) ⟨hi.done, hi.offs⟩ h fun l' hl => ?_
      simp only [flatInstructions, Option.some.injEq] at hl
      subst hl
      have hd := (hh.node _ hb).2.2.2
      refine ⟨?_, ?_⟩
      · rintro rfl
        obtain ⟨i, h1, -⟩ := hd.2
        simp at h1
      · by_cases hs : s.instructions = []
        · simp only [hs, List.append_nil]; exact hd
        · exact ⟨hd.1.append (hi.done hs).1, last_append (hi.done hs).2⟩
  | validateArch i b ih => exact (hh.node _ hb).elim
  | atom i arg op v jt jf => exact (hh.node _ hb).elim
  | syscallEntry i op nr jt jf ih1 ih2 =>
    simp only [flatAccept] at h
    split at h
    · simp only [Option.some.injEq] at h; subst h; exact hi
    · obtain ⟨s1, h1, h⟩ := Option.bind_eq_some_iff.1 h
      obtain ⟨s2, h2, h3⟩ := Option.bind_eq_some_iff.1 h
      have c := hh.closed _ hb
      have i2 := ih2 c.2 h2 (ih1 c.1 h1 ⟨hi.done, hi.offs⟩)
      refine sinv_visit i2 h3 fun l hl => ?_
      obtain ⟨dt, q1, hl⟩ := Option.bind_eq_some_iff.1 hl
      obtain ⟨df, q2, hl⟩ := Option.bind_eq_some_iff.1 hl
      simp only [Option.pure_def, Option.some.injEq] at hl
      subst hl
      have dl := i2.distance q1
      have ne : s2.instructions ≠ [] := by rintro e; rw [e] at dl; simp at dl
      have dn := i2.done ne
      exact ⟨by unfold emitJmp; split_ifs <;> simp, emitJmp_snd dl (i2.distance q2) dn.1, last_append dn.2⟩
  | wideAtom i off op v jt jf ih1 ih2 =>
    simp only [flatAccept] at h
    split at h
    · simp only [Option.some.injEq] at h; subst h; exact hi
    · obtain ⟨s1, h1, h⟩ := Option.bind_eq_some_iff.1 h
      obtain ⟨s2, h2, h3⟩ := Option.bind_eq_some_iff.1 h
      have c := hh.closed _ hb
      have i2 := ih2 c.2 h2 (ih1 c.1 h1 ⟨hi.done, hi.offs⟩)
      refine sinv_visit i2 h3 fun l hl => ?_
      obtain ⟨dt, q1, hl⟩ := Option.bind_eq_some_iff.1 hl
      obtain ⟨df, q2, hl⟩ := Option.bind_eq_some_iff.1 hl
      simp only [Option.pure_def, Option.some.injEq] at hl
      subst hl
      have dl := i2.distance q1
      have ne : s2.instructions ≠ [] := by rintro e; rw [e] at dl; simp at dl
      have dn := i2.done ne
      obtain ⟨-, -, w, hw⟩ := hh.node _ hb
      exact ⟨by simp [emitLoadArg], ⟨.inl ⟨rfl, load_bound hw⟩, emitJmp_snd dl (i2.distance q2) dn.1⟩, last_append dn.2⟩

end Minijail.Offline
