import Verif.Proof.KernelSound
import Verif.Proof.Seg
import Verif.Spec.Labels
/-! Symbolic programs whose resolution the kernel accepts. -/
set_option linter.unusedSimpArgs false
set_option autoImplicit false
namespace Minijail

/-- `A n` is a set of scratch words that are written whenever instruction `n` is reached. -/
def SymInsnOk (len n : Nat) (i : Insn) (A : Nat → BitVec 16) : Prop :=
  (∃ l, i = bpfJumpLbl l) ∨ (∃ l, i = bpfLbl l ∧ A n = 0 ∧ A (n + 1) = 0) ∨
  match i.code.toNat with
  | 0x20 => i.k.toNat % 4 = 0 ∧ i.k.toNat < 64 ∧ MSub (A (n + 1)) (A n)
  | 0x60 => i.k.toNat < 16 ∧ (A n).getLsbD i.k.toNat = true ∧ MSub (A (n + 1)) (A n)
  | 0x02 => i.k.toNat < 16 ∧ MSub (A (n + 1)) (A n ||| (1#16 <<< i.k.toNat))
  | 0x15 | 0x25 | 0x35 | 0x45 => n + i.jt.toNat + 1 ≤ len ∧ n + i.jf.toNat + 1 ≤ len ∧
      MSub (A (n + i.jt.toNat + 1)) (A n) ∧ MSub (A (n + i.jf.toNat + 1)) (A n)
  | 0x06 => MSub (A (n + 1)) (A n)
  | _ => False

/-- A symbolic piece of program that can be entered at its start and left at its end, each without any scratch word
known to be written. -/
structure SymOk (p : List Insn) (A : Nat → BitVec 16) : Prop where
  start : A 0 = 0
  after : ∀ n, p.length ≤ n → A n = 0
  insn : ∀ n i, p[n]? = some i → SymInsnOk p.length n i A

/-- Some annotation fits. -/
def Sg (p : List Insn) : Prop := ∃ A, SymOk p A

theorem Sg.nil : Sg [] := ⟨fun _ => 0, rfl, fun _ _ => rfl, by simp⟩

theorem Sg.append {p q : List Insn} (hp : Sg p) (hq : Sg q) : Sg (p ++ q) := by
  obtain ⟨A, hA⟩ := hp
  obtain ⟨B, hB⟩ := hq
  let C : Nat → BitVec 16 := fun n => if n < p.length then A n else B (n - p.length)
  have C1 : ∀ n, n ≤ p.length → C n = A n := by
    intro n hn
    simp only [C]
    split
    · rfl
    · next h =>
      have : n = p.length := by omega
      subst this
      rw [hA.after _ (by omega), Nat.sub_self, hB.start]
  have C2 : ∀ n, C (n + p.length) = B n := by
    intro n; simp only [C]; rw [if_neg (by omega), Nat.add_sub_cancel]
  refine ⟨C, ?_, ?_, ?_⟩
  · rw [C1 0 (by omega), hA.start]
  · intro n hn
    simp only [List.length_append] at hn
    have := C2 (n - p.length)
    rw [show n - p.length + p.length = n by omega] at this
    rw [this]; exact hB.after _ (by omega)
  · intro n i hi
    by_cases h : n < p.length
    · rw [List.getElem?_append_left h] at hi
      have := hA.insn n i hi
      unfold SymInsnOk at this ⊢
      rw [C1 n (by omega), C1 (n + 1) (by omega)]
      rcases this with h' | h' | h'
      · exact .inl h'
      · exact .inr (.inl h')
      · refine .inr (.inr ?_)
        generalize i.code.toNat = c at *
        split at h' <;> try exact h'
        all_goals
          obtain ⟨h1, h2, h3, h4⟩ := h'
          rw [C1 _ h1, C1 _ h2]
          exact ⟨by simp; omega, by simp; omega, h3, h4⟩
    · rw [List.getElem?_append_right (by omega)] at hi
      have := hB.insn _ i hi
      unfold SymInsnOk at this ⊢
      obtain ⟨m, rfl⟩ : ∃ m, n = m + p.length := ⟨n - p.length, by omega⟩
      rw [Nat.add_sub_cancel] at this
      have D : ∀ j, C (m + p.length + j) = B (m + j) := by
        intro j; rw [show m + p.length + j = (m + j) + p.length by omega, C2]
      have D0 := D 0
      simp only [Nat.add_zero] at D0
      rw [D0, D 1]
      rcases this with h' | h' | h'
      · exact .inl h'
      · exact .inr (.inl h')
      · refine .inr (.inr ?_)
        generalize i.code.toNat = c at *
        split at h' <;> try exact h'
        all_goals
          obtain ⟨h1, h2, h3, h4⟩ := h'
          rw [Nat.add_assoc _ _ 1, Nat.add_assoc _ _ 1, D, D]
          rw [Nat.add_assoc] at h3 h4
          exact ⟨by simp; omega, by simp; omega, h3, h4⟩

theorem Sg.flatMap {α} (f : α → List Insn) (l : List α) (h : ∀ a ∈ l, Sg (f a)) : Sg (l.flatMap f) := by
  induction l with
  | nil => exact Sg.nil
  | cons a l ih =>
    rw [List.flatMap_cons]
    exact (h a (by simp)).append (ih fun b hb => h b (List.mem_cons_of_mem _ hb))

theorem Sg.single (i : Insn) (h : SymInsnOk 1 0 i fun _ => 0) : Sg [i] := by
  refine ⟨fun _ => 0, rfl, fun _ _ => rfl, ?_⟩
  intro n j hj
  cases n with
  | zero => simp at hj; subst hj; exact h
  | succ n => simp at hj

theorem Sg.jump (l) : Sg [bpfJumpLbl l] := Sg.single _ (.inl ⟨l, rfl⟩)
theorem Sg.label (l) : Sg [bpfLbl l] := Sg.single _ (.inr (.inl ⟨l, rfl, rfl, rfl⟩))
theorem Sg.ret (k) : Sg [bpfStmt RET k] := Sg.single _ (.inr (.inr (MSub.refl _)))
theorem Sg.loadNr : Sg [bpfLoadSyscallNr] := Sg.single _ (.inr (.inr ⟨by decide, by decide, MSub.refl _⟩))

theorem Sg.two (i j : Insn) (h : SymInsnOk 2 0 i fun _ => 0) (h' : SymInsnOk 2 1 j fun _ => 0) : Sg [i, j] := by
  refine ⟨fun _ => 0, rfl, fun _ _ => rfl, ?_⟩
  intro n x hx
  match n, hx with
  | 0, hx => simp at hx; subst hx; exact h
  | 1, hx => simp at hx; subst hx; exact h'
  | n + 2, hx => simp at hx

theorem Sg.allow (nr) : Sg (bpfAllowSyscall nr) :=
  Sg.two _ _ (.inr (.inr ⟨by simp [bpfJump, NEXT, SKIP], by simp [bpfJump, NEXT, SKIP], MSub.refl _, MSub.refl _⟩)) (.inr (.inr (MSub.refl _)))

theorem Sg.allowArgs (nr id) : Sg (bpfAllowSyscallArgs nr id) :=
  Sg.two _ _ (.inr (.inr ⟨by simp [bpfJump, NEXT, SKIP], by simp [bpfJump, NEXT, SKIP], MSub.refl _, MSub.refl _⟩)) (.inl ⟨id, rfl⟩)

theorem Sg.arch (t) : Sg (bpfValidateArch t) := by
  refine ⟨fun _ => 0, rfl, fun _ _ => rfl, ?_⟩
  intro n x hx
  match n, hx with
  | 0, hx => simp [bpfValidateArch] at hx; subst hx; exact .inr (.inr ⟨by decide, by decide, MSub.refl _⟩)
  | 1, hx => simp [bpfValidateArch] at hx; subst hx; exact .inr (.inr ⟨by simp [bpfValidateArch, bpfJump, SKIP], by simp [bpfValidateArch, bpfJump, NEXT], MSub.refl _, MSub.refl _⟩)
  | 2, hx => simp [bpfValidateArch] at hx; subst hx; exact .inr (.inr (MSub.refl _))
  | n + 3, hx => simp [bpfValidateArch] at hx

theorem msub_of {a b : BitVec 16} (h : a &&& b = a) : MSub a b := by
  intro k hk; rw [← h] at hk; simp at hk; exact hk.2

/-- All instructions of `p`, the first of which is instruction `n`. -/
def SymAll (len : Nat) (A : Nat → BitVec 16) : Nat → List Insn → Prop
  | _, [] => True
  | n, i :: rest => SymInsnOk len n i A ∧ SymAll len A (n + 1) rest

theorem symAll_get {len : Nat} {A : Nat → BitVec 16} (p : List Insn) : ∀ n, SymAll len A n p →
    ∀ j i, p[j]? = some i → SymInsnOk len (n + j) i A := by
  induction p with
  | nil => intro n _ j i h; simp at h
  | cons x p ih =>
    intro n h j i hj
    cases j with
    | zero => simp at hj; subst hj; exact h.1
    | succ j =>
      have := ih (n + 1) h.2 j i (by simpa using hj)
      rwa [show n + 1 + j = n + (j + 1) by omega] at this

/-- The words written at each instruction of a 64-bit atom of `len` instructions. -/
def atomAnn (len n : Nat) : BitVec 16 := if len ≤ n then 0 else if n ≤ 1 then 0 else if n ≤ 3 then 1 else 3

theorem ins_ld {len n : Nat} {A : Nat → BitVec 16} {k : BitVec 32} (h1 : k.toNat % 4 = 0) (h2 : k.toNat < 64)
    (h : A (n + 1) &&& A n = A (n + 1)) : SymInsnOk len n (bpfStmt LD_ABS k) A := .inr (.inr ⟨h1, h2, msub_of h⟩)

theorem ins_st {len n : Nat} {A : Nat → BitVec 16} {k : BitVec 32} (h1 : k.toNat < 16)
    (h : A (n + 1) &&& (A n ||| (1#16 <<< k.toNat)) = A (n + 1)) : SymInsnOk len n (bpfStmt ST k) A := .inr (.inr ⟨h1, msub_of h⟩)

theorem ins_mem {len n : Nat} {A : Nat → BitVec 16} {k : BitVec 32} (h1 : k.toNat < 16) (h2 : (A n).getLsbD k.toNat = true)
    (h : A (n + 1) &&& A n = A (n + 1)) : SymInsnOk len n (bpfStmt LD_MEM k) A := .inr (.inr ⟨h1, h2, msub_of h⟩)

theorem ins_jmp {len n : Nat} {A : Nat → BitVec 16} {k : BitVec 32} {jt jf : BitVec 8} {code : BitVec 16}
    (hc : code = JEQ ∨ code = JGT ∨ code = JGE ∨ code = JSET)
    (h1 : n + jt.toNat + 1 ≤ len) (h2 : n + jf.toNat + 1 ≤ len)
    (h3 : A (n + jt.toNat + 1) &&& A n = A (n + jt.toNat + 1))
    (h4 : A (n + jf.toNat + 1) &&& A n = A (n + jf.toNat + 1)) : SymInsnOk len n (bpfJump code k jt jf) A := by
  rcases hc with rfl | rfl | rfl | rfl <;> exact .inr (.inr ⟨h1, h2, msub_of h3, msub_of h4⟩)

theorem Sg.atom64 (t : Target) (ht : t.bits64 = true) (op : Op) (i : Nat) (hi : i < 6) (c : BitVec 64) (id : BitVec 32) :
    Sg (bpfArgComp t op (BitVec.ofNat 32 i) c id) := by
  refine ⟨atomAnn (bpfArgComp t op (BitVec.ofNat 32 i) c id).length, ?_, ?_, ?_⟩
  · unfold atomAnn; split <;> simp
  · intro n hn; unfold atomAnn; rw [if_pos hn]
  · intro n x hx
    have key : SymAll (bpfArgComp t op (BitVec.ofNat 32 i) c id).length
        (atomAnn (bpfArgComp t op (BitVec.ofNat 32 i) c id).length) 0 (bpfArgComp t op (BitVec.ofNat 32 i) c id) := by
      have hij : ∀ j : Nat, j < 6 → ((16 : BitVec 32) + 8 * BitVec.ofNat 32 j).toNat = 16 + 8 * j := by
        intro j hj; simp; omega
      have hij' : ∀ j : Nat, j < 6 → ((16 : BitVec 32) + 8 * BitVec.ofNat 32 j + 4).toNat = 20 + 8 * j := by
        intro j hj; simp; omega
      have e1 := hij i hi
      have e2 := hij' i hi
      cases op <;>
        simp only [bpfArgComp, bpfLoadArg, ht, if_true, compFunction, bpfCompJeq, bpfCompJgt, bpfCompJge, bpfCompJset,
          bpfCompJin, bpfCompJeq64, bpfCompJgt64, bpfCompJge64, bpfCompJset64, bpfCompJeq32, bpfCompJgt32, bpfCompJge32,
          bpfCompJset32, opFlip, if_false, Bool.false_eq_true, loArg, hiArg] <;>
        (try split) <;>
        simp only [List.cons_append, List.nil_append, List.length_cons, List.length_nil, SymAll, and_true] <;>
        refine ⟨ins_ld (by rw [e1]; omega) (by rw [e1]; omega) (by decide), ins_st (by decide) (by decide),
          ins_ld (by rw [e2]; omega) (by rw [e2]; omega) (by decide), ins_st (by decide) (by decide), ?_⟩ <;>
        repeat' first
          | exact .inl ⟨_, rfl⟩
          | exact ins_jmp (by decide) (by decide) (by decide) (by decide) (by decide)
          | exact ins_mem (by decide) (by decide) (by decide)
          | refine And.intro ?_ ?_
    have := symAll_get _ 0 key n x hx
    rwa [Nat.zero_add] at this

theorem Sg.atom32 (t : Target) (ht : t.bits64 = false) (op : Op) (i : Nat) (hi : i < 6) (c : BitVec 64) (id : BitVec 32) :
    Sg (bpfArgComp t op (BitVec.ofNat 32 i) c id) := by
  refine ⟨fun _ => 0, rfl, fun _ _ => rfl, ?_⟩
  intro n x hx
  have key : SymAll (bpfArgComp t op (BitVec.ofNat 32 i) c id).length
      (fun _ => 0) 0 (bpfArgComp t op (BitVec.ofNat 32 i) c id) := by
    have e1 : ((16 : BitVec 32) + 8 * BitVec.ofNat 32 i).toNat = 16 + 8 * i := by simp; omega
    cases op <;>
      simp only [bpfArgComp, bpfLoadArg, ht, if_true, compFunction, bpfCompJeq, bpfCompJgt, bpfCompJge, bpfCompJset,
        bpfCompJin, bpfCompJeq32, bpfCompJgt32, bpfCompJge32,
        bpfCompJset32, opFlip, if_false, Bool.false_eq_true, loArg, hiArg] <;>
      simp only [List.cons_append, List.nil_append, List.length_cons, List.length_nil, SymAll, and_true] <;>
      refine ⟨ins_ld (by rw [e1]; omega) (by rw [e1]; omega) (by decide), ?_, .inl ⟨_, rfl⟩⟩ <;>
      exact ins_jmp (by decide) (by decide) (by decide) (by decide) (by decide)
  have := symAll_get _ 0 key n x hx
  rwa [Nat.zero_add] at this

theorem Sg.atom (t : Target) (op : Op) (idx : BitVec 32) (hi : idx.toNat < 6) (c : BitVec 64) (id : BitVec 32) :
    Sg (bpfArgComp t op idx c id) := by
  have e : idx = BitVec.ofNat 32 idx.toNat := by simp
  rw [e]
  cases ht : t.bits64
  · exact Sg.atom32 t ht op _ hi c id
  · exact Sg.atom64 t ht op _ hi c id

/-- What an annotated real instruction must satisfy. -/
def AnnOk (n : Nat) (i : Insn) (A : Nat → BitVec 16) : Prop :=
  match i.code.toNat with
  | 0x02 => MSub (A (n + 1)) (A n ||| (1#16 <<< i.k.toNat))
  | 0x60 => (A n).getLsbD i.k.toNat = true ∧ MSub (A (n + 1)) (A n)
  | 0x05 => MSub (A (n + i.k.toNat + 1)) (A n)
  | 0x15 | 0x25 | 0x35 | 0x45 => MSub (A (n + i.jt.toNat + 1)) (A n) ∧ MSub (A (n + i.jf.toNat + 1)) (A n)
  | _ => MSub (A (n + 1)) (A n)

theorem MSub.full (a : BitVec 16) : MSub a 0xffff#16 := msub_of (by
  rw [show (0xffff#16) = BitVec.allOnes 16 from rfl]; exact BitVec.and_allOnes)

theorem MSub.and {a b c : BitVec 16} (h1 : MSub a b) (h2 : MSub a c) : MSub a (b &&& c) := by
  intro k hk; simp [h1 k hk, h2 k hk]

theorem MSub.or {a b c x : BitVec 16} (h : MSub a (b ||| x)) (h2 : MSub b c) : MSub a (c ||| x) := by
  intro k hk
  have := h k hk
  simp only [BitVec.getLsbD_or, Bool.or_eq_true] at this ⊢
  exact this.imp_left (h2 k)

theorem MSub.andAt {a mv : BitVec 16} {n m : Nat} {f : Nat → BitVec 16} (h1 : MSub a (f m)) (h2 : m = n → MSub a mv) :
    MSub a (Spec.andAt mv n f m) := by
  unfold Spec.andAt
  split
  · next h => exact h1.and (h2 h)
  · exact h1

theorem loads_of_ann (q : List Insn) : ∀ (A : Nat → BitVec 16) (mv : BitVec 16) (masks : Nat → BitVec 16),
    (∀ n i, q[n]? = some i → AnnOk n i A) → MSub (A 0) mv → (∀ n, MSub (A n) (masks n)) →
    Spec.loadsAccepted q mv masks := by
  induction q with
  | nil => intros; trivial
  | cons i q ih =>
    intro A mv masks hA h0 hm
    have h1 := (h0.and (hm 0))
    have hi := hA 0 i (by simp)
    have hA' : ∀ n i, q[n]? = some i → AnnOk n i (fun n => A (n + 1)) := by
      intro n j hj
      have := hA (n + 1) j (by simpa using hj)
      unfold AnnOk at this ⊢
      generalize j.code.toNat = c at *
      split at this <;> simp only <;> (try simp only [Nat.add_right_comm _ 1] at this) <;> exact this
    unfold AnnOk at hi
    simp only [Spec.loadsAccepted]
    generalize i.code.toNat = c at *
    split at hi
    · exact ih _ _ _ hA' (hi.or h1) fun n => hm _
    · exact ⟨h1 _ hi.1, ih _ _ _ hA' (hi.2.trans h1) fun n => hm _⟩
    · refine ih _ _ _ hA' (MSub.full _) fun n => MSub.andAt (hm (n + 1)) ?_
      rintro rfl
      rw [Nat.zero_add] at hi
      exact hi.trans h1
    · refine ih _ _ _ hA' (MSub.full _) fun n => MSub.andAt (MSub.andAt (hm (n + 1)) ?_) ?_
      · rintro rfl; simp only [Nat.zero_add] at hi; exact hi.2.trans h1
      · rintro rfl; simp only [Nat.zero_add] at hi; exact hi.1.trans h1
    · refine ih _ _ _ hA' (MSub.full _) fun n => MSub.andAt (MSub.andAt (hm (n + 1)) ?_) ?_
      · rintro rfl; simp only [Nat.zero_add] at hi; exact hi.2.trans h1
      · rintro rfl; simp only [Nat.zero_add] at hi; exact hi.1.trans h1
    · refine ih _ _ _ hA' (MSub.full _) fun n => MSub.andAt (MSub.andAt (hm (n + 1)) ?_) ?_
      · rintro rfl; simp only [Nat.zero_add] at hi; exact hi.2.trans h1
      · rintro rfl; simp only [Nat.zero_add] at hi; exact hi.1.trans h1
    · refine ih _ _ _ hA' (MSub.full _) fun n => MSub.andAt (MSub.andAt (hm (n + 1)) ?_) ?_
      · rintro rfl; simp only [Nat.zero_add] at hi; exact hi.2.trans h1
      · rintro rfl; simp only [Nat.zero_add] at hi; exact hi.1.trans h1
    · split
      all_goals first
        | (exact ih _ _ _ hA' (hi.trans h1) fun n => hm _)
        | simp_all

/-- Resolving a good symbolic program that ends in a return gives a program that the kernel accepts. -/
theorem accepted_of_sym (p : List Insn) (k : BitVec 32) (q : List Insn) (hp : Sg p) (hl : p.length < 4096)
    (h : Spec.ResolvesTo (p ++ [bpfStmt RET k]) q) : Spec.KernelAccepts q := by
  obtain ⟨A, hA⟩ := hp
  have hlen := h.sameLength
  have hlen' : q.length = p.length + 1 := by rw [hlen]; simp
  have lt_of {i : Nat} {l : List Insn} {x : Insn} (h : l[i]? = some x) : i < l.length := by
    by_contra hc
    rw [List.getElem?_eq_none (by omega)] at h
    simp at h
  have hlast : q[p.length]? = some (bpfStmt RET k) := by
    apply h.other
    · simp
    · intro l; simp [bpfStmt, Spec.jumpTo, RET]
    · intro l; simp [bpfStmt, Spec.labelDef, RET]
  -- what is at position n of q
  have hq : ∀ n x, q[n]? = some x → Spec.insnAccepted q.length n x ∧ AnnOk n x A := by
    intro n x hx
    have hn := lt_of hx
    by_cases hnp : n = p.length
    · subst hnp
      rw [hlast] at hx
      obtain rfl := Option.some.inj hx
      refine ⟨trivial, ?_⟩
      show MSub _ _
      rw [hA.after _ (by omega), hA.after _ (by omega)]
      exact MSub.refl _
    · have hnp : n < p.length := by omega
      obtain ⟨i, hi⟩ : ∃ i, p[n]? = some i := ⟨_, List.getElem?_eq_getElem hnp⟩
      have hi' : (p ++ [bpfStmt RET k])[n]? = some i := by rw [List.getElem?_append_left hnp]; exact hi
      have hlab : ∀ m l, (p ++ [bpfStmt RET k])[m]? = some (bpfLbl l) → A m = 0 := by
        intro m l hm
        have := lt_of hm
        simp only [List.length_append, List.length_cons, List.length_nil] at this
        by_cases hmp : m < p.length
        · rw [List.getElem?_append_left hmp] at hm
          rcases hA.insn m _ hm with ⟨l', h'⟩ | ⟨l', h1, h2, h3⟩ | h'
          · exact absurd h'.symm (jump_ne_label _ _)
          · exact h2
          · exact absurd h' (by simp [bpfLbl, bpfJump, JA])
        · exact hA.after m (by omega)
      rcases insn_cases i with ⟨l, rfl⟩ | ⟨l, rfl⟩ | ⟨h1, h2⟩
      · obtain ⟨m, hm1, hm2, hm3⟩ := h.jump n l hi'
        rw [hm3] at hx
        obtain rfl := Option.some.inj hx
        have := lt_of hm2
        simp only [List.length_append, List.length_cons, List.length_nil] at this
        have hk : (BitVec.ofNat 32 m).toNat = m := by simp; omega
        constructor
        · show (BitVec.ofNat 32 m).toNat < _
          rw [hk]; omega
        · show MSub (A (n + (BitVec.ofNat 32 m).toNat + 1)) (A n)
          rw [hk, show n + m + 1 = n + 1 + m by omega, hlab _ l hm2]
          exact msub_of (by simp)
      · rw [h.label n l hi'] at hx
        obtain rfl := Option.some.inj hx
        constructor
        · show 0 < _
          omega
        · show MSub (A (n + 0 + 1)) (A n)
          rcases hA.insn n _ hi with ⟨l', h'⟩ | ⟨l', h1, h2, h3⟩ | h'
          · exact absurd h'.symm (jump_ne_label _ _)
          · rw [Nat.add_zero, h3]; exact msub_of (by simp)
          · exact absurd h' (by simp [bpfLbl, bpfJump, JA])
      · rw [h.other n i hi' h1 h2] at hx
        obtain rfl := Option.some.inj hx
        rcases hA.insn n _ hi with ⟨l', h'⟩ | ⟨l', h', _⟩ | h'
        · exact absurd h' (h1 l')
        · exact absurd h' (h2 l')
        · unfold Spec.insnAccepted AnnOk
          generalize i.code.toNat = c at *
          split at h' <;> try dsimp only
          · exact ⟨⟨h'.1, h'.2.1⟩, h'.2.2⟩
          · exact ⟨h'.1, h'.2.1, h'.2.2⟩
          · exact h'
          · exact ⟨⟨by omega, by omega⟩, h'.2.2⟩
          · exact ⟨⟨by omega, by omega⟩, h'.2.2⟩
          · exact ⟨⟨by omega, by omega⟩, h'.2.2⟩
          · exact ⟨⟨by omega, by omega⟩, h'.2.2⟩
          · exact ⟨trivial, h'⟩
          · exact h'.elim
  refine ⟨?_, by omega, fun n x hx => (hq n x hx).1, ⟨bpfStmt RET k, ?_, rfl⟩, ?_⟩
  · rintro rfl; simp at hlen'
  · rw [List.getLast?_eq_getElem?, hlen', Nat.add_sub_cancel, hlast]
  · refine loads_of_ann q A _ _ (fun n x hx => (hq n x hx).2) ?_ (fun n => MSub.full _)
    rw [hA.start]; exact MSub.refl _

end Minijail
