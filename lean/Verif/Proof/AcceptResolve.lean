import Mathlib.Data.List.Nodup
import Verif.Proof.AcceptLines
/-! The jumps of the pieces have their labels. -/
set_option linter.unusedSimpArgs false
set_option autoImplicit false
namespace Minijail
open Spec

/-- The labels defined, in order. -/
def defs (p : List Insn) : List (BitVec 32) := p.filterMap fun i => if i = bpfLbl i.k then some i.k else none

theorem defs_append (p q : List Insn) : defs (p ++ q) = defs p ++ defs q := by simp [defs]

theorem defs_cons_lbl (l : BitVec 32) (p : List Insn) : defs (bpfLbl l :: p) = l :: defs p := by
  simp [defs, bpfLbl, bpfJump]

theorem mem_defs {p : List Insn} {l : BitVec 32} : l ∈ defs p ↔ bpfLbl l ∈ p := by
  simp only [defs, List.mem_filterMap]
  constructor
  · rintro ⟨i, hi, h⟩
    split at h
    · next he =>
      simp only [Option.some.injEq] at h
      rw [← h, ← he]
      exact hi
    · cases h
  · intro h
    exact ⟨_, h, by simp [bpfLbl, bpfJump]⟩

theorem defs_nil {p : List Insn} (h : ∀ l, bpfLbl l ∉ p) : defs p = [] := by
  rw [List.eq_nil_iff_forall_not_mem]
  exact fun l hl => h l (mem_defs.1 hl)

theorem unique_of_defs : ∀ {p : List Insn}, (defs p).Nodup → ∀ (i j : Nat) (l : BitVec 32), p[i]? = some (bpfLbl l) → p[j]? = some (bpfLbl l) → i = j
  | [], _, i, j, l, hi, _ => by simp at hi
  | x :: p, h, i, j, l, hi, hj => by
    have hp : (defs p).Nodup := by
      rw [show x :: p = [x] ++ p from rfl, defs_append] at h
      exact (List.nodup_append.1 h).2.1
    have hx : ∀ m : BitVec 32, x = bpfLbl m → bpfLbl m ∉ p := by
      rintro m rfl hm
      rw [defs_cons_lbl, List.nodup_cons] at h
      exact h.1 (mem_defs.2 hm)
    cases i with
    | zero =>
      cases j with
      | zero => rfl
      | succ j =>
        simp only [List.getElem?_cons_zero, List.getElem?_cons_succ, Option.some.injEq] at hi hj
        exact absurd (List.mem_of_getElem? hj) (hx l hi)
    | succ i =>
      cases j with
      | zero =>
        simp only [List.getElem?_cons_zero, List.getElem?_cons_succ, Option.some.injEq] at hi hj
        exact absurd (List.mem_of_getElem? hi) (hx l hj)
      | succ j =>
        simp only [List.getElem?_cons_succ] at hi hj
        rw [unique_of_defs hp i j l hi hj]

/-- Each jump has its label later, unless the label is one of `S`. -/
def FwdTo (S : BitVec 32 → Prop) (p : List Insn) : Prop := ∀ (i : Nat) (l : BitVec 32), p[i]? = some (bpfJumpLbl l) → S l ∨ ∃ j, i < j ∧ p[j]? = some (bpfLbl l)

theorem FwdTo.append {S T : BitVec 32 → Prop} {p q : List Insn} (h : FwdTo S p) (h' : FwdTo T q) (hs : ∀ l, S l → T l ∨ bpfLbl l ∈ q) : FwdTo T (p ++ q) := by
  intro i l hi
  by_cases hl : i < p.length
  · rw [List.getElem?_append_left hl] at hi
    rcases h i l hi with h | ⟨j, h1, h2⟩
    · rcases hs l h with h | h
      · exact .inl h
      · obtain ⟨k, hk, he⟩ := List.getElem_of_mem h
        refine .inr ⟨p.length + k, by omega, ?_⟩
        rw [List.getElem?_append_right (by omega), Nat.add_sub_cancel_left, List.getElem?_eq_getElem hk, he]
    · refine .inr ⟨j, h1, ?_⟩
      rw [List.getElem?_append_left (List.getElem?_eq_some_iff.1 h2).1]
      exact h2
  · rw [List.getElem?_append_right (by omega)] at hi
    rcases h' _ l hi with h | ⟨j, h1, h2⟩
    · exact .inl h
    · refine .inr ⟨p.length + j, by omega, ?_⟩
      rw [List.getElem?_append_right (by omega), Nat.add_sub_cancel_left]
      exact h2

theorem FwdTo.of_mem {S : BitVec 32 → Prop} {p : List Insn} (h : ∀ l, bpfJumpLbl l ∈ p → S l) : FwdTo S p :=
  fun _ l hi => .inl (h l (List.mem_of_getElem? hi))

theorem FwdTo.mono {S T : BitVec 32 → Prop} {p : List Insn} (h : FwdTo S p) (hs : ∀ l, S l → T l) : FwdTo T p := by
  intro i l hi
  rcases h i l hi with h | h
  · exact .inl (hs l h)
  · exact .inr h

theorem FwdTo.nil (S : BitVec 32 → Prop) : FwdTo S [] := by intro i l h; simp at h

theorem FwdTo.closed {p : List Insn} {qs : List Insn} {T : BitVec 32 → Prop} (h : FwdTo (fun _ => False) p) (h' : FwdTo T qs) : FwdTo T (p ++ qs) :=
  h.append h' fun _ hl => hl.elim

/-! ### The code of a group -/

theorem patom_jump (cx : Ctx) (a : PAtom cx) (id l : BitVec 32) (h : bpfJumpLbl l ∈ PAtom.code cx id a) : l = id := by
  unfold PAtom.code at h
  rw [bpfArgComp_eq, List.mem_append] at h
  rcases h with h | h
  · exact absurd rfl (atomBody_plain _ _ _ _ _ h)
  · simp only [List.mem_singleton] at h
    exact jump_inj h

theorem ret_ne_jump (w l : BitVec 32) : bpfStmt RET w ≠ bpfJumpLbl l := by
  intro h
  exact absurd (congrArg Insn.code h) (by simp [bpfStmt, bpfJump, bpfLbl, bpfJumpLbl, bpfRetKill, bpfLoadSyscallNr, JA, JEQ, RET, LD_ABS])

theorem ret_ne_lbl (w l : BitVec 32) : bpfStmt RET w ≠ bpfLbl l := by
  intro h
  exact absurd (congrArg Insn.code h) (by simp [bpfStmt, bpfJump, bpfLbl, bpfJumpLbl, bpfRetKill, bpfLoadSyscallNr, JA, JEQ, RET, LD_ABS])

theorem groupsCode_fwd (cx : Ctx) (Lf : Labels) (nr : Nat) (ps : List (List (PAtom cx))) : ∀ idx,
    FwdTo (fun l => l = lblOf Lf (successName nr)) (groupsCode cx Lf nr idx ps) := by
  induction ps with
  | nil => intro idx; exact FwdTo.nil _
  | cons g gs ih =>
    intro idx
    rw [groupsCode]
    refine FwdTo.append (S := fun l => l = lblOf Lf (groupEndName nr idx)) (FwdTo.of_mem fun l hl => ?_) ?_ ?_
    · obtain ⟨a, -, ha⟩ := List.mem_flatMap.1 hl
      exact patom_jump cx a _ l ha
    · have : FwdTo (fun l => l = lblOf Lf (successName nr)) [bpfJumpLbl (lblOf Lf (successName nr)), bpfLbl (lblOf Lf (groupEndName nr idx))] := by
        refine FwdTo.of_mem fun l hl => ?_
        simp only [List.mem_cons, List.not_mem_nil, or_false] at hl
        rcases hl with hl | hl
        · exact jump_inj hl
        · exact absurd hl (jump_ne_label _ _)
      exact this.append (ih (idx + 1)) fun l hl => .inl hl
    · rintro l rfl
      right
      simp

theorem groupsCode_defs (cx : Ctx) (Lf : Labels) (nr : Nat) (ps : List (List (PAtom cx))) : ∀ idx,
    defs (groupsCode cx Lf nr idx ps) = (List.range' idx ps.length).map fun i => lblOf Lf (groupEndName nr i) := by
  induction ps with
  | nil => intro idx; rfl
  | cons g gs ih =>
    intro idx
    rw [groupsCode, defs_append, defs_nil (patoms_code_no_label cx g _),
      show ∀ a b (c : List Insn), a :: b :: c = [a] ++ b :: c from fun _ _ _ => rfl, defs_append, defs_cons_lbl, ih, List.length_cons, List.range'_succ, List.map_cons]
    rw [defs_nil (p := [bpfJumpLbl _]) (by intro l hl; simp only [List.mem_singleton] at hl; exact absurd hl.symm (jump_ne_label _ _))]
    rfl

theorem piece_args_fwd {cx : Ctx} (Lf : Labels) (p : Piece cx) : FwdTo (fun _ => False) (p.args Lf) := by
  unfold Piece.args
  split
  · have hl : FwdTo (fun _ => False) [bpfLbl (lblOf Lf p.name)] := FwdTo.of_mem fun l hl => by
      simp only [List.mem_singleton] at hl
      exact jump_ne_label _ _ hl
    rw [show ∀ a (b : List Insn), a :: b = [a] ++ b from fun _ _ => rfl]
    refine hl.closed ?_
    have hret : ∀ w, FwdTo (fun _ => False) [bpfStmt RET w] := fun w => FwdTo.of_mem fun l hl => by
      simp only [List.mem_singleton] at hl
      exact ret_ne_jump _ _ hl.symm
    cases p.body with
    | allow => exact FwdTo.nil _
    | block w => exact hret w
    | filter ps w =>
      simp only [Body.code]
      rw [List.append_assoc]
      refine (groupsCode_fwd cx Lf p.nr ps 0).append ((hret w).closed ?_) ?_
      · refine FwdTo.of_mem fun l hl => ?_
        simp only [List.mem_cons, List.not_mem_nil, or_false] at hl
        rcases hl with hl | hl
        · exact jump_ne_label _ _ hl
        · exact ret_ne_jump _ _ hl.symm
      · rintro l rfl
        right
        simp
  · exact FwdTo.nil _

theorem piece_args_defs {cx : Ctx} (Lf : Labels) (p : Piece cx) : defs (p.args Lf) = p.names.map (lblOf Lf) := by
  unfold Piece.args Piece.names
  split
  · rw [defs_cons_lbl, List.map_cons]
    congr 1
    have hret : ∀ w, defs [bpfStmt RET w] = [] := fun w => defs_nil fun l hl => by
      simp only [List.mem_singleton] at hl
      exact ret_ne_lbl _ _ hl.symm
    cases p.body with
    | allow => rfl
    | block w => exact hret w
    | filter ps w =>
      simp only [Body.code, Body.names]
      rw [defs_append, defs_append, groupsCode_defs, hret, defs_cons_lbl, show [bpfRetAllow] = [bpfStmt RET RET_ALLOW] from rfl, hret, List.map_append, List.map_map,
        List.range_eq_range', List.append_nil]
      rfl
  · rfl

theorem allow_ne (nr k : BitVec 32) : (∀ l, bpfLbl l ∉ bpfAllowSyscall nr) ∧ (∀ l, bpfJumpLbl l ∉ bpfAllowSyscall nr) := by
  constructor <;>
  · intro l h
    simp only [bpfAllowSyscall, List.mem_cons, List.not_mem_nil, or_false] at h
    rcases h with h | h <;> exact absurd (congrArg Insn.code h) (by simp [bpfStmt, bpfJump, bpfLbl, bpfJumpLbl, bpfRetKill, bpfLoadSyscallNr, JA, JEQ, RET, LD_ABS])

theorem piece_head_lbl {cx : Ctx} (Lf : Labels) (p : Piece cx) (l : BitVec 32) : bpfLbl l ∉ p.head Lf := by
  unfold Piece.head
  split
  · intro h
    simp only [bpfAllowSyscallArgs, List.mem_cons, List.not_mem_nil, or_false] at h
    rcases h with h | h
    · exact absurd (congrArg Insn.code h) (by simp [bpfStmt, bpfJump, bpfLbl, bpfJumpLbl, bpfRetKill, bpfLoadSyscallNr, JA, JEQ, RET, LD_ABS])
    · exact jump_ne_label _ _ h.symm
  · exact (allow_ne _ 0).1 l

theorem piece_head_jump {cx : Ctx} (Lf : Labels) (p : Piece cx) (l : BitVec 32) (h : bpfJumpLbl l ∈ p.head Lf) : bpfLbl l ∈ p.args Lf := by
  unfold Piece.head at h
  unfold Piece.args
  split at h
  · next hb =>
    rw [if_pos hb]
    simp only [bpfAllowSyscallArgs, List.mem_cons, List.not_mem_nil, or_false] at h
    rcases h with h | h
    · exact absurd (congrArg Insn.code h) (by simp [bpfStmt, bpfJump, bpfLbl, bpfJumpLbl, bpfRetKill, bpfLoadSyscallNr, JA, JEQ, RET, LD_ABS])
    · rw [jump_inj h]; simp
  · exact absurd h ((allow_ne _ 0).2 l)

/-! ### The names are different -/

theorem lblOf_lt {Lf : Labels} {n : CStr} (h : n ∈ Lf) : (lblOf Lf n).toNat < Lf.length := by
  unfold lblOf
  cases hi : Lf.idxOf? n with
  | none =>
    have := List.findIdx?_eq_none_iff.1 hi n h
    simp at this
  | some k =>
    have : k < Lf.length := (List.findIdx?_eq_some_iff_getElem.1 hi).1
    simp only [Option.getD_some, BitVec.toNat_ofNat]
    exact Nat.lt_of_le_of_lt (Nat.mod_le _ _) this

theorem lblOf_inj {Lf : Labels} (hL : Lf.length ≤ 512) {m n : CStr} (hm : m ∈ Lf) (hn : n ∈ Lf) (h : lblOf Lf m = lblOf Lf n) : m = n := by
  unfold lblOf at h
  cases hi : Lf.idxOf? m with
  | none =>
    have := List.findIdx?_eq_none_iff.1 hi m hm
    simp at this
  | some j =>
    cases hk : Lf.idxOf? n with
    | none =>
      have := List.findIdx?_eq_none_iff.1 hk n hn
      simp at this
    | some k =>
      obtain ⟨h1, h2, -⟩ := List.findIdx?_eq_some_iff_getElem.1 hi
      obtain ⟨h3, h4, -⟩ := List.findIdx?_eq_some_iff_getElem.1 hk
      rw [hi, hk] at h
      simp only [Option.getD_some] at h
      have := ofNat_inj_small (by omega) (by omega) h
      subst this
      rw [beq_iff_eq] at h2 h4
      rw [← h2, h4]

theorem toDigits_digit (n : Nat) : ∀ c ∈ Nat.toDigits 10 n, c.isDigit = true := fun c h => Nat.isDigit_of_mem_toDigits (by decide) (by decide) h

theorem digits_split {a b : Nat} {s t : CStr} (h : Nat.toDigits 10 a ++ '_' :: s = Nat.toDigits 10 b ++ '_' :: t) : a = b ∧ s = t := by
  have key : ∀ (x y : CStr), (∀ c ∈ x, c.isDigit = true) → (∀ c ∈ y, c.isDigit = true) → x ++ '_' :: s = y ++ '_' :: t → x = y ∧ s = t := by
    intro x
    induction x with
    | nil =>
      intro y _ hy h
      cases y with
      | nil => simpa using h
      | cons c y =>
        simp only [List.nil_append, List.cons_append, List.cons.injEq] at h
        have := hy c (by simp)
        rw [← h.1] at this
        exact absurd this (by decide)
    | cons c x ih =>
      intro y hx hy h
      cases y with
      | nil =>
        simp only [List.nil_append, List.cons_append, List.cons.injEq] at h
        have := hx c (by simp)
        rw [h.1] at this
        exact absurd this (by decide)
      | cons d y =>
        simp only [List.cons_append, List.cons.injEq] at h
        obtain ⟨h1, h2⟩ := ih y (fun c hc => hx c (List.mem_cons_of_mem _ hc)) (fun c hc => hy c (List.mem_cons_of_mem _ hc)) h.2
        exact ⟨by rw [h.1, h1], h2⟩
  obtain ⟨h1, h2⟩ := key _ _ (toDigits_digit a) (toDigits_digit b) h
  refine ⟨?_, h2⟩
  have := congrArg (Nat.ofDigitChars 10 · 0) h1
  simpa [Nat.ofDigitChars_ten_toDigits] using this

/-- The compiler's own names begin with the number. -/
theorem own_name {cx : Ctx} {nr : Nat} {b : Body cx} {n : CStr} (h : n ∈ b.names nr) : ∃ t, n = Nat.toDigits 10 nr ++ '_' :: t := by
  cases b with
  | filter ps w =>
    simp only [Body.names, List.mem_append, List.mem_map, List.mem_singleton] at h
    rcases h with ⟨i, -, rfl⟩ | rfl
    · exact ⟨_, rfl⟩
    · exact ⟨"success".toList, rfl⟩
  | allow => simp [Body.names] at h
  | block w => simp [Body.names] at h

theorem own_head {nr : Nat} {t : CStr} : ∃ c, (Nat.toDigits 10 nr ++ t).head? = some c ∧ c.isDigit = true := by
  cases h : Nat.toDigits 10 nr with
  | nil =>
    have := Nat.ofDigitChars_ten_toDigits (n := nr)
    exact absurd h Nat.toDigits_ne_nil
  | cons c r => exact ⟨c, rfl, toDigits_digit nr c (by rw [h]; simp)⟩

theorem names_nodup {cx : Ctx} (hcx : NamesFit cx) {p : Piece cx} (hk : (p.name, p.nr) ∈ cx.syscalls) : p.names.Nodup := by
  unfold Piece.names
  split
  · rw [List.nodup_cons]
    constructor
    · intro h
      obtain ⟨t, ht⟩ := own_name h
      obtain ⟨c, h1, h2⟩ := own_head (nr := p.nr) (t := '_' :: t)
      rw [← ht] at h1
      rw [hcx.nodigit _ hk c h1] at h2
      cases h2
    · cases p.body with
      | allow => simp [Body.names]
      | block w => simp [Body.names]
      | filter ps w =>
        simp only [Body.names]
        rw [List.nodup_append]
        refine ⟨?_, by simp, ?_⟩
        · exact (List.nodup_range).map fun i j h => groupEndName_inj h
        · intro a ha b hb
          simp only [List.mem_map, List.mem_singleton] at ha hb
          obtain ⟨i, -, rfl⟩ := ha
          subst hb
          intro he
          have := groupEndName_last p.nr i
          rw [he] at this
          simp [successName] at this
  · exact List.nodup_nil

theorem names_disjoint {cx : Ctx} (hcx : NamesFit cx) {p q : Piece cx} {x y : BitVec 32 × Rule} (hp : p.For x) (hq : q.For y) (hne : x.1 ≠ y.1) :
    ∀ n ∈ p.names, n ∉ q.names := by
  have hnr : p.nr ≠ q.nr := fun h => hne (by rw [hp.number, hq.number, h])
  have own : ∀ {p : Piece cx} {n : CStr}, n ∈ p.names → n = p.name ∨ ∃ t, n = Nat.toDigits 10 p.nr ++ '_' :: t := by
    intro p n h
    unfold Piece.names at h
    split at h
    · rcases List.mem_cons.1 h with h | h
      · exact .inl h
      · exact .inr (own_name h)
    · cases h
  have clash : ∀ {p : Piece cx} {x : BitVec 32 × Rule} {nr : Nat} {t : CStr}, p.For x → p.name = Nat.toDigits 10 nr ++ t → False := by
    intro p x nr t h he
    obtain ⟨c, h1, h2⟩ := own_head (nr := nr) (t := t)
    rw [← he] at h1
    rw [hcx.nodigit _ h.known c h1] at h2
    cases h2
  intro n h1 h2
  rcases own h1 with rfl | ⟨s, rfl⟩
  · rcases own h2 with h | ⟨t, h⟩
    · have e1 := hp.first
      rw [h, hq.first] at e1
      simp only [Option.some.injEq] at e1
      exact hnr e1.symm
    · exact clash hp h
  · rcases own h2 with h | ⟨t, h⟩
    · exact clash hq h.symm
    · exact hnr (digits_split h).1

theorem all_names_nodup {cx : Ctx} (hcx : NamesFit cx) {ps : List (Piece cx)} {rules : List (BitVec 32 × Rule)} (h : All₂ Piece.For ps rules)
    (hb : OneBlock rules) : (ps.flatMap Piece.names).Nodup := by
  induction h with
  | nil => exact List.nodup_nil
  | @cons p x ps rules hp hall ih =>
    rw [List.flatMap_cons]
    have hb' : OneBlock rules := by
      unfold OneBlock at hb ⊢
      rw [List.filter_cons] at hb
      split at hb
      · rw [List.map_cons, List.nodup_cons] at hb; exact hb.2
      · exact hb
    rw [List.nodup_append]
    refine ⟨names_nodup hcx hp.known, ih hb', ?_⟩
    intro a ha b hb2
    rintro rfl
    obtain ⟨q, hq, hq2⟩ := List.mem_flatMap.1 hb2
    have has : ∀ {p : Piece cx} {n : CStr}, n ∈ p.names → p.body.has = true := by
      intro p n h
      unfold Piece.names at h
      split at h
      · assumption
      · cases h
    obtain ⟨y, hy, hqy⟩ : ∃ y ∈ rules, q.For y := by
      clear ih hb hb' hp
      induction hall with
      | nil => cases hq
      | @cons c d cs ds hc _ ih =>
        rcases List.mem_cons.1 hq with rfl | hq
        · exact ⟨d, by simp, hc⟩
        · obtain ⟨y, h1, h2⟩ := ih (by rw [List.mem_flatMap]; exact ⟨q, hq, hq2⟩) hq
          exact ⟨y, List.mem_cons_of_mem _ h1, h2⟩
    have hx : x.2 ≠ .allow := hp.has.1 (has ha)
    have hy2 : y.2 ≠ .allow := hqy.has.1 (has hq2)
    refine names_disjoint hcx hp hqy ?_ a ha hq2
    intro he
    unfold OneBlock at hb
    rw [List.filter_cons, if_pos (by simpa using hx), List.map_cons, List.nodup_cons] at hb
    apply hb.1
    rw [he, List.mem_map]
    exact ⟨y, List.mem_filter.2 ⟨hy, by simpa using hy2⟩, rfl⟩

/-! ### The whole program -/

theorem resolvable {cx : Ctx} (hcx : NamesFit cx) (A : List Insn) (w : BitVec 32) {ps : List (Piece cx)} {rules : List (BitVec 32 × Rule)} (Lf : Labels)
    (hL : Lf.length ≤ 512) (hA : ∀ l, bpfLbl l ∉ A ∧ bpfJumpLbl l ∉ A) (hall : All₂ Piece.For ps rules) (hb : OneBlock rules)
    (hn : ∀ p ∈ ps, ∀ n ∈ p.names, n ∈ Lf)
    (hlen : (A ++ ps.flatMap (Piece.head Lf) ++ [bpfStmt RET w] ++ ps.flatMap (Piece.args Lf)).length ≤ 4096) :
    Resolvable Lf.length (A ++ ps.flatMap (Piece.head Lf) ++ [bpfStmt RET w] ++ ps.flatMap (Piece.args Lf)) := by
  have hmem : ∀ n ∈ ps.flatMap Piece.names, n ∈ Lf := by
    intro n h
    obtain ⟨p, hp, h⟩ := List.mem_flatMap.1 h
    exact hn p hp n h
  have hargs : defs (ps.flatMap (Piece.args Lf)) = (ps.flatMap Piece.names).map (lblOf Lf) := by
    clear hlen hall hn hmem
    induction ps with
    | nil => rfl
    | cons p ps ih => rw [List.flatMap_cons, defs_append, piece_args_defs, ih, List.flatMap_cons, List.map_append]
  have hhead : defs (A ++ ps.flatMap (Piece.head Lf) ++ [bpfStmt RET w]) = [] := by
    apply defs_nil
    intro l h
    simp only [List.mem_append, List.mem_singleton] at h
    rcases h with (h | h) | h
    · exact (hA l).1 h
    · obtain ⟨p, -, h⟩ := List.mem_flatMap.1 h
      exact piece_head_lbl Lf p l h
    · exact ret_ne_lbl _ _ h.symm
  have hdefs : defs (A ++ ps.flatMap (Piece.head Lf) ++ [bpfStmt RET w] ++ ps.flatMap (Piece.args Lf)) = (ps.flatMap Piece.names).map (lblOf Lf) := by
    rw [defs_append, hhead, hargs]; rfl
  have hnodup : (defs (A ++ ps.flatMap (Piece.head Lf) ++ [bpfStmt RET w] ++ ps.flatMap (Piece.args Lf))).Nodup := by
    rw [hdefs]
    exact (all_names_nodup hcx hall hb).map_on fun a ha b hb h => lblOf_inj hL (hmem a ha) (hmem b hb) h
  have hknown : ∀ l, bpfLbl l ∈ A ++ ps.flatMap (Piece.head Lf) ++ [bpfStmt RET w] ++ ps.flatMap (Piece.args Lf) → l.toNat < Lf.length := by
    intro l h
    rw [← mem_defs, hdefs, List.mem_map] at h
    obtain ⟨n, h1, rfl⟩ := h
    exact lblOf_lt (hmem n h1)
  have hfwd : FwdTo (fun _ => False) (A ++ ps.flatMap (Piece.head Lf) ++ [bpfStmt RET w] ++ ps.flatMap (Piece.args Lf)) := by
    refine FwdTo.append (S := fun l => bpfLbl l ∈ ps.flatMap (Piece.args Lf)) (FwdTo.of_mem fun l h => ?_) ?_ fun l h => .inr h
    · simp only [List.mem_append, List.mem_singleton] at h
      rcases h with (h | h) | h
      · exact absurd h (hA l).2
      · obtain ⟨p, hp, h⟩ := List.mem_flatMap.1 h
        exact List.mem_flatMap.2 ⟨p, hp, piece_head_jump Lf p l h⟩
      · exact absurd h.symm (ret_ne_jump _ _)
    · clear hlen hall hn hmem hargs hhead hdefs hnodup hknown
      induction ps with
      | nil => exact FwdTo.nil _
      | cons p ps ih => rw [List.flatMap_cons]; exact (piece_args_fwd Lf p).closed ih
  have hf : ∀ (i : Nat) (l : BitVec 32), (A ++ ps.flatMap (Piece.head Lf) ++ [bpfStmt RET w] ++ ps.flatMap (Piece.args Lf))[i]? = some (bpfJumpLbl l) →
      ∃ j, i < j ∧ (A ++ ps.flatMap (Piece.head Lf) ++ [bpfStmt RET w] ++ ps.flatMap (Piece.args Lf))[j]? = some (bpfLbl l) := fun i l hi =>
    (hfwd i l hi).resolve_left id
  refine ⟨hlen, ?_, hf, fun i l h => hknown l (List.mem_of_getElem? h), unique_of_defs hnodup⟩
  intro i l hi
  obtain ⟨j, -, hj⟩ := hf i l hi
  exact hknown l (List.mem_of_getElem? hj)

theorem pieces_size {cx : Ctx} (Lf : Labels) {ps : List (Piece cx)} {rules : List (BitVec 32 × Rule)} (h : All₂ Piece.For ps rules) :
    (ps.flatMap (Piece.head Lf)).length + (ps.flatMap (Piece.args Lf)).length = (rules.map fun x => x.2.size cx.t.longBits).sum := by
  induction h with
  | nil => rfl
  | cons hp _ ih =>
    have := hp.size Lf
    simp only [List.flatMap_cons, List.length_append, List.map_cons, List.sum_cons]
    omega

theorem prefix_plain (cx : Ctx) : ∀ l, bpfLbl l ∉ filterPrefix cx ∧ bpfJumpLbl l ∉ filterPrefix cx := by
  have hsel : ∀ names l, bpfLbl l ∉ allowSelectedSyscalls cx names ∧ bpfJumpLbl l ∉ allowSelectedSyscalls cx names := by
    intro names l
    constructor <;>
    · intro h
      obtain ⟨n, -, h⟩ := List.mem_flatMap.1 h
      first
        | exact (allow_ne _ 0).1 l h
        | exact (allow_ne _ 0).2 l h
  intro l
  constructor <;>
  · intro h
    simp only [filterPrefix, List.mem_append] at h
    rcases h with ((h | h) | h) | h
    · simp only [bpfValidateArch, List.mem_cons, List.not_mem_nil, or_false] at h
      rcases h with h | h | h <;> exact absurd (congrArg Insn.code h) (by simp [bpfStmt, bpfJump, bpfLbl, bpfJumpLbl, bpfRetKill, bpfLoadSyscallNr, JA, JEQ, RET, LD_ABS])
    · simp only [List.mem_singleton] at h
      exact absurd (congrArg Insn.code h) (by simp [bpfStmt, bpfJump, bpfLbl, bpfJumpLbl, bpfRetKill, bpfLoadSyscallNr, JA, JEQ, RET, LD_ABS])
    · split at h
      · first
          | exact (hsel _ l).1 h
          | exact (hsel _ l).2 h
      · cases h
    · split at h
      · first
          | exact (hsel _ l).1 h
          | exact (hsel _ l).2 h
      · cases h

theorem prefix_length (cx : Ctx) : (filterPrefix cx).length = 4 + (cx.builtin.map fun x => x.2.size cx.t.longBits).sum := by
  have hsel : ∀ names, (allowSelectedSyscalls cx names).length = ((allowNames cx.lang names).map fun x => x.2.size cx.t.longBits).sum := by
    intro names
    induction names with
    | nil => rfl
    | cons n names ih =>
      simp only [allowSelectedSyscalls, List.flatMap_cons, List.length_append, allowNames, List.map_cons, List.sum_cons] at ih ⊢
      rw [ih]
      rfl
  unfold filterPrefix Ctx.builtin
  simp only [List.length_append, List.map_append, List.sum_append]
  have h1 : (bpfValidateArch cx.t).length = 3 := rfl
  rw [h1]
  split <;> split <;> simp only [hsel, List.length_nil, List.length_cons, List.map_nil, List.sum_nil] <;> omega

/-- The compiler takes what fits. -/
theorem compileFilter_total (cx : Ctx) (hcx : NamesFit cx) (content : CStr) (rules : List (BitVec 32 × Rule)) (h : PolicyText cx.lang content rules)
    (hdup : cx.opts.allowDuplicateSyscalls = false → (rules.map Prod.fst).Nodup) (hb : OneBlock rules)
    (hlog : cx.opts.action = .log → cx.opts.allowLogging = true) (hlabels : labelDemand rules ≤ 512)
    (hsize : policySize cx.t.longBits (cx.builtin ++ rules) ≤ 4096) :
    ∃ prog, compileFilter cx content = .ok prog ∧ prog.length = policySize cx.t.longBits (cx.builtin ++ rules) := by
  obtain ⟨st, ps, e, g⟩ := compileFile0_total cx hcx content rules ⟨filterPrefix cx, [], [], []⟩ h (fun ho => ⟨hdup ho, by simp⟩) (by simpa using hlabels)
  have hhead := g.head st.labels (List.prefix_refl _)
  have hargs := g.args st.labels (List.prefix_refl _)
  simp only [List.nil_append] at hhead hargs
  have hl := pieces_size st.labels g.pieces
  have hp := prefix_length cx
  have hlen : (filterPrefix cx ++ ps.flatMap (Piece.head st.labels) ++ [bpfStmt RET cx.opts.action.act.word] ++ ps.flatMap (Piece.args st.labels)).length =
      policySize cx.t.longBits (cx.builtin ++ rules) := by
    simp only [policySize, List.length_append, List.length_cons, List.length_nil, List.map_append, List.sum_append]
    omega
  have hroom := g.room
  simp only [List.length_nil, Nat.zero_add] at hroom
  obtain ⟨q, hq⟩ := (C06_resolve_iff st.labels.length _).2
    (resolvable hcx (filterPrefix cx) cx.opts.action.act.word st.labels (by omega) (prefix_plain cx) g.pieces hb g.names (by omega))
  refine ⟨q, ?_, by rw [(C06_resolve_sound _ _ _ hq).1.sameLength, hlen]⟩
  unfold compileFilter
  rw [e]
  simp only
  rw [if_neg (by rintro ⟨h1, h2⟩; exact h2 (hlog h1)), hhead, hargs, retAction_eq, if_neg (by rw [hlen]; show ¬ 4096 < _; omega)]
  exact hq

end Minijail
