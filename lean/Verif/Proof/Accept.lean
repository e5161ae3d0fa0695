import Verif.Proof.PolicyRun
import Verif.Proof.LabelFill
import Verif.Spec.PolicyFits
/-! Policies of the language are compiled: the compiler refuses nothing that fits. -/
set_option linter.unusedSimpArgs false
set_option autoImplicit false
namespace Minijail
open Spec

/-! ### Texts are parsed -/

theorem strtok_word {d : Char} {s t : CStr} {l : List CStr} (h : words d s = t :: l) : ∃ r, strtok d s = some (t, r) ∧ words d r = l := by
  cases h1 : strtok d s with
  | none => rw [strtok_none h1] at h; cases h
  | some x =>
    obtain ⟨t', r⟩ := x
    rw [strtok_some h1] at h
    simp only [List.cons.injEq] at h
    exact ⟨r, by rw [h.1], h.2⟩

theorem strToOp_of_text {s : CStr} {c : Cmp} (h : OpText s c) : ∃ op, strToOp s = some op ∧ op.cmp = c := by
  cases h <;> exact ⟨_, rfl, rfl⟩

theorem parseConstant_of_text (cx : Ctx) {s : CStr} {v : Nat} (h : ConstExpr cx.lang.named cx.lang.bits s v) :
    ∃ c, parseConstant cx.constants s = some c ∧ c.toNat = v := by
  have hl := loop_complete cx.constants (longBits_pos cx.t) s v h
  have hv : (BitVec.ofNat cx.t.longBits v).toNat = v := by
    rw [BitVec.toNat_ofNat]; exact Nat.mod_eq_of_lt hl.1
  refine ⟨BitVec.ofNat _ v, ?_, hv⟩
  rw [parseConstant_iff cx.constants (longBits_pos cx.t), hv]
  exact h

theorem strtol_total {w : Nat} {s : CStr} {i : Int} (h : Signed (fun s n => s ≠ [] ∧ Digits 10 s n) s i) :
    ∃ r, strtol w 10 s = some r ∧ r.rest = [] := by
  obtain ⟨neg, m, h1, -⟩ := (signed_decimal_iff s i).1 h
  unfold strtol
  rw [h1]
  cases neg <;> dsimp only <;> split <;> exact ⟨_, rfl, rfl⟩

/-- The code of the parsed comparison has the size that the comparison has. -/
def AtomFits (cx : Ctx) (p : PAtom cx) (a : Atom) : Prop := ∀ id, (PAtom.code cx id p).length = a.size cx.t.longBits

theorem atom_length (cx : Ctx) (i : BitVec 32) (op : Op) (c : BitVec cx.t.longBits) (x : Int) : AtomFits cx (i, op, c) ⟨x, op.cmp, c.toNat⟩ := by
  intro id
  unfold PAtom.code
  rw [bpfArgComp_length]
  have hz : (c.setWidth 64 >>> 32 = 0#64) ↔ c.toNat < 2 ^ 32 := by
    rw [← BitVec.toNat_inj]
    simp only [BitVec.toNat_ushiftRight, Nat.shiftRight_eq_div_pow, BitVec.toNat_setWidth]
    have hlt : c.toNat < 2 ^ 64 := Nat.lt_of_lt_of_le c.isLt (Nat.pow_le_pow_right (by decide) (by rcases longBits_cases cx.t with h | h <;> omega))
    have : c.toNat % 2 ^ 64 = c.toNat := Nat.mod_eq_of_lt hlt
    rw [this]
    show c.toNat / 2 ^ 32 = 0 ↔ _
    rw [Nat.div_eq_zero_iff]
    omega
  cases hb : cx.t.bits64 with
  | false =>
    have : cx.t.longBits = 32 := by simp [Target.longBits, hb]
    cases op <;> simp [bpfArgCompLen, hb, Atom.size, this]
  | true =>
    have : cx.t.longBits = 64 := by simp [Target.longBits, hb]
    by_cases hc : c.toNat < 2 ^ 32
    · have h1 : ¬ (2 ^ 32 ≤ c.toNat) := by omega
      cases op <;> simp only [bpfArgCompLen, hb, Atom.size, this, if_true, hz.2 hc, Op.cmp, h1, and_false, if_false] <;> rfl
    · have h1 : 2 ^ 32 ≤ c.toNat := by omega
      have h2 : ¬ (c.setWidth 64 >>> 32 = 0#64) := fun h => hc (hz.1 h)
      cases op <;> simp only [bpfArgCompLen, hb, Atom.size, this, if_true, Op.cmp, h1, and_true, Cmp.ordered, Bool.false_eq_true, if_false] <;>
        first | rfl | (rw [if_neg (show ¬ (c.setWidth 64 >>> 32 = 0) from h2)]; rfl)

theorem parseAtom_total (cx : Ctx) {s : CStr} {a : Atom} (h : AtomText cx.lang s a) : ∃ p, parseAtom cx s = .ok p ∧ AtomFits cx p a := by
  cases h with
  | @mk idx op c i cmp v hw hi ho hc =>
    obtain ⟨p1, e1, hw⟩ := strtok_word hw
    obtain ⟨p2, e2, hw⟩ := strtok_word hw
    obtain ⟨p3, e3, hw⟩ := strtok_word hw
    obtain ⟨r, hr, hrest⟩ := strtol_total (w := cx.t.longBits) hi
    obtain ⟨op', hop, rfl⟩ := strToOp_of_text ho
    obtain ⟨k, hk, rfl⟩ := parseConstant_of_text cx hc
    refine ⟨(BitVec.ofInt 32 r.val, op', k), ?_, atom_length cx _ _ _ _⟩
    unfold parseAtom
    have h3 : strtok ' ' p3 = none := strtok_eq_none_iff.2 hw
    have hd : ("arg".toList ++ idx).drop 3 = idx := by simp
    simp only [e1, e2, e3, Res.ofOption, Res.bind_ok, h3, Option.isSome_none, Bool.false_eq_true, if_false, hd, hr, hop, hk]
    rw [if_neg (by simp), if_neg (by rw [hrest]; simp)]

/-! ### Labels are found -/

theorem getLabelId_total {labels : Labels} {name : CStr} (h : labels.length + miss labels name ≤ 512) (hn : name.length ≤ 32) :
    ∃ id labels', getLabelId labels name = .ok (id, labels') ∧ name ∈ labels' := by
  by_cases hm : name ∈ labels
  · obtain ⟨id, h⟩ := getLabelId_old hm
    exact ⟨id, labels, h, hm⟩
  · unfold miss at h
    rw [if_neg hm] at h
    exact ⟨_, _, getLabelId_new hm (by show labels.length < 512; omega) hn, by simp⟩

theorem compileAtoms_total (cx : Ctx) (nr idx : Nat) (hn : (groupEndName nr idx).length ≤ 32) {atoms : List CStr} {conj : List Atom}
    (h : All₂ (AtomText cx.lang) atoms conj) : ∀ labels : Labels, labels.length + miss labels (groupEndName nr idx) ≤ 512 →
    ∃ ps code labels', compileAtoms cx nr idx atoms labels = .ok (code, labels') ∧ All₂ (AtomFits cx) ps conj ∧
      ∀ Lf, labels' <+: Lf → code = ps.flatMap (PAtom.code cx (lblOf Lf (groupEndName nr idx))) := by
  induction h with
  | nil => intro labels _; exact ⟨[], [], labels, rfl, .nil, by simp⟩
  | @cons a b as bs ha _ ih =>
    intro labels hr
    obtain ⟨p, hp, hfit⟩ := parseAtom_total cx ha
    obtain ⟨id, labels1, e1, -⟩ := getLabelId_total hr hn
    obtain ⟨q1, l1, -⟩ := getLabelId_len e1 hn
    obtain ⟨ps, code, labels', e2, hf, hcode⟩ := ih labels1 (by omega)
    obtain ⟨q2, -, -⟩ := compileAtoms_len cx nr idx hn _ _ _ _ e2
    obtain ⟨-, hid⟩ := getLabelId_ok e1
    refine ⟨p :: ps, PAtom.code cx id p ++ code, labels', ?_, .cons hfit hf, ?_⟩
    · simp only [compileAtoms, compileAtom, hp, groupEndLbl, e1, e2, Res.bind_ok, Res.pure_eq, PAtom.code]
    · intro Lf hLf
      rw [List.flatMap_cons, ← hcode Lf hLf, hid hn Lf (q2.trans hLf)]

theorem compileGroups_total (cx : Ctx) (nr : Nat) (hnr : nr < 2 ^ 31) {groups : List CStr} {f : Dnf}
    (h : All₂ (fun g conj => All₂ (AtomText cx.lang) (fields2 '&' '&' g) conj) groups f) :
    ∀ (idx : Nat) (labels : Labels), idx + groups.length ≤ 2 ^ 31 → labels.length + miss labels (successName nr) + groups.length ≤ 512 →
    ∃ ps code labels', compileGroups cx nr idx groups labels = .ok (code, labels') ∧
      All₂ (All₂ (AtomFits cx)) ps f ∧ (∀ i, idx ≤ i → i < idx + ps.length → groupEndName nr i ∈ labels') ∧
      ∀ Lf, labels' <+: Lf → code = groupsCode cx Lf nr idx ps := by
  induction h with
  | nil => intro idx labels _ _; exact ⟨[], [], labels, rfl, .nil, fun i h1 h2 => by simp at h2; omega, by simp [groupsCode]⟩
  | @cons g conj gs f hg _ ih =>
    intro idx labels hidx hroom
    simp only [List.length_cons] at hidx hroom
    have hn := groupEndName_length nr idx hnr (by omega)
    have hs := successName_length nr hnr
    have m1 := miss_le_one labels (groupEndName nr idx)
    obtain ⟨ps1, code1, labels1, e1, f1, c1⟩ := compileAtoms_total cx nr idx hn hg labels (by omega)
    obtain ⟨p1, l1, -⟩ := compileAtoms_len cx nr idx hn _ _ _ _ e1
    have m2 := miss_mono p1 (successName nr)
    obtain ⟨sid, labels2, e2, -⟩ := getLabelId_total (labels := labels1) (name := successName nr) (by omega) hs
    obtain ⟨p2, l2, -⟩ := getLabelId_len e2 hs
    have m3 := miss_mono p2 (groupEndName nr idx)
    obtain ⟨eid, labels3, e3, mem3⟩ := getLabelId_total (labels := labels2) (name := groupEndName nr idx) (by omega) hn
    obtain ⟨p3, l3, -⟩ := getLabelId_len e3 hn
    have m4 := miss_mono p3 (successName nr)
    obtain ⟨ps, code, labels4, e4, f4, k4, c4⟩ := ih (idx + 1) labels3 (by omega) (by omega)
    obtain ⟨p4, -, -⟩ := compileGroups_len cx nr hnr _ _ _ _ _ (by omega) e4
    have e1' : compileAtoms cx nr idx (tokenizeAll "&&".toList g) labels = .ok (code1, labels1) := by
      rw [show tokenizeAll "&&".toList g = fields2 '&' '&' g from tokenizeAll_two '&' '&' g]; exact e1
    refine ⟨ps1 :: ps, code1 ++ [bpfJumpLbl sid, bpfLbl eid] ++ code, labels4, ?_, .cons f1 f4, ?_, ?_⟩
    · simp only [compileGroups, e1', successLbl, groupEndLbl, e2, e3, e4, Res.bind_ok, Res.pure_eq]
    · intro i h1 h2
      simp only [List.length_cons] at h2
      by_cases hi : i = idx
      · rw [hi]; exact p4.subset mem3
      · exact k4 i (by omega) (by omega)
    · intro Lf hLf
      have q3 := p4.trans hLf
      have q2 := p3.trans q3
      have q1 := p2.trans q2
      rw [groupsCode, ← c4 Lf hLf, ← c1 Lf q1, ← (getLabelId_ok e2).2 hs Lf q2, ← (getLabelId_ok e3).2 hn Lf q3]
      simp

/-! ### The pieces of a program -/

/-- What a rule is compiled to, but for the numbers of the labels. -/
inductive Body (cx : Ctx) where
  | allow
  | block (w : BitVec 32)
  | filter (ps : List (List (PAtom cx))) (w : BitVec 32)

/-- A compiled rule. -/
structure Piece (cx : Ctx) where
  nr : Nat
  name : CStr
  body : Body cx

/-- The block behind its label. -/
def Body.code {cx : Ctx} (nr : Nat) (Lf : Labels) : Body cx → List Insn
  | .allow => []
  | .block w => [bpfStmt RET w]
  | .filter ps w => groupsCode cx Lf nr 0 ps ++ [bpfStmt RET w] ++ [bpfLbl (lblOf Lf (successName nr)), bpfRetAllow]

/-- The names of the labels in the block. -/
def Body.names {cx : Ctx} (nr : Nat) : Body cx → List CStr
  | .filter ps _ => (List.range ps.length).map (groupEndName nr) ++ [successName nr]
  | _ => []

/-- Whether there is a block. -/
def Body.has {cx : Ctx} : Body cx → Bool
  | .allow => false
  | _ => true

/-- The part of the piece in the chain of tests. -/
def Piece.head {cx : Ctx} (Lf : Labels) (p : Piece cx) : List Insn :=
  if p.body.has then bpfAllowSyscallArgs (BitVec.ofNat 32 p.nr) (lblOf Lf p.name) else bpfAllowSyscall (BitVec.ofNat 32 p.nr)

/-- The block of the piece. -/
def Piece.args {cx : Ctx} (Lf : Labels) (p : Piece cx) : List Insn :=
  if p.body.has then bpfLbl (lblOf Lf p.name) :: p.body.code p.nr Lf else []

/-- The names of the labels of the piece. -/
def Piece.names {cx : Ctx} (p : Piece cx) : List CStr :=
  if p.body.has then p.name :: p.body.names p.nr else []

theorem groupsCode_length (cx : Ctx) (Lf : Labels) (nr : Nat) {ps : List (List (PAtom cx))} {f : Dnf} (h : All₂ (All₂ (AtomFits cx)) ps f) :
    ∀ idx, (groupsCode cx Lf nr idx ps).length = (f.map fun g => 2 + (g.map (Atom.size cx.t.longBits)).sum).sum := by
  induction h with
  | nil => intro idx; rfl
  | @cons g conj gs f hg _ ih =>
    intro idx
    rw [groupsCode]
    have : ∀ id, (g.flatMap (PAtom.code cx id)).length = (conj.map (Atom.size cx.t.longBits)).sum := by
      intro id
      induction hg with
      | nil => rfl
      | cons ha _ iha => rw [List.flatMap_cons, List.length_append, ha id, iha, List.map_cons, List.sum_cons]
    simp only [List.length_append, List.length_cons, this, ih, List.map_cons, List.sum_cons]
    omega

/-- The piece is for the rule: it is as long as the rule says. -/
structure Piece.For {cx : Ctx} (p : Piece cx) (x : BitVec 32 × Rule) : Prop where
  number : x.1 = BitVec.ofNat 32 p.nr
  known : (p.name, p.nr) ∈ cx.syscalls
  first : cx.lang.syscall p.name = some p.nr
  has : p.body.has = true ↔ x.2 ≠ .allow
  size : ∀ Lf, (p.head Lf).length + (p.args Lf).length = x.2.size cx.t.longBits

theorem compileErrno_total (cx : Ctx) {s : CStr} {a : Action} (h : ReturnText cx.lang s a) : ∃ w, compileErrno cx s = .ok [bpfStmt RET w] := by
  cases h with
  | @errno w c v rest hw hr hc hv =>
    obtain ⟨p1, e1, hw⟩ := strtok_word hw
    obtain ⟨p2, e2, -⟩ := strtok_word hw
    obtain ⟨k, hk, rfl⟩ := parseConstant_of_text cx hc
    unfold compileErrno
    have ht : w.take 6 = "return".toList := take_of_prefix hr
    simp only [e1, Res.ofOption, Res.bind_ok, e2, hk]
    rw [if_neg (by rw [ht]; simp), if_neg (by
      intro he
      apply hv
      have := congrArg BitVec.toNat he
      rw [BitVec.toNat_setWidth] at this
      rw [this]; rfl)]
    exact ⟨_, rfl⟩
  | @dflt w hw hr hd =>
    obtain ⟨p1, e1, hw⟩ := strtok_word hw
    have e2 : strtok ' ' p1 = none := strtok_eq_none_iff.2 hw
    have ht : w.take 6 = "return".toList := take_of_prefix hr
    unfold compileErrno
    simp only [e1, Res.ofOption, Res.bind_ok, e2]
    rw [if_neg (by rw [ht]; simp)]
    have hd' : cx.opts.action.act ≠ .log := hd
    revert hd'
    cases cx.opts.action with
    | log => intro h; exact absurd rfl h
    | _ => intro _; exact ⟨_, rfl⟩

/-- A rule other than `1` is compiled, if there is room for its labels; one is already taken for its entry. -/
theorem compilePolicyLine_total (cx : Ctx) (nr : Nat) (hnr : nr < 2 ^ 31) (line : CStr) (hline : line ≠ "1".toList) (id : BitVec 32) (labels : Labels)
    {rule : Rule} (h : RuleText cx.lang line rule) (hroom : labels.length + rule.labels ≤ 513) :
    ∃ (body : Body cx) (code : List Insn) (labels' : Labels), compilePolicyLine cx nr line id labels = .ok (code, labels') ∧ body.has = true ∧
      rule ≠ .allow ∧ labels <+: labels' ∧ labels'.length + 1 ≤ labels.length + rule.labels ∧
      (∀ n ∈ body.names nr, n ∈ labels') ∧ (∀ Lf, labels' <+: Lf → code = bpfLbl id :: body.code nr Lf) ∧
      ∀ Lf, 3 + (body.code nr Lf).length = rule.size cx.t.longBits := by
  have hs := successName_length nr hnr
  have filt : ∀ (groups : List CStr) (f : Dnf) (o : Action) (ret : Option CStr) (w : BitVec 32), groups.length = f.length →
      All₂ (fun g conj => All₂ (AtomText cx.lang) (fields2 '&' '&' g) conj) groups f → compileRet cx ret = .ok [bpfStmt RET w] →
      labels.length + (2 + f.length) ≤ 513 → ∃ (body : Body cx) (code : List Insn) (labels' : Labels),
      (do let (code, labels) ← compileGroups cx nr 0 groups labels
          let ret ← compileRet cx ret
          let (sid, labels) ← successLbl labels nr
          pure (bpfLbl id :: (code ++ ret ++ [bpfLbl sid, bpfRetAllow]), labels)) = Res.ok (code, labels') ∧ body.has = true ∧
      labels <+: labels' ∧ labels'.length + 1 ≤ labels.length + (2 + f.length) ∧
      (∀ n ∈ body.names nr, n ∈ labels') ∧ (∀ Lf, labels' <+: Lf → code = bpfLbl id :: body.code nr Lf) ∧
      ∀ Lf, 3 + (body.code nr Lf).length = (Rule.filter f o).size cx.t.longBits := by
    intro groups f o ret w hlen hall hret hroom
    have m0 := miss_le_one labels (successName nr)
    obtain ⟨ps, code, labels1, e1, f1, k1, c1⟩ := compileGroups_total cx nr hnr hall 0 labels (by omega) (by omega)
    obtain ⟨p1, l1, -⟩ := compileGroups_len cx nr hnr _ _ _ _ _ (by omega) e1
    obtain ⟨sid, labels2, e2, mem2⟩ := getLabelId_total (labels := labels1) (name := successName nr) (by omega) hs
    obtain ⟨p2, l2, -⟩ := getLabelId_len e2 hs
    refine ⟨.filter ps w, bpfLbl id :: (code ++ [bpfStmt RET w] ++ [bpfLbl sid, bpfRetAllow]), labels2, ?_, rfl, p1.trans p2, by omega, ?_, ?_, ?_⟩
    · simp only [e1, hret, successLbl, e2, Res.bind_ok, Res.pure_eq]
    · intro n hn
      simp only [Body.names, List.mem_append, List.mem_map, List.mem_range, List.mem_singleton] at hn
      rcases hn with ⟨i, hi, rfl⟩ | rfl
      · exact p2.subset (k1 i (Nat.zero_le _) (by omega))
      · exact mem2
    · intro Lf hLf
      simp only [Body.code]
      rw [c1 Lf (p2.trans hLf), (getLabelId_ok e2).2 hs Lf hLf]
    · intro Lf
      simp only [Body.code, List.length_append, List.length_cons, List.length_nil, groupsCode_length cx Lf nr f1, Rule.size]
      omega
  cases h with
  | allow => exact absurd rfl hline
  | @block _ a hp hr =>
    obtain ⟨w, hw⟩ := compileErrno_total cx hr
    refine ⟨.block w, bpfLbl id :: [bpfStmt RET w], labels, ?_, rfl, by simp, List.prefix_refl _, by simp [Rule.labels], by simp [Body.names],
      fun _ _ => rfl, fun _ => rfl⟩
    unfold compilePolicyLine
    have ht : line.take 6 = "return".toList := take_of_prefix hp
    have hne : line ≠ [] := by
      rintro rfl
      simp at ht
    rw [if_neg hne, if_pos ht, hw]
    rfl
  | @filter _ t f h1 h2 hw hd =>
    obtain ⟨p, e1, hw'⟩ := strtok_word hw
    have e2 : strtok ';' p = none := strtok_eq_none_iff.2 hw'
    have hne : line ≠ [] := by rintro rfl; simp [words_nil] at hw
    obtain ⟨body, code, labels', e, a1, a2, a4, a5, a6, a7⟩ := filt (fields2 '|' '|' t) f cx.lang.dflt none cx.opts.action.act.word (all₂_length hd) hd
      (by rw [compileRet, retAction_eq]) hroom
    refine ⟨body, code, labels', ?_, a1, by simp, a2, a4, a5, a6, a7⟩
    unfold compilePolicyLine
    rw [if_neg hne, if_neg (show ¬ line.take 6 = "return".toList from fun h => h2 (prefix_of_take (p := "return".toList) h))]
    simp only [e1, Option.bind_some, e2, Option.map_none]
    rw [show tokenizeAll "||".toList t = fields2 '|' '|' t from tokenizeAll_two '|' '|' t]
    exact e
  | @filterReturn _ t r rest f a h1 h2 hw hd hr =>
    obtain ⟨p, e1, hw'⟩ := strtok_word hw
    obtain ⟨p', e2, -⟩ := strtok_word hw'
    have hne : line ≠ [] := by rintro rfl; simp [words_nil] at hw
    obtain ⟨w, hw⟩ := compileErrno_total cx hr
    obtain ⟨body, code, labels', e, a1, a2, a4, a5, a6, a7⟩ := filt (fields2 '|' '|' t) f a (some r) w (all₂_length hd) hd
      (by rw [compileRet, hw]) hroom
    refine ⟨body, code, labels', ?_, a1, by simp, a2, a4, a5, a6, a7⟩
    unfold compilePolicyLine
    rw [if_neg hne, if_neg (show ¬ line.take 6 = "return".toList from fun h => h2 (prefix_of_take (p := "return".toList) h))]
    simp only [e1, Option.bind_some, e2, Option.map_some]
    rw [show tokenizeAll "||".toList t = fields2 '|' '|' t from tokenizeAll_two '|' '|' t]
    exact e
  | never hne hw =>
    have e1 : strtok ';' line = none := strtok_eq_none_iff.2 hw
    obtain ⟨body, code, labels', e, a1, a2, a4, a5, a6, a7⟩ := filt [] [] cx.lang.dflt none cx.opts.action.act.word rfl .nil
      (by rw [compileRet, retAction_eq]) hroom
    refine ⟨body, code, labels', ?_, a1, by simp, a2, a4, a5, a6, a7⟩
    unfold compilePolicyLine
    have ht : ¬ line.take 6 = "return".toList := by
      intro h
      have : 'r' ∈ line := List.mem_of_mem_take (by rw [h]; simp)
      obtain ⟨a, b, hab⟩ := List.append_of_mem this
      have hall : ∀ c ∈ line, c = ';' := by
        have h2 := e1
        unfold strtok at h2
        simp only at h2
        split at h2
        · next h3 =>
          intro c hc
          have := List.dropWhile_eq_nil_iff.1 h3 c hc
          simpa using this
        · cases h2
      exact absurd (hall _ this) (by decide)
    rw [if_neg hne, if_neg ht]
    simp only [e1, Option.bind_none, Option.map_none]
    exact e

end Minijail
