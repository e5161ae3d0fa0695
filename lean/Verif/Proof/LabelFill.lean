import Verif.Proof.LabelDemand
import Verif.Proof.Atom
/-! A rule with many alternatives fills the label table: every alternative takes one label. -/
set_option linter.unusedSimpArgs false
set_option autoImplicit false
namespace Minijail

theorem groupEndName_inj {nr i j : Nat} (h : groupEndName nr i = groupEndName nr j) : i = j := by
  unfold groupEndName at h
  have h1 := List.append_cancel_left h
  simp only [List.cons.injEq, true_and] at h1
  have h2 := List.append_cancel_right h1
  have := congrArg (Nat.ofDigitChars 10 · 0) h2
  simpa [Nat.ofDigitChars_ten_toDigits] using this

theorem groupEndName_last (nr i : Nat) : (groupEndName nr i).getLast? = some 'd' := by
  have : groupEndName nr i = (Nat.toDigits 10 nr ++ '_' :: (Nat.toDigits 10 i ++ "_en".toList)) ++ ['d'] := by
    unfold groupEndName; simp
  rw [this]; exact List.getLast?_concat

theorem idxOf?_none {L : Labels} {n : CStr} (h : n ∉ L) : L.idxOf? n = none := by
  unfold List.idxOf?
  rw [List.findIdx?_eq_none_iff]
  intro x hx
  simp only [beq_eq_false_iff_ne, ne_eq]
  rintro rfl; exact h hx

theorem getLabelId_new {L : Labels} {n : CStr} (h : n ∉ L) (hl : L.length < BPF_LABELS_MAX) (hn : n.length ≤ 32) :
    getLabelId L n = .ok (BitVec.ofNat 32 L.length, L ++ [n]) := by
  unfold getLabelId bpfLabelId
  have : L.length ≠ BPF_LABELS_MAX := by omega
  simp only [idxOf?_none h, this, if_false]
  rw [List.take_of_length_le (i := MAX_BPF_LABEL_LEN) hn]

theorem getLabelId_old {L : Labels} {n : CStr} (h : n ∈ L) : ∃ id, getLabelId L n = .ok (id, L) := by
  unfold getLabelId bpfLabelId
  cases hi : L.idxOf? n with
  | some k => exact ⟨_, rfl⟩
  | none =>
    have := List.findIdx?_eq_none_iff.1 hi n h
    simp at this

/-- An alternative of one atom. -/
def OneAtom (cx : Ctx) (g : CStr) : Prop :=
  ∃ p, parseAtom cx g = .ok p ∧ tokenizeAll "&&".toList g = [g]

theorem compileGroups_fill (cx : Ctx) (nr : Nat) (hnr : nr < 2 ^ 31) (m : Nat) (hm : ∀ op c, bpfArgCompLen cx.t op c ≤ m)
    (gs : List CStr) : ∀ (idx : Nat) (L : Labels), (∀ g ∈ gs, OneAtom cx g) → (∀ i, idx ≤ i → groupEndName nr i ∉ L) → successName nr ∈ L →
    L.length + gs.length ≤ BPF_LABELS_MAX → idx + gs.length ≤ 2 ^ 31 →
    ∃ code L', compileGroups cx nr idx gs L = .ok (code, L') ∧ L'.length = L.length + gs.length ∧ L <+: L' ∧
      code.length ≤ (m + 2) * gs.length ∧ (∀ x ∈ L', x ∈ L ∨ x.getLast? = some 'd') := by
  induction gs with
  | nil => intro idx L _ _ _ _ _; exact ⟨[], L, rfl, by simp, List.prefix_refl _, by simp, fun x hx => .inl hx⟩
  | cons g gs ih =>
    intro idx L hg hf hs hl hi
    simp only [List.length_cons] at hl hi
    obtain ⟨⟨ai, op, c⟩, hp, ht⟩ := hg g (by simp)
    have hn := groupEndName_length nr idx hnr (by omega)
    have e1 : compileAtoms cx nr idx (tokenizeAll "&&".toList g) L =
        .ok (bpfArgComp cx.t op ai (c.setWidth 64) (BitVec.ofNat 32 L.length), L ++ [groupEndName nr idx]) := by
      rw [ht]
      simp only [compileAtoms, compileAtom, hp, groupEndLbl, getLabelId_new (hf idx (Nat.le_refl _)) (by omega) hn,
        Res.bind_ok, Res.pure_eq, List.append_nil]
    obtain ⟨sid, e2⟩ := getLabelId_old (L := L ++ [groupEndName nr idx]) (n := successName nr) (by simp [hs])
    obtain ⟨eid, e3⟩ := getLabelId_old (L := L ++ [groupEndName nr idx]) (n := groupEndName nr idx) (by simp)
    obtain ⟨code, L', e4, hlen, hpre, hcl, hlast⟩ := ih (idx + 1) (L ++ [groupEndName nr idx]) (fun x hx => hg x (by simp [hx]))
      (by
        intro i hi' hm
        rcases List.mem_append.1 hm with hm | hm
        · exact hf i (by omega) hm
        · have := groupEndName_inj (List.mem_singleton.1 hm); omega)
      (by simp [hs]) (by simp only [List.length_append, List.length_singleton]; omega) (by omega)
    refine ⟨bpfArgComp cx.t op ai (c.setWidth 64) (BitVec.ofNat 32 L.length) ++ [bpfJumpLbl sid, bpfLbl eid] ++ code, L', ?_, ?_,
      (List.prefix_append _ _).trans hpre, ?_, ?_⟩
    · simp only [compileGroups, e1, successLbl, groupEndLbl, e2, e3, e4, Res.bind_ok, Res.pure_eq]
    · rw [hlen]; simp; omega
    · have := hm op (c.setWidth 64)
      simp only [List.length_append, List.length_cons, List.length_nil, bpfArgComp_length, Nat.mul_add]; omega
    · intro x hx
      rcases hlast x hx with h | h
      · rcases List.mem_append.1 h with h | h
        · exact .inl h
        · rw [List.mem_singleton.1 h]; exact .inr (groupEndName_last _ _)
      · exact .inr h

theorem compileGroups_cons {cx : Ctx} {nr idx : Nat} {g : CStr} {gs : List CStr} {L L1 L2 : Labels} {c1 c2 : List Insn}
    (h1 : compileGroups cx nr idx [g] L = .ok (c1, L1)) (h2 : compileGroups cx nr (idx + 1) gs L1 = .ok (c2, L2)) :
    compileGroups cx nr idx (g :: gs) L = .ok (c1 ++ c2, L2) := by
  simp only [compileGroups, Res.bind_eq_ok, Res.pure_eq, Res.ok.injEq] at h1
  obtain ⟨⟨a1, b1⟩, e1, ⟨a2, b2⟩, e2, ⟨a3, b3⟩, e3, ⟨a4, b4⟩, e4, e5⟩ := h1
  simp only [Prod.mk.injEq] at e2 e3 e4 e5
  obtain ⟨rfl, rfl⟩ := e5
  obtain ⟨rfl, rfl⟩ := e4
  simp only [compileGroups, e1, e2, e3, h2, Res.bind_ok, Res.pure_eq, List.append_nil]

theorem compileLine_rule (cx : Ctx) (lvl : Nat) (inc : CStr → CState → Res CState) (line rest : CStr) (c : Char) (st : CState)
    (bad : Bool) (h1 : strip line = line) (h2 : line = c :: rest) (h3 : c ≠ '#') (h4 : c ≠ '@') :
    compileLine cx lvl inc line st bad = compileRule cx line st bad := by
  unfold compileLine
  simp only [h1]
  subst h2
  simp only [h3, h4, if_false]

theorem compileFile0_two {cx : Ctx} {content l1 l2 : CStr} {st0 st1 st2 : CState} (h : readLines content = [l1, l2])
    (h1 : compileLine cx 0 (compileFile1 cx) l1 st0 false = .ok (st1, false))
    (h2 : compileLine cx 0 (compileFile1 cx) l2 st1 false = .ok (st2, false)) : compileFile0 cx content st0 = .ok st2 := by
  simp [compileFile0, compileFileWith, h, compileLines, h1, h2]

/-- The walk starts at the end: if it goes out of bounds in the last part of a filter, it does so in the whole filter. -/
theorem resolveFrom_ub (count : Nat) (p q : List Insn) : ∀ off, resolveFrom count (off + p.length) q = .ub →
    resolveFrom count off (p ++ q) = .ub := by
  induction p with
  | nil => intro off h; simpa using h
  | cons i p ih =>
    intro off h
    have := ih (off + 1) (by simpa [Nat.add_assoc, Nat.add_comm 1] using h)
    simp only [List.cons_append, resolveFrom, this]; rfl

theorem compileFilter_ub {cx : Ctx} {content : CStr} {st : CState} {p q : List Insn}
    (h : compileFile0 cx content ⟨filterPrefix cx, [], [], []⟩ = .ok st) (ha : cx.opts.action ≠ .log)
    (hp : st.head ++ [retAction cx.opts.action] ++ st.argBlocks = p ++ q) (hlen : p.length + q.length ≤ BPF_MAXINSNS)
    (hub : ∀ off, resolveFrom st.labels.length off q = .ub) : compileFilter cx content = .ub := by
  have hl : ¬ (p ++ q).length > BPF_MAXINSNS := by simp only [List.length_append]; omega
  simp only [compileFilter, h, ha, false_and, if_false, hp, bpfResolveJumps, if_neg hl, resolveFrom_ub _ p q 0 (hub _), Res.bind_ub]

end Minijail
