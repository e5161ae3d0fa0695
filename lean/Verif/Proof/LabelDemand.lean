import Verif.Proof.Groups
import Verif.Spec.LabelDemand
/-! How the label table grows. -/
set_option linter.unusedSimpArgs false
set_option autoImplicit false
namespace Minijail

/-- 1 if the name is not in the table. -/
def miss (L : Labels) (n : CStr) : Nat := if n ∈ L then 0 else 1

theorem miss_le_one (L n) : miss L n ≤ 1 := by unfold miss; split <;> omega

theorem miss_mono {L L' : Labels} (h : L <+: L') (n) : miss L' n ≤ miss L n := by
  unfold miss
  split
  · omega
  · next h1 => rw [if_neg fun h2 => h1 (h.subset h2)]

theorem getLabelId_len {labels labels' : Labels} {name : CStr} {id : BitVec 32}
    (h : getLabelId labels name = .ok (id, labels')) (hn : name.length ≤ 32) :
    labels <+: labels' ∧ labels'.length + miss labels' name ≤ labels.length + miss labels name ∧ id.toNat < labels'.length := by
  refine ⟨(getLabelId_ok h).1, ?_⟩
  unfold getLabelId bpfLabelId at h
  have small : ∀ k : Nat, (BitVec.ofNat 32 k).toNat ≤ k := by intro k; simp [Nat.mod_le]
  cases hi : labels.idxOf? name with
  | some k =>
    simp only [hi, Res.ok.injEq, Prod.mk.injEq] at h
    obtain ⟨rfl, rfl⟩ := h
    refine ⟨Nat.le_refl _, ?_⟩
    have : k < labels.length := by
      unfold List.idxOf? at hi
      exact (List.findIdx?_eq_some_iff_getElem.1 hi).1
    exact Nat.lt_of_le_of_lt (small k) this
  | none =>
    simp only [hi] at h
    by_cases hm : labels.length = BPF_LABELS_MAX
    · simp [hm] at h
    · simp only [hm, if_false, Res.ok.injEq, Prod.mk.injEq] at h
      obtain ⟨rfl, rfl⟩ := h
      have ht : List.take MAX_BPF_LABEL_LEN name = name := List.take_of_length_le hn
      rw [ht]
      have h1 : name ∉ labels := by
        intro hmem
        unfold List.idxOf? at hi
        rw [List.findIdx?_eq_none_iff] at hi
        simpa using hi name hmem
      constructor
      · unfold miss; rw [if_neg h1, if_pos (by simp)]; simp
      · have := small labels.length
        simp only [List.length_append, List.length_cons, List.length_nil]; omega

theorem bpfLabelId_len (labels : Labels) (name : CStr) :
    labels <+: (bpfLabelId labels name).2 ∧ (bpfLabelId labels name).2.length ≤ labels.length + 1 ∧
    (match (bpfLabelId labels name).1 with
      | some id => (BitVec.ofNat 32 id).toNat < (bpfLabelId labels name).2.length
      | none => labels.length = 512) := by
  have small : ∀ k : Nat, (BitVec.ofNat 32 k).toNat ≤ k := by intro k; simp [Nat.mod_le]
  unfold bpfLabelId
  cases hi : labels.idxOf? name with
  | some k =>
    refine ⟨List.prefix_refl _, by simp, ?_⟩
    have : k < labels.length := by
      unfold List.idxOf? at hi
      exact (List.findIdx?_eq_some_iff_getElem.1 hi).1
    exact Nat.lt_of_le_of_lt (small k) this
  | none =>
    simp only
    split
    · next h => exact ⟨List.prefix_refl _, by simp, h⟩
    · refine ⟨List.prefix_append _ _, by simp, ?_⟩
      have := small labels.length
      simp only [List.length_append, List.length_cons, List.length_nil]; omega

theorem compileAtoms_len (cx : Ctx) (nr idx : Nat) (hn : (groupEndName nr idx).length ≤ 32) (atoms : List CStr) :
    ∀ (labels labels' : Labels) (code : List Insn), compileAtoms cx nr idx atoms labels = .ok (code, labels') →
    labels <+: labels' ∧ labels'.length + miss labels' (groupEndName nr idx) ≤ labels.length + miss labels (groupEndName nr idx) ∧
      ∀ l, bpfLbl l ∉ code := by
  induction atoms with
  | nil =>
    intro labels labels' code h
    simp only [compileAtoms, Res.pure_eq, Res.ok.injEq, Prod.mk.injEq] at h
    obtain ⟨rfl, rfl⟩ := h
    exact ⟨List.prefix_refl _, Nat.le_refl _, by simp⟩
  | cons a atoms ih =>
    intro labels labels' code h
    simp only [compileAtoms, compileAtom, Res.bind_eq_ok, Res.pure_eq, Res.ok.injEq] at h
    obtain ⟨⟨code1, labels2⟩, ⟨⟨i, op, c⟩, hp, ⟨id, labels1⟩, hl, h1⟩, ⟨code2, labels3⟩, h2, h3⟩ := h
    simp only [Prod.mk.injEq] at h1 h3
    obtain ⟨rfl, rfl⟩ := h1
    obtain ⟨rfl, rfl⟩ := h3
    obtain ⟨p1, l1, _⟩ := getLabelId_len hl hn
    obtain ⟨p2, l2, n2⟩ := ih _ _ _ h2
    simp only at p2 l2 n2
    refine ⟨p1.trans p2, by omega, ?_⟩
    intro l hm
    rcases List.mem_append.1 hm with hm | hm
    · exact patom_code_no_label cx (i, op, c) id l hm
    · exact n2 l hm

theorem compileGroups_len (cx : Ctx) (nr : Nat) (hnr : nr < 2 ^ 31) (groups : List CStr) :
    ∀ (idx : Nat) (labels labels' : Labels) (code : List Insn), idx + groups.length ≤ 2 ^ 31 →
    compileGroups cx nr idx groups labels = .ok (code, labels') →
    labels <+: labels' ∧ labels'.length + miss labels' (successName nr) ≤ labels.length + miss labels (successName nr) + groups.length ∧
      ∀ l, bpfLbl l ∈ code → l.toNat < labels'.length := by
  induction groups with
  | nil =>
    intro idx labels labels' code _ h
    simp only [compileGroups, Res.pure_eq, Res.ok.injEq, Prod.mk.injEq] at h
    obtain ⟨rfl, rfl⟩ := h
    exact ⟨List.prefix_refl _, by simp, by simp⟩
  | cons g groups ih =>
    intro idx labels labels' code hidx h
    simp only [List.length_cons] at hidx
    simp only [compileGroups, Res.bind_eq_ok, Res.pure_eq, Res.ok.injEq] at h
    obtain ⟨⟨code1, labels1⟩, h1, ⟨sid, labels2⟩, h2, ⟨eid, labels3⟩, h3, ⟨code2, labels4⟩, h4, h5⟩ := h
    simp only [Prod.mk.injEq] at h5
    obtain ⟨rfl, rfl⟩ := h5
    have hn := groupEndName_length nr idx hnr (by omega)
    obtain ⟨p1, l1, n1⟩ := compileAtoms_len cx nr idx hn _ _ _ _ h1
    obtain ⟨p2, l2, _⟩ := getLabelId_len h2 (successName_length nr hnr)
    obtain ⟨p3, l3, n3⟩ := getLabelId_len h3 hn
    obtain ⟨p4, l4, n4⟩ := ih (idx + 1) _ _ _ (by omega) h4
    simp only at p2 l2 p3 l3 n3 p4 l4 n4
    refine ⟨((p1.trans p2).trans p3).trans p4, ?_, ?_⟩
    · have a1 := miss_le_one labels (groupEndName nr idx)
      have a2 := miss_mono p2 (groupEndName nr idx)
      have a3 := miss_mono p3 (successName nr)
      have a4 := miss_mono p1 (successName nr)
      simp only [List.length_cons]
      omega
    · intro l hm
      simp only [List.append_assoc, List.mem_append, List.cons_append, List.mem_cons, List.nil_append] at hm
      rcases hm with hm | hm | hm | hm
      · exact absurd hm (n1 l)
      · exact absurd hm.symm (jump_ne_label _ _)
      · obtain rfl := label_inj hm
        exact Nat.lt_of_lt_of_le n3 p4.length_le
      · exact n4 l hm

end Minijail
