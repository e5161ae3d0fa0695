import Verif.Model.SyscallFilter
import Verif.Proof.Seg
import Verif.Spec.PolicyText
import Mathlib.Data.Nat.Log
/-! The code of filter expressions: structure and meaning. -/
set_option linter.unusedSimpArgs false
set_option autoImplicit false
namespace Minijail

/-! ### Stable label ids -/

theorem idxOf?_append {α} [BEq α] [LawfulBEq α] (l m : List α) (a : α) (k : Nat) (h : l.idxOf? a = some k) :
    (l ++ m).idxOf? a = some k := by
  unfold List.idxOf? at *
  rw [List.findIdx?_append, h]; rfl

theorem idxOf?_concat {α} [BEq α] [LawfulBEq α] (l : List α) (a : α) (h : l.idxOf? a = none) :
    (l ++ [a]).idxOf? a = some l.length := by
  unfold List.idxOf? at *
  rw [List.findIdx?_append, h]; simp [List.findIdx?_cons]

/-- The id of a name in the final table. -/
def lblOf (Lf : Labels) (name : CStr) : BitVec 32 := BitVec.ofNat 32 ((Lf.idxOf? name).getD 0)

theorem getLabelId_ok {labels labels' : Labels} {name : CStr} {id : BitVec 32}
    (h : getLabelId labels name = .ok (id, labels')) : labels <+: labels' ∧
    (name.length ≤ 32 → ∀ Lf, labels' <+: Lf → id = lblOf Lf name) := by
  unfold getLabelId bpfLabelId at h
  cases hi : labels.idxOf? name with
  | some k =>
    simp only [hi, Res.ok.injEq, Prod.mk.injEq] at h
    obtain ⟨rfl, rfl⟩ := h
    refine ⟨List.prefix_refl _, ?_⟩
    rintro - Lf ⟨m, rfl⟩
    simp [lblOf, idxOf?_append _ _ _ _ hi]
  | none =>
    simp only [hi] at h
    by_cases hm : labels.length = BPF_LABELS_MAX
    · simp [hm] at h
    · simp only [hm, if_false, Res.ok.injEq, Prod.mk.injEq] at h
      obtain ⟨rfl, rfl⟩ := h
      refine ⟨List.prefix_append _ _, ?_⟩
      rintro hl Lf ⟨m, rfl⟩
      have ht : List.take MAX_BPF_LABEL_LEN name = name := List.take_of_length_le hl
      rw [ht]
      have := idxOf?_append (labels ++ [name]) m name _ (idxOf?_concat _ _ hi)
      simp only [lblOf, this, Option.getD_some]

theorem toDigits_length (n k : Nat) (hk : 0 < k) (h : n < 10 ^ k) : (Nat.toDigits 10 n).length ≤ k :=
  (Nat.length_toDigits_le_iff (by omega) hk).2 h

theorem groupEndName_length (nr idx : Nat) (h1 : nr < 2 ^ 31) (h2 : idx < 2 ^ 31) : (groupEndName nr idx).length ≤ 32 := by
  unfold groupEndName
  have a := toDigits_length nr 10 (by omega) (by omega)
  have b := toDigits_length idx 10 (by omega) (by omega)
  simp only [List.length_append, List.length_cons]
  have : "_end".toList.length = 4 := rfl
  omega

theorem successName_length (nr : Nat) (h1 : nr < 2 ^ 31) : (successName nr).length ≤ 32 := by
  unfold successName
  have a := toDigits_length nr 10 (by omega) (by omega)
  simp only [List.length_append]
  have : "_success".toList.length = 8 := rfl
  omega

/-! ### Structure of the generated code -/

/-- A parsed atom. -/
abbrev PAtom (cx : Ctx) := BitVec 32 × Op × BitVec cx.t.longBits

/-- Code of a parsed atom. -/
def PAtom.code (cx : Ctx) (lbl : BitVec 32) (a : PAtom cx) : List Insn :=
  bpfArgComp cx.t a.2.1 a.1 (a.2.2.setWidth 64) lbl

/-- Code of the conjunctions from index `idx` on. -/
def groupsCode (cx : Ctx) (Lf : Labels) (nr : Nat) : Nat → List (List (PAtom cx)) → List Insn
  | _, [] => []
  | idx, g :: gs =>
    g.flatMap (PAtom.code cx (lblOf Lf (groupEndName nr idx))) ++
      bpfJumpLbl (lblOf Lf (successName nr)) :: bpfLbl (lblOf Lf (groupEndName nr idx)) ::
      groupsCode cx Lf nr (idx + 1) gs

theorem compileAtoms_ok (cx : Ctx) (nr idx : Nat) (hn : (groupEndName nr idx).length ≤ 32) (atoms : List CStr) :
    ∀ (labels labels' : Labels) (code : List Insn), compileAtoms cx nr idx atoms labels = .ok (code, labels') →
    labels <+: labels' ∧ ∃ ps : List (PAtom cx), Spec.All₂ (fun a p => parseAtom cx a = .ok p) atoms ps ∧
      ∀ Lf, labels' <+: Lf → code = ps.flatMap (PAtom.code cx (lblOf Lf (groupEndName nr idx))) := by
  induction atoms with
  | nil =>
    intro labels labels' code h
    simp only [compileAtoms, Res.pure_eq, Res.ok.injEq, Prod.mk.injEq] at h
    obtain ⟨rfl, rfl⟩ := h
    exact ⟨List.prefix_refl _, [], .nil, by simp⟩
  | cons a atoms ih =>
    intro labels labels' code h
    simp only [compileAtoms, compileAtom, Res.bind_eq_ok, Res.pure_eq, Res.ok.injEq] at h
    obtain ⟨⟨code1, labels2⟩, ⟨⟨i, op, c⟩, hp, ⟨id, labels1⟩, hl, h1⟩, ⟨code2, labels3⟩, h2, h3⟩ := h
    simp only [Prod.mk.injEq] at h1 h3
    obtain ⟨rfl, rfl⟩ := h1
    obtain ⟨rfl, rfl⟩ := h3
    obtain ⟨hp1, hid⟩ := getLabelId_ok hl
    obtain ⟨hp2, ps, hps, hcode⟩ := ih _ _ _ h2
    refine ⟨hp1.trans hp2, (i, op, c) :: ps, .cons hp hps, fun Lf hLf => ?_⟩
    rw [List.flatMap_cons, ← hcode Lf hLf, hid hn Lf (hp2.trans hLf)]
    rfl

theorem compileGroups_ok (cx : Ctx) (nr : Nat) (hnr : nr < 2 ^ 31) (groups : List CStr) :
    ∀ (idx : Nat) (labels labels' : Labels) (code : List Insn), idx + groups.length ≤ 2 ^ 31 →
    compileGroups cx nr idx groups labels = .ok (code, labels') →
    labels <+: labels' ∧ ∃ ps : List (List (PAtom cx)),
      Spec.All₂ (fun g p => Spec.All₂ (fun a p => parseAtom cx a = .ok p) (tokenizeAll "&&".toList g) p) groups ps ∧
      ∀ Lf, labels' <+: Lf → code = groupsCode cx Lf nr idx ps := by
  induction groups with
  | nil =>
    intro idx labels labels' code _ h
    simp only [compileGroups, Res.pure_eq, Res.ok.injEq, Prod.mk.injEq] at h
    obtain ⟨rfl, rfl⟩ := h
    exact ⟨List.prefix_refl _, [], .nil, by simp [groupsCode]⟩
  | cons g groups ih =>
    intro idx labels labels' code hidx h
    simp only [List.length_cons] at hidx
    simp only [compileGroups, Res.bind_eq_ok, Res.pure_eq, Res.ok.injEq] at h
    obtain ⟨⟨code1, labels1⟩, h1, ⟨sid, labels2⟩, h2, ⟨eid, labels3⟩, h3, ⟨code2, labels4⟩, h4, h5⟩ := h
    simp only [Prod.mk.injEq] at h5
    obtain ⟨rfl, rfl⟩ := h5
    have hn := groupEndName_length nr idx hnr (by omega)
    obtain ⟨p1, ps1, hps1, hc1⟩ := compileAtoms_ok cx nr idx hn _ _ _ _ h1
    obtain ⟨p2, hid2⟩ := getLabelId_ok h2
    obtain ⟨p3, hid3⟩ := getLabelId_ok h3
    obtain ⟨p4, ps, hps, hc⟩ := ih (idx + 1) _ _ _ (by omega) h4
    refine ⟨((p1.trans p2).trans p3).trans p4, ps1 :: ps, .cons hps1 hps, fun Lf hLf => ?_⟩
    have q3 := p4.trans hLf
    have q2 := p3.trans q3
    have q1 := p2.trans q2
    rw [groupsCode, ← hc Lf hLf, ← hc1 Lf q1, ← hid2 (successName_length nr hnr) Lf q2, ← hid3 hn Lf q3]
    simp

/-- The code of a conjunction is longer than the number of conjunctions, whatever happens to labels. -/
theorem compileGroups_length (cx : Ctx) (nr : Nat) (groups : List CStr) :
    ∀ (idx : Nat) (labels labels' : Labels) (code : List Insn),
    compileGroups cx nr idx groups labels = .ok (code, labels') → 2 * groups.length ≤ code.length := by
  induction groups with
  | nil => intro idx labels labels' code _; simp
  | cons g groups ih =>
    intro idx labels labels' code h
    simp only [compileGroups, Res.bind_eq_ok, Res.pure_eq, Res.ok.injEq] at h
    obtain ⟨⟨code1, labels1⟩, h1, ⟨sid, labels2⟩, h2, ⟨eid, labels3⟩, h3, ⟨code2, labels4⟩, h4, h5⟩ := h
    simp only [Prod.mk.injEq] at h5
    obtain ⟨rfl, rfl⟩ := h5
    have := ih _ _ _ _ h4
    simp only [List.length_append, List.length_cons, List.length_nil]
    omega

/-! ### Meaning of the generated code -/

variable {d : SeccompData}

/-- The atom is true of the call; its index must be 0..5. -/
def PAtom.holds (cx : Ctx) (d : SeccompData) (a : PAtom cx) : Prop :=
  a.2.1.cmp.holds (Spec.argValue cx.t.longBits d a.1.toNat) a.2.2.toNat

theorem longBits_cases (t : Target) : t.longBits = 64 ∨ t.longBits = 32 := by
  cases h : t.bits64 <;> simp [Target.longBits, h]

theorem setWidth64_mod (t : Target) (c : BitVec t.longBits) : (c.setWidth 64).toNat % 2 ^ t.longBits = c.toNat := by
  have := c.isLt
  rw [BitVec.toNat_setWidth]
  generalize c.toNat = x at this ⊢
  rcases longBits_cases t with h | h <;> rw [h] at this ⊢ <;> omega

theorem execL_patom (cx : Ctx) (a : PAtom cx) (ha : a.1.toNat < 6) (id : BitVec 32) (q : List Insn) (r : Regs) :
    ∃ r',
      (a.holds cx d → execL false d (a.code cx id ++ q) (.skip 0) r = execL false d q (.skip 0) r') ∧
      (¬ a.holds cx d → execL false d (a.code cx id ++ q) (.skip 0) r = execL false d q (.seek id) r') := by
  have := execL_atom (d := d) cx.t a.2.1 a.1.toNat ha (a.2.2.setWidth 64) id q r
  rw [setWidth64_mod, BitVec.ofNat_toNat, BitVec.setWidth_eq] at this
  exact this

theorem patom_code_no_label (cx : Ctx) (a : PAtom cx) (id l : BitVec 32) : bpfLbl l ∉ a.code cx id := by
  unfold PAtom.code
  rw [bpfArgComp_eq, List.mem_append]
  rintro (h | h)
  · exact atomBody_plain _ _ _ _ _ h rfl
  · simp [bpfLbl, bpfJumpLbl, bpfJump] at h

theorem patoms_code_no_label (cx : Ctx) (as : List (PAtom cx)) (id l : BitVec 32) : bpfLbl l ∉ as.flatMap (PAtom.code cx id) := by
  simp only [List.mem_flatMap, not_exists, not_and]
  exact fun a _ => patom_code_no_label cx a id l

/-- A conjunction: falls through when all atoms hold, else looks for the group's end. -/
theorem execL_conj (cx : Ctx) (id : BitVec 32) (q : List Insn) (as : List (PAtom cx)) (has : ∀ a ∈ as, a.1.toNat < 6) (r : Regs) :
    ∃ r',
      ((∀ a ∈ as, PAtom.holds cx d a) →
        execL false d (as.flatMap (PAtom.code cx id) ++ q) (.skip 0) r = execL false d q (.skip 0) r') ∧
      (¬ (∀ a ∈ as, PAtom.holds cx d a) →
        execL false d (as.flatMap (PAtom.code cx id) ++ q) (.skip 0) r = execL false d q (.seek id) r') := by
  induction as generalizing r with
  | nil => exact ⟨r, by simp, by simp⟩
  | cons a as ih =>
    obtain ⟨r1, h1, h2⟩ := execL_patom (d := d) cx a (has a (by simp)) id (as.flatMap (PAtom.code cx id) ++ q) r
    rw [List.flatMap_cons, List.append_assoc]
    by_cases ha : a.holds cx d
    · rw [h1 ha]
      obtain ⟨r2, h3, h4⟩ := ih (fun b hb => has b (List.mem_cons_of_mem _ hb)) r1
      refine ⟨r2, fun h => h3 fun b hb => h b (List.mem_cons_of_mem _ hb), fun h => h4 fun h' => h ?_⟩
      intro b hb
      rcases List.mem_cons.1 hb with rfl | hb
      · exact ha
      · exact h' b hb
    · rw [h2 ha]
      refine ⟨r1, fun h => absurd (h a (by simp)) ha, fun _ => ?_⟩
      exact execL_seek_skip _ _ _ _ (patoms_code_no_label cx as id id)

/-- A disjunction followed by other code that contains the success label: jumps there when some conjunction holds, else
falls through. -/
theorem execL_groups (cx : Ctx) (Lf : Labels) (nr : Nat) (mid fin : List Insn) (gs : List (List (PAtom cx))) :
    ∀ (idx : Nat) (r : Regs), (∀ g ∈ gs, ∀ a ∈ g, a.1.toNat < 6) →
    UniqueLbl (groupsCode cx Lf nr idx gs ++ mid ++ bpfLbl (lblOf Lf (successName nr)) :: fin) →
    ∃ r',
      ((∃ g ∈ gs, ∀ a ∈ g, PAtom.holds cx d a) →
        execL false d (groupsCode cx Lf nr idx gs ++ mid ++ bpfLbl (lblOf Lf (successName nr)) :: fin) (.skip 0) r =
          execL false d fin (.skip 0) r') ∧
      (¬ (∃ g ∈ gs, ∀ a ∈ g, PAtom.holds cx d a) →
        execL false d (groupsCode cx Lf nr idx gs ++ mid ++ bpfLbl (lblOf Lf (successName nr)) :: fin) (.skip 0) r =
          execL false d (mid ++ bpfLbl (lblOf Lf (successName nr)) :: fin) (.skip 0) r') := by
  induction gs with
  | nil => intro idx r _ _; exact ⟨r, by simp, by simp [groupsCode]⟩
  | cons g gs ih =>
    intro idx r hv hu
    rw [groupsCode] at hu ⊢
    simp only [List.append_assoc, List.cons_append] at hu ⊢
    have hv1 := hv g (by simp)
    have hv2 : ∀ g ∈ gs, ∀ a ∈ g, a.1.toNat < 6 := fun g' hg => hv g' (List.mem_cons_of_mem _ hg)
    obtain ⟨r1, h1, h2⟩ := execL_conj (d := d) cx (lblOf Lf (groupEndName nr idx))
      (bpfJumpLbl (lblOf Lf (successName nr)) :: bpfLbl (lblOf Lf (groupEndName nr idx)) ::
        (groupsCode cx Lf nr (idx + 1) gs ++ (mid ++ bpfLbl (lblOf Lf (successName nr)) :: fin))) g hv1 r
    by_cases hg : ∀ a ∈ g, PAtom.holds cx d a
    · refine ⟨r1, fun _ => ?_, fun h => absurd ⟨g, by simp, hg⟩ h⟩
      rw [h1 hg, execL_jump]
      have hu' := hu.right.right (a := [bpfJumpLbl (lblOf Lf (successName nr))])
      have := execL_seek (be := false) (d := d) (lblOf Lf (successName nr))
        (bpfLbl (lblOf Lf (groupEndName nr idx)) :: (groupsCode cx Lf nr (idx + 1) gs ++ mid)) fin r1
        (by simpa using hu')
      simpa using this
    · have hu' := hu.right
      have hj : bpfLbl (lblOf Lf (groupEndName nr idx)) ∉ [bpfJumpLbl (lblOf Lf (successName nr))] := by
        simp [bpfLbl, bpfJumpLbl, bpfJump]
      have h3 : ∀ q, execL false d (bpfJumpLbl (lblOf Lf (successName nr)) :: bpfLbl (lblOf Lf (groupEndName nr idx)) :: q)
          (.seek (lblOf Lf (groupEndName nr idx))) r1 = execL false d q (.skip 0) r1 := by
        intro q
        have := execL_seek_skip (be := false) (d := d) _ _ (bpfLbl (lblOf Lf (groupEndName nr idx)) :: q) r1 hj
        rw [List.singleton_append] at this
        rw [this, execL_seek_label]
      obtain ⟨r2, h4, h5⟩ := ih (idx + 1) r1 hv2 (by
        simpa using hu'.right (a := [bpfJumpLbl (lblOf Lf (successName nr)), bpfLbl (lblOf Lf (groupEndName nr idx))]))
      simp only [List.append_assoc] at h4 h5
      refine ⟨r2, fun h => ?_, fun h => ?_⟩
      · rw [h2 hg, h3, h4]
        obtain ⟨g', hg', hh⟩ := h
        rcases List.mem_cons.1 hg' with rfl | hg'
        · exact absurd hh hg
        · exact ⟨g', hg', hh⟩
      · rw [h2 hg, h3, h5]
        rintro ⟨g', hg', hh⟩
        exact h ⟨g', List.mem_cons_of_mem _ hg', hh⟩

end Minijail
