import Verif.Props.C07
import Verif.Proof.LabelFill
/-! C07: the witness that the label table is accessed out of bounds. -/
set_option linter.unusedSimpArgs false
set_option autoImplicit false
set_option maxRecDepth 100000
namespace Minijail

/-- A 32-bit little-endian target, two system calls. -/
def c07Cx : Ctx where
  t := ⟨false, false, 0x40000003⟩
  syscalls := [("read".toList, 3), ("open".toList, 5)]
  constants := []
  logSyscalls := []
  libcCompatibilitySyscalls := []
  fs := fun _ => none
  opts := ⟨.kill, false, false, false, true⟩

/-- The filter of the first rule: 510 alternatives. -/
def c07Rhs : CStr := "arg0 == 0".toList ++ (List.replicate 509 " || arg0 == 0".toList).flatten

/-- One rule with 510 alternatives takes all 512 labels (one for the rule, one for its success, one for
each alternative); the next rule gets none. -/
def c07Policy : CStr := "read: ".toList ++ c07Rhs ++ "\nopen: return 1\n".toList

private theorem lines : readLines c07Policy = ["read: ".toList ++ c07Rhs, "open: return 1".toList] := by decide +kernel
private theorem strip1 : strip ("read: ".toList ++ c07Rhs) = "read: ".toList ++ c07Rhs := by decide +kernel
private theorem sep1 : strsep ':' ("read: ".toList ++ c07Rhs) = ("read".toList, some (' ' :: c07Rhs)) := by decide +kernel
private theorem strip2 : strip (' ' :: c07Rhs) = c07Rhs := by decide +kernel
private theorem tok1 : strtok ';' c07Rhs = some (c07Rhs, []) := by decide +kernel
private theorem alts : tokenizeAll "||".toList c07Rhs =
    "arg0 == 0 ".toList :: (List.replicate 508 " arg0 == 0 ".toList ++ [" arg0 == 0".toList]) := by decide +kernel

private theorem first : ∃ block L, compilePolicyLine c07Cx 3 c07Rhs 0#32 ["read".toList] = .ok (block, L) ∧ L.length = 512 ∧
    block.length ≤ 3700 ∧ "open".toList ∉ L := by
  have g0 : compileGroups c07Cx 3 0 ["arg0 == 0 ".toList] ["read".toList] =
      .ok ([⟨0x20, 0, 0, 16⟩, ⟨0x15, 1, 0, 0⟩, ⟨5, 255, 255, 1⟩, ⟨5, 255, 255, 2⟩, ⟨5, 254, 254, 1⟩],
        ["read".toList, "3_0_end".toList, "3_success".toList]) := by decide +kernel
  have o : ∀ g ∈ List.replicate 508 " arg0 == 0 ".toList ++ [" arg0 == 0".toList], OneAtom c07Cx g := by
    intro g hg
    rcases List.mem_append.1 hg with h | h
    · rw [List.eq_of_mem_replicate h]; exact ⟨(0#32, .eq, 0#32), by decide +kernel, by decide +kernel⟩
    · rw [List.mem_singleton.1 h]; exact ⟨(0#32, .eq, 0#32), by decide +kernel, by decide +kernel⟩
  obtain ⟨code, L, hc, hl, hp, hcl, hlast⟩ := compileGroups_fill c07Cx 3 (by omega) 3
    (by intro op c; cases op <;> exact Nat.le_refl 3) _ 1
    ["read".toList, "3_0_end".toList, "3_success".toList] o
    (by
      intro i hi hm
      have hd := groupEndName_last 3 i
      simp only [List.mem_cons, List.not_mem_nil, or_false] at hm
      rcases hm with hm | hm | hm
      · have : '_' ∈ groupEndName 3 i := by unfold groupEndName; simp
        rw [hm] at this; exact absurd this (by decide)
      · have : groupEndName 3 i = groupEndName 3 0 := hm
        have := groupEndName_inj this; omega
      · rw [hm] at hd; exact absurd hd (by decide))
    (by decide) (by simp [BPF_LABELS_MAX]) (by simp)
  obtain ⟨cg, hg, hgl⟩ : ∃ cg, compileGroups c07Cx 3 0 (tokenizeAll "||".toList c07Rhs) ["read".toList] = .ok (cg, L) ∧
      cg.length ≤ 2600 := by
    refine ⟨_, by rw [alts]; exact compileGroups_cons g0 hc, ?_⟩
    simp only [List.length_append, List.length_cons, List.length_nil, List.length_replicate] at hcl ⊢; omega
  obtain ⟨sid, hs⟩ := getLabelId_old (L := L) (n := successName 3) (hp.subset (by decide))
  have n1 : c07Rhs ≠ [] := by decide
  have n2 : c07Rhs.take 6 ≠ "return".toList := by decide
  have t0 : strtok ';' [] = none := rfl
  refine ⟨bpfLbl 0#32 :: (cg ++ [bpfRetKill] ++ [bpfLbl sid, bpfRetAllow]), L, ?_, ?_, ?_, ?_⟩
  · unfold compilePolicyLine
    rw [if_neg n1, if_neg n2]
    simp only [tok1, Option.bind_some, t0, Option.map_none, hg, compileRet, successLbl, hs, Res.bind_ok, Res.pure_eq]
    rfl
  · rw [hl]; simp
  · simp only [List.length_append, List.length_cons, List.length_nil]; omega
  · intro hm
    rcases hlast _ hm with h | h
    · exact absurd h (by decide)
    · exact absurd h (by decide)

/-- The intended statement fails: compiling `c07Policy` reads the label table at index 4294967295. -/
theorem C07_violated : ¬ Spec.LabelTableSafe compileFilter := by
  intro h
  apply h c07Cx c07Policy (by decide)
  obtain ⟨block, L, hb, hl, hbl, ho⟩ := first
  have n1 : c07Rhs ≠ [] := by decide
  have n2 : c07Rhs ≠ "1".toList := by decide
  have r1 : ∀ st, st.labels = [] → st.seen = [] → compileRule c07Cx ("read: ".toList ++ c07Rhs) st false =
      .ok (⟨st.head ++ bpfAllowSyscallArgs 3#32 0#32, st.argBlocks ++ block, L, [0]⟩, false) := by
    intro st h1 h2
    have e1 : strip "read".toList = "read".toList := by decide
    have e2 : lookupSyscall c07Cx.syscalls "read".toList = some (3, 0) := by decide
    have e3 : bpfLabelId [] "read".toList = (some 0, ["read".toList]) := by decide
    simp only [compileRule, sep1, strip2, if_neg n1, if_neg n2, e1, e2, h1, h2, e3, hb]
    rfl
  have r2 : ∀ st, st.labels = L → st.seen = [0] → compileRule c07Cx "open: return 1".toList st false =
      .ok (⟨st.head ++ bpfAllowSyscallArgs 5#32 (BitVec.ofInt 32 (-1)),
        st.argBlocks ++ [bpfLbl (BitVec.ofInt 32 (-1)), bpfRetErrno 1], L, [1, 0]⟩, false) := by
    intro st h1 h2
    have e0 : strsep ':' "open: return 1".toList = ("open".toList, some " return 1".toList) := by decide
    have e1 : strip "open".toList = "open".toList := by decide
    have e1' : strip " return 1".toList = "return 1".toList := by decide
    have e2 : lookupSyscall c07Cx.syscalls "open".toList = some (5, 1) := by decide
    have e3 : bpfLabelId L "open".toList = (none, L) := by
      simp only [bpfLabelId, idxOf?_none ho, if_pos (show List.length L = BPF_LABELS_MAX from hl)]
    have e4 : compilePolicyLine c07Cx 5 "return 1".toList (BitVec.ofInt 32 (-1)) L =
        .ok ([bpfLbl (BitVec.ofInt 32 (-1)), bpfRetErrno 1], L) := by
      unfold compilePolicyLine
      rw [if_neg (by decide), if_pos (by decide)]
      have : compileErrno c07Cx "return 1".toList = .ok [bpfRetErrno 1] := by decide +kernel
      rw [this]; rfl
    simp only [compileRule, e0, e1, e1', e2, h1, h2, e3, e4]
    rfl
  have l1 : ∀ inc st, st.labels = [] → st.seen = [] → compileLine c07Cx 0 inc ("read: ".toList ++ c07Rhs) st false =
      .ok (⟨st.head ++ bpfAllowSyscallArgs 3#32 0#32, st.argBlocks ++ block, L, [0]⟩, false) := by
    intro inc st h1 h2
    rw [compileLine_rule c07Cx 0 inc _ _ 'r' st false strip1 rfl (by decide) (by decide)]
    exact r1 st h1 h2
  have l2 : ∀ inc st, st.labels = L → st.seen = [0] → compileLine c07Cx 0 inc "open: return 1".toList st false =
      .ok (⟨st.head ++ bpfAllowSyscallArgs 5#32 (BitVec.ofInt 32 (-1)),
        st.argBlocks ++ [bpfLbl (BitVec.ofInt 32 (-1)), bpfRetErrno 1], L, [1, 0]⟩, false) := by
    intro inc st h1 h2
    have : strip "open: return 1".toList = "open: return 1".toList := by decide
    rw [compileLine_rule c07Cx 0 inc _ _ 'o' st false this rfl (by decide) (by decide)]
    exact r2 st h1 h2
  have hp : (filterPrefix c07Cx ++ bpfAllowSyscallArgs 3#32 0#32 ++ bpfAllowSyscallArgs 5#32 (BitVec.ofInt 32 (-1))).length ≤ 20 := by
    decide
  refine compileFilter_ub (p := filterPrefix c07Cx ++ bpfAllowSyscallArgs 3#32 0#32 ++ bpfAllowSyscallArgs 5#32 (BitVec.ofInt 32 (-1)) ++
      [retAction c07Cx.opts.action] ++ block) (q := [bpfLbl (BitVec.ofInt 32 (-1)), bpfRetErrno 1])
    (compileFile0_two lines (l1 _ _ rfl rfl) (l2 _ _ rfl rfl)) (by decide) ?_ ?_ ?_
  · simp only [List.nil_append, List.append_assoc]
  · simp only [List.length_append, List.length_cons, List.length_nil, BPF_MAXINSNS] at hp ⊢; omega
  · intro off
    show resolveFrom (List.length L) _ _ = _
    rw [hl]
    rfl

end Minijail
