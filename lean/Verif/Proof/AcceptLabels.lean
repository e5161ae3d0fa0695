import Verif.Proof.AcceptResolve
import Verif.Proof.TextUnique
/-! What compiles fits. -/
set_option linter.unusedSimpArgs false
set_option autoImplicit false
namespace Minijail
open Spec

/-! ### The table has at most 512 labels -/

theorem bpfLabelId_max {L L' : Labels} {name : CStr} {o : Option Nat} (h : bpfLabelId L name = (o, L')) (hL : L.length ≤ 512) : L'.length ≤ 512 := by
  unfold bpfLabelId at h
  split at h
  · simp only [Prod.mk.injEq] at h
    rw [← h.2]; exact hL
  · split at h
    · simp only [Prod.mk.injEq] at h
      rw [← h.2]; exact hL
    · next hm =>
      simp only [Prod.mk.injEq] at h
      rw [← h.2]
      simp only [BPF_LABELS_MAX] at hm
      simp only [List.length_append, List.length_cons, List.length_nil]
      omega

theorem getLabelId_max {L L' : Labels} {name : CStr} {id : BitVec 32} (h : getLabelId L name = .ok (id, L')) (hL : L.length ≤ 512) : L'.length ≤ 512 := by
  unfold getLabelId at h
  split at h
  · next hb =>
    simp only [Res.ok.injEq, Prod.mk.injEq] at h
    rw [← h.2]
    exact bpfLabelId_max hb hL
  · cases h

theorem compileAtoms_max (cx : Ctx) (nr idx : Nat) (atoms : List CStr) : ∀ {L L' : Labels} {code : List Insn}, compileAtoms cx nr idx atoms L = .ok (code, L') →
    L.length ≤ 512 → L'.length ≤ 512 := by
  induction atoms with
  | nil =>
    intro L L' code h hL
    simp only [compileAtoms, Res.pure_eq, Res.ok.injEq, Prod.mk.injEq] at h
    rw [← h.2]; exact hL
  | cons a atoms ih =>
    intro L L' code h hL
    simp only [compileAtoms, compileAtom, Res.bind_eq_ok, Res.pure_eq, Res.ok.injEq] at h
    obtain ⟨⟨c1, L1⟩, ⟨p, -, ⟨id, L2⟩, h2, h3⟩, ⟨c2, L3⟩, h4, h5⟩ := h
    simp only [Prod.mk.injEq] at h3 h5
    obtain ⟨-, rfl⟩ := h3
    obtain ⟨-, rfl⟩ := h5
    exact ih h4 (getLabelId_max h2 hL)

theorem compileGroups_max (cx : Ctx) (nr : Nat) (groups : List CStr) : ∀ {idx : Nat} {L L' : Labels} {code : List Insn},
    compileGroups cx nr idx groups L = .ok (code, L') → L.length ≤ 512 → L'.length ≤ 512 := by
  induction groups with
  | nil =>
    intro idx L L' code h hL
    simp only [compileGroups, Res.pure_eq, Res.ok.injEq, Prod.mk.injEq] at h
    rw [← h.2]; exact hL
  | cons g groups ih =>
    intro idx L L' code h hL
    simp only [compileGroups, Res.bind_eq_ok, Res.pure_eq, Res.ok.injEq] at h
    obtain ⟨⟨c1, L1⟩, h1, ⟨sid, L2⟩, h2, ⟨eid, L3⟩, h3, ⟨c2, L4⟩, h4, h5⟩ := h
    simp only [Prod.mk.injEq] at h5
    obtain ⟨-, rfl⟩ := h5
    exact ih h4 (getLabelId_max h3 (getLabelId_max h2 (compileAtoms_max cx nr idx _ h1 hL)))

/-! ### The blocks define as many labels as the rules need -/

theorem compileAtoms_defs (cx : Ctx) (nr idx : Nat) (atoms : List CStr) : ∀ {L L' : Labels} {code : List Insn}, compileAtoms cx nr idx atoms L = .ok (code, L') →
    defs code = [] := by
  induction atoms with
  | nil =>
    intro L L' code h
    simp only [compileAtoms, Res.pure_eq, Res.ok.injEq, Prod.mk.injEq] at h
    rw [← h.1]; rfl
  | cons a atoms ih =>
    intro L L' code h
    simp only [compileAtoms, compileAtom, Res.bind_eq_ok, Res.pure_eq, Res.ok.injEq] at h
    obtain ⟨⟨c1, L1⟩, ⟨p, -, ⟨id, L2⟩, h2, h3⟩, ⟨c2, L3⟩, h4, h5⟩ := h
    simp only [Prod.mk.injEq] at h3 h5
    obtain ⟨rfl, rfl⟩ := h3
    obtain ⟨rfl, rfl⟩ := h5
    rw [defs_append, ih h4, show defs (bpfArgComp _ _ _ _ _) = [] from defs_nil fun l => patom_code_no_label cx p id l]
    rfl

theorem compileGroups_defs (cx : Ctx) (nr : Nat) (groups : List CStr) : ∀ {idx : Nat} {L L' : Labels} {code : List Insn},
    compileGroups cx nr idx groups L = .ok (code, L') → (defs code).length = groups.length := by
  induction groups with
  | nil =>
    intro idx L L' code h
    simp only [compileGroups, Res.pure_eq, Res.ok.injEq, Prod.mk.injEq] at h
    rw [← h.1]; rfl
  | cons g groups ih =>
    intro idx L L' code h
    simp only [compileGroups, Res.bind_eq_ok, Res.pure_eq, Res.ok.injEq] at h
    obtain ⟨⟨c1, L1⟩, h1, ⟨sid, L2⟩, h2, ⟨eid, L3⟩, h3, ⟨c2, L4⟩, h4, h5⟩ := h
    simp only [Prod.mk.injEq] at h5
    obtain ⟨rfl, rfl⟩ := h5
    rw [defs_append, defs_append, compileAtoms_defs cx nr idx _ h1, List.length_append, ih h4, show [bpfJumpLbl sid, bpfLbl eid] = [bpfJumpLbl sid] ++ [bpfLbl eid] from rfl,
      defs_append, defs_cons_lbl, defs_nil (p := [bpfJumpLbl sid]) (by intro l hl; simp only [List.mem_singleton] at hl; exact jump_ne_label _ _ hl.symm)]
    simp [defs]
    omega

theorem defs_ret (w : BitVec 32) : defs [bpfStmt RET w] = [] := defs_nil fun l hl => by
  simp only [List.mem_singleton] at hl
  exact ret_ne_lbl _ _ hl.symm

theorem compilePolicyLine_defs (cx : Ctx) (nr : Nat) {line : CStr} (hline : line ≠ "1".toList) {id : BitVec 32} {L L' : Labels} {code : List Insn} {rule : Rule}
    (h : compilePolicyLine cx nr line id L = .ok (code, L')) (ht : RuleText cx.lang line rule) :
    (defs code).length = rule.labels ∧ (L.length ≤ 512 → L'.length ≤ 512) := by
  unfold compilePolicyLine at h
  split at h
  · cases h
  split at h
  · next hp =>
    simp only [Res.bind_eq_ok, Res.pure_eq, Res.ok.injEq, Prod.mk.injEq] at h
    obtain ⟨c, hc, rfl, rfl⟩ := h
    obtain ⟨a, ha, rfl⟩ := compileErrno_ok cx line c hc
    obtain rfl := ruleText_unique cx ht (.block (prefix_of_take hp) ha)
    rw [defs_cons_lbl, defs_ret]
    exact ⟨rfl, fun h => h⟩
  · next hne hp =>
    have hp' : ¬ "return".toList <+: line := fun hh => hp (take_of_prefix hh)
    simp only [Res.bind_eq_ok, Res.pure_eq, Res.ok.injEq, Prod.mk.injEq] at h
    obtain ⟨⟨c1, L1⟩, h1, ret, h2, ⟨sid, L2⟩, h3, rfl, rfl⟩ := h
    have hret : defs ret = [] := by
      unfold compileRet at h2
      split at h2
      · obtain ⟨a, -, rfl⟩ := compileErrno_ok cx _ _ h2
        exact defs_ret _
      · simp only [Res.ok.injEq] at h2
        rw [← h2, retAction_eq]
        exact defs_ret _
    refine ⟨?_, fun hL => getLabelId_max h3 (compileGroups_max cx nr _ h1 hL)⟩
    have hd := compileGroups_defs cx nr _ h1
    have hx : (defs (bpfLbl id :: (c1 ++ ret ++ [bpfLbl sid, bpfRetAllow]))).length = (defs c1).length + 2 := by
      rw [defs_cons_lbl, defs_append, defs_append, hret, defs_cons_lbl, show [bpfRetAllow] = [bpfStmt RET RET_ALLOW] from rfl, defs_ret]
      simp
    show (defs (bpfLbl id :: (c1 ++ ret ++ [bpfLbl sid, bpfRetAllow]))).length = _
    rw [hx, hd]
    cases ht with
    | allow => exact absurd rfl hline
    | block hb => exact absurd hb hp'
    | filter _ _ hw hdnf =>
      obtain ⟨p, e1, -⟩ := strtok_word hw
      have := all₂_length hdnf
      simp only [e1, Rule.labels, ← this]
      rw [show tokenizeAll "||".toList _ = fields2 '|' '|' _ from tokenizeAll_two '|' '|' _]
      omega
    | filterReturn _ _ hw hdnf =>
      obtain ⟨p, e1, -⟩ := strtok_word hw
      have := all₂_length hdnf
      simp only [e1, Rule.labels, ← this]
      rw [show tokenizeAll "||".toList _ = fields2 '|' '|' _ from tokenizeAll_two '|' '|' _]
      omega
    | never _ hw =>
      have e1 : strtok ';' line = none := strtok_eq_none_iff.2 hw
      simp [e1, Rule.labels]

/-- Adding the blocks of the rules. -/
def Defines (st st' : CState) (rules : List (BitVec 32 × Rule)) : Prop :=
  (defs st'.argBlocks).length = (defs st.argBlocks).length + labelDemand rules ∧ (st.labels.length ≤ 512 → st'.labels.length ≤ 512)

theorem Defines.refl (st : CState) : Defines st st [] := ⟨by simp [labelDemand], fun h => h⟩

theorem Defines.trans {a b c : CState} {r s : List (BitVec 32 × Rule)} (h : Defines a b r) (h' : Defines b c s) : Defines a c (r ++ s) := by
  obtain ⟨h1, h2⟩ := h
  obtain ⟨h3, h4⟩ := h'
  exact ⟨by rw [labelDemand_append]; omega, fun hL => h4 (h2 hL)⟩

section lines
variable (cx : Ctx)

theorem compileRule_defines {name rhs : CStr} {nr : Nat} {r : Rule} (hcol : ':' ∉ name) (hsys : cx.lang.syscall (trim name) = some nr)
    (hr : RuleText cx.lang (trim rhs) r) {st st' : CState} {bad bad' : Bool} (h : compileRule cx (name ++ ':' :: rhs) st bad = .ok (st', bad')) :
    Defines st st' [(BitVec.ofNat 32 nr, r)] := by
  obtain ⟨ind, hl, -⟩ := lookup_of_lang cx hsys
  unfold compileRule at h
  rw [strsep_of hcol] at h
  have hne : strip rhs ≠ [] := ruleText_ne_nil hr
  simp only at h
  rw [if_neg hne, show lookupSyscall cx.syscalls (strip name) = some (nr, ind) from hl] at h
  simp only at h
  by_cases h1 : strip rhs = "1".toList
  · rw [if_pos h1] at h
    have hra : r = .allow := ruleText_one (by rw [← h1]; exact hr)
    subst hra
    simp only [Res.ok.injEq, Prod.mk.injEq] at h
    rw [← h.1]
    exact ⟨by simp [labelDemand, Rule.labels], fun h => h⟩
  · rw [if_neg h1] at h
    split at h
    · next block labels hb =>
      simp only [Res.ok.injEq, Prod.mk.injEq] at h
      rw [← h.1]
      obtain ⟨d1, d2⟩ := compilePolicyLine_defs cx nr h1 hb hr
      refine ⟨?_, fun hL => d2 (bpfLabelId_max (Prod.mk.eta.symm) hL)⟩
      simp only [defs_append, List.length_append, d1, labelDemand, List.map_cons, List.map_nil, List.sum_cons, List.sum_nil]
      omega
    all_goals cases h

/-- Included files define as many labels as their rules need. -/
def IncDefines (inc : CStr → CState → Res CState) (incl : List Char → List (BitVec 32 × Rule) → Prop) : Prop :=
  ∀ content rules st st', incl content rules → inc content st = .ok st' → Defines st st' rules

theorem compileLine_defines (lvl : Nat) (inc : CStr → CState → Res CState) (incl : List Char → List (BitVec 32 × Rule) → Prop)
    (hinc : (lvl = 0 ∧ IncDefines inc incl) ∨ ∀ c r, ¬ incl c r) (line : CStr) (rules : List (BitVec 32 × Rule))
    (h : LineText cx.lang incl (trim line) rules) (st st' : CState) (bad bad' : Bool) (hc : compileLine cx lvl inc line st bad = .ok (st', bad')) :
    Defines st st' rules := by
  unfold compileLine at hc
  have ht : strip line = trim line := rfl
  simp only [ht] at hc
  generalize trim line = l at h hc
  cases h with
  | blank =>
    simp only [Res.ok.injEq, Prod.mk.injEq] at hc
    rw [← hc.1]; exact Defines.refl st
  | comment =>
    simp only [if_true, Res.ok.injEq, Prod.mk.injEq] at hc
    rw [← hc.1]; exact Defines.refl st
  | frequency =>
    simp at hc
    rw [← hc.1]; exact Defines.refl st
  | @include_ path content _ hp hfile hi =>
    rcases hinc with ⟨rfl, hinc⟩ | hno
    · have hfile' : cx.fs path = some content := hfile
      have hpi := parseInclude_total hp
      have h2 : ¬ ("@include ".toList ++ path).take 10 = "@frequency".toList := by simp
      simp only [hpi, hfile', if_neg h2] at hc
      cases he : inc content st with
      | ok s =>
        simp [he] at hc
        rw [← hc.1]
        exact hinc content rules st s hi he
      | fail => simp [he] at hc
      | die => simp [he] at hc
      | ub => simp [he] at hc
    · exact absurd hi (hno _ _)
  | @rule name rhs nr r h1 h2 h3 h4 h5 =>
    refine compileRule_defines cx h3 h4 h5 (bad := bad) (bad' := bad') ?_
    cases name with
    | nil => simpa using hc
    | cons c t =>
      simp only [List.head?_cons, ne_eq, Option.some.injEq] at h1 h2
      simpa [h1, h2] using hc
  | @unknown name rhs h1 h2 h3 h4 h5 h6 =>
    have e : compileRule cx (name ++ ':' :: rhs) st bad = .ok (st, bad) := by
      unfold compileRule
      rw [strsep_of h3]
      simp only
      have hlk := lookup_eq cx (strip name)
      rw [show cx.lang.syscall (strip name) = none from h4, Option.map_eq_none_iff] at hlk
      rw [if_neg (show strip rhs ≠ [] from h5), hlk]
      simp only
      rw [if_pos (show cx.opts.allowLogging = true from h6)]
    have : st' = st := by
      cases name with
      | nil =>
        simp only [List.nil_append] at hc e
        simp [e] at hc
        exact hc.1.symm
      | cons c t =>
        simp only [List.head?_cons, ne_eq, Option.some.injEq] at h1 h2
        simp only [List.cons_append] at hc e
        simp [h1, h2, e] at hc
        exact hc.1.symm
    rw [this]
    exact Defines.refl st

theorem compileLines_defines (lvl : Nat) (inc : CStr → CState → Res CState) (incl : List Char → List (BitVec 32 × Rule) → Prop)
    (hinc : (lvl = 0 ∧ IncDefines inc incl) ∨ ∀ c r, ¬ incl c r) {ls : List CStr} {parts : List (List (BitVec 32 × Rule))}
    (h : All₂ (fun l rs => LineText cx.lang incl (trim l) rs) ls parts) : ∀ (st st' : CState) (bad bad' : Bool),
    compileLines cx lvl inc ls st bad = .ok (st', bad') → Defines st st' parts.flatten := by
  induction h with
  | nil =>
    intro st st' bad bad' hc
    simp only [compileLines, Res.ok.injEq, Prod.mk.injEq] at hc
    rw [← hc.1]; exact Defines.refl st
  | @cons l rs ls parts hl _ ih =>
    intro st st' bad bad' hc
    simp only [compileLines] at hc
    split at hc
    · next st1 bad1 h1 =>
      rw [List.flatten_cons]
      exact (compileLine_defines cx lvl inc incl hinc l rs hl _ _ _ _ h1).trans (ih _ _ _ _ hc)
    all_goals cases hc

theorem compileFileWith_defines (lvl : Nat) (inc : CStr → CState → Res CState) (incl : List Char → List (BitVec 32 × Rule) → Prop)
    (hinc : (lvl = 0 ∧ IncDefines inc incl) ∨ ∀ c r, ¬ incl c r) : IncDefines (compileFileWith cx lvl inc) (FileText cx.lang incl) := by
  rintro content rules st st' ⟨parts, h1, rfl⟩ hc
  unfold compileFileWith at hc
  rw [readLines_eq_logicalLines] at hc
  split at hc
  · next hl =>
    split at hc
    · cases hc
    · simp only [Res.ok.injEq] at hc
      rw [← hc]
      exact compileLines_defines cx lvl inc incl hinc h1 _ _ _ _ hl
  all_goals cases hc

theorem compileFile0_defines : IncDefines (compileFile0 cx) (PolicyText cx.lang) :=
  compileFileWith_defines cx 0 _ _ (.inl ⟨rfl, compileFileWith_defines cx 1 _ _ (.inr fun _ _ h => h)⟩)

end lines

/-! ### What resolves has few labels -/

theorem defs_count (l : BitVec 32) : ∀ p : List Insn, (defs p).count l = p.count (bpfLbl l)
  | [] => rfl
  | x :: p => by
    rw [show x :: p = [x] ++ p from rfl, defs_append, List.count_append, List.count_append, defs_count l p]
    congr 1
    by_cases h : x = bpfLbl x.k
    · rw [h, defs_cons_lbl, show defs [] = [] from rfl]
      by_cases hl : x.k = l
      · rw [hl]; simp
      · have : bpfLbl x.k ≠ bpfLbl l := fun hh => hl (label_inj hh)
        simp [List.count_cons, hl, this]
    · have h1 : defs [x] = [] := by simp [defs, h]
      have h2 : x ≠ bpfLbl l := by
        rintro rfl
        exact h rfl
      rw [h1]
      simp [List.count_cons, h2]

theorem defs_nodup {p : List Insn} (h : ∀ (i j : Nat) (l : BitVec 32), p[i]? = some (bpfLbl l) → p[j]? = some (bpfLbl l) → i = j) : (defs p).Nodup := by
  rw [List.nodup_iff_count_le_one]
  intro l
  rw [defs_count]
  exact uniqueLbl_of_index h l

theorem defs_bound {p : List Insn} {n : Nat} (hn : (defs p).Nodup) (hk : ∀ l, bpfLbl l ∈ p → l.toNat < n) : (defs p).length ≤ n := by
  have h1 : ((defs p).map BitVec.toNat).Nodup := hn.map fun a b h => BitVec.eq_of_toNat_eq h
  have h2 : (defs p).map BitVec.toNat ⊆ List.range n := by
    intro x hx
    obtain ⟨l, hl, rfl⟩ := List.mem_map.1 hx
    exact List.mem_range.2 (hk l (mem_defs.1 hl))
  have := (h1.subperm h2).length_le
  simpa using this

theorem oneBlock_of_names {cx : Ctx} (hcx : NamesFit cx) (hinj : ∀ a ∈ cx.syscalls, ∀ b ∈ cx.syscalls, a.2 = b.2 → a.1 = b.1) {ps : List (Piece cx)}
    {rules : List (BitVec 32 × Rule)} (h : All₂ Piece.For ps rules) (hn : (ps.flatMap Piece.names).Nodup) : OneBlock rules := by
  induction h with
  | nil => exact List.nodup_nil
  | @cons p x ps rules hp hall ih =>
    rw [List.flatMap_cons, List.nodup_append] at hn
    have ih' := ih hn.2.1
    unfold OneBlock at ih' ⊢
    rw [List.filter_cons]
    split
    · next hx =>
      rw [List.map_cons, List.nodup_cons]
      refine ⟨?_, ih'⟩
      intro hm
      obtain ⟨y, hy, he⟩ := List.mem_map.1 hm
      obtain ⟨hy1, hy2⟩ := List.mem_filter.1 hy
      obtain ⟨q, hq, hqy⟩ : ∃ q ∈ ps, q.For y := by
        clear ih hn ih' hm hy hp
        induction hall with
        | nil => cases hy1
        | @cons c d cs ds hc _ ih =>
          rcases List.mem_cons.1 hy1 with rfl | hy1
          · exact ⟨c, by simp, hc⟩
          · obtain ⟨q, h1, h2⟩ := ih hy1
            exact ⟨q, List.mem_cons_of_mem _ h1, h2⟩
      have hnr : p.nr = q.nr := by
        have := hcx.small _ hp.known
        have := hcx.small _ hqy.known
        rw [hp.number, hqy.number] at he
        exact (ofNat_inj_small (by simp only at *; omega) (by simp only at *; omega) he).symm
      have hname : p.name = q.name := hinj _ hp.known _ hqy.known hnr
      have m1 : p.name ∈ p.names := by
        unfold Piece.names
        rw [if_pos (hp.has.2 (by simpa using hx))]
        simp
      have m2 : q.name ∈ q.names := by
        unfold Piece.names
        rw [if_pos (hqy.has.2 (by simpa using hy2))]
        simp
      exact hn.2.2 _ m1 _ (List.mem_flatMap.2 ⟨q, hq, m2⟩) hname
    · exact ih'

/-- What compiles has all that is needed. -/
theorem compileFilter_only (cx : Ctx) (hcx : NamesFit cx) (hinj : ∀ a ∈ cx.syscalls, ∀ b ∈ cx.syscalls, a.2 = b.2 → a.1 = b.1) (content : CStr)
    (rules : List (BitVec 32 × Rule)) (h : PolicyText cx.lang content rules) (hdup : cx.opts.allowDuplicateSyscalls = false → (rules.map Prod.fst).Nodup)
    (prog : List Insn) (hc : compileFilter cx content = .ok prog) :
    OneBlock rules ∧ (cx.opts.action = .log → cx.opts.allowLogging = true) ∧ labelDemand rules ≤ 512 ∧ prog.length = policySize cx.t.longBits (cx.builtin ++ rules) ∧
      policySize cx.t.longBits (cx.builtin ++ rules) ≤ 4096 := by
  unfold compileFilter at hc
  split at hc
  · cases hc
  · cases hc
  · cases hc
  next st hst =>
  split at hc
  · cases hc
  next hlog =>
  simp only at hc
  split at hc
  · cases hc
  next hlen =>
  have hd := compileFile0_defines cx content rules _ _ h hst
  obtain ⟨hres, hable⟩ := C06_resolve_sound _ _ _ hc
  have hnodup := defs_nodup (p := st.head ++ [retAction cx.opts.action] ++ st.argBlocks) hable.unique
  have hdb := defs_bound hnodup fun l hl => by
    obtain ⟨k, hk, he⟩ := List.getElem_of_mem hl
    exact hable.labelKnown k l (by rw [List.getElem?_eq_getElem hk, he]; rfl)
  have hdem : labelDemand rules ≤ 512 := by
    have h1 := hd.1
    have h2 := hd.2 (by simp)
    rw [defs_append, List.length_append] at hdb
    omega
  obtain ⟨st', ps, e, g⟩ := compileFile0_total cx hcx content rules ⟨filterPrefix cx, [], [], []⟩ h (fun ho => ⟨hdup ho, by simp⟩) (by simpa using hdem)
  rw [hst] at e
  cases e
  have hhead := g.head st.labels (List.prefix_refl _)
  have hargs := g.args st.labels (List.prefix_refl _)
  simp only [List.nil_append] at hhead hargs
  have hl := pieces_size st.labels g.pieces
  have hp := prefix_length cx
  have hsz : (st.head ++ [retAction cx.opts.action] ++ st.argBlocks).length = policySize cx.t.longBits (cx.builtin ++ rules) := by
    rw [hhead, hargs]
    simp only [policySize, List.length_append, List.length_cons, List.length_nil, List.map_append, List.sum_append]
    omega
  refine ⟨?_, ?_, hdem, by rw [hres.sameLength, hsz], ?_⟩
  · apply oneBlock_of_names hcx hinj g.pieces
    rw [defs_append, List.nodup_append, hargs] at hnodup
    have h2 := hnodup.2.1
    have hmap : defs (ps.flatMap (Piece.args st.labels)) = (ps.flatMap Piece.names).map (lblOf st.labels) := by
      clear * -
      induction ps with
      | nil => rfl
      | cons p ps ih => rw [List.flatMap_cons, defs_append, piece_args_defs, ih, List.flatMap_cons, List.map_append]
    rw [hmap] at h2
    exact List.Nodup.of_map _ h2
  · intro h1
    by_contra h2
    exact hlog ⟨h1, h2⟩
  · rw [hsz] at hlen
    simp only [BPF_MAXINSNS] at hlen
    omega

end Minijail
