import Verif.Proof.GenerateSeen
import Verif.Proof.OfflineComplete
/-! The policy that the generator writes. -/
set_option autoImplicit false
set_option linter.unusedSimpArgs false
namespace Minijail
open Spec Offline Generate

/-- A text is at most one constant. -/
theorem common_unique {T : CommonTables} (hb : 0 < T.bits) {s : List Char} {v w : Nat} (h : CommonConst T s v) (h' : CommonConst T s w) : v = w := by
  let a : Arch := ⟨[], T.bits, T.syscall, T.constant, fun _ => none⟩
  have ha : ArchFits T a := ⟨rfl, hb, fun _ _ h => h, fun _ _ h => h⟩
  obtain ⟨ts, h1, h2⟩ := const_becomes ha h
  obtain ⟨us, h1', h2'⟩ := const_becomes ha h'
  have e1 := lex_laid (s ++ []).length _ _ false (Nat.le_refl _) (h2 [] [] wordEnds_nil .nil) (by simp)
  have e2 := lex_laid (s ++ []).length _ _ false (Nat.le_refl _) (h2' [] [] wordEnds_nil .nil) (by simp)
  rw [e1] at e2
  simp at e2
  subst e2
  obtain ⟨y, m, r1, rfl⟩ := (value_reads h1 ts.length (Nat.le_refl _)).2 [] 0 (by simp [NotIn])
  obtain ⟨z, k, r2, rfl⟩ := (value_reads h1' ts.length (Nat.le_refl _)).2 [] 0 (by simp [NotIn])
  rw [r1] at r2
  simp at r2
  exact r2.1

theorem bit_arith (v : Nat) (bits k : Nat) (hk : k < bits) (hv : v < 2 ^ bits) :
    (∀ b, v.testBit b = true → (Spec.compl bits true (2 ^ k)).testBit b = true) ↔ v.testBit k = false := by
  have hc : ∀ b, (Spec.compl bits true (2 ^ k)).testBit b = (decide (b < bits) && !(decide (k = b))) := by
    intro b
    unfold Spec.compl
    rw [if_pos rfl, show 2 ^ bits - 1 - 2 ^ k = 2 ^ bits - (2 ^ k + 1) by omega, Nat.testBit_two_pow_sub_succ (Nat.pow_lt_pow_right (by omega) hk), Nat.testBit_two_pow]
  constructor
  · intro h
    cases hb : v.testBit k with
    | false => rfl
    | true => have := h k hb; rw [hc] at this; simp at this
  · intro h b hb
    rw [hc]
    have h1 : b < bits := by
      apply Nat.lt_of_not_le
      intro hle
      rw [Nat.testBit_lt_two_pow (Nat.lt_of_lt_of_le hv (Nat.pow_le_pow_right (by omega) hle))] at hb
      cases hb
    have h2 : k ≠ b := by rintro rfl; rw [h] at hb; cases hb
    simp [h1, h2]

theorem argValue_lt (bits : Nat) (d : SeccompData) (i : Nat) : argValue bits d i < 2 ^ bits := by
  unfold argValue
  split
  · exact Nat.mod_lt _ (Nat.two_pow_pos _)
  · exact Nat.two_pow_pos _

theorem prot_const {T : CommonTables} (ht : TraceTables T) {w : List Char} {k : Nat} (hw : Word w) (hr : ¬Reserved w) (hk : w ≠ "kill".toList)
    (hc : T.constant w = some ((k : Nat) : Int)) (hlt : k < 8) : CommonConst T ('~' :: w) (Spec.compl T.bits true k) := by
  have h8 : (8 : Nat) ≤ 2 ^ T.bits := by
    have := ht.wide
    exact Nat.le_trans (by decide : 8 ≤ 2 ^ 3) (Nat.pow_le_pow_right (by omega) (by omega))
  have h8' : (8 : Int) ≤ 2 ^ T.bits := by exact_mod_cast h8
  have hpos : (0 : Int) ≤ 2 ^ (T.bits - 1) := by exact_mod_cast Nat.zero_le (2 ^ (T.bits - 1))
  refine CommonConst.single (neg := true) (.name hw hr hk hc ?_ ?_ ?_)
  · omega
  · omega
  · rw [Int.emod_eq_of_lt (by omega) (by omega)]

theorem exec_word : Word "PROT_EXEC".toList ∧ ¬Reserved "PROT_EXEC".toList ∧ "PROT_EXEC".toList ≠ "kill".toList := by
  refine ⟨⟨'P', "ROT_EXEC".toList, rfl, by decide, by decide⟩, ?_, by decide⟩
  rintro (h | ⟨s, h, -⟩)
  · revert h; decide
  · have := congrArg List.head? h; revert this; simp

theorem write_word : Word "PROT_WRITE".toList ∧ ¬Reserved "PROT_WRITE".toList ∧ "PROT_WRITE".toList ≠ "kill".toList := by
  refine ⟨⟨'P', "ROT_WRITE".toList, rfl, by decide, by decide⟩, ?_, by decide⟩
  rintro (h | ⟨s, h, -⟩)
  · revert h; decide
  · have := congrArg List.head? h; revert this; simp

theorem exec_atom {T : CommonTables} (ht : TraceTables T) : CommonAtom T "arg2 in ~PROT_EXEC".toList ⟨2, .subset, Spec.compl T.bits true 4⟩ :=
  CommonAtom.mk (i := 2) 0 0 (by decide) .subset (prot_const ht exec_word.1 exec_word.2.1 exec_word.2.2 ht.exec (by decide))

theorem write_atom {T : CommonTables} (ht : TraceTables T) : CommonAtom T "arg2 in ~PROT_WRITE".toList ⟨2, .subset, Spec.compl T.bits true 2⟩ :=
  CommonAtom.mk (i := 2) 0 0 (by decide) .subset (prot_const ht write_word.1 write_word.2.1 write_word.2.2 ht.write (by decide))

theorem concise_text {T : CommonTables} (ht : TraceTables T) (dflt : Spec.Action) :
    CommonRule T dflt (List.intercalate " || ".toList ["arg2 in ~PROT_EXEC".toList, "arg2 in ~PROT_WRITE".toList])
      (.filter [[⟨2, .subset, Spec.compl T.bits true 4⟩], [⟨2, .subset, Spec.compl T.bits true 2⟩]] dflt) :=
  CommonRule.filter (Joined.more (sep := "||".toList) 1 1 (Joined.one (sep := "&&".toList) (exec_atom ht)) (Joined.one (sep := "||".toList) (Joined.one (sep := "&&".toList) (write_atom ht))))

theorem concise_holds {T : CommonTables} (ht : TraceTables T) (d : SeccompData) :
    dnfHolds T.bits d [[⟨2, .subset, Spec.compl T.bits true 4⟩], [⟨2, .subset, Spec.compl T.bits true 2⟩]] ↔
      ¬((argValue T.bits d 2).testBit 1 = true ∧ (argValue T.bits d 2).testBit 2 = true) := by
  have hb := ht.wide
  have e1 := bit_arith (argValue T.bits d 2) T.bits 2 (by omega) (argValue_lt _ _ _)
  have e2 := bit_arith (argValue T.bits d 2) T.bits 1 (by omega) (argValue_lt _ _ _)
  simp only [dnfHolds, List.mem_cons, List.not_mem_nil, or_false, exists_eq_or_imp, exists_eq_left, forall_eq, Atom.holds, Cmp.holds]
  show ((∀ b, (argValue T.bits d 2).testBit b = true → (Spec.compl T.bits true (2 ^ 2)).testBit b = true) ∨
    (∀ b, (argValue T.bits d 2).testBit b = true → (Spec.compl T.bits true (2 ^ 1)).testBit b = true)) ↔ _
  rw [e1, e2]
  cases (argValue T.bits d 2).testBit 1 <;> cases (argValue T.bits d 2).testBit 2 <;> simp

theorem equals_rule {T : CommonTables} (hb : 0 < T.bits) {i : Nat} (hi : i < 6) : ∀ (l : List (List Char)), l ≠ [] → (∀ a ∈ l, ∃ v, CommonConst T a v) →
    ∃ f, Joined "||".toList (Joined "&&".toList (CommonAtom T))
        (List.intercalate " || ".toList (l.map fun v => "arg".toList ++ Nat.toDigits 10 i ++ " == ".toList ++ v)) f ∧
      ∀ d, dnfHolds T.bits d f ↔ ∃ a ∈ l, CommonConst T a (argValue T.bits d i) := by
  have hd : Nat.toDigits 10 i = [Nat.digitChar i] := by
    rcases i with _ | _ | _ | _ | _ | _ | i
    all_goals first | rfl | omega
  have hatom : ∀ {a v}, CommonConst T a v → CommonAtom T ("arg".toList ++ Nat.toDigits 10 i ++ " == ".toList ++ a) ⟨i, .eq, v⟩ := by
    intro a v h
    have := CommonAtom.mk (T := T) (i := i) 0 0 hi .eq h
    rw [hd]
    simpa [spaces] using this
  have hone : ∀ {a v} (d : SeccompData), CommonConst T a v → ((⟨i, .eq, v⟩ : Atom).holds T.bits d ↔ CommonConst T a (argValue T.bits d i)) := by
    intro a v d h
    show argValue T.bits d i = v ↔ _
    constructor
    · intro e; rw [e]; exact h
    · intro h'; exact common_unique hb h' h
  intro l
  induction l with
  | nil => intro h; exact absurd rfl h
  | cons a l ih =>
    intro _ hc
    obtain ⟨v, hv⟩ := hc a (by simp)
    cases l with
    | nil =>
      refine ⟨[[⟨i, .eq, v⟩]], ?_, ?_⟩
      · simp only [List.map_cons, List.map_nil, List.intercalate, List.intersperse, List.flatten_cons, List.flatten_nil, List.append_nil]
        exact .one (.one (hatom hv))
      · intro d
        simp [dnfHolds, hone d hv]
    | cons b l =>
      obtain ⟨f, hf, hh⟩ := ih (by simp) (fun x hx => hc x (List.mem_cons_of_mem _ hx))
      refine ⟨[⟨i, .eq, v⟩] :: f, ?_, ?_⟩
      · have := Joined.more (sep := "||".toList) 1 1 (.one (sep := "&&".toList) (hatom hv)) hf
        simpa [List.intercalate, spaces] using this
      · intro d
        have := hh d
        simp only [dnfHolds, List.mem_cons, exists_eq_or_imp, forall_eq, List.not_mem_nil, or_false, hone d hv] at this ⊢
        rw [this]

/-- The rule that is written for a system call. -/
theorem filterOf_rule {T : CommonTables} (ht : TraceTables T) {told : List Char → List (List Char) → Prop}
    (hwr : ∀ n args i, told n args → (n, i) ∈ lookedAt → ∃ a v, args[i]? = some a ∧ CommonConst T a v) {st : Seen} (hk : Knows told st)
    {order : List (List Char) → List (List Char)} (ho : ∀ l, (order l).Perm l) {dflt : Spec.Action} (hd : dflt ≠ .allow) {n : List Char}
    (hn : n ∈ basicNames ∨ ∃ args, told n args) :
    ∃ r, CommonRule T dflt (filterOf order st n) r ∧ ∀ d, r.action T.bits d = .allow ↔ Covered T told n d := by
  have hb : 0 < T.bits := by have := ht.wide; omega
  unfold filterOf
  cases hi : inspectedArg n with
  | none =>
    refine ⟨.allow, .allow, fun d => ⟨fun _ i hi' => ?_, fun _ => rfl⟩⟩
    rw [← inspected_iff, hi] at hi'
    cases hi'
  | some i =>
    have hin := (inspected_iff n i).1 hi
    have huniq : ∀ j, (n, j) ∈ lookedAt → j = i := by
      intro j hj
      rw [← inspected_iff, hi] at hj
      simpa using hj.symm
    have hi6 : i < 6 ∧ (n ∈ mapping → i = 2) ∧ n ∉ basicNames := by
      revert hin
      simp only [lookedAt, List.mem_cons, Prod.mk.injEq, List.not_mem_nil, or_false]
      rintro (⟨rfl, rfl⟩ | ⟨rfl, rfl⟩ | ⟨rfl, rfl⟩ | ⟨rfl, rfl⟩ | ⟨rfl, rfl⟩ | ⟨rfl, rfl⟩) <;> decide
    obtain ⟨args0, htold⟩ := hn.resolve_left hi6.2.2
    have hval : ∀ v, v ∈ order (st.values n) ↔ ∃ args, told n args ∧ args[i]? = some v := by
      intro v
      rw [(ho _).mem_iff, hk.values]
      constructor
      · rintro ⟨a, j, h1, h2, h3⟩
        obtain rfl := huniq j h2
        exact ⟨a, h1, h3⟩
      · rintro ⟨a, h1, h2⟩
        exact ⟨a, i, h1, hin, h2⟩
    have hconst : ∀ v ∈ order (st.values n), ∃ c, CommonConst T v c := by
      intro v hv
      obtain ⟨a, h1, h2⟩ := (hval v).1 hv
      obtain ⟨w, c, h3, h4⟩ := hwr n a i h1 hin
      rw [h2] at h3
      simp at h3
      exact ⟨c, h3 ▸ h4⟩
    have hne : order (st.values n) ≠ [] := by
      obtain ⟨w, c, h3, -⟩ := hwr n args0 i htold hin
      intro e
      have := (hval w).2 ⟨args0, htold, h3⟩
      rw [e] at this
      simp at this
    simp only []
    unfold argFilter
    simp only []
    have hboth : (i = 2 ∧ (order (st.values n)).all (fun v =>
        !decide ("PROT_EXEC".toList ∈ (pySplit '|' v).map pyStrip ∧ "PROT_WRITE".toList ∈ (pySplit '|' v).map pyStrip)) = true) ↔ i = 2 ∧ ¬NamesBoth told n := by
      refine and_congr_right fun h2 => ?_
      rw [List.all_eq_true]
      unfold NamesBoth
      constructor
      · rintro h ⟨args, a, h1, h3, h4⟩
        rw [← h2] at h3
        have ha := (hval a).2 ⟨args, h1, h3⟩
        have := h a ha
        obtain ⟨c, hc⟩ := hconst a ha
        rw [names_strip hc] at this
        rw [Bool.not_eq_true', decide_eq_false_iff_not] at this
        exact this h4
      · intro h v hv
        obtain ⟨args, h1, h3⟩ := (hval v).1 hv
        obtain ⟨c, hc⟩ := hconst v hv
        rw [names_strip hc, Bool.not_eq_true', decide_eq_false_iff_not]
        intro h4
        exact h ⟨args, v, h1, h2 ▸ h3, h4⟩
    by_cases hc : n ∈ ["mmap".toList, "mmap2".toList, "mprotect".toList] ∧ i = 2 ∧ (order (st.values n)).all (fun v =>
        !decide ("PROT_EXEC".toList ∈ (pySplit '|' v).map pyStrip ∧ "PROT_WRITE".toList ∈ (pySplit '|' v).map pyStrip)) = true
    · rw [if_pos hc]
      refine ⟨_, concise_text ht dflt, fun d => ?_⟩
      have hm : n ∈ mapping := hc.1
      have hnb := (hboth.1 hc.2).2
      have hact : (Rule.filter [[⟨2, .subset, Spec.compl T.bits true 4⟩], [⟨2, .subset, Spec.compl T.bits true 2⟩]] dflt).action T.bits d = .allow ↔
          dnfHolds T.bits d [[⟨2, .subset, Spec.compl T.bits true 4⟩], [⟨2, .subset, Spec.compl T.bits true 2⟩]] := by
        unfold Rule.action
        by_cases hh : dnfHolds T.bits d [[⟨2, .subset, Spec.compl T.bits true 4⟩], [⟨2, .subset, Spec.compl T.bits true 2⟩]]
        · simp [hh]
        · simp [hh, hd]
      rw [hact, concise_holds ht]
      constructor
      · intro h j hj
        exact .inl ⟨hm, hnb, h⟩
      · intro h
        rcases h i hin with h | h
        · exact h.2.2
        · exact absurd ⟨hm, hnb⟩ h.1
    · rw [if_neg hc]
      obtain ⟨f, hf, hh⟩ := equals_rule hb hi6.1 _ hne hconst
      refine ⟨_, .filter hf, fun d => ?_⟩
      have hnot : ¬(n ∈ mapping ∧ ¬NamesBoth told n) := by
        rintro ⟨h1, h2⟩
        exact hc ⟨h1, hboth.2 ⟨hi6.2.1 h1, h2⟩⟩
      have hact : (Rule.filter f dflt).action T.bits d = .allow ↔ dnfHolds T.bits d f := by
        unfold Rule.action
        by_cases hh : dnfHolds T.bits d f
        · simp [hh]
        · simp [hh, hd]
      rw [hact, hh]
      constructor
      · rintro ⟨a, ha, hca⟩ j hj
        obtain rfl := huniq j hj
        obtain ⟨args, h1, h2⟩ := (hval a).1 ha
        exact .inr ⟨hnot, args, a, h1, h2, hca⟩
      · intro h
        rcases h i hin with h | ⟨-, args, a, h1, h2, h3⟩
        · exact absurd ⟨h.1, h.2.1⟩ hnot
        · exact ⟨a, (hval a).2 ⟨args, h1, h2⟩, h3⟩

theorem written_lines {T : CommonTables} {dflt : Spec.Action} {incl : List Char → List (List Char × Rule) → Prop} {text : List Char → List Char} {Q : List Char → Rule → Prop} :
    ∀ l : List (List Char × Nat), (∀ x ∈ l, Word x.1 ∧ ¬Reserved x.1 ∧ ∃ r, CommonRule T dflt (text x.1) r ∧ Q x.1 r) →
    ∃ rules, CommonLines T dflt incl (l.map fun x => x.1 ++ ": ".toList ++ text x.1 ++ ['\n']).flatten rules ∧ rules.map Prod.fst = l.map Prod.fst ∧ ∀ x ∈ rules, Q x.1 x.2
  | [], _ => ⟨[], .nil, rfl, by simp⟩
  | x :: l, h => by
    obtain ⟨rules, h1, h2, h3⟩ := written_lines l fun y hy => h y (by simp [hy])
    obtain ⟨hw, hr, r, hrule, hq⟩ := h x (by simp)
    refine ⟨(x.1, r) :: rules, ?_, by simp [h2], ?_⟩
    · have hs : CommonStatement T dflt ([] ++ x.1 ++ [] ++ ':' :: [' '] ++ text x.1 ++ []) (x.1, r) :=
        .mk (by simp [Blanks]) hw hr (by simp [Blanks]) (by intro c hc; simp at hc; exact .inl hc) hrule (by simp [Blanks])
      have := CommonLines.statement hs .plain h1
      simpa using this
    · intro y hy
      simp at hy
      rcases hy with rfl | hy
      · exact hq
      · exact h3 y hy

theorem notice_lines {T : CommonTables} {dflt : Spec.Action} {incl : List Char → List (List Char × Rule) → Prop} {year text : List Char} {rules : List (List Char × Rule)}
    (hy : '\n' ∉ year ∧ '\r' ∉ year) (h : CommonLines T dflt incl text rules) : CommonLines T dflt incl (notice year ++ text) rules := by
  have h1 : CommonLines T dflt incl ([] ++ '\n' :: text) rules := .blank (by simp [Blanks]) h
  have h2 : CommonLines T dflt incl ([] ++ '#' :: " found in the LICENSE file.".toList ++ '\n' :: ([] ++ '\n' :: text)) rules :=
    .comment (by simp [Blanks]) (by decide) (by decide) (by decide) h1
  have h3 : CommonLines T dflt incl ([] ++ '#' :: " Use of this source code is governed by a BSD-style license that can be".toList ++ '\n' ::
      ([] ++ '#' :: " found in the LICENSE file.".toList ++ '\n' :: ([] ++ '\n' :: text))) rules :=
    .comment (by simp [Blanks]) (by decide) (by decide) (by decide) h2
  have h4 := CommonLines.comment (b := []) (s := " Copyright ".toList ++ year ++ " The ChromiumOS Authors".toList) (by simp [Blanks])
    (by simp only [List.mem_append, not_or]; exact ⟨⟨by decide, hy.1⟩, by decide⟩)
    (by simp only [List.mem_append, not_or]; exact ⟨⟨by decide, hy.2⟩, by decide⟩)
    (by rw [getLast?_app (by decide)]; decide) h3
  have e : " The ChromiumOS Authors\n# Use of this source code is governed by a BSD-style license that can be\n# found in the LICENSE file.\n\n".toList =
      " The ChromiumOS Authors".toList ++ '\n' :: '#' :: (" Use of this source code is governed by a BSD-style license that can be".toList ++
        '\n' :: '#' :: (" found in the LICENSE file.".toList ++ ['\n', '\n'])) := by decide +kernel
  have e' : "# Copyright ".toList = '#' :: " Copyright ".toList := by decide
  unfold notice
  rw [e, e']
  simp only [List.append_assoc, List.cons_append, List.nil_append] at h4 ⊢
  exact h4

theorem action_allow {T : CommonTables} {d : SeccompData} {dflt : Spec.Action} (hd : dflt ≠ .allow) : ∀ rules : List (List Char × Rule),
    ((numbered T rules).map Prod.fst).Nodup →
    (policyAction T.bits d dflt (numbered T rules) = .allow ↔ ∃ x ∈ rules, d.nr = BitVec.ofNat 32 ((T.syscall x.1).getD 0) ∧ x.2.action T.bits d = .allow)
  | [], _ => by simp [numbered, policyAction, hd]
  | x :: rules, hn => by
    have ih := action_allow hd rules (T := T) (d := d)
    simp only [numbered, List.map_cons, List.nodup_cons, policyAction] at hn ⊢ ih
    by_cases h : d.nr = BitVec.ofNat 32 ((T.syscall x.1).getD 0)
    · rw [if_pos h]
      constructor
      · intro h'; exact ⟨x, by simp, h, h'⟩
      · rintro ⟨y, hy, h1, h2⟩
        simp at hy
        rcases hy with rfl | hy
        · exact h2
        · exfalso
          apply hn.1
          rw [← h, h1]
          simp only [List.map_map, List.mem_map]
          exact ⟨y, hy, rfl⟩
    · rw [if_neg h, ih hn.2]
      constructor
      · rintro ⟨y, hy, h1⟩; exact ⟨y, by simp [hy], h1⟩
      · rintro ⟨y, hy, h1, h2⟩
        simp at hy
        rcases hy with rfl | hy
        · exact absurd h1 h
        · exact ⟨y, hy, h1, h2⟩

/-- The policy that is written of what was seen. -/
theorem policyOf_rules {T : CommonTables} (ht : TraceTables T) {told : List Char → List (List Char) → Prop} (hkn : ∀ n args, told n args → (T.syscall n).isSome)
    (hwr : ∀ n args i, told n args → (n, i) ∈ lookedAt → ∃ a v, args[i]? = some a ∧ CommonConst T a v) {st : Seen} (hk : Knows told st) {year : List Char}
    (hy : '\n' ∉ year ∧ '\r' ∉ year) {order : List (List Char) → List (List Char)} (ho : ∀ l, (order l).Perm l) (frequency : Bool) {dflt : Spec.Action}
    (hd : dflt ≠ .allow) :
    ∃ rules, CommonPolicy T dflt (policyOf year order frequency st).1 rules ∧
      rules.map Prod.fst = (sortedSyscalls frequency (addBasic st.syscalls)).map Prod.fst ∧
      ∀ d, policyAction T.bits d dflt (numbered T rules) = .allow ↔ AllowedBy T told d := by
  have hperm := sorted_perm frequency (addBasic st.syscalls)
  have hmem : ∀ n, n ∈ (sortedSyscalls frequency (addBasic st.syscalls)).map Prod.fst ↔ n ∈ basicNames ∨ ∃ args, told n args := by
    intro n
    rw [(hperm.map Prod.fst).mem_iff, addBasic_mem, hk.names, or_comm]
  have hsys : ∀ n, (n ∈ basicNames ∨ ∃ args, told n args) → (T.syscall n).isSome := by
    rintro n (h | ⟨a, h⟩)
    · exact ht.basic n h
    · exact hkn n a h
  obtain ⟨rules, h1, h2, h3⟩ := written_lines (T := T) (dflt := dflt) (incl := CommonLines T dflt fun _ _ => False) (text := filterOf order st)
    (Q := fun n r => ∀ d, r.action T.bits d = .allow ↔ Covered T told n d) (sortedSyscalls frequency (addBasic st.syscalls)) (by
      intro x hx
      have hn := (hmem x.1).1 (List.mem_map.2 ⟨x, hx, rfl⟩)
      obtain ⟨hw, hr⟩ := ht.names x.1 (hsys _ hn)
      exact ⟨hw, hr, filterOf_rule ht hwr hk ho hd hn⟩)
  have hnames : ∀ n, n ∈ rules.map Prod.fst ↔ n ∈ basicNames ∨ ∃ args, told n args := by rw [h2]; exact hmem
  have hnodup : (rules.map Prod.fst).Nodup := by
    rw [h2]
    exact (hperm.map Prod.fst).nodup_iff.2 (addBasic_nodup hk.nodup)
  refine ⟨rules, ⟨notice_lines hy h1, hnodup, fun x hx => hsys _ ((hnames x.1).1 (List.mem_map.2 ⟨x, hx, rfl⟩))⟩, h2, ?_⟩
  have hnr : ∀ x ∈ rules, ∃ k, T.syscall x.1 = some k ∧ k < 2 ^ 32 := by
    intro x hx
    have := hsys _ ((hnames x.1).1 (List.mem_map.2 ⟨x, hx, rfl⟩))
    obtain ⟨k, hk⟩ := Option.isSome_iff_exists.1 this
    exact ⟨k, hk, ht.small _ _ hk⟩
  have hdist : ((numbered T rules).map Prod.fst).Nodup := by
    unfold numbered
    rw [List.map_map]
    rw [List.nodup_iff_pairwise_ne, List.pairwise_map] at hnodup ⊢
    refine hnodup.imp_of_mem ?_
    intro a b ha hb hab e
    obtain ⟨k, hk, hlt⟩ := hnr a ha
    obtain ⟨m, hm, hlt'⟩ := hnr b hb
    simp only [Function.comp, hk, hm, Option.getD_some] at e
    have := congrArg BitVec.toNat e
    simp only [BitVec.toNat_ofNat, Nat.mod_eq_of_lt hlt, Nat.mod_eq_of_lt hlt'] at this
    subst this
    exact hab (ht.apart _ _ _ hk hm)
  intro d
  rw [action_allow hd rules hdist]
  constructor
  · rintro ⟨x, hx, h4, h5⟩
    obtain ⟨k, hk, hlt⟩ := hnr x hx
    refine ⟨x.1, ?_, (hnames x.1).1 (List.mem_map.2 ⟨x, hx, rfl⟩), (h3 x hx d).1 h5⟩
    rw [h4, hk, Option.getD_some, BitVec.toNat_ofNat, Nat.mod_eq_of_lt hlt]
  · rintro ⟨n, h4, h5, h6⟩
    obtain ⟨x, hx, rfl⟩ := List.mem_map.1 ((hnames n).2 h5)
    refine ⟨x, hx, ?_, (h3 x hx d).2 h6⟩
    rw [h4, Option.getD_some, BitVec.ofNat_toNat, BitVec.setWidth_eq]

/-- Calls that are told of are allowed. -/
theorem told_allowed {T : CommonTables} {told : List Char → List (List Char) → Prop}
    (hwr : ∀ n args i, told n args → (n, i) ∈ lookedAt → ∃ a v, args[i]? = some a ∧ CommonConst T a v) (hb : ByName T told) {syscall : List Char}
    {args : List (List Char)} (ht : told syscall args) {d : SeccompData} (hm : MayBe T syscall args d) : AllowedBy T told d := by
  obtain ⟨⟨nr, h1, h2⟩, h3⟩ := hm
  refine ⟨syscall, by rw [h2]; exact h1, .inr ⟨args, ht⟩, ?_⟩
  intro i hi
  obtain ⟨a, v, ha, hc⟩ := hwr syscall args i ht hi
  have hv := h3 i a v ha hc
  by_cases h : syscall ∈ mapping ∧ ¬NamesBoth told syscall
  · refine .inl ⟨h.1, h.2, ?_⟩
    rintro ⟨h4, h5⟩
    have h2 : i = 2 := by
      have := h.1
      simp only [mapping, List.mem_cons, List.not_mem_nil, or_false] at this
      rcases this with rfl | rfl | rfl
      all_goals
        simp [lookedAt] at hi
        exact hi
    subst h2
    rw [hv] at h4 h5
    exact h.2 ⟨args, a, ht, ha, hb syscall args a v h.1 ht ha hc h4 h5⟩
  · exact .inr ⟨h, args, a, ht, ha, hv ▸ hc⟩

/-- The policy that is written of what was seen. -/
theorem policyOf_exact {T : CommonTables} (ht : TraceTables T) {told : List Char → List (List Char) → Prop} (hkn : ∀ n args, told n args → (T.syscall n).isSome)
    (hwr : ∀ n args i, told n args → (n, i) ∈ lookedAt → ∃ a v, args[i]? = some a ∧ CommonConst T a v) {st : Seen} (hk : Knows told st) {year : List Char}
    (hy : '\n' ∉ year ∧ '\r' ∉ year) {order : List (List Char) → List (List Char)} (ho : ∀ l, (order l).Perm l) (frequency : Bool) {dflt : Spec.Action}
    (hd : dflt ≠ .allow) :
    ∃ rules, CommonPolicy T dflt (policyOf year order frequency st).1 rules ∧
      ∀ d, policyAction T.bits d dflt (numbered T rules) = .allow ↔ AllowedBy T told d := by
  obtain ⟨rules, h1, -, h2⟩ := policyOf_rules ht hkn hwr hk hy ho frequency hd
  exact ⟨rules, h1, h2⟩

end Minijail
