import Verif.Model.Lint
import Verif.Spec.Lint
import Mathlib.Tactic.SplitIfs
import Mathlib.Tactic.Tauto
import Mathlib.Tactic.Conv
/-! Helper lemmas for C63. -/
set_option autoImplicit false
set_option linter.unusedSimpArgs false
namespace Minijail.Lint
open Spec Offline

theorem pySpace_iff (c : Char) : isPySpace c = true ↔ White c := by
  have h : ∀ n : Nat, n < 0x20 → ∀ d : Char, c.toNat = n → d.toNat = n → c = d := fun n _ d h1 h2 => Char.toNat_inj.1 (h1.trans h2.symm)
  unfold isPySpace White
  simp only [List.mem_cons, List.not_mem_nil, or_false, decide_eq_true_eq]
  constructor
  · rintro (rfl | rfl | rfl | rfl | rfl | rfl | rfl | rfl | rfl | rfl) <;> first | exact .inl rfl | exact .inr (by decide)
  · rintro (rfl | ⟨h1, h2⟩ | ⟨h1, h2⟩)
    · exact .inl rfl
    · have : c.toNat = 9 ∨ c.toNat = 10 ∨ c.toNat = 11 ∨ c.toNat = 12 ∨ c.toNat = 13 := by omega
      rcases this with h' | h' | h' | h' | h'
      · exact .inr (.inl (h 9 (by decide) '\t' h' rfl))
      · exact .inr (.inr (.inl (h 10 (by decide) '\n' h' rfl)))
      · exact .inr (.inr (.inr (.inl (h 11 (by decide) '\x0b' h' rfl))))
      · exact .inr (.inr (.inr (.inr (.inl (h 12 (by decide) '\x0c' h' rfl)))))
      · exact .inr (.inr (.inr (.inr (.inr (.inl (h 13 (by decide) '\r' h' rfl))))))
    · have : c.toNat = 28 ∨ c.toNat = 29 ∨ c.toNat = 30 ∨ c.toNat = 31 := by omega
      rcases this with h' | h' | h' | h'
      · exact .inr (.inr (.inr (.inr (.inr (.inr (.inl (h 28 (by decide) '\x1c' h' rfl)))))))
      · exact .inr (.inr (.inr (.inr (.inr (.inr (.inr (.inl (h 29 (by decide) '\x1d' h' rfl))))))))
      · exact .inr (.inr (.inr (.inr (.inr (.inr (.inr (.inr (.inl (h 30 (by decide) '\x1e' h' rfl)))))))))
      · exact .inr (.inr (.inr (.inr (.inr (.inr (.inr (.inr (.inr (h 31 (by decide) '\x1f' h' rfl)))))))))

theorem word_iff (c : Char) : isPyWord c = true ↔ c.isAlphanum = true ∨ c = '_' := by simp [isPyWord]

theorem word_not_space {c : Char} (h : isPyWord c = true) : isPySpace c = false := by
  rw [Bool.eq_false_iff]
  intro hs
  unfold isPySpace at hs
  simp only [List.mem_cons, List.not_mem_nil, or_false, decide_eq_true_eq] at hs
  rcases hs with rfl | rfl | rfl | rfl | rfl | rfl | rfl | rfl | rfl | rfl <;> revert h <;> decide

theorem dropWhile_head {p : Char → Bool} {s : List Char} {c : Char} (h : (s.dropWhile p).head? = some c) : p c = false := by
  induction s with
  | nil => simp at h
  | cons a s ih =>
    by_cases ha : p a = true
    · rw [List.dropWhile_cons_of_pos ha] at h; exact ih h
    · rw [List.dropWhile_cons_of_neg ha] at h
      simp at h
      rw [← h]; simpa using ha

theorem dropWhile_stop {p : Char → Bool} {s : List Char} (h : ∀ c, s.head? = some c → p c = false) : s.dropWhile p = s := by
  cases s with
  | nil => rfl
  | cons a s => rw [List.dropWhile_cons_of_neg (by simp [h a rfl])]

theorem takeWhile_all {p : Char → Bool} {s : List Char} : ∀ c ∈ s.takeWhile p, p c = true := by
  induction s with
  | nil => simp
  | cons a s ih =>
    by_cases ha : p a = true
    · rw [List.takeWhile_cons_of_pos ha]
      intro c hc
      rcases List.mem_cons.1 hc with rfl | hc
      · exact ha
      · exact ih c hc
    · rw [List.takeWhile_cons_of_neg ha]; simp

theorem takeWhile_stop {p : Char → Bool} {a s : List Char} (ha : ∀ c ∈ a, p c = true) (h : ∀ c, s.head? = some c → p c = false) :
    (a ++ s).takeWhile p = a := by
  induction a with
  | nil =>
    cases s with
    | nil => rfl
    | cons x s => rw [List.nil_append, List.takeWhile_cons_of_neg (by simp [h x rfl])]
  | cons x a ih =>
    rw [List.cons_append, List.takeWhile_cons_of_pos (ha x (by simp)), ih fun c hc => ha c (by simp [hc])]

theorem ruleLine_iff (line name rule : List Char) : ruleLine line = some (name, rule) ↔ Names line name rule := by
  constructor
  · intro h
    unfold ruleLine at h
    simp only at h
    split at h
    · rename_i rest hr
      simp only [Option.some.injEq, Prod.mk.injEq] at h
      obtain ⟨rfl, rfl⟩ := h
      refine ⟨line.takeWhile isPySpace, ((line.dropWhile isPySpace).dropWhile isPyWord).takeWhile isPySpace, rest.takeWhile isPySpace, ?_, ?_, ?_, ?_⟩
      · have h1 := List.takeWhile_append_dropWhile (p := isPySpace) (l := line)
        have h2 := List.takeWhile_append_dropWhile (p := isPyWord) (l := line.dropWhile isPySpace)
        have h3 := List.takeWhile_append_dropWhile (p := isPySpace) (l := (line.dropWhile isPySpace).dropWhile isPyWord)
        have h4 := List.takeWhile_append_dropWhile (p := isPySpace) (l := rest)
        rw [hr, ← h4] at h3
        conv_lhs => rw [← h1, ← h2, ← h3]
        simp only [List.append_assoc, List.cons_append]
      · intro c hc
        rw [← pySpace_iff]
        simp only [List.mem_append] at hc
        rcases hc with (hc | hc) | hc <;> exact takeWhile_all c hc
      · intro c hc
        rw [← word_iff]
        exact takeWhile_all c hc
      · intro c hc
        rw [← pySpace_iff, dropWhile_head hc]
        simp
    · cases h
  · rintro ⟨b, b', b'', rfl, hb, hn, hr⟩
    have hb1 : ∀ c ∈ b, isPySpace c = true := fun c hc => (pySpace_iff c).2 (hb c (by simp [hc]))
    have hb2 : ∀ c ∈ b', isPySpace c = true := fun c hc => (pySpace_iff c).2 (hb c (by simp [hc]))
    have hb3 : ∀ c ∈ b'', isPySpace c = true := fun c hc => (pySpace_iff c).2 (hb c (by simp [hc]))
    have hn' : ∀ c ∈ name, isPyWord c = true := fun c hc => (word_iff c).2 (hn c hc)
    have hr' : ∀ c, rule.head? = some c → isPySpace c = false := fun c hc => by
      rw [Bool.eq_false_iff]; exact fun h => hr c hc ((pySpace_iff c).1 h)
    have hcol : isPySpace ':' = false := by decide
    have hcolw : isPyWord ':' = false := by decide
    have hrest : (b'' ++ rule).dropWhile isPySpace = rule := by
      rw [List.dropWhile_append_of_pos hb3, dropWhile_stop hr']
    have hsp : ∀ c, (b' ++ ':' :: (b'' ++ rule)).head? = some c → isPyWord c = false := by
      intro c hc
      cases b' with
      | nil => simp at hc; rw [← hc]; exact hcolw
      | cons x b' =>
        simp at hc
        have := hb2 x (by simp)
        rw [← hc, Bool.eq_false_iff]
        intro hw
        rw [word_not_space hw] at this
        cases this
    unfold ruleLine
    simp only [List.append_assoc, List.cons_append]
    rw [List.dropWhile_append_of_pos hb1]
    cases name with
    | nil =>
      rw [List.nil_append, List.dropWhile_append_of_pos hb2, List.dropWhile_cons_of_neg (by simp [hcol])]
      rw [List.dropWhile_cons_of_neg (by simp [hcolw]), List.dropWhile_cons_of_neg (by simp [hcol])]
      simp only
      rw [hrest, List.takeWhile_cons_of_neg (by simp [hcolw])]
    | cons x name =>
      rw [List.cons_append, List.dropWhile_cons_of_neg (by simp [word_not_space (hn' x (by simp))])]
      rw [← List.cons_append]
      rw [List.dropWhile_append_of_pos hn', dropWhile_stop hsp, List.dropWhile_append_of_pos hb2, List.dropWhile_cons_of_neg (by simp [hcol])]
      simp only
      rw [hrest, takeWhile_stop hn' hsp]

theorem comment_iff (line : List Char) : isCommentLine line = true ↔ Remark line := by
  unfold isCommentLine Remark
  rw [beq_iff_eq]
  constructor
  · intro h
    cases hd : line.dropWhile isPySpace with
    | nil => rw [hd] at h; cases h
    | cons c s =>
      rw [hd] at h
      simp at h
      subst h
      exact ⟨line.takeWhile isPySpace, s, by rw [← hd, List.takeWhile_append_dropWhile], fun c hc => (pySpace_iff c).1 (takeWhile_all c hc)⟩
  · rintro ⟨b, s, rfl, hb⟩
    rw [List.dropWhile_append_of_pos fun c hc => (pySpace_iff c).2 (hb c hc), List.dropWhile_cons_of_neg (by decide)]
    rfl

theorem remark_not_names {line : List Char} (h : Remark line) (name rule : List Char) : ¬ Names line name rule := by
  intro hn
  have := (ruleLine_iff line name rule).2 hn
  obtain ⟨b, s, rfl, hb⟩ := h
  unfold ruleLine at this
  simp only at this
  rw [List.dropWhile_append_of_pos fun c hc => (pySpace_iff c).2 (hb c hc), List.dropWhile_cons_of_neg (by decide),
    List.dropWhile_cons_of_neg (by decide), List.dropWhile_cons_of_neg (by decide)] at this
  cases this

theorem empty_not_names {line : List Char} (h : isEmptyLine line = true) (name rule : List Char) : ¬ Names line name rule := by
  rintro ⟨b, b', b'', rfl, -⟩
  unfold isEmptyLine at h
  rw [List.all_eq_true] at h
  have := h ':' (by simp)
  exact absurd this (by decide)

theorem names_unique {line n r n' r' : List Char} (h : Names line n r) (h' : Names line n' r') : n = n' ∧ r = r' := by
  rw [← ruleLine_iff] at h h'
  rw [h] at h'
  cases h'
  exact ⟨rfl, rfl⟩

theorem harmless_iff (name rule : List Char) : (rule ∈ globalSafeRules ∨ rule ∈ syscallSafeRules name) ↔ Harmless name rule := by
  unfold Harmless globalSafeRules syscallSafeRules
  simp only [List.map_cons, List.map_nil]
  by_cases h1 : name = "getrandom".toList
  · subst h1
    simp only [if_true, List.mem_cons, List.not_mem_nil, or_false, true_and]
    have : ¬ ("getrandom".toList = "mmap".toList ∨ "getrandom".toList = "mmap2".toList ∨ "getrandom".toList = "mprotect".toList) := by decide
    simp only [this, false_and, or_false]
  · by_cases h2 : name = "mmap".toList ∨ name = "mmap2".toList ∨ name = "mprotect".toList
    · rw [if_neg h1, if_pos h2]
      simp only [h1, false_and, false_or, List.mem_cons, List.not_mem_nil, or_false, h2, true_and]
    · rw [if_neg h1, if_neg h2]
      simp only [h1, false_and, false_or, List.mem_cons, List.not_mem_nil, or_false, h2]

theorem hasRules_iff (name : List Char) : syscallSafeRules name ≠ [] ↔ HasRules name := by
  unfold HasRules syscallSafeRules
  split_ifs with h1 h2
  · simp [h1]
  · simp only [ne_eq, List.cons_ne_nil, not_false_eq_true, List.mem_cons, List.not_mem_nil, or_false, true_iff]
    tauto
  · simp only [ne_eq, not_true, List.mem_cons, List.not_mem_nil, or_false, false_iff]
    tauto

/-- What the errors say. -/
def Fault (dangerous lines : List (List Char)) : LintError → Prop
  | .duplicate i n => Again lines i n
  | .useRules i n => Unexplained dangerous lines i n ∧ HasRules n
  | .needsComment i n => Unexplained dangerous lines i n ∧ ¬ HasRules n

/-- The state after some lines. -/
structure After (dangerous lines : List (List Char)) (st : LintState) : Prop where
  found : ∀ n, n ∈ st.found ↔ ∃ l ∈ lines, ∃ r, Names l n r
  comment : st.prevComment = true ↔ Documented lines
  risky : st.dangerous = true ↔ ∃ l ∈ lines, ∃ n r, Names l n r ∧ n ∈ dangerous
  errors : ∀ e, e ∈ st.errors ↔ Fault dangerous lines e

theorem comesAfter_snoc (lines before : List (List Char)) (line l : List Char) :
    ComesAfter (lines ++ [line]) before l ↔ ComesAfter lines before l ∨ (before = lines ∧ l = line) := by
  unfold ComesAfter
  constructor
  · rintro ⟨after, h⟩
    rcases List.eq_nil_or_concat after with rfl | ⟨a, x, rfl⟩
    · obtain ⟨h1, h2⟩ := List.append_inj' h rfl
      exact .inr ⟨h1.symm, by simpa using h2.symm⟩
    · rw [List.concat_eq_append, ← List.cons_append, ← List.append_assoc] at h
      obtain ⟨h1, -⟩ := List.append_inj' h rfl
      exact .inl ⟨a, h1⟩
  · rintro (⟨a, rfl⟩ | ⟨rfl, rfl⟩)
    · exact ⟨a ++ [line], by simp⟩
    · exact ⟨[], rfl⟩

theorem again_snoc (lines : List (List Char)) (line : List Char) (i : Nat) (n : List Char) :
    Again (lines ++ [line]) i n ↔ Again lines i n ∨ (lines.length = i ∧ (∃ r, Names line n r) ∧ ∃ l' ∈ lines, ∃ r', Names l' n r') := by
  unfold Again
  constructor
  · rintro ⟨before, l, r, hc, hi, hn, ho⟩
    rcases (comesAfter_snoc _ _ _ _).1 hc with hc | ⟨rfl, rfl⟩
    · exact .inl ⟨before, l, r, hc, hi, hn, ho⟩
    · exact .inr ⟨hi, ⟨r, hn⟩, ho⟩
  · rintro (⟨before, l, r, hc, hi, hn, ho⟩ | ⟨hi, ⟨r, hn⟩, ho⟩)
    · exact ⟨before, l, r, (comesAfter_snoc _ _ _ _).2 (.inl hc), hi, hn, ho⟩
    · exact ⟨lines, line, r, (comesAfter_snoc _ _ _ _).2 (.inr ⟨rfl, rfl⟩), hi, hn, ho⟩

theorem unexplained_snoc (dangerous lines : List (List Char)) (line : List Char) (i : Nat) (n : List Char) :
    Unexplained dangerous (lines ++ [line]) i n ↔ Unexplained dangerous lines i n ∨ (lines.length = i ∧ ∃ r, Names line n r ∧
      (∀ l' ∈ lines, ∀ r', ¬ Names l' n r') ∧ n ∈ dangerous ∧ ¬ Documented lines ∧ ¬ Harmless n r) := by
  unfold Unexplained
  constructor
  · rintro ⟨before, l, r, hc, hi, h⟩
    rcases (comesAfter_snoc _ _ _ _).1 hc with hc | ⟨rfl, rfl⟩
    · exact .inl ⟨before, l, r, hc, hi, h⟩
    · exact .inr ⟨hi, r, h⟩
  · rintro (⟨before, l, r, hc, hi, h⟩ | ⟨hi, r, h⟩)
    · exact ⟨before, l, r, (comesAfter_snoc _ _ _ _).2 (.inl hc), hi, h⟩
    · exact ⟨lines, line, r, (comesAfter_snoc _ _ _ _).2 (.inr ⟨rfl, rfl⟩), hi, h⟩

theorem documented_snoc (lines : List (List Char)) (line : List Char) :
    Documented (lines ++ [line]) ↔ Remark line ∨ (Documented lines ∧ ¬ ∃ n r, Names line n r) := by
  unfold Documented
  constructor
  · rintro ⟨a, l, b, h, hr, hb⟩
    rcases List.eq_nil_or_concat b with rfl | ⟨b, x, rfl⟩
    · obtain ⟨-, h2⟩ := List.append_inj' h rfl
      cases h2
      exact .inl hr
    · rw [List.concat_eq_append, ← List.cons_append, ← List.append_assoc] at h
      obtain ⟨h1, h2⟩ := List.append_inj' h rfl
      cases h2
      exact .inr ⟨⟨a, l, b, h1, hr, fun l' hl => hb l' (by simp [hl])⟩, hb line (by simp)⟩
  · rintro (hr | ⟨⟨a, l, b, rfl, hr, hb⟩, hn⟩)
    · exact ⟨lines, line, [], rfl, hr, by simp⟩
    · refine ⟨a, l, b ++ [line], by simp, hr, fun l' hl => ?_⟩
      rcases List.mem_append.1 hl with hl | hl
      · exact hb l' hl
      · simp at hl; rw [hl]; exact hn

theorem fault_snoc_none (dangerous lines : List (List Char)) (line : List Char) (h : ∀ n r, ¬ Names line n r) (e : LintError) :
    Fault dangerous (lines ++ [line]) e ↔ Fault dangerous lines e := by
  cases e <;> simp only [Fault, again_snoc, unexplained_snoc, h, false_and, exists_false, and_false, or_false]

theorem after_none {dangerous lines : List (List Char)} {st : LintState} (h : After dangerous lines st) (line : List Char)
    (hn : ∀ n r, ¬ Names line n r) (hr : ¬ Remark line) : After dangerous (lines ++ [line]) st := by
  refine ⟨fun n => ?_, ?_, ?_, fun e => ?_⟩
  · rw [h.found n]; simp [or_and_right, exists_or, hn]
  · rw [h.comment, documented_snoc]; simp [hr, hn]
  · rw [h.risky]; simp [or_and_right, exists_or, hn]
  · rw [h.errors e, fault_snoc_none dangerous lines line hn]

theorem lintLine_after {dangerous lines : List (List Char)} {st : LintState} (h : After dangerous lines st) (line : List Char) :
    After dangerous (lines ++ [line]) (lintLine dangerous lines.length line st) := by
  unfold lintLine
  by_cases hc : isCommentLine line = true
  · rw [if_pos hc]
    have hr := (comment_iff line).1 hc
    have hn := remark_not_names hr
    refine ⟨fun n => ?_, ?_, ?_, fun e => ?_⟩
    · rw [show ({ st with prevComment := true } : LintState).found = st.found from rfl, h.found n]; simp [or_and_right, exists_or, hn]
    · rw [documented_snoc]; simp [hr]
    · rw [show ({ st with prevComment := true } : LintState).dangerous = st.dangerous from rfl, h.risky]; simp [or_and_right, exists_or, hn]
    · rw [show ({ st with prevComment := true } : LintState).errors = st.errors from rfl, h.errors e, fault_snoc_none dangerous lines line hn]
  · rw [if_neg hc]
    have hr : ¬ Remark line := fun hr => hc ((comment_iff line).2 hr)
    by_cases he : isEmptyLine line = true
    · rw [if_pos he]
      exact after_none h line (empty_not_names he) hr
    · rw [if_neg he]
      cases hl : ruleLine line with
      | none =>
        refine after_none h line (fun n r hn => ?_) hr
        rw [(ruleLine_iff line n r).2 hn] at hl
        cases hl
      | some m =>
        obtain ⟨n0, r0⟩ := m
        have hn0 : Names line n0 r0 := (ruleLine_iff _ _ _).1 hl
        have huniq : ∀ n r, Names line n r ↔ n = n0 ∧ r = r0 := fun n r =>
          ⟨fun hn => names_unique hn hn0, by rintro ⟨rfl, rfl⟩; exact hn0⟩
        have hdoc : ¬ Documented (lines ++ [line]) := by
          rw [documented_snoc]
          rintro (hx | ⟨-, hx⟩)
          · exact hr hx
          · exact hx ⟨n0, r0, hn0⟩
        have hfound : ∀ (f : List (List Char)), (∀ n, n ∈ f ↔ n = n0 ∨ n ∈ st.found) → ∀ n, n ∈ f ↔ ∃ l ∈ lines ++ [line], ∃ r, Names l n r := by
          intro f hf n
          rw [hf, h.found n]
          simp only [List.mem_append, List.mem_singleton, or_and_right, exists_or, exists_eq_left, huniq]
          constructor
          · rintro (rfl | hx)
            · exact .inr ⟨r0, rfl, rfl⟩
            · exact .inl hx
          · rintro (hx | ⟨_, rfl, -⟩)
            · exact .inr hx
            · exact .inl rfl
        have hdang : ∀ b : Bool, (b = true ↔ st.dangerous = true ∨ n0 ∈ dangerous) → (b = true ↔ ∃ l ∈ lines ++ [line], ∃ n r, Names l n r ∧ n ∈ dangerous) := by
          intro b hb
          rw [hb, h.risky]
          simp only [List.mem_append, List.mem_singleton, or_and_right, exists_or, exists_eq_left, huniq]
          refine or_congr Iff.rfl ⟨fun hx => ⟨n0, r0, ⟨rfl, rfl⟩, hx⟩, ?_⟩
          rintro ⟨_, _, ⟨rfl, rfl⟩, hx⟩
          exact hx
        simp only
        by_cases hin : n0 ∈ st.found
        · rw [if_pos hin]
          have hold := (h.found n0).1 hin
          refine ⟨hfound _ fun n => ?_, ?_, hdang _ ?_, fun e => ?_⟩
          · exact ⟨.inr, fun hx => hx.elim (fun hx => hx ▸ hin) id⟩
          · simp [hdoc]
          · refine ⟨.inl, fun hx => hx.elim id fun hx => h.risky.2 ?_⟩
            obtain ⟨l, hl, r, hr⟩ := hold
            exact ⟨l, hl, n0, r, hr, hx⟩
          · show e ∈ st.errors ++ [_] ↔ _
            rw [List.mem_append, h.errors e, List.mem_singleton]
            have hno : ¬ ∀ l' ∈ lines, ∀ r', ¬ Names l' n0 r' := by
              obtain ⟨l, hl, r, hr⟩ := hold
              exact fun hx => hx l hl r hr
            cases e with
            | duplicate i n =>
              simp only [Fault, again_snoc, LintError.duplicate.injEq, huniq]
              refine or_congr Iff.rfl ?_
              constructor
              · rintro ⟨rfl, rfl⟩; exact ⟨rfl, ⟨r0, rfl, rfl⟩, hold⟩
              · rintro ⟨h1, ⟨_, h2, -⟩, -⟩; exact ⟨h1.symm, h2⟩
            | useRules i n =>
              simp only [Fault, unexplained_snoc, reduceCtorEq, or_false, huniq]
              refine ⟨fun hx => ⟨.inl hx.1, hx.2⟩, ?_⟩
              rintro ⟨hx | ⟨-, _, ⟨rfl, rfl⟩, hx, -⟩, hx2⟩
              · exact ⟨hx, hx2⟩
              · exact absurd hx hno
            | needsComment i n =>
              simp only [Fault, unexplained_snoc, reduceCtorEq, or_false, huniq]
              refine ⟨fun hx => ⟨.inl hx.1, hx.2⟩, ?_⟩
              rintro ⟨hx | ⟨-, _, ⟨rfl, rfl⟩, hx, -⟩, hx2⟩
              · exact ⟨hx, hx2⟩
              · exact absurd hx hno
        · rw [if_neg hin]
          have hnew : ∀ l' ∈ lines, ∀ r', ¬ Names l' n0 r' := fun l hl r hx => hin ((h.found n0).2 ⟨l, hl, r, hx⟩)
          have hagain : ∀ i n, Again (lines ++ [line]) i n ↔ Again lines i n := by
            intro i n
            rw [again_snoc]
            refine ⟨fun hx => hx.elim id ?_, .inl⟩
            rintro ⟨-, ⟨r, hx⟩, l', hl', r', hx'⟩
            obtain ⟨rfl, rfl⟩ := (huniq n r).1 hx
            exact absurd hx' (hnew l' hl' r')
          have herr : ∀ (errs : List LintError) (bad : Bool), (bad = true ↔ n0 ∈ dangerous ∧ ¬ Documented lines ∧ ¬ Harmless n0 r0) →
              errs = (if bad = true then st.errors ++ [if syscallSafeRules n0 ≠ [] then LintError.useRules lines.length n0 else .needsComment lines.length n0]
                else st.errors) → ∀ e, e ∈ errs ↔ Fault dangerous (lines ++ [line]) e := by
            rintro errs bad hbad rfl e
            have hun : ∀ i n, Unexplained dangerous (lines ++ [line]) i n ↔ Unexplained dangerous lines i n ∨ (bad = true ∧ i = lines.length ∧ n = n0) := by
              intro i n
              rw [unexplained_snoc]
              refine or_congr Iff.rfl ?_
              constructor
              · rintro ⟨rfl, r, hx, -, hx2⟩
                obtain ⟨rfl, rfl⟩ := (huniq n r).1 hx
                exact ⟨hbad.2 hx2, rfl, rfl⟩
              · rintro ⟨hb, rfl, rfl⟩
                exact ⟨rfl, r0, hn0, hnew, hbad.1 hb⟩
            have hrules := hasRules_iff n0
            cases bad with
            | false =>
              simp only [Bool.false_eq_true, if_false]
              rw [h.errors e]
              cases e <;> simp only [Fault, hagain, hun, Bool.false_eq_true, false_and, or_false]
            | true =>
              simp only [if_true]
              rw [List.mem_append, h.errors e, List.mem_singleton]
              by_cases hs : syscallSafeRules n0 ≠ []
              · rw [if_pos hs]
                have hs' := hrules.1 hs
                cases e with
                | duplicate i n => simp only [Fault, hagain, reduceCtorEq, or_false]
                | useRules i n =>
                  simp only [Fault, hun, true_and, LintError.useRules.injEq]
                  constructor
                  · rintro (hx | ⟨rfl, rfl⟩)
                    · exact ⟨.inl hx.1, hx.2⟩
                    · exact ⟨.inr ⟨rfl, rfl⟩, hs'⟩
                  · rintro ⟨hx | hx, hx2⟩
                    · exact .inl ⟨hx, hx2⟩
                    · exact .inr hx
                | needsComment i n =>
                  simp only [Fault, hun, true_and, reduceCtorEq, or_false]
                  constructor
                  · exact fun hx => ⟨.inl hx.1, hx.2⟩
                  · rintro ⟨hx | ⟨-, rfl⟩, hx2⟩
                    · exact ⟨hx, hx2⟩
                    · exact absurd hs' hx2
              · rw [if_neg hs]
                have hs' : ¬ HasRules n0 := fun hx => hs (hrules.2 hx)
                cases e with
                | duplicate i n => simp only [Fault, hagain, reduceCtorEq, or_false]
                | needsComment i n =>
                  simp only [Fault, hun, true_and, LintError.needsComment.injEq]
                  constructor
                  · rintro (hx | ⟨rfl, rfl⟩)
                    · exact ⟨.inl hx.1, hx.2⟩
                    · exact ⟨.inr ⟨rfl, rfl⟩, hs'⟩
                  · rintro ⟨hx | hx, hx2⟩
                    · exact .inl ⟨hx, hx2⟩
                    · exact .inr hx
                | useRules i n =>
                  simp only [Fault, hun, true_and, reduceCtorEq, or_false]
                  constructor
                  · exact fun hx => ⟨.inl hx.1, hx.2⟩
                  · rintro ⟨hx | ⟨-, rfl⟩, hx2⟩
                    · exact ⟨hx, hx2⟩
                    · exact absurd hx2 hs'
          have hf : ∀ n, n ∈ n0 :: st.found ↔ n = n0 ∨ n ∈ st.found := fun n => List.mem_cons
          by_cases hd : n0 ∈ dangerous
          · rw [if_pos hd]
            by_cases hp : st.prevComment = false
            · have hnd : ¬ Documented lines := fun hx => by rw [h.comment.2 hx] at hp; cases hp
              rw [if_pos hp]
              by_cases hsafe : r0 ∈ globalSafeRules ∨ r0 ∈ syscallSafeRules n0
              · rw [if_pos hsafe]
                exact ⟨hfound _ hf, by simp [hdoc], hdang _ (by simp [hd]), herr _ false (by simp [(harmless_iff n0 r0).1 hsafe]) (by simp)⟩
              · have hnh : ¬ Harmless n0 r0 := fun hx => hsafe ((harmless_iff n0 r0).2 hx)
                rw [if_neg hsafe]
                by_cases hs : syscallSafeRules n0 ≠ []
                · rw [if_pos hs]
                  exact ⟨hfound _ hf, by simp [hdoc], hdang _ (by simp [hd]), herr _ true (by simp [hd, hnd, hnh]) (by simp only [if_true]; rw [if_pos hs])⟩
                · rw [if_neg hs]
                  exact ⟨hfound _ hf, by simp [hdoc], hdang _ (by simp [hd]), herr _ true (by simp [hd, hnd, hnh]) (by simp only [if_true]; rw [if_neg hs])⟩
            · rw [if_neg hp]
              have hdd : Documented lines := h.comment.1 (by simpa using hp)
              exact ⟨hfound _ hf, by simp [hdoc], hdang _ (by simp [hd]), herr _ false (by simp [hdd]) (by simp)⟩
          · rw [if_neg hd]
            exact ⟨hfound _ hf, by simp [hdoc], hdang _ (by simp [hd]), herr _ false (by simp [hd]) (by simp)⟩

theorem lintLines_after {dangerous : List (List Char)} (more : List (List Char)) : ∀ {lines : List (List Char)} {st : LintState},
    After dangerous lines st → After dangerous (lines ++ more) (lintLines dangerous lines.length more st) := by
  induction more with
  | nil => intro lines st h; simpa [lintLines] using h
  | cons line more ih =>
    intro lines st h
    have := ih (lintLine_after h line)
    rw [List.append_assoc] at this
    simpa [lintLines] using this

theorem after_start (dangerous : List (List Char)) : After dangerous [] {} := by
  refine ⟨fun n => by simp, ?_, by simp, fun e => ?_⟩
  · simp [Documented]
  · cases e <;> simp [Fault, Again, Unexplained, ComesAfter]

end Minijail.Lint
