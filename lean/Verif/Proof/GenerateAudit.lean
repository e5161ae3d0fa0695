import Verif.Model.GenerateAudit
import Verif.Spec.Audit
import Verif.Proof.GeneratePolicy
import Mathlib.Tactic.Tauto
/-! What the generator of policies knows after it has read logs, and which files it takes for logs. -/
set_option autoImplicit false
set_option linter.unusedSimpArgs false
namespace Minijail
open Spec Offline Generate

/-! ### Fields and names -/

theorem hasField_iff (r : LogRecord) (n w m : List Char) : HasField r n w m ↔ findField r n = some (w, m) := by
  unfold findField
  constructor
  · rintro ⟨b, a, rfl, hb⟩
    rw [List.find?_append, List.find?_eq_none.2 (by intro f hf; simpa using hb f hf)]
    simp
  · intro h
    obtain ⟨f, hf, he⟩ := Option.map_eq_some_iff.1 h
    obtain ⟨hp, b, a, rfl, hb⟩ := List.find?_eq_some_iff_append.1 hf
    refine ⟨b, a, ?_, fun f hf => by simpa using hb f hf⟩
    have : f = (n, w, m) := by
      rw [← he]
      simp at hp
      rw [← hp]
    rw [this]

theorem digits_stop {p : Char → Bool} {a b : List Char} {c : Char} (ha : ∀ x ∈ a, p x = true) (hc : p c = false) : (a ++ c :: b).takeWhile p = a := by
  rw [List.takeWhile_append_of_pos ha, List.takeWhile_cons, hc]
  simp

theorem unknown_iff (s : List Char) (n : Nat) : UnknownSyscall s n ↔ unknownSyscall s = some n := by
  unfold unknownSyscall
  simp only []
  constructor
  · rintro ⟨ds, rest, hne, hd, rfl⟩
    obtain ⟨h1, rfl⟩ := (digits_iff 10 (by decide) _ _).1 hd
    rw [if_pos (by rw [List.isPrefixOf_iff_prefix]; exact ⟨ds ++ ')' :: rest, by simp⟩)]
    have e : ("unknown-syscall(".toList ++ ds ++ ')' :: rest).drop "unknown-syscall(".toList.length = ds ++ ')' :: rest := by
      rw [List.append_assoc, List.drop_left]
    rw [e, digits_stop h1 (by decide), List.drop_left]
    simp only []
    rw [if_neg hne]
  · intro h
    by_cases hp : "unknown-syscall(".toList.isPrefixOf s = true
    · rw [if_pos hp] at h
      obtain ⟨t, rfl⟩ := List.isPrefixOf_iff_prefix.1 hp
      rw [List.drop_left] at h
      generalize hds : t.takeWhile (isDigitIn 10) = ds at h
      have ht : t = ds ++ t.drop ds.length := by
        conv_lhs => rw [← List.takeWhile_append_dropWhile (p := isDigitIn 10) (l := t), hds]
        congr 1
        conv_rhs => rw [← List.takeWhile_append_dropWhile (p := isDigitIn 10) (l := t), hds, List.drop_left]
      cases hr : t.drop ds.length with
      | nil => rw [hr] at h; cases h
      | cons c rest =>
        rw [hr] at h ht
        by_cases hc : c = ')'
        · subst hc
          simp only [] at h
          by_cases hne : ds = []
          · rw [if_pos hne] at h; cases h
          · rw [if_neg hne] at h
            refine ⟨ds, rest, hne, (digits_iff 10 (by decide) _ _).2 ⟨?_, by simpa using h.symm⟩, by rw [ht, ← List.append_assoc]⟩
            intro x hx
            rw [← hds] at hx
            exact List.mem_takeWhile_imp hx
        · split at h
          · rename_i heq
            simp at heq
            exact absurd heq.1 hc
          · cases h
    · rw [if_neg hp] at h; cases h

theorem armNumbers_eq : privateArmNumbers = armNumbers := by decide

theorem armNumbers_find (n : Nat) (name : List Char) : (n, name) ∈ armNumbers ↔ (armNumbers.find? fun e => e.1 == n).map Prod.snd = some name := by
  constructor
  · intro h
    simp only [armNumbers, List.mem_cons, Prod.mk.injEq, List.not_mem_nil, or_false] at h
    rcases h with ⟨rfl, rfl⟩ | ⟨rfl, rfl⟩ | ⟨rfl, rfl⟩ | ⟨rfl, rfl⟩ | ⟨rfl, rfl⟩ <;> decide
  · intro h
    obtain ⟨e, he, rfl⟩ := Option.map_eq_some_iff.1 h
    have h2 := List.find?_some he
    simp only [beq_iff_eq] at h2
    rw [← h2]
    exact List.mem_of_find?_eq_some he

theorem auditName_iff (m s : List Char) : AuditName m s ↔ s = auditName m := by
  unfold auditName
  rw [armNumbers_eq]
  constructor
  · rintro (⟨hu, hm⟩ | hno)
    · rw [(unknown_iff _ _).1 hu]
      simp only [(armNumbers_find _ _).1 hm, Option.getD_some]
    · cases h : unknownSyscall m with
      | none => rfl
      | some n =>
        simp only []
        cases hf : (armNumbers.find? fun e => e.1 == n).map Prod.snd with
        | none => rfl
        | some x => exact absurd ((armNumbers_find _ _).2 hf) (hno n x ((unknown_iff _ _).2 h))
  · rintro rfl
    cases h : unknownSyscall m with
    | none => exact .plain fun n name hu => by rw [(unknown_iff _ _).1 hu] at h; cases h
    | some n =>
      simp only []
      cases hf : (armNumbers.find? fun e => e.1 == n).map Prod.snd with
      | none =>
        refine .plain fun n' name hu hm => ?_
        rw [(unknown_iff _ _).1 hu] at h
        cases h
        rw [(armNumbers_find _ _).1 hm] at hf
        cases hf
      | some x => exact .arm ((unknown_iff _ _).2 h) ((armNumbers_find _ _).2 hf)

/-! ### Which files are logs -/

theorem callEnd_iff (s : List Char) : callEnd s = true ↔ ∃ (a : List Char) (n : Nat) (rest : List Char), s = a ++ ')' :: List.replicate (n + 1) ' ' ++ "= ".toList ++ rest := by
  induction s with
  | nil => simp [callEnd]
  | cons c s ih =>
    rw [callEnd, Bool.or_eq_true, ih]
    constructor
    · rintro (h | ⟨a, n, rest, rfl⟩)
      · simp only [Bool.and_eq_true, decide_eq_true_eq, List.isPrefixOf_iff_prefix] at h
        obtain ⟨⟨rfl, h1⟩, rest, h2⟩ := h
        cases s with
        | nil => cases h1
        | cons x s =>
          simp at h1
          subst h1
          refine ⟨[], (s.takeWhile (· = ' ')).length, rest, ?_⟩
          have e1 : s.takeWhile (· = ' ') = List.replicate (s.takeWhile (· = ' ')).length ' ' :=
            List.eq_replicate_iff.2 ⟨rfl, fun b hb => by simpa using List.mem_takeWhile_imp hb⟩
          have e2 := List.takeWhile_append_dropWhile (p := fun c => decide (c = ' ')) (l := s)
          simp only [List.dropWhile_cons, decide_true, if_true] at h2
          rw [List.replicate_succ, List.nil_append, List.cons_append, List.cons_append, List.cons_append, List.cons_append, List.append_assoc, h2, ← e1, e2]
      · exact ⟨c :: a, n, rest, by simp⟩
    · rintro ⟨a, n, rest, h⟩
      cases a with
      | nil =>
        left
        simp only [List.nil_append, List.cons_append, List.cons.injEq] at h
        obtain ⟨rfl, rfl⟩ := h
        have e : (List.replicate (n + 1) ' ' ++ "= ".toList ++ rest).dropWhile (fun c => decide (c = ' ')) = "= ".toList ++ rest := by
          rw [List.append_assoc, List.dropWhile_append_of_pos (by simp)]
          rfl
        rw [e]
        simp [List.replicate_succ]
      | cons x a =>
        simp at h
        obtain ⟨rfl, rfl⟩ := h
        exact .inr ⟨a, n, rest, by simp⟩

/-- What follows the name of a call. -/
def CallTail (s : List Char) : Prop :=
  ∃ (inside : List Char) (n : Nat) (rest : List Char), s = '(' :: inside ++ ')' :: List.replicate (n + 1) ' ' ++ "= ".toList ++ rest ∧ inside ≠ []

theorem callTail_cons (c : Char) (s : List Char) : CallTail (c :: s) ↔ c = '(' ∧ callEnd (s.drop 1) = true := by
  rw [callEnd_iff]
  constructor
  · rintro ⟨inside, n, rest, h, hne⟩
    cases inside with
    | nil => exact absurd rfl hne
    | cons x inside =>
      simp at h
      obtain ⟨rfl, rfl⟩ := h
      exact ⟨rfl, inside, n, rest, by simp⟩
  · rintro ⟨rfl, a, n, rest, h⟩
    cases s with
    | nil => simp at h
    | cons x s =>
      simp only [List.drop_succ_cons, List.drop_zero] at h
      exact ⟨x :: a, n, rest, by rw [h]; simp, by simp⟩

/-- Digits and what follows the name of a call. -/
def DigitsTail (s : List Char) : Prop := ∃ ds t, s = ds ++ t ∧ (∀ c ∈ ds, c.isDigit = true) ∧ CallTail t

theorem digitsTail_cons (c : Char) (s : List Char) : DigitsTail (c :: s) ↔ CallTail (c :: s) ∨ (c.isDigit = true ∧ DigitsTail s) := by
  constructor
  · rintro ⟨ds, t, h, hd, ht⟩
    cases ds with
    | nil => exact .inl (by simpa [h] using ht)
    | cons x ds =>
      simp at h
      obtain ⟨rfl, rfl⟩ := h
      exact .inr ⟨hd c (by simp), ds, t, rfl, fun y hy => hd y (by simp [hy]), ht⟩
  · rintro (h | ⟨hc, ds, t, rfl, hd, ht⟩)
    · exact ⟨[], _, rfl, by simp, h⟩
    · exact ⟨c :: ds, t, rfl, by simpa using ⟨hc, hd⟩, ht⟩

theorem straceLook_tail (s : List Char) : StraceLook s ↔ ∃ before name t, s = before ++ name ++ t ∧ name ≠ [] ∧ (∀ c ∈ name, 'a' ≤ c ∧ c ≤ 'z') ∧ DigitsTail t := by
  constructor
  · rintro ⟨b, n, ds, i, k, rest, rfl, h1, h2, h3, h4⟩
    exact ⟨b, n, _, by simp, h1, h2, ds, '(' :: i ++ ')' :: List.replicate (k + 1) ' ' ++ "= ".toList ++ rest, rfl, h3, i, k, rest, rfl, h4⟩
  · rintro ⟨b, n, _, rfl, h1, h2, ds, _, rfl, h3, i, k, rest, rfl, h4⟩
    exact ⟨b, n, ds, i, k, rest, by simp, h1, h2, h3, h4⟩

theorem straceLook_cons (c : Char) (s : List Char) : StraceLook (c :: s) ↔ StraceLook s ∨ (('a' ≤ c ∧ c ≤ 'z') ∧ DigitsTail s) := by
  rw [straceLook_tail, straceLook_tail]
  constructor
  · rintro ⟨b, n, t, h, h1, h2, h3⟩
    cases b with
    | nil =>
      cases n with
      | nil => exact absurd rfl h1
      | cons x n =>
        simp at h
        obtain ⟨rfl, rfl⟩ := h
        cases n with
        | nil => exact .inr ⟨h2 c (by simp), h3⟩
        | cons y n => exact .inl ⟨[], y :: n, t, rfl, by simp, fun z hz => h2 z (List.mem_cons_of_mem _ hz), h3⟩
    | cons x b =>
      simp at h
      obtain ⟨rfl, rfl⟩ := h
      exact .inl ⟨b, n, t, by simp, h1, h2, h3⟩
  · rintro (⟨b, n, t, rfl, h1, h2, h3⟩ | ⟨hc, h3⟩)
    · exact ⟨c :: b, n, t, by simp, h1, h2, h3⟩
    · exact ⟨[], [c], s, rfl, by simp, by simpa using hc, h3⟩

theorem callFrom_iff (s : List Char) : ∀ after : Bool, callFrom after s = true ↔ (after = true ∧ DigitsTail s) ∨ StraceLook s := by
  induction s with
  | nil =>
    intro after
    rw [straceLook_tail]
    simp [callFrom, DigitsTail, CallTail]
  | cons c s ih =>
    intro after
    rw [callFrom, Bool.or_eq_true, ih, straceLook_cons, digitsTail_cons, callTail_cons]
    simp only [Bool.and_eq_true, Bool.or_eq_true, decide_eq_true_eq]
    tauto

theorem looksStrace_iff (s : List Char) : looksStrace s = true ↔ StraceLook s := by
  rw [looksStrace, callFrom_iff]
  simp

theorem looksAudit_iff (s : List Char) : looksAudit s = true ↔ AuditLook s := by
  rw [looksAudit, Bool.or_eq_true, contains_iff, contains_iff]
  constructor
  · rintro (⟨a, b, rfl⟩ | ⟨a, b, rfl⟩)
    · exact ⟨a, _, b, by simp, .inl rfl⟩
    · exact ⟨a, _, b, by simp, .inr rfl⟩
  · rintro ⟨a, t, b, rfl, rfl | rfl⟩
    · exact .inl ⟨a, b, by simp⟩
    · exact .inr ⟨a, b, by simp⟩

theorem isLog_iff (lines : List (List Char)) : isLog lines = true ↔
    ∃ before line after, lines = before ++ line :: after ∧ AuditLook line ∧ ¬StraceLook line ∧ ∀ l ∈ before, ¬AuditLook l ∧ ¬StraceLook l := by
  induction lines with
  | nil => simp [isLog]
  | cons l ls ih =>
    rw [isLog]
    by_cases h1 : looksStrace l = true
    · rw [if_pos h1]
      rw [looksStrace_iff] at h1
      refine ⟨fun h => absurd h (by simp), ?_⟩
      rintro ⟨b, x, a, he, h2, h3, h4⟩
      cases b with
      | nil => simp at he; exact absurd h1 (he.1 ▸ h3)
      | cons y b => simp at he; exact absurd h1 (he.1 ▸ (h4 y (by simp)).2)
    · rw [if_neg h1]
      rw [looksStrace_iff] at h1
      by_cases h2 : looksAudit l = true
      · rw [if_pos h2]
        rw [looksAudit_iff] at h2
        exact ⟨fun _ => ⟨[], l, ls, rfl, h2, h1, by simp⟩, fun _ => rfl⟩
      · rw [if_neg h2, ih]
        rw [looksAudit_iff] at h2
        constructor
        · rintro ⟨b, x, a, rfl, h3, h4, h5⟩
          exact ⟨l :: b, x, a, rfl, h3, h4, by simpa using ⟨⟨h2, h1⟩, h5⟩⟩
        · rintro ⟨b, x, a, he, h3, h4, h5⟩
          cases b with
          | nil => simp at he; exact absurd h3 (he.1 ▸ h2)
          | cons y b =>
            simp at he
            obtain ⟨rfl, rfl⟩ := he
            exact ⟨b, x, a, rfl, h3, h4, fun z hz => h5 z (by simp [hz])⟩

/-! ### What is known -/

theorem knows_none {P Q : List Char → List (List Char) → Prop} {st : Seen} (h : Knows P st) (hq : ∀ n a, ¬Q n a) : Knows (fun n a => P n a ∨ Q n a) st :=
  knows_congr h fun n a => by simp [hq n a]

theorem knows_bare {P Q : List Char → List (List Char) → Prop} {st : Seen} (h : Knows P st) {n : List Char} {args : List (List Char)}
    (hq : ∀ m a, Q m a ↔ m = n ∧ a = args) (hi : inspectedArg n = none) : Knows (fun n a => P n a ∨ Q n a) ⟨count n st.syscalls, st.values⟩ := by
  refine ⟨count_nodup h.nodup, ?_, ?_⟩
  · intro m
    rw [count_mem, h.names]
    constructor
    · rintro (⟨a, ha⟩ | rfl)
      · exact ⟨a, .inl ha⟩
      · exact ⟨args, .inr ((hq _ _).2 ⟨rfl, rfl⟩)⟩
    · rintro ⟨a, ha | ha⟩
      · exact .inl ⟨a, ha⟩
      · exact .inr ((hq _ _).1 ha).1
  · intro m v
    rw [h.values]
    constructor
    · rintro ⟨a, i, ha, hr⟩
      exact ⟨a, i, .inl ha, hr⟩
    · rintro ⟨a, i, ha | ha, hr⟩
      · exact ⟨a, i, ha, hr⟩
      · have := ((hq _ _).1 ha).1
        rw [this, ← inspected_iff, hi] at hr
        cases hr.1

theorem knows_full {P Q : List Char → List (List Char) → Prop} {st : Seen} (h : Knows P st) {n v : List Char} {args : List (List Char)} {i : Nat}
    (hq : ∀ m a, Q m a ↔ m = n ∧ a = args) (hi : inspectedArg n = some i) (hv : args[i]? = some v) :
    Knows (fun n a => P n a ∨ Q n a) ⟨count n st.syscalls, addValue n v st.values⟩ := by
  refine ⟨count_nodup h.nodup, ?_, ?_⟩
  · intro m
    rw [count_mem, h.names]
    constructor
    · rintro (⟨a, ha⟩ | rfl)
      · exact ⟨a, .inl ha⟩
      · exact ⟨args, .inr ((hq _ _).2 ⟨rfl, rfl⟩)⟩
    · rintro ⟨a, ha | ha⟩
      · exact .inl ⟨a, ha⟩
      · exact .inr ((hq _ _).1 ha).1
  · intro m w
    rw [addValue_mem, h.values]
    constructor
    · rintro (⟨b, j, hb, hr⟩ | ⟨rfl, rfl⟩)
      · exact ⟨b, j, .inl hb, hr⟩
      · exact ⟨args, i, .inr ((hq _ _).2 ⟨rfl, rfl⟩), (inspected_iff _ _).1 hi, hv⟩
    · rintro ⟨b, j, hb | hb, hr⟩
      · exact .inl ⟨b, j, hb, hr⟩
      · obtain ⟨rfl, rfl⟩ := (hq _ _).1 hb
        have hj := (inspected_iff m j).2 hr.1
        rw [hi] at hj
        cases hj
        rw [hv] at hr
        exact .inr ⟨rfl, by simpa using hr.2.symm⟩

theorem recordOf_iff (type comm : List Char) (r : LogRecord) : RecordOf type comm r ↔
    (findField r "type".toList).map Prod.fst = some type ∧ (findField r "comm".toList).map Prod.fst = some ('"' :: comm ++ ['"']) := by
  unfold RecordOf
  refine and_congr ?_ ?_
  all_goals
    constructor
    · rintro ⟨m, h⟩
      rw [(hasField_iff _ _ _ _).1 h]; rfl
    · intro h
      obtain ⟨⟨w, m⟩, h1, h2⟩ := Option.map_eq_some_iff.1 h
      simp only [] at h2
      subst h2
      exact ⟨m, (hasField_iff _ _ _ _).2 h1⟩

theorem namesCall_iff {r : LogRecord} {w m : List Char} (h : findField r "syscall".toList = some (w, m)) (syscall : List Char) :
    NamesCall r syscall ↔ syscall = auditName m := by
  constructor
  · rintro ⟨w', m', h1, h2⟩
    rw [(hasField_iff _ _ _ _).1 h1] at h
    cases h
    exact (auditName_iff _ _).1 h2
  · intro hs
    exact ⟨w, m, (hasField_iff _ _ _ _).2 h, (auditName_iff _ _).2 hs⟩

/-- The arguments of a record. -/
def argsFound (r : LogRecord) : List (List Char) := argFields.map fun n => ((findField r n).map Prod.snd).getD []

theorem argsOf_iff (r : LogRecord) (args : List (List Char)) : ArgsOf r args ↔ args = argsFound r := by
  have key : ∀ (n arg : List Char), ((∃ w, HasField r n w arg) ∨ (∀ w m, ¬HasField r n w m) ∧ arg = []) ↔ arg = ((findField r n).map Prod.snd).getD [] := by
    intro n arg
    cases h : findField r n with
    | none =>
      simp only [hasField_iff, h]
      simp
    | some x =>
      simp only [hasField_iff, h]
      obtain ⟨w, m⟩ := x
      simp only [Option.some.injEq, Prod.mk.injEq, Option.map_some, Option.getD_some]
      constructor
      · rintro (⟨w, rfl, rfl⟩ | ⟨hh, -⟩)
        · rfl
        · exact absurd ⟨rfl, rfl⟩ (hh w m)
      · rintro rfl
        exact .inl ⟨w, rfl, rfl⟩
  unfold ArgsOf argsFound
  simp only [key]
  generalize argFields = l
  induction l generalizing args with
  | nil => simp
  | cons n l ih =>
    rw [List.forall₂_cons_left_iff]
    constructor
    · rintro ⟨b, u, rfl, hu, rfl⟩
      rw [(ih u).1 hu]; rfl
    · rintro rfl
      exact ⟨_, _, rfl, (ih _).2 rfl, rfl⟩

/-- What a record needs to be read. -/
structure GoodRecord (T : CommonTables) (comm : List Char) (r : LogRecord) : Prop where
  calls : RecordOf "SECCOMP".toList comm r ∨ RecordOf "SYSCALL".toList comm r → ∃ w m, w ≠ [] ∧ HasField r "syscall".toList w m
  args : ∀ (syscall : List Char) (i : Nat) (name : List Char), RecordOf "SYSCALL".toList comm r → NamesCall r syscall →
    (syscall, i) ∈ lookedAt → argFields[i]? = some name → ∃ w m v, w ≠ [] ∧ HasField r name w m ∧ CommonConst T m v

theorem looked_field {n : List Char} {i : Nat} (h : (n, i) ∈ lookedAt) : argFields[i]? = some ("a".toList ++ Nat.toDigits 10 i) := by
  simp only [lookedAt, List.mem_cons, Prod.mk.injEq, List.not_mem_nil, or_false] at h
  rcases h with ⟨-, rfl⟩ | ⟨-, rfl⟩ | ⟨-, rfl⟩ | ⟨-, rfl⟩ | ⟨-, rfl⟩ | ⟨-, rfl⟩ <;> decide

theorem parseRecord_knows {T : CommonTables} {comm : List Char} {r : LogRecord} (hg : GoodRecord T comm r) {P : List Char → List (List Char) → Prop} {st : Seen}
    (h : Knows P st) : ∃ st', parseRecord comm st r = some st' ∧ Knows (fun n a => P n a ∨ RecordTells comm r n a) st' := by
  unfold parseRecord
  simp only []
  have h1 := recordOf_iff "SECCOMP".toList comm r
  have h2 := recordOf_iff "SYSCALL".toList comm r
  by_cases hc : ((findField r "type".toList).map Prod.fst ≠ some "SECCOMP".toList ∧ (findField r "type".toList).map Prod.fst ≠ some "SYSCALL".toList) ∨
      (findField r "comm".toList).map Prod.fst ≠ some ('"' :: comm ++ ['"'])
  · rw [if_pos hc]
    refine ⟨st, rfl, knows_none h ?_⟩
    rintro n a (⟨hr, -, -⟩ | ⟨hr, -, -, -⟩)
    · have := h1.1 hr
      rcases hc with hc | hc
      · exact hc.1 this.1
      · exact hc this.2
    · have := h2.1 hr
      rcases hc with hc | hc
      · exact hc.2 this.1
      · exact hc this.2
  · rw [if_neg hc]
    rw [not_or, not_and_or, not_not, not_not, not_not] at hc
    obtain ⟨htype, hcomm⟩ := hc
    obtain ⟨w, m, hw, hf⟩ := hg.calls (htype.imp (fun e => h1.2 ⟨e, hcomm⟩) (fun e => h2.2 ⟨e, hcomm⟩))
    rw [hasField_iff] at hf
    rw [hf]
    simp only []
    rw [if_neg hw]
    have hn := namesCall_iff hf
    generalize auditName m = n at hn
    cases hi : inspectedArg n with
    | none =>
      simp only []
      have hno : ∀ i, (n, i) ∉ lookedAt := fun i hh => by rw [← inspected_iff, hi] at hh; cases hh
      by_cases hs : (findField r "type".toList).map Prod.fst = some "SYSCALL".toList
      · rw [if_pos hs]
        refine ⟨st, rfl, knows_none h ?_⟩
        rintro k a (⟨hr, -, -⟩ | ⟨hr, hk, hl, -⟩)
        · have := (h1.1 hr).1
          rw [hs] at this
          exact absurd this (by decide)
        · rw [(hn k).1 hk] at hl
          exact hno _ hl
      · rw [if_neg hs]
        refine ⟨_, rfl, knows_bare h (args := []) ?_ hi⟩
        intro k a
        constructor
        · rintro (⟨-, hk, -⟩ | ⟨hr, -, -, -⟩)
          · exact ⟨(hn k).1 hk, rfl⟩
          · exact absurd (h2.1 hr).1 hs
        · rintro ⟨rfl, rfl⟩
          exact .bare (h1.2 ⟨htype.resolve_right hs, hcomm⟩) ((hn _).2 rfl) hno
    | some i =>
      simp only []
      have hin := (inspected_iff n i).1 hi
      by_cases hs : (findField r "type".toList).map Prod.fst = some "SECCOMP".toList
      · rw [if_pos hs]
        refine ⟨st, rfl, knows_none h ?_⟩
        rintro k a (⟨-, hk, hno⟩ | ⟨hr, -, -, -⟩)
        · rw [(hn k).1 hk] at hno
          exact hno i hin
        · have := (h2.1 hr).1
          rw [hs] at this
          exact absurd this (by decide)
      · rw [if_neg hs]
        have hr := h2.2 ⟨htype.resolve_left hs, hcomm⟩
        have hfield := looked_field hin
        obtain ⟨aw, am, v, haw, haf, -⟩ := hg.args n i _ hr ((hn n).2 rfl) hin hfield
        rw [hasField_iff] at haf
        rw [haf]
        simp only []
        rw [if_neg haw]
        refine ⟨_, rfl, knows_full h (args := argsFound r) ?_ hi ?_⟩
        · intro k a
          constructor
          · rintro (⟨hr', -, -⟩ | ⟨-, hk, -, ha⟩)
            · exact absurd (h1.1 hr').1 hs
            · exact ⟨(hn k).1 hk, (argsOf_iff _ _).1 ha⟩
          · rintro ⟨rfl, rfl⟩
            exact .full hr ((hn _).2 rfl) hin ((argsOf_iff _ _).2 rfl)
        · rw [argsFound, List.getElem?_map, hfield, Option.map_some, haf]
          rfl

theorem parseEvent_knows {T : CommonTables} {comm : List Char} : ∀ (event : List LogRecord), (∀ r ∈ event, GoodRecord T comm r) →
    ∀ {P : List Char → List (List Char) → Prop} {st : Seen}, Knows P st →
    ∃ st', event.foldlM (parseRecord comm) st = some st' ∧ Knows (fun n a => P n a ∨ ∃ r ∈ event, RecordTells comm r n a) st'
  | [], _, P, st, h => ⟨st, rfl, knows_congr h (by simp)⟩
  | r :: rs, hg, P, st, h => by
    obtain ⟨st1, e1, k1⟩ := parseRecord_knows (hg r (by simp)) h
    obtain ⟨st2, e2, k2⟩ := parseEvent_knows rs (fun x hx => hg x (by simp [hx])) k1
    refine ⟨st2, ?_, knows_congr k2 ?_⟩
    · rw [List.foldlM_cons, e1]; exact e2
    · intro n a
      simp [or_assoc]

theorem searched_of_tells {comm : List Char} {event : List LogRecord} {r : LogRecord} (hr : r ∈ event) {n : List Char} {a : List (List Char)}
    (h : RecordTells comm r n a) : searched comm event = true := by
  have key : ∀ type, type = "SECCOMP".toList ∨ type = "SYSCALL".toList → RecordOf type comm r → searched comm event = true := by
    rintro type ht ⟨⟨m, b, c, e, -⟩, m', b', c', e', -⟩
    unfold searched
    rw [List.any_eq_true]
    refine ⟨r, hr, ?_⟩
    rw [Bool.and_eq_true, List.any_eq_true, List.any_eq_true]
    refine ⟨⟨("type".toList, type, m), e ▸ List.mem_append_right _ List.mem_cons_self, ?_⟩,
      ⟨("comm".toList, '"' :: comm ++ ['"'], m'), e' ▸ List.mem_append_right _ List.mem_cons_self, ?_⟩⟩
    · rcases ht with rfl | rfl <;> simp
    · simp
  rcases h with ⟨h, -, -⟩ | ⟨h, -, -, -⟩
  · exact key _ (.inl rfl) h
  · exact key _ (.inr rfl) h

theorem parseEvents_knows {T : CommonTables} {comm : List Char} : ∀ (events : List (List LogRecord)), (∀ event ∈ events, ∀ r ∈ event, GoodRecord T comm r) →
    ∀ {P : List Char → List (List Char) → Prop} {st : Seen}, Knows P st →
    ∃ st', (events.filter (searched comm)).foldlM (fun st event => event.foldlM (parseRecord comm) st) st = some st' ∧
      Knows (fun n a => P n a ∨ ∃ event ∈ events, ∃ r ∈ event, RecordTells comm r n a) st'
  | [], _, P, st, h => ⟨st, rfl, knows_congr h (by simp)⟩
  | e :: es, hg, P, st, h => by
    by_cases hs : searched comm e = true
    · obtain ⟨st1, e1, k1⟩ := parseEvent_knows e (hg e (by simp)) h
      obtain ⟨st2, e2, k2⟩ := parseEvents_knows es (fun x hx => hg x (by simp [hx])) k1
      refine ⟨st2, ?_, knows_congr k2 ?_⟩
      · rw [List.filter_cons_of_pos hs, List.foldlM_cons, e1]; exact e2
      · intro n a
        simp [or_assoc]
    · obtain ⟨st2, e2, k2⟩ := parseEvents_knows es (fun x hx => hg x (by simp [hx])) h
      refine ⟨st2, ?_, knows_congr k2 ?_⟩
      · rw [List.filter_cons_of_neg hs]; exact e2
      · intro n a
        have : ¬∃ r ∈ e, RecordTells comm r n a := fun ⟨r, hr, ht⟩ => hs (searched_of_tells hr ht)
        simp only [List.mem_cons, exists_eq_or_imp, this, false_or]

theorem parseLogs_knows {T : CommonTables} {comm : List Char} : ∀ (logs : List (List (List LogRecord))), (∀ log ∈ logs, ∃ r event rest, log = (r :: event) :: rest) →
    (∀ log ∈ logs, ∀ event ∈ log, ∀ r ∈ event, GoodRecord T comm r) → ∀ {P : List Char → List (List Char) → Prop} {st : Seen}, Knows P st →
    ∃ st', logs.foldlM (parseAuditLog comm) st = some st' ∧ Knows (fun n a => P n a ∨ LogTells comm logs n a) st'
  | [], _, _, P, st, h => ⟨st, rfl, knows_congr h (by simp [LogTells])⟩
  | l :: ls, hb, hg, P, st, h => by
    obtain ⟨r, event, rest, hl⟩ := hb l (by simp)
    obtain ⟨st1, e1, k1⟩ := parseEvents_knows l (hg l (by simp)) h
    obtain ⟨st2, e2, k2⟩ := parseLogs_knows ls (fun x hx => hb x (by simp [hx])) (fun x hx => hg x (by simp [hx])) k1
    refine ⟨st2, ?_, knows_congr k2 ?_⟩
    · rw [List.foldlM_cons]
      have : parseAuditLog comm st l = some st1 := by rw [← e1, hl]; rfl
      rw [this]; exact e2
    · intro n a
      simp [LogTells, or_assoc]

/-! ### All files -/

theorem isLog_look {f : InputFile} (h : '\r' ∉ f.2.1) : isLog (pyLines f.2.1) = true ↔ LogLook f.2.1 := by
  rw [pyLines_physical _ h, isLog_iff]
  rfl

theorem mapM_some {α : Type} (l : List α) : (l.map some).mapM id = some l := by
  induction l with
  | nil => rfl
  | cons x l ih =>
    rw [List.map_cons, List.mapM_cons, ih]
    rfl

theorem mapM_none {α : Type} {l : List (Option α)} (h : none ∈ l) : l.mapM id = none := by
  induction l with
  | nil => cases h
  | cons x l ih =>
    rw [List.mapM_cons]
    cases x with
    | none => rfl
    | some x =>
      rw [ih (by simpa using h)]
      rfl

/-- After all files the tool knows what they tell. -/
theorem files_known {T : CommonTables} {comm : List Char} {files : List InputFile} (hg : GoodFiles T comm files) :
    ∃ st1 st2, (files.filter fun f => !isLog (pyLines f.2.1)).foldlM (fun st f => parseTraceFile st (f.1, f.2.1)) ⟨[], fun _ => []⟩ = some st1 ∧
      (files.filter fun f => isLog (pyLines f.2.1)).foldlM (fun st f => parseAuditLog comm st f.2.2) st1 = some st2 ∧ Knows (FilesTell comm files) st2 := by
  have hlog : ∀ f ∈ files, isLog (pyLines f.2.1) = true ↔ LogLook f.2.1 := fun f hf => isLog_look (hg.noReturns f hf)
  have ht : ∀ x ∈ (files.filter fun f => !isLog (pyLines f.2.1)).map (fun f => (f.1, f.2.1)), GoodTraces T [x] := by
    intro x hx
    obtain ⟨f, hf, rfl⟩ := List.mem_map.1 hx
    obtain ⟨hf, hn⟩ := List.mem_filter.1 hf
    refine hg.traces f hf fun hh => ?_
    rw [(hlog f hf).2 hh] at hn
    cases hn
  have hl : ∀ x ∈ (files.filter fun f => isLog (pyLines f.2.1)).map (fun f => f.2.2), GoodLogs T comm [x] := by
    intro x hx
    obtain ⟨f, hf, rfl⟩ := List.mem_map.1 hx
    obtain ⟨hf, hn⟩ := List.mem_filter.1 hf
    exact hg.logs f hf ((hlog f hf).1 hn)
  obtain ⟨st1, e1, k1⟩ := parseFiles_knows (T := T) ((files.filter fun f => !isLog (pyLines f.2.1)).map (fun f => (f.1, f.2.1)))
    (P := fun _ _ => False) (st := ⟨[], fun _ => []⟩) ⟨by simp, by simp, by simp⟩ (fun x hx => (ht x hx).noReturns x (by simp)) (fun x hx => (ht x hx).lines x (by simp))
    (fun x hx l hl' n a i ⟨y, hy⟩ hi => (ht x hx).written n a i ⟨x, by simp, l, hl', y, hy⟩ hi)
  obtain ⟨st2, e2, k2⟩ := parseLogs_knows (T := T) ((files.filter fun f => isLog (pyLines f.2.1)).map (fun f => f.2.2)) (fun x hx => (hl x hx).begun x (by simp))
    (fun x hx e he r hr => ⟨(hl x hx).calls x (by simp) e he r hr, (hl x hx).args x (by simp) e he r hr⟩) k1
  rw [List.foldlM_map] at e1 e2
  refine ⟨st1, st2, e1, e2, knows_congr k2 ?_⟩
  intro n a
  unfold FilesTell LogTells Tells
  constructor
  · rintro ((h | ⟨x, hx, h⟩) | ⟨x, hx, h⟩)
    · cases h
    · obtain ⟨f, hf, rfl⟩ := List.mem_map.1 hx
      obtain ⟨hf, hn⟩ := List.mem_filter.1 hf
      refine ⟨f, hf, .inl ⟨fun hh => ?_, _, List.mem_singleton.2 rfl, h⟩⟩
      rw [(hlog f hf).2 hh] at hn
      cases hn
    · obtain ⟨f, hf, rfl⟩ := List.mem_map.1 hx
      obtain ⟨hf, hn⟩ := List.mem_filter.1 hf
      exact ⟨f, hf, .inr ⟨(hlog f hf).1 hn, _, List.mem_singleton.2 rfl, h⟩⟩
  · rintro ⟨f, hf, ⟨hn, x, hx, h⟩ | ⟨hn, x, hx, h⟩⟩
    · rw [List.mem_singleton] at hx
      subst hx
      refine .inl (.inr ⟨_, List.mem_map.2 ⟨f, List.mem_filter.2 ⟨hf, ?_⟩, rfl⟩, h⟩)
      rw [Bool.not_eq_true', ← Bool.not_eq_true, hlog f hf]
      exact hn
    · rw [List.mem_singleton] at hx
      subst hx
      exact .inr ⟨_, List.mem_map.2 ⟨f, List.mem_filter.2 ⟨hf, (hlog f hf).2 hn⟩, rfl⟩, h⟩

theorem files_calls {T : CommonTables} {comm : List Char} {files : List InputFile} (hg : GoodFiles T comm files) {n : List Char} {args : List (List Char)}
    (h : FilesTell comm files n args) : (T.syscall n).isSome := by
  obtain ⟨f, hf, ⟨hn, h⟩ | ⟨hn, h⟩⟩ := h
  · exact (hg.traces f hf hn).known n args h
  · exact (hg.logs f hf hn).known n args h

theorem files_written {T : CommonTables} {comm : List Char} {files : List InputFile} (hg : GoodFiles T comm files) (n : List Char) (args : List (List Char)) (i : Nat)
    (h : FilesTell comm files n args) (hi : (n, i) ∈ lookedAt) : ∃ a v, args[i]? = some a ∧ CommonConst T a v := by
  obtain ⟨f, hf, ⟨hn, h⟩ | ⟨hn, h⟩⟩ := h
  · exact (hg.traces f hf hn).written n args i h hi
  · obtain ⟨log, hl, event, he, r, hr, ht⟩ := h
    have hgl := hg.logs f hf hn
    rcases ht with ⟨-, -, hno⟩ | ⟨h1, h2, -, h4⟩
    · exact absurd hi (hno i)
    · obtain ⟨w, m, v, -, h5, h6⟩ := hgl.args log hl event he r hr n i _ h1 h2 hi (looked_field hi)
      refine ⟨m, v, ?_, h6⟩
      rw [(argsOf_iff _ _).1 h4, argsFound, List.getElem?_map, looked_field hi, Option.map_some, (hasField_iff _ _ _ _).1 h5]
      rfl

end Minijail
