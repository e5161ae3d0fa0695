import Verif.Proof.Generate
/-! What the generator of policies knows after it has read the traces. -/
set_option autoImplicit false
set_option linter.unusedSimpArgs false
namespace Minijail
open Spec Offline Generate

/-! ### Names -/

theorem contains_iff (w s : List Char) : contains w s = true ↔ ∃ a b, s = a ++ w ++ b := by
  induction s with
  | nil =>
    simp only [contains, List.isPrefixOf_iff_prefix]
    constructor
    · rintro ⟨b, h⟩; exact ⟨[], b, by simp [h]⟩
    · rintro ⟨a, b, h⟩
      have := h.symm
      simp only [List.append_eq_nil_iff] at this
      rw [this.1.2]
      exact List.prefix_rfl
  | cons c s ih =>
    simp only [contains, Bool.or_eq_true, ih, List.isPrefixOf_iff_prefix]
    constructor
    · rintro (⟨b, h⟩ | ⟨a, b, h⟩)
      · exact ⟨[], b, by simp [h]⟩
      · exact ⟨c :: a, b, by simp [h]⟩
    · rintro ⟨a, b, h⟩
      cases a with
      | nil => exact .inl ⟨b, by simpa using h.symm⟩
      | cons x a =>
        simp at h
        exact .inr ⟨a, b, by simp [h.2]⟩

theorem usesSocketcall_iff (filename : List Char) : usesSocketcall filename = true ↔ SocketTrace filename := by
  unfold usesSocketcall SocketTrace
  rw [Bool.or_eq_true, Bool.and_eq_true, Bool.not_eq_true', ← Bool.not_eq_true, contains_iff, contains_iff, contains_iff]

theorem arm_mem (s : List Char) : "ARM_".toList ++ s ∈ privateArm ↔ s ∈ armNames := by
  have : privateArm = armNames.map ("ARM_".toList ++ ·) := by decide
  rw [this, List.mem_map]
  constructor
  · rintro ⟨a, ha, e⟩
    rw [← List.append_cancel_left e]
    exact ha
  · exact fun h => ⟨s, h, rfl⟩

theorem calledName_iff (filename name syscall : List Char) : StraceName filename name syscall ↔ syscall = calledName (usesSocketcall filename) name := by
  unfold calledName
  simp only []
  have hs : (usesSocketcall filename = true ∧ name ∈ socketcalls) ↔ (SocketTrace filename ∧ name ∈ socketNames) := by
    rw [usesSocketcall_iff]; exact Iff.rfl
  by_cases h : SocketTrace filename ∧ name ∈ socketNames
  · rw [if_pos (hs.2 h), if_neg (by rw [arm_mem]; decide)]
    constructor
    · intro hn
      cases hn with
      | socket => rfl
      | arm h' => exact absurd h h'
      | plain h' => exact absurd h h'
    · rintro rfl; exact .socket h.1 h.2
  · rw [if_neg fun h' => h (hs.1 h')]
    by_cases ha : name ∈ armNames
    · rw [if_pos ((arm_mem _).2 ha)]
      constructor
      · intro hn
        cases hn with
        | socket h1 h2 => exact absurd ⟨h1, h2⟩ h
        | arm => rfl
        | plain _ h' => exact absurd ha h'
      · rintro rfl; exact .arm h ha
    · rw [if_neg fun h' => ha ((arm_mem _).1 h')]
      constructor
      · intro hn
        cases hn with
        | socket h1 h2 => exact absurd ⟨h1, h2⟩ h
        | arm _ h' => exact absurd h' ha
        | plain => rfl
      · rintro rfl; exact .plain h ha

theorem inspected_iff (n : List Char) (i : Nat) : inspectedArg n = some i ↔ (n, i) ∈ lookedAt := by
  unfold inspectedArg lookedAt
  simp only [List.mem_cons, Prod.mk.injEq, List.not_mem_nil, or_false]
  constructor
  · intro h
    repeat' split at h
    all_goals simp at h
    all_goals subst h; simp_all
  · rintro (⟨rfl, rfl⟩ | ⟨rfl, rfl⟩ | ⟨rfl, rfl⟩ | ⟨rfl, rfl⟩ | ⟨rfl, rfl⟩ | ⟨rfl, rfl⟩) <;> decide

/-! ### What is known -/

/-- The state after calls that `P` tells of. -/
structure Knows (P : List Char → List (List Char) → Prop) (st : Seen) : Prop where
  nodup : (st.syscalls.map Prod.fst).Nodup
  names : ∀ n, n ∈ st.syscalls.map Prod.fst ↔ ∃ args, P n args
  values : ∀ n v, v ∈ st.values n ↔ ∃ args i, P n args ∧ (n, i) ∈ lookedAt ∧ args[i]? = some v

theorem count_keys (n : List Char) : ∀ l : List (List Char × Nat), (count n l).map Prod.fst = if n ∈ l.map Prod.fst then l.map Prod.fst else l.map Prod.fst ++ [n]
  | [] => by simp [count]
  | x :: l => by
    rw [count]
    by_cases h : x.1 = n
    · rw [if_pos h, if_pos (by simp [h])]
      rfl
    · rw [if_neg h, List.map_cons, count_keys n l]
      by_cases h' : n ∈ l.map Prod.fst
      · rw [if_pos h', if_pos (by rw [List.map_cons]; exact List.mem_cons_of_mem _ h')]
        rfl
      · rw [if_neg h', if_neg (by
          rw [List.map_cons, List.mem_cons]
          rintro (e | e)
          · exact h e.symm
          · exact h' e)]
        rfl

theorem count_nodup {n : List Char} {l : List (List Char × Nat)} (h : (l.map Prod.fst).Nodup) : ((count n l).map Prod.fst).Nodup := by
  rw [count_keys]
  by_cases h' : n ∈ l.map Prod.fst
  · rw [if_pos h']; exact h
  · rw [if_neg h', List.nodup_append]
    refine ⟨h, by simp, ?_⟩
    rintro a ha b hb rfl
    simp at hb
    exact h' (hb ▸ ha)

theorem count_mem (n m : List Char) (l : List (List Char × Nat)) : m ∈ (count n l).map Prod.fst ↔ m ∈ l.map Prod.fst ∨ m = n := by
  rw [count_keys]
  by_cases h' : n ∈ l.map Prod.fst
  · rw [if_pos h']
    constructor
    · exact .inl
    · rintro (h | rfl)
      · exact h
      · exact h'
  · rw [if_neg h', List.mem_append, List.mem_singleton]

theorem addValue_mem (n v m w : List Char) (values : List Char → List (List Char)) : w ∈ addValue n v values m ↔ w ∈ values m ∨ (m = n ∧ w = v) := by
  unfold addValue
  by_cases h : m = n
  · rw [if_pos h]
    by_cases h' : v ∈ values m
    · rw [if_pos h']
      constructor
      · exact .inl
      · rintro (hh | ⟨-, rfl⟩)
        · exact hh
        · exact h'
    · rw [if_neg h', List.mem_append, List.mem_singleton]
      simp [h]
  · rw [if_neg h]
    simp [h]

/-- A line of a file tells of a call. -/
def LineTells (filename line syscall : List Char) (args : List (List Char)) : Prop := ∃ name, TraceRecord line name args ∧ StraceName filename name syscall

theorem parseLine_knows {T : CommonTables} {filename line : List Char} {P : List Char → List (List Char) → Prop} {st : Seen} (h : Knows P st)
    (hl : TraceNoise line ∨ ∃ name args, TraceRecord line name args)
    (hw : ∀ syscall args i, LineTells filename line syscall args → (syscall, i) ∈ lookedAt → ∃ a v, args[i]? = some a ∧ CommonConst T a v) :
    ∃ st', parseLine (usesSocketcall filename) st line = some st' ∧ Knows (fun n a => P n a ∨ LineTells filename line n a) st' := by
  rcases hl with hl | ⟨name, args, hl⟩
  · refine ⟨st, by rw [Generate.parseLine, lineRe_noise hl], ?_⟩
    have : ∀ n a, ¬LineTells filename line n a := fun n a ⟨_, h1, _⟩ => record_not_noise h1 hl
    simpa [this] using h
  · obtain ⟨raw, h1, h2, h3⟩ := lineRe_record hl
    have hT : ∀ n a, LineTells filename line n a ↔ n = calledName (usesSocketcall filename) name ∧ a = args := by
      intro n a
      constructor
      · rintro ⟨x, hx, hn⟩
        obtain ⟨rfl, rfl⟩ := record_unique hl hx
        exact ⟨(calledName_iff _ _ _).1 hn, rfl⟩
      · rintro ⟨rfl, rfl⟩
        exact ⟨name, hl, (calledName_iff _ _ _).2 rfl⟩
    rw [Generate.parseLine, h1]
    simp only []
    generalize hn : calledName (usesSocketcall filename) name = n at hT ⊢
    rw [pySplit_eq, h2]
    cases hi : inspectedArg n with
    | none =>
      refine ⟨_, rfl, count_nodup h.nodup, ?_, ?_⟩
      · intro m
        rw [count_mem, h.names]
        constructor
        · rintro (⟨a, ha⟩ | rfl)
          · exact ⟨a, .inl ha⟩
          · exact ⟨args, .inr ((hT _ _).2 ⟨rfl, rfl⟩)⟩
        · rintro ⟨a, ha | ha⟩
          · exact .inl ⟨a, ha⟩
          · exact .inr ((hT _ _).1 ha).1
      · intro m v
        rw [h.values]
        constructor
        · rintro ⟨a, i, ha, hr⟩
          exact ⟨a, i, .inl ha, hr⟩
        · rintro ⟨a, i, ha | ha, hr⟩
          · exact ⟨a, i, ha, hr⟩
          · have := ((hT _ _).1 ha).1
            rw [this, ← inspected_iff, hi] at hr
            cases hr.1
    | some i =>
      have hin := (inspected_iff n i).1 hi
      obtain ⟨a, v, ha, hc⟩ := hw n args i ((hT _ _).2 ⟨rfl, rfl⟩) hin
      have hraw : (raw.map pyStrip)[i]? = some a := by
        rw [h3, List.getElem?_map] at ha
        rw [List.getElem?_map]
        cases hr : raw[i]? with
        | none => rw [hr] at ha; cases ha
        | some r =>
          rw [hr] at ha
          simp at ha ⊢
          rw [← ha] at hc ⊢
          exact pyStrip_trim hc
      simp only []
      rw [hraw]
      refine ⟨_, rfl, count_nodup h.nodup, ?_, ?_⟩
      · intro m
        rw [count_mem, h.names]
        constructor
        · rintro (⟨b, hb⟩ | rfl)
          · exact ⟨b, .inl hb⟩
          · exact ⟨args, .inr ((hT _ _).2 ⟨rfl, rfl⟩)⟩
        · rintro ⟨b, hb | hb⟩
          · exact .inl ⟨b, hb⟩
          · exact .inr ((hT _ _).1 hb).1
      · intro m w
        rw [addValue_mem, h.values]
        constructor
        · rintro (⟨b, j, hb, hr⟩ | ⟨rfl, rfl⟩)
          · exact ⟨b, j, .inl hb, hr⟩
          · exact ⟨args, i, .inr ((hT _ _).2 ⟨rfl, rfl⟩), hin, ha⟩
        · rintro ⟨b, j, hb | hb, hr⟩
          · exact .inl ⟨b, j, hb, hr⟩
          · obtain ⟨rfl, rfl⟩ := (hT _ _).1 hb
            have hj := (inspected_iff m j).2 hr.1
            rw [hi] at hj
            cases hj
            rw [ha] at hr
            exact .inr ⟨rfl, by simpa using hr.2.symm⟩

theorem knows_congr {P Q : List Char → List (List Char) → Prop} {st : Seen} (h : Knows P st) (hpq : ∀ n a, P n a ↔ Q n a) : Knows Q st := by
  have : P = Q := by funext n a; exact propext (hpq n a)
  exact this ▸ h

theorem parseLines_knows {T : CommonTables} {filename : List Char} : ∀ (lines : List (List Char)) {P : List Char → List (List Char) → Prop} {st : Seen},
    Knows P st → (∀ line ∈ lines, TraceNoise line ∨ ∃ name args, TraceRecord line name args) →
    (∀ line ∈ lines, ∀ syscall args i, LineTells filename line syscall args → (syscall, i) ∈ lookedAt → ∃ a v, args[i]? = some a ∧ CommonConst T a v) →
    ∃ st', lines.foldlM (parseLine (usesSocketcall filename)) st = some st' ∧ Knows (fun n a => P n a ∨ ∃ line ∈ lines, LineTells filename line n a) st'
  | [], P, st, h, _, _ => ⟨st, rfl, knows_congr h (by simp)⟩
  | l :: ls, P, st, h, h1, h2 => by
    obtain ⟨st1, e1, k1⟩ := parseLine_knows (T := T) h (h1 l (by simp)) (h2 l (by simp))
    obtain ⟨st2, e2, k2⟩ := parseLines_knows ls k1 (fun x hx => h1 x (by simp [hx])) (fun x hx => h2 x (by simp [hx]))
    refine ⟨st2, ?_, knows_congr k2 ?_⟩
    · rw [List.foldlM_cons, e1]; exact e2
    · intro n a
      simp [or_assoc]

theorem parseFiles_knows {T : CommonTables} : ∀ (files : List (List Char × List Char)) {P : List Char → List (List Char) → Prop} {st : Seen},
    Knows P st → (∀ file ∈ files, '\r' ∉ file.2) → (∀ file ∈ files, ∀ line ∈ physicalLines file.2, TraceNoise line ∨ ∃ name args, TraceRecord line name args) →
    (∀ file ∈ files, ∀ line ∈ physicalLines file.2, ∀ syscall args i, LineTells file.1 line syscall args → (syscall, i) ∈ lookedAt →
      ∃ a v, args[i]? = some a ∧ CommonConst T a v) →
    ∃ st', files.foldlM parseTraceFile st = some st' ∧ Knows (fun n a => P n a ∨ Tells files n a) st'
  | [], P, st, h, _, _, _ => ⟨st, rfl, knows_congr h (by simp [Tells])⟩
  | f :: fs, P, st, h, h0, h1, h2 => by
    obtain ⟨st1, e1, k1⟩ := parseLines_knows (T := T) (filename := f.1) (physicalLines f.2) h (h1 f (by simp)) (h2 f (by simp))
    obtain ⟨st2, e2, k2⟩ := parseFiles_knows fs k1 (fun x hx => h0 x (by simp [hx])) (fun x hx => h1 x (by simp [hx])) (fun x hx => h2 x (by simp [hx]))
    refine ⟨st2, ?_, knows_congr k2 ?_⟩
    · rw [List.foldlM_cons, parseTraceFile, pyLines_physical _ (h0 f (by simp)), e1]; exact e2
    · intro n a
      unfold Tells LineTells
      simp [or_assoc]

/-- After the traces the tool knows what they tell. -/
theorem traces_known {T : CommonTables} {files : List (List Char × List Char)} (h : GoodTraces T files) :
    ∃ st, files.foldlM parseTraceFile ⟨[], fun _ => []⟩ = some st ∧ Knows (Tells files) st := by
  obtain ⟨st, e, k⟩ := parseFiles_knows (T := T) files (P := fun _ _ => False) (st := ⟨[], fun _ => []⟩) ⟨by simp, by simp, by simp⟩ h.noReturns h.lines
    (fun f hf l hl n a i ⟨x, hx⟩ hi => h.written n a i ⟨f, hf, l, hl, x, hx⟩ hi)
  exact ⟨st, e, knows_congr k (by simp)⟩

theorem addBasic_mem (n : List Char) (l : List (List Char × Nat)) : n ∈ (addBasic l).map Prod.fst ↔ n ∈ l.map Prod.fst ∨ n ∈ basicNames := by
  have step : ∀ (ns : List (List Char)) (l : List (List Char × Nat)),
      n ∈ (ns.foldl (fun l n => if n ∈ l.map Prod.fst then l else l ++ [(n, 1)]) l).map Prod.fst ↔ n ∈ l.map Prod.fst ∨ n ∈ ns := by
    intro ns
    induction ns with
    | nil => simp
    | cons m ns ih =>
      intro l
      rw [List.foldl_cons, ih]
      by_cases h : m ∈ l.map Prod.fst
      · rw [if_pos h, List.mem_cons]
        constructor
        · rintro (h' | h')
          · exact .inl h'
          · exact .inr (.inr h')
        · rintro (h' | rfl | h')
          · exact .inl h'
          · exact .inl h
          · exact .inr h'
      · rw [if_neg h, List.map_append, List.mem_append, List.mem_cons]
        simp [or_assoc]
  exact step _ _

theorem addBasic_nodup {l : List (List Char × Nat)} (h : (l.map Prod.fst).Nodup) : ((addBasic l).map Prod.fst).Nodup := by
  have step : ∀ (ns : List (List Char)) (l : List (List Char × Nat)), (l.map Prod.fst).Nodup →
      ((ns.foldl (fun l n => if n ∈ l.map Prod.fst then l else l ++ [(n, 1)]) l).map Prod.fst).Nodup := by
    intro ns
    induction ns with
    | nil => intro l h; exact h
    | cons m ns ih =>
      intro l h
      rw [List.foldl_cons]
      refine ih _ ?_
      by_cases h' : m ∈ l.map Prod.fst
      · rw [if_pos h']; exact h
      · rw [if_neg h', List.map_append, List.nodup_append]
        refine ⟨h, by simp, ?_⟩
        rintro a ha b hb rfl
        simp at hb
        exact h' (hb ▸ ha)
  exact step _ _ h

theorem sortedInsert_perm {α : Type} (le : α → α → Bool) (x : α) : ∀ l : List α, (sortedInsert le x l).Perm (x :: l)
  | [] => .rfl
  | y :: l => by
    rw [sortedInsert]
    split
    · exact .rfl
    · exact ((sortedInsert_perm le x l).cons y).trans (.swap x y l)

theorem pySorted_perm {α : Type} (le : α → α → Bool) : ∀ l : List α, (pySorted le l).Perm l
  | [] => .rfl
  | x :: l => (sortedInsert_perm le x _).trans ((pySorted_perm le l).cons x)

theorem sorted_perm (frequency : Bool) (l : List (List Char × Nat)) : (sortedSyscalls frequency l).Perm l := by
  unfold sortedSyscalls
  cases frequency
  · exact pySorted_perm _ _
  · exact pySorted_perm _ _

end Minijail
