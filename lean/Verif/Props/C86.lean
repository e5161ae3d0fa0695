import Verif.Proof.Tables
/-! C86: the tables of the policy compiler. -/
set_option linter.unusedSimpArgs false
set_option autoImplicit false
namespace Minijail
open Tables Tables.Abs
open Spec (firstRule TablesOrdinary RulesTold LabelsTold)

/-- The part of **C86** about memory: if there is memory for the array, no memory is misused whatever is asked of the tables and whichever later requests fail, and when compiling is over all
memory is as it was before. Missing: no memory for the array (`C86_violated`). -/
theorem C86_memory_partial (fails : Nat → Bool) (num : Nat) (us : List Tables.Use) (m : TMem) (hm : TablesOrdinary m) (hfirst : fails m.asked = false) :
    tables fails num us m ≠ .ub ∧ ∀ as m', tables fails num us m = .ok as m' → m'.cells = m.cells := by
  rcases tables_ok hm num us hfirst with ⟨h, -⟩ | ⟨as, m', s', h, hc, -⟩
  · rw [h]; exact ⟨by simp, by simp⟩
  · rw [h]
    refine ⟨by simp, fun as' m'' he => ?_⟩
    cases he
    exact funext hc

/-- The process ends only when there is no memory, or for an index that no system call has. -/
theorem C86_ends (fails : Nat → Bool) (num : Nat) (us : List Tables.Use) (m : TMem) (hm : TablesOrdinary m) (hfails : ∀ i, fails i = false)
    (hind : ∀ ind file line, Tables.Use.rule ind file line ∈ us → ind < num) : ∃ as m', tables fails num us m = .ok as m' := by
  rcases tables_ok hm num us (hfails _) with ⟨-, ⟨i, h⟩ | ⟨ind, file, line, h, hle⟩⟩ | ⟨as, m', s', h, -⟩
  · rw [hfails] at h; cases h
  · have := hind ind file line h; omega
  · exact ⟨as, m', h⟩

/-- **C86** about rules: each rule is told the place of the first one for the same system call, if there was one before, and nothing otherwise. -/
theorem C86_rules (fails : Nat → Bool) (num : Nat) (us : List Tables.Use) (m : TMem) (hm : TablesOrdinary m) (hfirst : fails m.asked = false) (as : List Ans) (m' : TMem)
    (h : tables fails num us m = .ok as m') : RulesTold us as := by
  rcases tables_ok hm num us hfirst with ⟨h', -⟩ | ⟨as', m'', s', h', -, hr⟩
  · rw [h] at h'; cases h'
  · rw [h] at h'; cases h'
    intro i ind file line hi
    exact absRun_rules hr i ind file line hi

/-- **C86** about labels, which are of at most 32 characters: ids are below 512, and two ids are the same if and only if the names are. -/
theorem C86_labels (fails : Nat → Bool) (num : Nat) (us : List Tables.Use) (m : TMem) (hm : TablesOrdinary m) (hfirst : fails m.asked = false) (as : List Ans) (m' : TMem)
    (h : tables fails num us m = .ok as m') (hshort : ∀ n, Tables.Use.label n ∈ us → n.length ≤ 32) : LabelsTold us as := by
  rcases tables_ok hm num us hfirst with ⟨h', -⟩ | ⟨as', m'', s', h', -, hr⟩
  · rw [h] at h'; cases h'
  · rw [h] at h'; cases h'
    obtain ⟨-, a2, a3, -, a5, a6⟩ := absRun_labels hr hshort (by simp) (by simp [BPF_LABELS_MAX])
    have hget : ∀ (i : Nat) n a, us[i]? = some (.label n) → as[i]? = some (.id (some a)) → s'.names[a]? = some n := by
      intro i n a h1 h2
      obtain ⟨r, g1, g2, -⟩ := a5 i n h1
      rw [h2] at g1
      simp only [Option.some.injEq, Ans.id.injEq] at g1
      exact g2 a g1.symm
    refine ⟨fun i n hi => ?_, fun i a hi => ?_, fun i j n n' a b h1 h2 h3 h4 => ?_⟩
    · obtain ⟨r, g1, -⟩ := a5 i n hi; exact ⟨r, g1⟩
    · obtain ⟨n, hn⟩ := a6 i _ hi
      have := (List.getElem?_eq_some_iff.1 (hget i n a hn hi)).1
      have e : BPF_LABELS_MAX = 512 := rfl
      omega
    · have g1 := hget i n a h1 h3
      have g2 := hget j n' b h2 h4
      constructor
      · intro e
        subst e
        rw [g1] at g2
        exact Option.some.inj g2
      · intro e
        subst e
        obtain ⟨l1, e1⟩ := List.getElem?_eq_some_iff.1 g1
        obtain ⟨l2, e2⟩ := List.getElem?_eq_some_iff.1 g2
        exact (a2.getElem_inj_iff).1 (e1.trans e2.symm)

/-- While there is memory, a label has no id only if 512 different names have been asked for. -/
theorem C86_labels_room (fails : Nat → Bool) (num : Nat) (us : List Tables.Use) (m : TMem) (hm : TablesOrdinary m) (hfails : ∀ i, fails i = false) (as : List Ans) (m' : TMem)
    (h : tables fails num us m = .ok as m') (hshort : ∀ n, Tables.Use.label n ∈ us → n.length ≤ 32) (i : Nat) (hi : as[i]? = some (.id none)) :
    ∃ names : List (List Char), names.Nodup ∧ names.length = 512 ∧ ∀ n ∈ names, Tables.Use.label n ∈ us := by
  rcases tables_ok hm num us (hfails _) with ⟨h', -⟩ | ⟨as', m'', s', h', -, hr⟩
  · rw [h] at h'; cases h'
  · rw [h] at h'; cases h'
    obtain ⟨-, a2, a3, a4, a5, a6⟩ := absRun_labels hr hshort (by simp) (by simp [BPF_LABELS_MAX])
    obtain ⟨n, hn⟩ := a6 i _ hi
    obtain ⟨r, g1, -, g3⟩ := a5 i n hn
    rw [hi] at g1
    simp only [Option.some.injEq, Ans.id.injEq] at g1
    refine ⟨s'.names, a2, g3 hfails g1.symm, fun x hx => ?_⟩
    rcases a4 x hx with h | h
    · simp at h
    · exact h

/-- **C86 does not hold** when there is no memory for the array: it is not looked at whether there is one. An empty policy is enough: the array is read when it is to be freed; and so is any that
begins with a rule. -/
theorem C86_violated (fails : Nat → Bool) (num : Nat) (m : TMem) (hnum : 0 < num) (h : fails m.asked = true) :
    tables fails num [] m = .ub ∧ ∀ ind file line us, ind < num → tables fails num (.rule ind file line :: us) m = .ub := by
  have hr : request fails (.table (List.replicate num none)) m = (none, { m with asked := m.asked + 1 }) := by rw [request, if_pos h]
  constructor
  · obtain ⟨k, rfl⟩ : ∃ k, num = k + 1 := ⟨num - 1, by omega⟩
    unfold tables
    rw [hr]
    rfl
  · intro ind file line us hlt
    unfold tables
    rw [hr]
    simp only [uses, Tables.use, insertCheck, if_neg (Nat.not_le.2 hlt), R.bind]

/-- No memory in use. -/
def noTables : TMem := ⟨fun _ => none, 0, 0⟩

/-- The answers of a run, if it ends. -/
def answers (fails : Nat → Bool) (us : List Tables.Use) : Option (List Ans) :=
  match tables fails 400 us noTables with
  | .ok as _ => some as
  | _ => none

/-- Two rules for one system call, labels that come again, and a request that fails for the second name. -/
def exampleUses : List Tables.Use :=
  [.rule 7 "/p".toList 1, .label "open".toList, .rule 9 "/p".toList 2, .label "2_0_end".toList, .label "open".toList, .rule 7 "/q".toList 1, .label "read".toList]

example : answers (fun _ => false) exampleUses =
    some [.earlier none, .id (some 0), .earlier none, .id (some 1), .id (some 0), .earlier (some ("/p".toList, 1)), .id (some 2)] := by decide +kernel

example : answers (fun i => i == 6) exampleUses =
    some [.earlier none, .id (some 0), .earlier none, .id none, .id (some 0), .earlier (some ("/p".toList, 1)), .id (some 1)] := by decide +kernel

/-- The hypotheses can be met by these. -/
example : TablesOrdinary noTables ∧ (fun i => i == 6 : Nat → Bool) noTables.asked = false ∧ (∀ n, Tables.Use.label n ∈ exampleUses → n.length ≤ 32) ∧
    ∃ as m', tables (fun i => i == 6) 400 exampleUses noTables = .ok as m' := by
  refine ⟨fun _ _ => rfl, rfl, ?_, ?_⟩
  · intro n hn
    simp only [exampleUses, List.mem_cons, List.not_mem_nil, or_false, Tables.Use.label.injEq, reduceCtorEq, false_or] at hn
    rcases hn with rfl | rfl | rfl | rfl <;> decide
  · have h : (answers (fun i => i == 6) exampleUses).isSome = true := by decide +kernel
    unfold answers at h
    split at h
    · next as m' e => exact ⟨as, m', e⟩
    · cases h

end Minijail
