import Verif.Model.Report
import Verif.Spec.CtxLang
/-! Lemmas for C75. -/
set_option autoImplicit false
set_option linter.unusedSimpArgs false
namespace Minijail.Blocked

/-- What the kernel does for each action of a policy. -/
theorem outcome_word (a : Spec.Action) : outcome (.ret a.word) =
    match a with
    | .allow => .allowed
    | .log => .recorded
    | .errno _ => .refused
    | .trap => .trapped
    | .killThread => .ends
    | .killProcess => .ends := by
  cases a with
  | errno e =>
    have h : (BitVec.ofNat 32 (0x50000 + e % 65536)).toNat / 65536 = 5 := by
      rw [BitVec.toNat_ofNat, Nat.mod_eq_of_lt (by omega)]
      omega
    unfold outcome Spec.Action.word
    simp only [h]
    decide
  | _ => rfl

theorem lookupSyscallName_some {table : List (List Char × Nat)} {nr : Int} {name : List Char} (h : lookupSyscallName table nr = some name) :
    ∃ n, (name, n) ∈ table ∧ (n : Int) = nr := by
  induction table with
  | nil => simp [lookupSyscallName] at h
  | cons e rest ih =>
    unfold lookupSyscallName at h
    by_cases he : (e.2 : Int) = nr
    · rw [if_pos he] at h
      exact ⟨e.2, by rw [← Option.some.inj h]; simp, he⟩
    · rw [if_neg he] at h
      obtain ⟨n, h1, h2⟩ := ih h
      exact ⟨n, List.mem_cons_of_mem _ h1, h2⟩

theorem lookupSyscallName_none {table : List (List Char × Nat)} {nr : Int} (h : lookupSyscallName table nr = none) :
    ∀ e ∈ table, (e.2 : Int) ≠ nr := by
  induction table with
  | nil => simp
  | cons e rest ih =>
    unfold lookupSyscallName at h
    by_cases he : (e.2 : Int) = nr
    · rw [if_pos he] at h; exact absurd h (by simp)
    · rw [if_neg he] at h
      intro x hx
      rcases List.mem_cons.1 hx with rfl | hx
      · exact he
      · exact ih h x hx

/-- The text that the handler has for the call. -/
theorem handler_text (table : List (List Char × Nat)) (nr : BitVec 32) :
    CalledBy table nr (match lookupSyscallName table nr.toInt with
      | some name => name
      | none => (toString nr.toInt).toList) := by
  cases h : lookupSyscallName table nr.toInt with
  | some name => exact Or.inl (lookupSyscallName_some h)
  | none => exact Or.inr ⟨lookupSyscallName_none h, rfl⟩

theorem gets_iff {filter : SeccompData → Verdict} {calls : List SeccompData} :
    gets filter calls = true ↔ ∀ d ∈ calls, outcome (filter d) = .allowed ∨ outcome (filter d) = .recorded := by
  simp [gets]

variable {filter : SeccompData → Verdict} {handle : SeccompData → List (Sink × List Char)} {th : Thread}

/-- Calls that the program survives, then others. -/
theorem story_append {pre post : List SeccompData}
    (h : ∀ d ∈ pre, outcome (filter d) = .allowed ∨ outcome (filter d) = .recorded ∨ outcome (filter d) = .refused) :
    story filter handle th (pre ++ post) =
      { records := pre.filter (fun d => outcome (filter d) = .recorded) ++ (story filter handle th post).records
        lines := (story filter handle th post).lines
        made := pre.filter (fun d => outcome (filter d) = .allowed ∨ outcome (filter d) = .recorded) ++ (story filter handle th post).made
        ended := (story filter handle th post).ended } := by
  induction pre with
  | nil => simp
  | cons d pre ih =>
    have ih := ih (fun x hx => h x (List.mem_cons_of_mem _ hx))
    rcases h d (by simp) with hd | hd | hd <;> simp [story, hd, ih]

/-- A call that is trapped or ends the process is the last one. -/
theorem story_stops {d : SeccompData} {post : List SeccompData} (h : outcome (filter d) = .trapped ∨ outcome (filter d) = .ends) :
    (story filter handle th (d :: post)).made = [] ∧ (story filter handle th (d :: post)).records = [] ∧ (story filter handle th (d :: post)).ended = true := by
  rcases h with h | h <;> simp only [story, h]
  · split <;> simp
  · simp

/-- Whatever the calls are: only those that the filter lets through are made. -/
theorem story_made {calls : List SeccompData} : ∀ d ∈ (story filter handle th calls).made, outcome (filter d) = .allowed ∨ outcome (filter d) = .recorded := by
  induction calls with
  | nil => simp [story]
  | cons d rest ih =>
    intro x hx
    unfold story at hx
    cases h : outcome (filter d) with
    | allowed =>
      simp only [h, List.mem_cons] at hx
      rcases hx with rfl | hx
      · exact Or.inl h
      · exact ih x hx
    | recorded =>
      simp only [h, List.mem_cons] at hx
      rcases hx with rfl | hx
      · exact Or.inr h
      · exact ih x hx
    | refused => simp only [h] at hx; exact ih x hx
    | trapped => simp only [h] at hx; split at hx <;> simp at hx
    | ends => simp only [h] at hx; simp at hx

end Minijail.Blocked
