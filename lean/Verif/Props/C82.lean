import Verif.Proof.ConfigMem
/-!
C82: reading config files into a list uses its memory properly (config_parser.c).
-/
set_option autoImplicit false
set_option linter.unusedSimpArgs false
namespace Minijail
open ConfMem Spec

/-- A list that is made, filled from files and freed. No memory is misused; the list can be read and holds the entries of the files, or if a file cannot be read, the first of them; what was in
memory before stays as it is, and after the list has been freed nothing else is left. All that for files of any length, whichever calls of `calloc` and `strdup` fail. Missing:
that growing or shrinking the array fails (`C82_violated_growth`, `C82_violated_shrink`), and a list used again after a file without entries (`C82_violated_reuse`). -/
theorem C82_partial {fails : Kind → Nat → Bool} (hr : ∀ n, fails .realloc n = false) {m : CMem} (hm : Ordinary m) {contents : List CStr}
    (hc : ∀ c cs, contents = c :: cs → cs = [] ∨ (parseConfigFile c).2 ≠ []) :
    (∃ m', newConfigEntryList fails m = .ok none m' ∧ (∀ x, m'.cells x = m.cells x) ∧ ∃ n, fails .calloc n = true) ∨
    (∃ a m1, newConfigEntryList fails m = .ok (some a) m1 ∧ ListHolds m1 a [] ∧
      ∃ ok m2 es, parseConfigFilesMem fails a contents m1 = .ok ok m2 ∧ ListHolds m2 a es ∧ Untouched m m2 ∧
        (ok = true → (∀ c ∈ contents, (parseConfigFile c).1 = true) ∧ es = contents.flatMap fun c => (parseConfigFile c).2) ∧
        (ok = false → es <+: contents.flatMap fun c => (parseConfigFile c).2) ∧
        ((∀ n, fails .strdup n = false) → (∀ c ∈ contents, (parseConfigFile c).1 = true) → ok = true) ∧
        ∃ m3, freeConfigEntryList (some a) m2 = .ok () m3 ∧ ∀ x, m3.cells x = m.cells x) := by
  rcases new_fine (fails := fails) hm with h | ⟨a, b, m1, rest, h1, h2, h3⟩
  · exact .inl h
  · obtain ⟨ok, m2, es, g1, g2, g3, g4, g5⟩ := parse_files hr contents h2 (by simpa using h3) fun _ => hc
    refine .inr ⟨a, m1, h1, fine_holds (.inl ⟨b, [], rest, h2, by simpa using h3⟩), ok, m2, es, g1, fine_holds g2, fine_untouched g2, g3, g4, g5, free_fine g2⟩

/-- When no memory is missing, a file is read as `Model/Config.lean` has it (so that what C17 states holds of the list in memory). -/
theorem C82_one {fails : Kind → Nat → Bool} (hf : ∀ k n, fails k n = false) {m : CMem} (hm : Ordinary m) (content : CStr) :
    ∃ a m1 m2, newConfigEntryList fails m = .ok (some a) m1 ∧ parseConfigFileMem fails content a m1 = .ok (parseConfigFile content).1 m2 ∧
      ListHolds m2 a (parseConfigFile content).2 := by
  rcases new_fine (fails := fails) hm with ⟨-, -, -, n, h⟩ | ⟨a, b, m1, rest, h1, h2, h3⟩
  · rw [hf] at h; cases h
  · obtain ⟨ok, m2, added, g1, g2, -, -, g3⟩ := parse_file (hf _) h2 (by simpa using h3) content
    have e := g3 (hf _)
    refine ⟨a, m1, m2, h1, ?_, ?_⟩
    · rw [e]; exact g1
    · rw [e]; exact fine_holds g2

/-- `free_config_entry_list(NULL)` does nothing. -/
theorem C82_null (m : CMem) : freeConfigEntryList none m = .ok () m := rfl

/-! ### Violations -/

/-- Memory in which nothing is in use. -/
def emptyMem : CMem := ⟨fun _ => none, 0, 0⟩

theorem emptyMem_ordinary : Ordinary emptyMem := fun _ _ => rfl

/-- No call fails. -/
def noneFails : Kind → Nat → Bool := fun _ _ => false

/-- A file of so many entries. -/
def entriesFile (n : Nat) : CStr := "% minijail-config-file v0\n".toList ++ (List.replicate n ['n', '\n']).flatten

/-- Whether the outcome is undefined behaviour. -/
def isUb {α : Type} : R α → Bool
  | .ok _ _ => false
  | .ub => true

theorem isUb_iff {α : Type} {r : R α} (h : isUb r = true) : r = .ub := by cases r with
  | ok _ _ => cases h
  | ub => rfl

/-- A run with a file: a test of the list, the result and the memory. -/
def runWith (fails : Kind → Nat → Bool) (content : CStr) (test : Nat → Bool → CMem → Bool) : Bool :=
  match newConfigEntryList fails emptyMem with
  | .ok (some a) m1 =>
    match parseConfigFileMem fails content a m1 with
    | .ok ok m2 => test a ok m2
    | .ub => false
  | _ => false

theorem runWith_iff {fails : Kind → Nat → Bool} {content : CStr} {test : Nat → Bool → CMem → Bool} (h : runWith fails content test = true) :
    ∃ a m1 ok m2, newConfigEntryList fails emptyMem = .ok (some a) m1 ∧ parseConfigFileMem fails content a m1 = .ok ok m2 ∧ test a ok m2 = true := by
  unfold runWith at h
  cases hn : newConfigEntryList fails emptyMem with
  | ub => rw [hn] at h; cases h
  | ok p m1 =>
    rw [hn] at h
    cases p with
    | none => cases h
    | some a =>
      dsimp only at h
      cases hp : parseConfigFileMem fails content a m1 with
      | ub => rw [hp] at h; cases h
      | ok ok m2 =>
        rw [hp] at h
        exact ⟨a, m1, ok, m2, rfl, hp, h⟩

/-- A list that was filled from a file without entries has no room, and doubling that makes none: the first entry of the next file is written behind the array. -/
theorem C82_violated_reuse : ∃ c1 c2 a m1 m2, newConfigEntryList noneFails emptyMem = .ok (some a) m1 ∧ parseConfigFileMem noneFails c1 a m1 = .ok true m2 ∧
    (parseConfigFile c2).1 = true ∧ parseConfigFileMem noneFails c2 a m2 = .ub := by
  have h : runWith noneFails (entriesFile 0) (fun a ok m2 => ok && isUb (parseConfigFileMem noneFails (entriesFile 1) a m2)) = true := by decide +kernel
  obtain ⟨a, m1, ok, m2, h1, h2, h3⟩ := runWith_iff h
  rw [Bool.and_eq_true] at h3
  obtain ⟨rfl, h3⟩ := h3
  exact ⟨_, entriesFile 1, a, m1, m2, h1, h2, by decide +kernel, isUb_iff h3⟩

/-- Growing and shrinking fail. -/
def reallocFails : Kind → Nat → Bool := fun k _ => k == .realloc

theorem reallocFails_only : ∀ k n, k ≠ Kind.realloc → reallocFails k n = false := by
  intro k n h
  cases k <;> first | rfl | exact absurd rfl h

/-- When the array cannot grow, the list forgets it: the file is not read, and freeing the list is undefined behaviour. -/
theorem C82_violated_growth : ∃ fails content a m1 m2, (∀ k n, k ≠ Kind.realloc → fails k n = false) ∧ newConfigEntryList fails emptyMem = .ok (some a) m1 ∧
    parseConfigFileMem fails content a m1 = .ok false m2 ∧ freeConfigEntryList (some a) m2 = .ub := by
  have h : runWith reallocFails (entriesFile 101) (fun a ok m2 => !ok && isUb (freeConfigEntryList (some a) m2)) = true := by decide +kernel
  obtain ⟨a, m1, ok, m2, h1, h2, h3⟩ := runWith_iff h
  rw [Bool.and_eq_true] at h3
  cases ok with
  | true => cases h3.1
  | false => exact ⟨_, _, a, m1, m2, reallocFails_only, h1, h2, isUb_iff h3.2⟩

/-- When the array cannot shrink, nobody notices: the file is read with success, but its entries cannot be. -/
theorem C82_violated_shrink : ∃ fails content a m1 m2, (∀ k n, k ≠ Kind.realloc → fails k n = false) ∧ newConfigEntryList fails emptyMem = .ok (some a) m1 ∧
    parseConfigFileMem fails content a m1 = .ok true m2 ∧ ¬ ListHolds m2 a (parseConfigFile content).2 ∧ freeConfigEntryList (some a) m2 = .ub := by
  have h : runWith reallocFails (entriesFile 1) (fun a ok m2 => (ok && decide (m2.cells a = some (.list none 1 1))) && isUb (freeConfigEntryList (some a) m2)) = true := by
    decide +kernel
  obtain ⟨a, m1, ok, m2, h1, h2, h3⟩ := runWith_iff h
  simp only [Bool.and_eq_true, decide_eq_true_eq] at h3
  obtain ⟨⟨rfl, h3⟩, h4⟩ := h3
  refine ⟨_, _, a, m1, m2, reallocFails_only, h1, h2, ?_, isUb_iff h4⟩
  have he : (parseConfigFile (entriesFile 1)).2 = [⟨['n'], none⟩] := by decide +kernel
  rintro ⟨entries, allocated, g1, g2⟩
  rw [he] at g1 g2
  rw [h3] at g1
  injection g1 with g1
  injection g1 with g1
  obtain ⟨b, _, _, g3, -⟩ := g2 0 _ rfl
  rw [← g1] at g3
  cases g3

/-! ### Concrete cases -/

/-- A file that needs the array to grow twice, and another one for the same list. -/
example : Ordinary emptyMem ∧ (∀ c cs, [entriesFile 250, entriesFile 3] = c :: cs → cs = [] ∨ (parseConfigFile c).2 ≠ []) ∧
    (parseConfigFile (entriesFile 250)).1 = true ∧ (parseConfigFile (entriesFile 250)).2.length = 250 := by
  have h : (parseConfigFile (entriesFile 250)).1 = true ∧ (parseConfigFile (entriesFile 250)).2.length = 250 := by decide +kernel
  refine ⟨emptyMem_ordinary, fun c cs e => .inr ?_, h⟩
  cases e
  intro h0
  rw [h0] at h
  exact absurd h.2 (by decide)

/-- Some calls fail. -/
example : ∀ n, (fun (k : Kind) (n : Nat) => k == .strdup && n % 7 == 3) Kind.realloc n = false := fun _ => rfl

end Minijail
