import Verif.Proof.Text
/-! C14: logical lines are physical lines joined at backslashes. -/
set_option autoImplicit false
namespace Minijail

/-- `physicalLines` is what it says: joining the lines with newlines gives back the text, up to a final newline,
and no line contains a newline. -/
theorem C14_physical (s : CStr) :
    ((Spec.physicalLines s).flatMap (fun l => l ++ ['\n']) = s ∨
      (Spec.physicalLines s).flatMap (fun l => l ++ ['\n']) = s ++ ['\n']) ∧
    ∀ l ∈ Spec.physicalLines s, '\n' ∉ l := by
  obtain ⟨n, hn⟩ : ∃ n, s.length < n := ⟨_, Nat.lt_succ_self _⟩
  induction n generalizing s with
  | zero => omega
  | succ n ih =>
    rcases getline_cases s with rfl | ⟨l, rfl, _, hl, _, _, hp⟩ | ⟨l, rest, rfl, hl, _, _, hp⟩
    · simp [physicalLines_nil]
    · rw [hp]; simp [hl]
    · rw [hp]
      have := ih rest (by simp at hn; omega)
      constructor
      · rcases this.1 with h | h
        · left; simp [h]
        · right; simp [h]
      · intro x hx
        rcases List.mem_cons.1 hx with rfl | hx
        · exact hl
        · exact this.2 x hx

/-- Exact behaviour, for every file: the lines read are the physical lines joined at backslashes, where a last
line ending in a backslash is dropped together with the lines it continues. -/
theorem C14_lines_exact (s : CStr) : readLines s = Spec.joinLines (Spec.physicalLines s) :=
  readLines_eq_logicalLines s

private theorem joinLines_eq_all (ls : List (List Char)) (h : ∀ l, ls.getLast? = some l → l.getLast? ≠ some '\\') :
    Spec.joinLines ls = Spec.joinAll ls ∧ (ls ≠ [] → Spec.joinLines ls ≠ []) := by
  induction ls with
  | nil => simp [Spec.joinLines, Spec.joinAll]
  | cons l ls ih =>
    cases ls with
    | nil =>
      have : l.getLast? ≠ some '\\' := h l rfl
      simp [Spec.joinLines, Spec.joinAll, this]
    | cons m ms =>
      have ih := ih (fun x hx => h x (by rw [List.getLast?_cons_cons]; exact hx))
      rw [Spec.joinLines, Spec.joinAll]
      by_cases hb : l.getLast? = some '\\'
      · simp only [hb, if_true, ih.1]
        cases hj : Spec.joinAll (m :: ms) with
        | nil => rw [ih.1, hj] at ih; simp at ih
        | cons a b => simp
      · simp [hb, ih.1]

/-- The property, for the files whose last line does not end in a backslash. Missing from the full statement: files
whose last line ends in a backslash (see `C14_violated`). -/
theorem C14_lines_partial (s : CStr)
    (h : ∀ l, (Spec.physicalLines s).getLast? = some l → l.getLast? ≠ some '\\') :
    readLines s = Spec.joinAll (Spec.physicalLines s) := by
  rw [C14_lines_exact, (joinLines_eq_all _ h).1]

/-- The full statement is false: a file whose last line ends in a backslash loses that line. -/
theorem C14_violated : ¬ ∀ s : CStr, readLines s = Spec.joinAll (Spec.physicalLines s) := by
  intro h
  have := h "read: 1\nopen: 1\\\n".toList
  rw [C14_lines_exact] at this
  revert this
  decide

/-- A file with a continuation meets the hypothesis of `C14_lines_partial`. -/
example : readLines "read: 1\nopen: arg0 == 1 || \\\n arg0 == 2\n".toList =
    ["read: 1".toList, "open: arg0 == 1 ||   arg0 == 2".toList] := by
  rw [C14_lines_partial _ (by decide)]
  decide

end Minijail
