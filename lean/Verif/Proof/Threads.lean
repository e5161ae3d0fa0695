import Verif.Model.Threads
/-! Looking for a line in a file. -/
set_option autoImplicit false
set_option linter.unusedSimpArgs false
namespace Minijail.Threads
open Minijail

/-- Lines, each with a line feed. -/
def joined (ls : List BStr) : BStr := ls.flatMap fun l => l ++ [10#8]

theorem holds_skip {p : BStr} : ∀ (l : BStr) (rest : BStr), 10#8 ∉ l → holds (10#8 :: p) (l ++ rest) = holds (10#8 :: p) rest
  | [], rest, _ => rfl
  | a :: l, rest, h => by
    have ha : a ≠ 10#8 := fun e => h (by simp [e])
    have hl : 10#8 ∉ l := fun e => h (List.mem_cons_of_mem _ e)
    rw [List.cons_append, holds, holds_skip l rest hl]
    simp [List.isPrefixOf, Ne.symm ha]

theorem prefix_line : ∀ (p l : BStr) (rest : BStr), 10#8 ∉ p → 10#8 ∉ l → ((p ++ [10#8]).isPrefixOf (l ++ 10#8 :: rest) = true ↔ p = l)
  | [], [], rest, _, _ => by simp [List.isPrefixOf]
  | [], b :: l, rest, _, h => by
    have hb : b ≠ 10#8 := fun e => h (by simp [e])
    simp [List.isPrefixOf, Ne.symm hb]
  | a :: p, [], rest, h, _ => by
    have ha : a ≠ 10#8 := fun e => h (by simp [e])
    simp [List.isPrefixOf, ha]
  | a :: p, b :: l, rest, h1, h2 => by
    have i := prefix_line p l rest (fun e => h1 (List.mem_cons_of_mem _ e)) (fun e => h2 (List.mem_cons_of_mem _ e))
    simp only [List.cons_append, List.isPrefixOf, Bool.and_eq_true, i, List.cons.injEq, beq_iff_eq]

theorem holds_lines {p : BStr} (hp : 10#8 ∉ p) : ∀ ls : List BStr, (∀ l ∈ ls, 10#8 ∉ l) → (holds (10#8 :: (p ++ [10#8])) (10#8 :: joined ls) = true ↔ p ∈ ls)
  | [], _ => by cases p <;> simp [joined, holds, List.isPrefixOf]
  | l :: ls, h => by
    have hl := h l (by simp)
    have i := holds_lines hp ls fun x hx => h x (List.mem_cons_of_mem _ hx)
    have e : joined (l :: ls) = l ++ 10#8 :: joined ls := by simp [joined]
    rw [e, holds, holds_skip l _ hl, Bool.or_eq_true, i]
    simp only [List.isPrefixOf, BEq.rfl, Bool.true_and, prefix_line p l _ hp hl, List.mem_cons]

theorem holds_text {p : BStr} (hp : 10#8 ∉ p) (l : BStr) (ls : List BStr) (h : ∀ x ∈ l :: ls, 10#8 ∉ x) : holds (10#8 :: (p ++ [10#8])) (joined (l :: ls)) = true ↔ p ∈ ls := by
  have e : joined (l :: ls) = l ++ 10#8 :: joined ls := by simp [joined]
  rw [e, holds_skip l _ (h l (by simp))]
  exact holds_lines hp ls fun x hx => h x (List.mem_cons_of_mem _ hx)

theorem escaped_line (name : BStr) : 10#8 ∉ escaped name := by
  unfold escaped
  intro h
  obtain ⟨c, _, hc⟩ := List.mem_flatMap.1 h
  by_cases h1 : c = 10#8
  · simp [h1] at hc
  · by_cases h2 : c = 92#8
    · simp [h2] at hc
    · simp [h1, h2] at hc
      exact h1 hc.symm

end Minijail.Threads
