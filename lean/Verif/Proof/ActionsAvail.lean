import Verif.Model.ActionsAvail
import Verif.Spec.ActionsAvail
import Mathlib.Tactic.Tauto
/-! Lemmas on the search for an action's name. -/
set_option autoImplicit false
set_option linter.unusedSimpArgs false
namespace Minijail
open Spec

theorem hasSubstring_iff (needle hay : CStr) : hasSubstring needle hay = true ↔ needle <:+: hay := by
  induction hay with
  | nil => simp [hasSubstring]
  | cons c cs ih => rw [hasSubstring, Bool.or_eq_true, List.isPrefixOf_iff_prefix, ih, List.infix_cons_iff]

theorem prefix_cut {c : Char} {w a b : CStr} (hc : c ∉ w) (h : w <+: a ++ c :: b) : w <+: a := by
  induction a generalizing w with
  | nil =>
    cases w with
    | nil => exact List.nil_prefix
    | cons d w =>
      rw [List.nil_append, List.cons_prefix_cons] at h
      exact absurd h.1 (by simp at hc; tauto)
  | cons x a ih =>
    cases w with
    | nil => exact List.nil_prefix
    | cons d w =>
      rw [List.cons_append, List.cons_prefix_cons] at h
      rw [List.cons_prefix_cons]
      exact ⟨h.1, ih (by simp at hc; tauto) h.2⟩

/-- A word without the character at which the text is cut lies in one of the two parts. -/
theorem infix_cut {c : Char} {w a b : CStr} (hc : c ∉ w) (hw : w ≠ []) : w <:+: a ++ c :: b ↔ w <:+: a ∨ w <:+: b := by
  constructor
  · intro h
    induction a with
    | nil =>
      rw [List.nil_append, List.infix_cons_iff] at h
      rcases h with h | h
      · have := prefix_cut (a := []) hc h
        exact absurd (List.prefix_nil.1 this) hw
      · exact .inr h
    | cons x a ih =>
      rw [List.cons_append, List.infix_cons_iff] at h
      rw [List.infix_cons_iff]
      rcases h with h | h
      · exact .inl (.inl (prefix_cut (a := x :: a) hc h))
      · rcases ih h with h | h
        · exact .inl (.inr h)
        · exact .inr h
  · rintro (⟨s, t, h⟩ | ⟨s, t, h⟩)
    · exact ⟨s, t ++ c :: b, by simp [← h]⟩
    · exact ⟨a ++ c :: s, t, by simp [← h]⟩

/-- A name that is part of no other is found exactly if it is listed. -/
theorem line_has {w : CStr} (hs : ' ' ∉ w) (hn : '\n' ∉ w) (hw : w ≠ []) (names : List CStr) (ho : ∀ n ∈ names, hasSubstring w n = true → n = w) :
    hasSubstring w (actionsLine names) = true ↔ w ∈ names := by
  have hone : ∀ n, n ∈ names → (w <:+: n ↔ w = n) := fun n hm => by
    constructor
    · intro h; exact (ho n hm ((hasSubstring_iff _ _).2 h)).symm
    · rintro rfl; exact List.infix_refl _
  rw [hasSubstring_iff]
  have hend : ∀ a : CStr, (w <:+: a ++ "\n".toList ↔ w <:+: a) := fun a => by
    have := infix_cut (a := a) (b := []) hn hw
    simpa [hw] using this
  clear ho
  induction names with
  | nil => simpa [actionsLine, hw] using hend []
  | cons n rest ih =>
    cases rest with
    | nil => simp only [actionsLine, hend, hone n (by simp), List.mem_cons, List.not_mem_nil, or_false]
    | cons m rest =>
      have ih' := ih fun x hx => hone x (List.mem_cons_of_mem _ hx)
      have hc : w <:+: actionsLine (n :: m :: rest) ↔ w <:+: n ∨ w <:+: actionsLine (m :: rest) := infix_cut hs hw
      refine hc.trans ?_
      refine (or_congr (hone n (by simp)) ih').trans ?_
      exact List.mem_cons.symm

end Minijail
