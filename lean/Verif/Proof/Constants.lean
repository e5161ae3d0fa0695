import Verif.Proof.Json
import Verif.Spec.Constants
import Verif.Spec.CtxLang
/-! The file of an architecture: what dump_constants prints, and what the offline compiler reads. -/
set_option autoImplicit false
set_option linter.unusedSimpArgs false
namespace Minijail.Constants
open Spec.Json Offline

theorem ws_nil : Ws [] := by intro c h; cases h

theorem toStringInt_text (i : Int) : NumText i (toStringInt i) := rfl

/-- One member, with what dump_constants puts around it. -/
theorem member_of {α : Type} {R : α → List Char → Prop} {k : CStr} {v : α} {tv w0 w3 : CStr} (h0 : Ws w0) (hk : ∀ c ∈ k, PlainChar c) (hv : R v tv) (h3 : Ws w3) :
    Member R k v (w0 ++ ('"' :: k ++ ['"']) ++ [] ++ ':' :: [' '] ++ tv ++ w3) :=
  ⟨w0, _, [], [' '], tv, w3, h0, ⟨hk, rfl⟩, ws_nil, by intro c h; simp at h; exact .inl h, hv, h3, rfl⟩

theorem dumpEntries_text (w : CStr) (hw : Ws w) : ∀ (l : List (CStr × Int)) (e : CStr × Int) (w0 : CStr), Ws w0 → (∀ x ∈ e :: l, ∀ c ∈ x.1, PlainChar c) →
    Members NumText (e :: l) (w0 ++ dumpEntries (e :: l) true ++ w) := by
  have sp : ∀ w0, Ws w0 → Ws (w0 ++ "    ".toList) := by
    intro w0 h c hc
    rcases List.mem_append.1 hc with hc | hc
    · exact h c hc
    · left; simpa using hc
  intro l
  induction l with
  | nil =>
    intro e w0 h0 hp
    have := Members.one (member_of (w3 := w) (sp w0 h0) (hp e (by simp)) (toStringInt_text e.2) hw)
    simpa [dumpEntries] using this
  | cons e' l ih =>
    intro e w0 h0 hp
    have h1 := ih e' "\n".toList (by intro c h; simp at h; exact .inr (.inl h)) fun x hx => hp x (by simp only [List.mem_cons] at hx ⊢; tauto)
    have := Members.more (member_of (w3 := []) (sp w0 h0) (hp e (by simp)) (toStringInt_text e.2) ws_nil) h1
    simpa [dumpEntries] using this

theorem dumpEntries_obj {w0 w1 : CStr} (h0 : Ws w0) (h1 : Ws w1) {l : List (CStr × Int)} (hp : ∀ x ∈ l, ∀ c ∈ x.1, PlainChar c) :
    ObjText NumText l ('{' :: (w0 ++ dumpEntries l true ++ w1) ++ ['}']) := by
  cases l with
  | nil =>
    refine .empty ?_
    intro c hc
    simp only [dumpEntries, List.append_nil, List.mem_append] at hc
    exact hc.elim (h0 c) (h1 c)
  | cons e l => exact .members (dumpEntries_text w1 h1 l e w0 h0 hp)

/-- What the file says. -/
def sayings (nr : Nat) (name : CStr) (bits : Nat) (sys con : List (CStr × Int)) : List (CStr × Val) :=
  [("arch_nr".toList, .num nr), ("arch_name".toList, .str name), ("bits".toList, .num bits), ("syscalls".toList, .table sys), ("constants".toList, .table con)]

theorem dump_text {nr bits : Nat} {name : CStr} {sys con : List (CStr × Int)} (hn : ∀ c ∈ name, PlainChar c) (hs : ∀ x ∈ sys, ∀ c ∈ x.1, PlainChar c)
    (hc : ∀ x ∈ con, ∀ c ∈ x.1, PlainChar c) : FileText (sayings nr name bits sys con) (dumpConstants nr name bits sys con) := by
  have w2 : Ws ['\n', ' ', ' '] := by unfold Ws; decide
  have w1 : Ws ['\n'] := by unfold Ws; decide
  have m1 := member_of (R := ValText) (k := "arch_nr".toList) w2 (by unfold PlainChar; decide) (ValText.num (toStringInt_text nr)) ws_nil
  have m2 := member_of (R := ValText) (k := "arch_name".toList) w2 (by unfold PlainChar; decide) (ValText.str (s := name) ⟨hn, rfl⟩) ws_nil
  have m3 := member_of (R := ValText) (k := "bits".toList) w2 (by unfold PlainChar; decide) (ValText.num (toStringInt_text bits)) ws_nil
  have m4 := member_of (R := ValText) (k := "syscalls".toList) w2 (by unfold PlainChar; decide) (ValText.table (dumpEntries_obj w1 w2 hs)) ws_nil
  have m5 := member_of (R := ValText) (k := "constants".toList) w2 (by unfold PlainChar; decide) (ValText.table (dumpEntries_obj w1 w2 hc)) w1
  have o := ObjText.members (Members.more m1 (Members.more m2 (Members.more m3 (Members.more m4 (Members.one m5)))))
  refine ⟨[], _, ['\n'], ws_nil, o, w1, ?_⟩
  clear o m1 m2 m3 m4 m5
  unfold dumpConstants
  generalize dumpEntries sys true = ds
  generalize dumpEntries con true = dc
  generalize toStringInt nr = tn
  generalize toStringInt bits = tb
  simp only [List.append_assoc, List.cons_append, List.nil_append, String.reduceToList]

theorem dictGet_consistent {α β : Type} [BEq β] {l : List (CStr × β)} (hc : Spec.OneValue l) (f : β → α) (k : CStr) :
    dictGet (l.map fun e => (e.1, f e.2)) k = (l.find? fun e => e.1 == k).map fun e => f e.2 := by
  unfold dictGet
  cases h1 : l.find? fun e => e.1 == k with
  | none =>
    rw [List.find?_eq_none.2]
    · rfl
    · intro x hx
      rw [List.mem_reverse, List.mem_map] at hx
      obtain ⟨y, hy, rfl⟩ := hx
      exact List.find?_eq_none.1 h1 y hy
  | some e =>
    have he := List.mem_of_find?_eq_some h1
    have hk : e.1 = k := by simpa using List.find?_some h1
    cases h2 : (l.map fun e => (e.1, f e.2)).reverse.find? fun e => e.1 == k with
    | none =>
      have := List.find?_eq_none.1 h2 (e.1, f e.2) (by rw [List.mem_reverse]; exact List.mem_map.2 ⟨e, he, rfl⟩)
      simp [hk] at this
    | some x =>
      have hx := List.mem_of_find?_eq_some h2
      have hk2 : x.1 = k := by simpa using List.find?_some h2
      rw [List.mem_reverse, List.mem_map] at hx
      obtain ⟨y, hy, rfl⟩ := hx
      have := hc e.1 e.2 y.2 he (by rw [hk, ← hk2]; exact hy)
      simp [this]

theorem load_sayings (nr : Nat) (name : CStr) (bits : Nat) (sys con : List (CStr × Int)) :
    loadArch (sayings nr name bits sys con) =
      some (nr, ⟨name, bits, fun n => (dictGet sys n).bind fun i => if 0 ≤ i then some i.toNat else none, dictGet con, fun _ => none⟩) := by
  have d : ∀ k : CStr, dictGet (sayings nr name bits sys con) k =
      if "constants".toList = k then some (.table con) else if "syscalls".toList = k then some (.table sys) else if "bits".toList = k then some (.num bits)
      else if "arch_name".toList = k then some (.str name) else if "arch_nr".toList = k then some (.num nr) else none := by
    intro k
    simp only [dictGet, sayings, List.reverse_cons, List.reverse_nil, List.nil_append, List.cons_append, List.find?_cons, List.find?_nil]
    by_cases h1 : "constants".toList = k
    · subst h1; rfl
    rw [if_neg h1, beq_false_of_ne h1]
    by_cases h2 : "syscalls".toList = k
    · subst h2; rfl
    rw [if_neg h2, beq_false_of_ne h2]
    by_cases h3 : "bits".toList = k
    · subst h3; rfl
    rw [if_neg h3, beq_false_of_ne h3]
    by_cases h4 : "arch_name".toList = k
    · subst h4; rfl
    rw [if_neg h4, beq_false_of_ne h4]
    by_cases h5 : "arch_nr".toList = k
    · subst h5; rfl
    rw [if_neg h5, beq_false_of_ne h5]
    rfl
  unfold loadArch
  rw [d, d, d, d, d]
  rfl

end Minijail.Constants
