import Verif.Proof.OriginalPath
/-! C36: finding outside what a path inside the jail stands for. -/
set_option autoImplicit false
set_option linter.unusedSimpArgs false
namespace Minijail
open Spec

variable {j : Jail} {p : BStr}

/-- With plain absolute paths, if at most one mount covers the path, it is a bind mount, and no other target merely begins like the path, the answer is
where the path is found outside. (Missing: targets that are a prefix of the text of the path only, `C36_violated_prefix`; several mounts, one over the
other, `C36_violated_shadow`; mounts that are not bind mounts, `C36_violated_tmpfs`.) -/
theorem C36_original_partial (hp : Plain p) (hd : ∀ m ∈ j.mounts, Plain m.dest) (hs : ∀ m ∈ j.mounts, m.dest <+: p → Covers m p)
    (h1 : ∀ l1 m l2, j.mounts = l1 ++ m :: l2 → Covers m p → m.flags &&& 0x1000#64 ≠ 0#64 ∧ (∀ x ∈ l1, ¬ Covers x p) ∧ ∀ x ∈ l2, ¬ Covers x p) :
    outside j p = some (components (getOriginalPath j p)) := by
  have noprefix : ∀ m ∈ j.mounts, ¬ Covers m p → ¬ m.dest <+: p := fun m hm hc h => hc (hs m hm h)
  by_cases hc : ∃ m ∈ j.mounts, Covers m p
  · obtain ⟨m, hm, hmp⟩ := hc
    obtain ⟨l1, l2, e⟩ := List.append_of_mem hm
    obtain ⟨hb, n1, n2⟩ := h1 l1 m l2 e hmp
    have hv : visible j.mounts p = some m := by
      unfold visible
      rw [e, List.reverse_append, List.reverse_cons, List.append_assoc, List.find?_append]
      have : l2.reverse.find? (fun m => decide (Covers m p)) = none := by
        rw [List.find?_eq_none]
        intro x hx
        simpa using n2 x (by simpa using hx)
      rw [this]
      simp [hmp]
    have hpre : m.dest <+: p := plain_prefix (hd m hm) hp hmp
    have ho : getOriginalPath j p = if m.dest = p then m.src else joinPath m.src (p.drop m.dest.length) := by
      unfold getOriginalPath
      rw [e]
      exact original_first _ _ m l2 hpre l1 fun x hx => noprefix x (by rw [e]; simp [hx]) (n1 x hx)
    unfold outside
    rw [hv]
    simp only [if_pos hb, ho, Option.some.injEq]
    obtain ⟨r, hr⟩ := hpre
    have hrest := plain_rest (hd m hm) hp hr.symm hmp
    rw [hrest, List.drop_left]
    split
    · rename_i e2
      have : r = [] := by rw [e2] at hr; simpa using hr
      rw [this]; simp [components_nil]
    · rw [components_joinPath, ← hr, List.drop_left]
  · have hv : visible j.mounts p = none := by
      unfold visible
      rw [List.find?_eq_none]
      intro x hx
      simpa using fun h => hc ⟨x, by simpa using hx, h⟩
    unfold outside getOriginalPath
    rw [hv, original_none _ _ _ fun m hm => noprefix m hm fun h => hc ⟨m, hm, h⟩]
    cases j.chrootdir with
    | none => simp [components_nil, originalFrom]
    | some c => simp [components_joinPath, originalFrom]

/-- A jail below /c with mounts. -/
def mountJail (ms : List (String × String × BitVec 64)) : Jail :=
  { chrootdir := some (bstr "/c"), mounts := ms.map fun m => ⟨bstr m.1, bstr m.2.1, bstr "", none, m.2.2⟩ }

/-- /database does not lie in /data. -/
theorem C36_violated_prefix : getOriginalPath (mountJail [("/a", "/data", 0x1000#64)]) (bstr "/database") = bstr "/a/base" ∧
    outside (mountJail [("/a", "/data", 0x1000#64)]) (bstr "/database") = some [bstr "c", bstr "database"] := by decide +kernel

/-- A later mount below an earlier one is overlooked. -/
theorem C36_violated_shadow : components (getOriginalPath (mountJail [("/a", "/x", 0x1000#64), ("/b", "/x/y", 0x1000#64)]) (bstr "/x/y/z")) =
      [bstr "a", bstr "y", bstr "z"] ∧
    outside (mountJail [("/a", "/x", 0x1000#64), ("/b", "/x/y", 0x1000#64)]) (bstr "/x/y/z") = some [bstr "b", bstr "z"] := by decide +kernel

/-- What lies in a tmpfs is not found outside, but a path relative to the caller's directory is given. -/
theorem C36_violated_tmpfs : getOriginalPath (mountJail [("none", "/tmp", 0#64)]) (bstr "/tmp/f") = bstr "none//f" ∧
    outside (mountJail [("none", "/tmp", 0#64)]) (bstr "/tmp/f") = none := by decide +kernel

/-- The hypotheses of `C36_original_partial` are met by a jail with two mounts. -/
example : outside (mountJail [("/b", "/y", 0x1000#64), ("/a/e", "/x", 0x1000#64)]) (bstr "/x/y/z") = some [bstr "a", bstr "e", bstr "y", bstr "z"] := by
  rw [C36_original_partial]
  · decide +kernel
  · unfold Plain; decide +kernel
  · intro m hm
    simp only [mountJail, List.map_cons, List.map_nil, List.mem_cons, List.not_mem_nil, or_false] at hm
    rcases hm with rfl | rfl <;> (unfold Plain; decide +kernel)
  · intro m hm
    simp only [mountJail, List.map_cons, List.map_nil, List.mem_cons, List.not_mem_nil, or_false] at hm
    rcases hm with rfl | rfl <;> decide +kernel
  · intro l1 m l2 e hc
    match l1, e with
    | [], e =>
      simp only [mountJail, List.map_cons, List.map_nil, List.nil_append, List.cons.injEq] at e
      rw [← e.1] at hc
      exact absurd hc (by decide +kernel)
    | [a], e =>
      simp only [mountJail, List.map_cons, List.map_nil, List.cons_append, List.nil_append, List.cons.injEq] at e
      obtain ⟨rfl, rfl, rfl⟩ := e
      refine ⟨by decide, fun x hx => ?_, by simp⟩
      simp only [List.mem_singleton] at hx
      rw [hx]; decide +kernel
    | a :: b :: l, e => simp [mountJail] at e

end Minijail
