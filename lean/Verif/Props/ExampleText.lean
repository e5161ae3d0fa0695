import Verif.Proof.TextUnique
import Verif.Props.ExampleCtx
/-! A policy text with its meaning, for the examples beside the theorems. -/
set_option autoImplicit false
namespace Minijail

/-- An allow rule, and a rule with two conjunctions and an errno. -/
def exText : CStr := "open: 1\nread: arg0 == 1 && arg1 in 6 || arg5 > 0; return 7\n".toList

/-- The meaning of `exText`. -/
def exRules : List (BitVec 32 × Spec.Rule) :=
  [(2#32, .allow), (0#32, .filter [[⟨0, .eq, 1⟩, ⟨1, .subset, 6⟩], [⟨5, .gt, 0⟩]] (.errno 7))]

private theorem exAtom (s idx op c : CStr) (i : Nat) (cmp : Spec.Cmp) (v : BitVec 64)
    (h1 : Spec.words ' ' s = ["arg".toList ++ idx, op, c]) (h2 : strtolScan 10 idx = some (false, i, [])) (h3 : Spec.OpText op cmp)
    (h4 : parseConstant (w := 64) exCx.constants c = some v) : Spec.AtomText exCx.lang s ⟨i, cmp, v.toNat⟩ := by
  refine .mk h1 ?_ h3 ?_
  · rw [signed_decimal_iff]
    exact ⟨false, i, h2, rfl⟩
  · exact (parseConstant_iff exCx.constants (by decide) c v).1 h4

theorem exText_means : Spec.PolicyText exCx.lang exText exRules := by
  refine ⟨[[(2#32, .allow)], [(0#32, .filter [[⟨0, .eq, 1⟩, ⟨1, .subset, 6⟩], [⟨5, .gt, 0⟩]] (.errno 7))]], ?_, rfl⟩
  rw [show Spec.logicalLines exText = ["open: 1".toList, "read: arg0 == 1 && arg1 in 6 || arg5 > 0; return 7".toList]
    by decide +kernel]
  refine .cons ?_ (.cons ?_ .nil)
  · exact .rule (name := "open".toList) (rhs := " 1".toList) (nr := 2) (by decide) (by decide) (by decide) (by decide) .allow
  · refine .rule (name := "read".toList) (rhs := " arg0 == 1 && arg1 in 6 || arg5 > 0; return 7".toList) (nr := 0) (by decide)
      (by decide) (by decide) (by decide) ?_
    refine .filterReturn (t := "arg0 == 1 && arg1 in 6 || arg5 > 0".toList) (r := " return 7".toList) (rest := [])
      (by decide +kernel) (by decide +kernel) (by decide +kernel) ?_ ?_
    · unfold Spec.DnfText
      rw [show Spec.fields2 '|' '|' "arg0 == 1 && arg1 in 6 || arg5 > 0".toList =
        ["arg0 == 1 && arg1 in 6 ".toList, " arg5 > 0".toList] by decide +kernel]
      refine .cons ?_ (.cons ?_ .nil)
      · rw [show Spec.fields2 '&' '&' "arg0 == 1 && arg1 in 6 ".toList = ["arg0 == 1 ".toList, " arg1 in 6 ".toList] by decide +kernel]
        refine .cons ?_ (.cons ?_ .nil)
        · exact exAtom _ "0".toList "==".toList "1".toList 0 .eq 1 (by decide) (by decide +kernel) .eq (by decide +kernel)
        · exact exAtom _ "1".toList "in".toList "6".toList 1 .subset 6 (by decide) (by decide +kernel) .subset (by decide +kernel)
      · rw [show Spec.fields2 '&' '&' " arg5 > 0".toList = [" arg5 > 0".toList] by decide +kernel]
        refine .cons ?_ .nil
        exact exAtom _ "5".toList ">".toList "0".toList 5 .gt 0 (by decide) (by decide +kernel) .gt (by decide +kernel)
    · refine .errno (w := "return".toList) (c := "7".toList) (rest := []) (by decide +kernel) (by decide) ?_ (by decide)
      exact (parseConstant_iff exCx.constants (by decide) "7".toList 7#64).1 (by decide +kernel)

theorem exText_compiles : compileFilter exCx exText = .ok (progOf (compileFilter exCx exText)) :=
  ok_of_ne_nil (by decide +kernel)

theorem exRules_valid : ∀ x ∈ exRules, x.2.valid := by
  intro x hx
  simp only [exRules, List.mem_cons, List.not_mem_nil, or_false] at hx
  rcases hx with rfl | rfl
  · trivial
  · intro conj hc a ha
    simp only [List.mem_cons, List.not_mem_nil, or_false] at hc
    rcases hc with rfl | rfl <;> simp only [List.mem_cons, List.not_mem_nil, or_false] at ha
    · rcases ha with rfl | rfl <;> exact ⟨by decide, by decide⟩
    · subst ha; exact ⟨by decide, by decide⟩

end Minijail
