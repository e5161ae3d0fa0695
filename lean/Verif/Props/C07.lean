import Verif.Proof.TextUnique
import Verif.Props.ExampleText
/-! C07: the label table is never accessed out of bounds. -/
set_option linter.unusedSimpArgs false
set_option autoImplicit false
namespace Minijail

/-- The intended statement: compiling never accesses the label table outside its entries. -/
def Spec.LabelTableSafe (compile : Ctx → CStr → Res (List Insn)) : Prop :=
  ∀ cx content, (∀ e ∈ cx.syscalls, e.2 < 2 ^ 31) → compile cx content ≠ .ub

private theorem bind_ne_ub {α β : Type} {x : Res α} {f : α → Res β} (h : x ≠ .ub) (hf : ∀ a, f a ≠ .ub) : (x >>= f) ≠ .ub := by
  cases x with
  | ok a => exact hf a
  | fail => simp
  | die => simp
  | ub => exact absurd rfl h

private theorem ofOption_ne_ub {α : Type} (o : Option α) : Res.ofOption o ≠ .ub := by cases o <;> simp [Res.ofOption]

private theorem getLabelId_ne_ub (L n) : getLabelId L n ≠ .ub := by
  unfold getLabelId; split <;> simp

private theorem parseAtom_ne_ub (cx a) : parseAtom cx a ≠ .ub := by
  unfold parseAtom
  refine bind_ne_ub (ofOption_ne_ub _) fun _ => bind_ne_ub (ofOption_ne_ub _) fun _ => bind_ne_ub (ofOption_ne_ub _) fun _ => ?_
  repeat' split
  all_goals simp

private theorem compileAtoms_ne_ub (cx nr i) (l : List CStr) : ∀ L, compileAtoms cx nr i l L ≠ .ub := by
  induction l with
  | nil => intro L; simp [compileAtoms]
  | cons a l ih =>
    intro L
    unfold compileAtoms compileAtom
    refine bind_ne_ub (bind_ne_ub (parseAtom_ne_ub _ _) fun _ => bind_ne_ub (getLabelId_ne_ub _ _) fun _ => by simp) fun _ => ?_
    exact bind_ne_ub (ih _) fun _ => by simp

private theorem compileGroups_ne_ub (cx nr) (l : List CStr) : ∀ i L, compileGroups cx nr i l L ≠ .ub := by
  induction l with
  | nil => intro i L; simp [compileGroups]
  | cons a l ih =>
    intro i L
    unfold compileGroups
    refine bind_ne_ub (compileAtoms_ne_ub _ _ _ _ _) fun _ => bind_ne_ub (getLabelId_ne_ub _ _) fun _ =>
      bind_ne_ub (getLabelId_ne_ub _ _) fun _ => bind_ne_ub (ih _ _) fun _ => by simp

private theorem compileErrno_ne_ub (cx s) : compileErrno cx s ≠ .ub := by
  unfold compileErrno
  refine bind_ne_ub (ofOption_ne_ub _) fun _ => ?_
  simp only
  repeat' split
  all_goals simp

private theorem compilePolicyLine_ne_ub (cx nr s id L) : compilePolicyLine cx nr s id L ≠ .ub := by
  unfold compilePolicyLine
  split
  · simp
  · split
    · exact bind_ne_ub (compileErrno_ne_ub _ _) fun _ => by simp
    · refine bind_ne_ub (compileGroups_ne_ub _ _ _ _ _) fun _ => bind_ne_ub ?_ fun _ => bind_ne_ub (getLabelId_ne_ub _ _) fun _ => by simp
      unfold compileRet
      split
      · exact compileErrno_ne_ub _ _
      · simp

private theorem compileRule_ne_ub (cx l st b) : compileRule cx l st b ≠ .ub := by
  unfold compileRule
  split
  · simp
  · simp only
    split
    · simp
    · split
      · split <;> simp
      · split
        · simp
        · split
          · simp
          · simp
          · simp
          · next h => exact absurd h (compilePolicyLine_ne_ub _ _ _ _ _)

private theorem compileFileWith_ne_ub (cx lvl inc) (hinc : ∀ c st, inc c st ≠ .ub) (c st) :
    compileFileWith cx lvl inc c st ≠ .ub := by
  unfold compileFileWith
  have key : ∀ (ls : List CStr) st b, compileLines cx lvl inc ls st b ≠ .ub := by
    intro ls
    induction ls with
    | nil => intro st b; simp [compileLines]
    | cons l ls ih =>
      intro st b
      unfold compileLines
      split
      · exact ih _ _
      · simp
      · simp
      · next h =>
        exfalso
        revert h
        unfold compileLine
        simp only
        split
        · simp
        · split
          · simp
          · split
            · split
              · simp
              · split
                · split
                  · simp
                  · split
                    · simp
                    · simp
                    · simp
                    · next h => exact absurd h (hinc _ _)
                · simp
            · exact compileRule_ne_ub _ _ _ _
  split
  · split <;> simp
  · simp
  · simp
  · next h => exact absurd h (key _ _ _)

private theorem compileFile0_ne_ub (cx c st) : compileFile0 cx c st ≠ .ub :=
  compileFileWith_ne_ub cx 0 _ (fun c st => compileFileWith_ne_ub cx 1 _ (by simp) c st) c st

/-- Compiling accesses the label table out of bounds only for policies whose rules need more than 512 labels.
Missing from the full statement: policies that need more, see `C07_violated`. -/
theorem C07_in_bounds_partial (cx : Ctx) (content : CStr) (hnr : ∀ e ∈ cx.syscalls, e.2 < 2 ^ 31)
    (h : compileFilter cx content = .ub) :
    ∃ rules, Spec.PolicyText cx.lang content rules ∧ 512 < Spec.labelDemand rules := by
  unfold compileFilter at h
  split at h
  · simp at h
  · simp at h
  · next h' => exact absurd h' (compileFile0_ne_ub _ _ _)
  next st hst =>
  split at h
  · simp at h
  simp only at h
  split at h
  · simp at h
  next hlen =>
  have hA : st.argBlocks.length ≤ 4096 := by
    simp only [List.length_append, BPF_MAXINSNS] at hlen
    omega
  obtain ⟨ritems, h1, h2, h3, h4, h5⟩ := compileFile0_ok cx content _ st hnr hst hA
  refine ⟨_, h1, ?_⟩
  by_contra hd
  obtain ⟨bi, hb1, hb2, hb3, hb4⟩ := builtin_items cx
  have hhead : ∀ (x : Item), x.Ok cx → ∀ l, bpfLbl l ∉ x.head := by
    rintro x (⟨_, hh, _⟩ | ⟨id, body, hh, _⟩) l hl
    · rw [hh] at hl
      simp [bpfAllowSyscall, bpfLbl, bpfJump, bpfStmt, JA, JEQ, RET] at hl
    · rw [hh] at hl
      simp only [bpfAllowSyscallArgs, List.mem_cons, List.not_mem_nil, or_false] at hl
      rcases hl with hl | hl
      · simp [bpfLbl, bpfJump, JA, JEQ] at hl
      · exact jump_ne_label _ _ hl.symm
  have hk : ∀ (i : Nat) (l : BitVec 32), (st.head ++ [retAction cx.opts.action] ++ st.argBlocks)[i]? = some (Spec.labelDef l) →
      l.toNat < st.labels.length := by
    intro i l hi
    have hm : bpfLbl l ∈ st.head ++ [retAction cx.opts.action] ++ st.argBlocks := List.mem_of_getElem? hi
    rw [h2, h3, retAction_eq, hb1] at hm
    simp only [List.nil_append, List.mem_append, List.mem_flatMap, List.mem_singleton] at hm
    rcases hm with ((((hm | hm) | ⟨x, hx, hm⟩) | ⟨x, hx, hm⟩) | hm) | ⟨x, hx, hm⟩
    · simp [bpfValidateArch, bpfLbl, bpfJump, bpfStmt, JA, JEQ, RET, LD_ABS, bpfRetKill] at hm
    · simp [bpfLoadSyscallNr, bpfLbl, bpfJump, bpfStmt, JA, LD_ABS] at hm
    · exact absurd hm (hhead x (hb4 x hx) l)
    · exact absurd hm (hhead x (h4 x hx) l)
    · simp [bpfLbl, bpfJump, bpfStmt, JA, RET] at hm
    · rcases h5.known x hx l hm with h | h
      · exact h
      · simp only [List.length_nil, Nat.zero_add] at h
        exact absurd h hd
  rcases C06_resolve_safe _ _ hk with ⟨q, hq⟩ | hq <;> rw [hq] at h <;> simp at h

/-- In particular a policy with at most 512 labels is compiled without such an access. -/
theorem C07_small_safe_partial (cx : Ctx) (content : CStr) (hnr : ∀ e ∈ cx.syscalls, e.2 < 2 ^ 31)
    (rules : List (BitVec 32 × Spec.Rule)) (hrules : Spec.PolicyText cx.lang content rules)
    (hd : Spec.labelDemand rules ≤ 512) : compileFilter cx content ≠ .ub := by
  intro h
  obtain ⟨rules', h1, h2⟩ := C07_in_bounds_partial cx content hnr h
  obtain rfl := policyText_unique cx hrules h1
  omega

/-- The example policy needs four labels. -/
example : compileFilter exCx exText ≠ .ub := C07_small_safe_partial exCx exText exCx_numbers exRules exText_means (by decide)

end Minijail
