import Verif.Props.ExampleText
/-! C05: compiled filters are acceptable to the kernel and always return a verdict. -/
set_option autoImplicit false
namespace Minijail

/-- A program that passes the kernel's checks gives a verdict on every system call: no fall off the end, no bad load,
no read of unwritten scratch memory. -/
theorem C05_accepted_returns (be : Bool) (p : List Insn) (h : Spec.KernelAccepts p) (d : SeccompData) :
    ∃ v, runFilter be p d = .ret v :=
  accepted_returns be p h d

/-- Every program compiled from a policy whose comparisons inspect arguments 0 to 5 passes the kernel's checks. -/
theorem C05_kernel_accepts (cx : Ctx) (content : CStr) (prog : List Insn) (hnr : ∀ e ∈ cx.syscalls, e.2 < 2 ^ 31)
    (h : compileFilter cx content = .ok prog) (rules : List (BitVec 32 × Spec.Rule))
    (hrules : Spec.PolicyText cx.lang content rules) (hvalid : ∀ x ∈ rules, x.2.valid) : Spec.KernelAccepts prog := by
  obtain ⟨items, ritems, count, h1, h2, h3, h4⟩ := compileFilter_ok cx content prog hnr h
  obtain rfl := policyText_unique cx hrules h1
  obtain ⟨hr1, hr2⟩ := C06_resolve_sound _ _ _ h4
  have hv : ∀ x ∈ items, x.rule.valid := by
    intro x hx
    have : (x.nr, x.rule) ∈ cx.builtin ++ Item.rules ritems := by
      rw [← h2]; exact List.mem_map.2 ⟨x, hx, rfl⟩
    rcases List.mem_append.1 this with hb | hb
    · have : x.rule = .allow := by
        unfold Ctx.builtin Spec.allowNames at hb
        rcases List.mem_append.1 hb with hb | hb <;> split at hb <;> simp at hb <;> obtain ⟨_, _, _, h⟩ := hb <;>
          exact h.symm
      rw [this]; trivial
    · exact hvalid _ hb
  have hhead : Sg (items.flatMap Item.head) := Sg.flatMap _ _ fun x hx => by
    rcases h3 x hx with ⟨_, hh, _⟩ | ⟨id, body, hh, _⟩
    · rw [hh]; exact Sg.allow _
    · rw [hh]; exact Sg.allowArgs _ _
  -- the argument blocks are empty or end in a return
  have hargs : ∀ its : List Item, (∀ x ∈ its, x ∈ items) →
      its.flatMap Item.args = [] ∨ ∃ pre k, its.flatMap Item.args = pre ++ [bpfStmt RET k] ∧ Sg pre := by
    intro its
    induction its with
    | nil => intro _; exact .inl rfl
    | cons x its ih =>
      intro hm
      have ih := ih fun y hy => hm y (List.mem_cons_of_mem _ hy)
      have hx := hm x (by simp)
      have hxa : x.args = [] ∨ ∃ pre k, x.args = pre ++ [bpfStmt RET k] ∧ Sg pre := by
        rcases h3 x hx with ⟨_, _, ha⟩ | ⟨id, body, _, ha, hb⟩
        · exact .inl ha
        · obtain ⟨pre, k, rfl, hp⟩ := hb.2 (hv x hx)
          exact .inr ⟨bpfLbl id :: pre, k, by rw [ha]; rfl, (Sg.label id).append hp⟩
      rw [List.flatMap_cons]
      rcases hxa with ha | ⟨pre, k, ha, hp⟩
      · rw [ha]; exact ih
      · rcases ih with hi | ⟨pre', k', hi, hp'⟩
        · rw [ha, hi, List.append_nil]; exact .inr ⟨pre, k, rfl, hp⟩
        · rw [ha, hi]
          exact .inr ⟨pre ++ [bpfStmt RET k] ++ pre', k', by simp, (hp.append (Sg.ret k)).append hp'⟩
  have hpro := ((Sg.arch cx.t).append Sg.loadNr).append hhead
  have hs := hr2.short
  rcases hargs items fun _ h => h with ha | ⟨pre, k, ha, hp⟩
  · rw [ha] at hr1 hs
    refine accepted_of_sym _ cx.opts.action.act.word prog hpro ?_ (by simpa using hr1)
    simp at hs ⊢; omega
  · rw [ha] at hr1 hs
    refine accepted_of_sym _ k prog ((hpro.append (Sg.ret cx.opts.action.act.word)).append hp) ?_ (by simpa using hr1)
    simp at hs ⊢; omega

/-- So every such program gives a verdict on every system call, whatever the byte order of the machine. -/
theorem C05_always_returns (cx : Ctx) (content : CStr) (prog : List Insn) (hnr : ∀ e ∈ cx.syscalls, e.2 < 2 ^ 31)
    (h : compileFilter cx content = .ok prog) (rules : List (BitVec 32 × Spec.Rule))
    (hrules : Spec.PolicyText cx.lang content rules) (hvalid : ∀ x ∈ rules, x.2.valid) (be : Bool) (d : SeccompData) :
    ∃ v, runFilter be prog d = .ret v :=
  accepted_returns be prog (C05_kernel_accepts cx content prog hnr h rules hrules hvalid) d

/-- The example policy, its meaning and its program meet the hypotheses. -/
example : Spec.KernelAccepts (progOf (compileFilter exCx exText)) :=
  C05_kernel_accepts exCx exText _ exCx_numbers exText_compiles exRules exText_means exRules_valid

end Minijail
