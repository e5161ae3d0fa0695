import Verif.Props.ExampleText
/-! C01: a compiled filter means what the policy says. -/
set_option autoImplicit false
namespace Minijail

/-- The meaning of a policy text is unique. -/
theorem C01_meaning_unique (cx : Ctx) (content : CStr) (rules rules' : List (BitVec 32 × Spec.Rule))
    (h : Spec.PolicyText cx.lang content rules) (h' : Spec.PolicyText cx.lang content rules') : rules = rules' :=
  policyText_unique cx h h'

/-- Only policy texts compile: the text has a meaning (a list of rules). -/
theorem C01_compiles_meaningful (cx : Ctx) (content : CStr) (prog : List Insn) (hnr : ∀ e ∈ cx.syscalls, e.2 < 2 ^ 31)
    (h : compileFilter cx content = .ok prog) : ∃ rules, Spec.PolicyText cx.lang content rules := by
  obtain ⟨rules, h1, _⟩ := runFilter_compiled cx content prog hnr h
  exact ⟨rules, h1⟩

/-- If `content` compiles and means `rules`, running the program on a call of the filter's own architecture gives the
action of the first matching rule (built-in allowlists first), or the default action. This holds on the little-endian
targets, where the deciding rules inspect arguments 0 to 5 (see C08 for other indices, C04 for 32-bit big endian). -/
theorem C01_filter_means_policy (cx : Ctx) (content : CStr) (prog : List Insn) (hbe : cx.t.be = false)
    (hnr : ∀ e ∈ cx.syscalls, e.2 < 2 ^ 31) (h : compileFilter cx content = .ok prog)
    (rules : List (BitVec 32 × Spec.Rule)) (hrules : Spec.PolicyText cx.lang content rules)
    (d : SeccompData) (harch : d.arch = cx.t.archNr) (hvalid : ∀ x ∈ rules, x.1 = d.nr → x.2.valid) :
    runFilter cx.t.be prog d =
      .ret (Spec.policyAction cx.t.longBits d cx.opts.action.act (cx.builtin ++ rules)).word := by
  obtain ⟨rules', h1, _, _, h2⟩ := runFilter_compiled cx content prog hnr h
  obtain rfl := policyText_unique cx hrules h1
  rw [hbe]
  refine h2 d harch ?_
  intro x hx
  rcases List.mem_append.1 hx with hx | hx
  · intro _
    have : x.2 = .allow := by
      unfold Ctx.builtin Spec.allowNames at hx
      rcases List.mem_append.1 hx with hx | hx <;> split at hx <;> simp at hx <;> obtain ⟨_, _, rfl⟩ := hx <;> rfl
    rw [this]; trivial
  · exact hvalid x hx

/-- The action of the first matching rule. -/
theorem C01_first_rule_decides (bits : Nat) (d : SeccompData) (dflt : Spec.Action) (before after : List (BitVec 32 × Spec.Rule))
    (r : Spec.Rule) (hb : ∀ x ∈ before, x.1 ≠ d.nr) :
    Spec.policyAction bits d dflt (before ++ (d.nr, r) :: after) = r.action bits d := by
  induction before with
  | nil => simp [Spec.policyAction]
  | cons x before ih =>
    have hx : d.nr ≠ x.1 := (hb x (by simp)).symm
    obtain ⟨nr, r'⟩ := x
    simp only [List.cons_append, Spec.policyAction, if_neg hx]
    exact ih (fun y hy => hb y (List.mem_cons_of_mem _ hy))

/-- `exText` with its meaning `exRules` meets all hypotheses of `C01_filter_means_policy`, for every call. -/
example (d : SeccompData) (harch : d.arch = 0xc000003e) :
    runFilter false (progOf (compileFilter exCx exText)) d =
      .ret (Spec.policyAction 64 d .killThread ([(5#32, .allow)] ++ exRules)).word :=
  C01_filter_means_policy exCx exText _ rfl exCx_numbers exText_compiles exRules exText_means d harch
    fun x hx _ => exRules_valid x hx

/-- The example policy compiles; its program runs. -/
example : compileFilter exCx exPolicy = .ok (progOf (compileFilter exCx exPolicy)) ∧ exCx.t.be = false ∧
    (∀ e ∈ exCx.syscalls, e.2 < 2 ^ 31) := ⟨exPolicy_compiles, rfl, exCx_numbers⟩

/-- `open(1, 0)` is allowed, `open(1, 1)` gets errno 7, `prctl(2)` errno 5, `socket` errno 1. -/
example :
    let p := progOf (compileFilter exCx exPolicy)
    let d : SeccompData := ⟨2, 0xc000003e, 0, 1, 0, 0, 0, 0, 0⟩
    runFilter false p d = .ret 0x7fff0000 ∧ runFilter false p { d with arg1 := 1 } = .ret 0x00050007 ∧
      runFilter false p { d with nr := 157 } = .ret 0x7fff0000 ∧
      runFilter false p { d with nr := 157, arg0 := 2 } = .ret 0x00050005 ∧
      runFilter false p { d with nr := 41 } = .ret 0x00050001 := by
  decide +kernel

end Minijail
