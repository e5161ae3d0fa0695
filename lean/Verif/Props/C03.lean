import Verif.Proof.TextUnique
import Verif.Props.ExampleCtx
/-! C03: calls that no rule names get the default action. -/
set_option autoImplicit false
namespace Minijail

/-- The names a filter allows besides the policy's rules. -/
def Spec.enabledNames (cx : Ctx) : List (List Char) :=
  (if cx.opts.allowSyscallsForLogging then cx.logSyscalls else []) ++
    (if cx.opts.includeLibcCompatibilityAllowlist then cx.libcCompatibilitySyscalls else [])

private theorem builtin_eq (cx : Ctx) : cx.builtin = Spec.allowNames cx.lang (Spec.enabledNames cx) := by
  unfold Ctx.builtin Spec.enabledNames Spec.allowNames
  rw [List.map_append]
  congr 1 <;> split <;> rfl

/-- A number in the built-in part comes from an enabled name, or is -1. -/
private theorem builtin_mem (cx : Ctx) (x : BitVec 32 × Spec.Rule) (h : x ∈ cx.builtin) :
    x.2 = .allow ∧ ((∃ n ∈ Spec.enabledNames cx, ∃ nr, cx.lang.syscall n = some nr ∧ x.1 = BitVec.ofNat 32 nr) ∨
      (x.1 = BitVec.ofInt 32 (-1) ∧ ∃ n ∈ Spec.enabledNames cx, cx.lang.syscall n = none)) := by
  rw [builtin_eq, Spec.allowNames, List.mem_map] at h
  obtain ⟨n, hn, rfl⟩ := h
  refine ⟨rfl, ?_⟩
  cases hs : cx.lang.syscall n with
  | none => right; exact ⟨rfl, n, hn, hs⟩
  | some nr => left; exact ⟨n, hn, nr, hs, rfl⟩

/-- A call that no rule and no enabled built-in name denotes gets exactly the configured default action. Missing
from the full statement: call number -1 where an enabled built-in name is no system call of the architecture. -/
theorem C03_default_partial (cx : Ctx) (content : CStr) (prog : List Insn) (hnr : ∀ e ∈ cx.syscalls, e.2 < 2 ^ 31)
    (h : compileFilter cx content = .ok prog)
    (rules : List (BitVec 32 × Spec.Rule)) (hrules : Spec.PolicyText cx.lang content rules)
    (be : Bool) (d : SeccompData) (harch : d.arch = cx.t.archNr)
    (hunnamed : ∀ x ∈ rules, x.1 ≠ d.nr)
    (hbuiltin : ∀ n ∈ Spec.enabledNames cx, ∀ nr, cx.lang.syscall n = some nr → BitVec.ofNat 32 nr ≠ d.nr)
    (hminus : d.nr ≠ BitVec.ofInt 32 (-1) ∨ ∀ n ∈ Spec.enabledNames cx, (cx.lang.syscall n).isSome) :
    runFilter be prog d = .ret cx.opts.action.act.word := by
  obtain ⟨rules', h1, _, h2, _⟩ := runFilter_compiled cx content prog hnr h
  obtain rfl := policyText_unique cx hrules h1
  refine h2 be d harch ?_
  intro x hx
  rcases List.mem_append.1 hx with hx | hx
  · rcases (builtin_mem cx x hx).2 with ⟨n, hn, nr, hs, hx⟩ | ⟨hx, n, hn, hs⟩
    · rw [hx]; exact hbuiltin n hn nr hs
    · rw [hx]
      rcases hminus with h | h
      · exact fun e => h e.symm
      · have := h n hn; rw [hs] at this; simp at this
  · exact hunnamed x hx

private theorem word_allow (a : Spec.Action) (h : a.word = 0x7fff0000#32) : a = .allow := by
  cases a with
  | allow => rfl
  | errno e =>
    exfalso
    have := congrArg BitVec.toNat h
    simp only [Spec.Action.word, BitVec.toNat_ofNat] at this
    omega
  | _ => simp [Spec.Action.word] at h

private theorem policyAction_allow (bits : Nat) (d : SeccompData) (dflt : Spec.Action) (hd : dflt ≠ .allow)
    (rules : List (BitVec 32 × Spec.Rule)) (h : Spec.policyAction bits d dflt rules = .allow) :
    ∃ r, (d.nr, r) ∈ rules ∧ r.action bits d = .allow := by
  induction rules with
  | nil => exact absurd h hd
  | cons x rules ih =>
    obtain ⟨nr, r⟩ := x
    simp only [Spec.policyAction] at h
    split at h
    · next e => exact ⟨r, by simp [e], h⟩
    · obtain ⟨r, h1, h2⟩ := ih h
      exact ⟨r, List.mem_cons_of_mem _ h1, h2⟩

/-- ALLOW is always justified: by the architecture, and by a rule that allows this call or an enabled built-in
name. Missing from the full statement: as in `C03_default_partial`; rules with argument indices outside 0..5 (C08). -/
theorem C03_allow_justified_partial (cx : Ctx) (content : CStr) (prog : List Insn) (hbe : cx.t.be = false)
    (hnr : ∀ e ∈ cx.syscalls, e.2 < 2 ^ 31) (h : compileFilter cx content = .ok prog)
    (rules : List (BitVec 32 × Spec.Rule)) (hrules : Spec.PolicyText cx.lang content rules)
    (d : SeccompData) (hvalid : ∀ x ∈ rules, x.1 = d.nr → x.2.valid)
    (hallow : runFilter cx.t.be prog d = .ret Spec.Action.allow.word) :
    d.arch = cx.t.archNr ∧
      ((∃ r, (d.nr, r) ∈ rules ∧ r.action cx.t.longBits d = .allow) ∨
       (∃ n ∈ Spec.enabledNames cx, ∃ nr, cx.lang.syscall n = some nr ∧ d.nr = BitVec.ofNat 32 nr) ∨
       (d.nr = BitVec.ofInt 32 (-1) ∧ ∃ n ∈ Spec.enabledNames cx, cx.lang.syscall n = none)) := by
  obtain ⟨rules', h1, h2, _, h3⟩ := runFilter_compiled cx content prog hnr h
  obtain rfl := policyText_unique cx hrules h1
  rw [hbe] at hallow
  by_cases hd : d.arch = cx.t.archNr
  · refine ⟨hd, ?_⟩
    have hv : ∀ x ∈ cx.builtin ++ rules, x.1 = d.nr → x.2.valid := by
      intro x hx
      rcases List.mem_append.1 hx with hx | hx
      · intro _; rw [(builtin_mem cx x hx).1]; trivial
      · exact hvalid x hx
    have h4 := h3 d hd hv
    rw [hallow] at h4
    simp only [Verdict.ret.injEq] at h4
    have h5 := word_allow _ h4.symm
    obtain ⟨r, hr, ha⟩ := policyAction_allow _ _ _ (by cases cx.opts.action <;> simp [BlockAction.act]) _ h5
    rcases List.mem_append.1 hr with hr | hr
    · right; exact (builtin_mem cx _ hr).2
    · left; exact ⟨r, hr, ha⟩
  · rw [h2 false d hd] at hallow
    simp [Spec.Action.word] at hallow

/-- aarch64 as built by default: "send" is in the built-in list for logging (util.c:67-71) but is no system call there. -/
def exSend : Ctx :=
  { exCx with logSyscalls := ["socket".toList, "send".toList], opts := ⟨.trap, true, true, false, false⟩ }

/-- The full statement is false: with a built-in name that is no system call, number -1 is allowed though no rule and
no system call of an enabled list has that number. -/
theorem C03_violated : ¬ ∀ (cx : Ctx) (content : CStr) (prog : List Insn), (∀ e ∈ cx.syscalls, e.2 < 2 ^ 31) →
    compileFilter cx content = .ok prog → ∀ rules, Spec.PolicyText cx.lang content rules →
    ∀ d : SeccompData, d.arch = cx.t.archNr → (∀ x ∈ rules, x.1 ≠ d.nr) →
    (∀ n ∈ Spec.enabledNames cx, ∀ nr, cx.lang.syscall n = some nr → BitVec.ofNat 32 nr ≠ d.nr) →
    runFilter false prog d = .ret cx.opts.action.act.word := by
  intro hall
  have hc : compileFilter exSend [] = .ok (progOf (compileFilter exSend [])) := ok_of_ne_nil (by decide +kernel)
  have := hall exSend [] _ exCx_numbers hc [] ⟨[], by rw [show Spec.logicalLines [] = [] by decide]; exact .nil, rfl⟩
    ⟨0xffffffff, 0xc000003e, 0, 0, 0, 0, 0, 0, 0⟩ rfl (by simp) (by
      intro n hn nr hs
      have : n = "socket".toList ∨ n = "send".toList := by simpa [Spec.enabledNames, exSend] using hn
      rcases this with rfl | rfl
      · have e : exSend.lang.syscall "socket".toList = some 41 := by decide
        rw [e, Option.some.injEq] at hs; subst hs; decide
      · have e : exSend.lang.syscall "send".toList = none := by decide
        rw [e] at hs; simp at hs)
  revert this
  decide +kernel

private theorem exRead_text : Spec.PolicyText exCx.lang "# x\nread : 1\n".toList [(0#32, .allow)] := by
  refine ⟨[[], [(0#32, .allow)]], ?_, rfl⟩
  rw [show Spec.logicalLines "# x\nread : 1\n".toList = ["# x".toList, "read : 1".toList] by decide]
  refine .cons ?_ (.cons ?_ .nil)
  · exact .comment
  · exact .rule (name := "read ".toList) (rhs := " 1".toList) (nr := 0) (by decide) (by decide) (by decide) (by decide) .allow

/-- Call 1000 against a small filter: all hypotheses of `C03_default_partial` hold. -/
example : runFilter false (progOf (compileFilter exCx "# x\nread : 1\n".toList))
    ⟨1000, 0xc000003e, 0, 0, 0, 0, 0, 0, 0⟩ = .ret 0 := by
  refine C03_default_partial exCx _ _ exCx_numbers (ok_of_ne_nil (by decide +kernel)) _ exRead_text false _ rfl
    (by decide) ?_ (.inl (by decide))
  intro n hn nr hs
  have e1 : Spec.enabledNames exCx = ["fstat".toList] := rfl
  rw [e1, List.mem_singleton] at hn
  subst hn
  have e : exCx.lang.syscall "fstat".toList = some 5 := by decide
  rw [e, Option.some.injEq] at hs
  subst hs
  decide

end Minijail
