import Verif.Proof.PolicyRun
import Verif.Props.ExampleCtx
/-! C02: system calls of another architecture are killed. -/
set_option autoImplicit false
namespace Minijail

/-- On every machine, whatever the policy and the options: a call whose architecture tag is not the filter's gets KILL. -/
theorem C02_foreign_arch_killed (cx : Ctx) (content : CStr) (prog : List Insn) (hnr : ∀ e ∈ cx.syscalls, e.2 < 2 ^ 31)
    (h : compileFilter cx content = .ok prog) (be : Bool) (d : SeccompData) (hd : d.arch ≠ cx.t.archNr) :
    runFilter be prog d = .ret Spec.Action.killThread.word := by
  obtain ⟨rules, _, h2, _⟩ := runFilter_compiled cx content prog hnr h
  exact h2 be d hd

/-- An i386 call against the x86-64 example filter. -/
example : runFilter false (progOf (compileFilter exCx exPolicy)) ⟨0, 0x40000003, 0, 0, 0, 0, 0, 0, 0⟩ = .ret 0 :=
  C02_foreign_arch_killed exCx exPolicy _ exCx_numbers exPolicy_compiles false _ (by decide)

end Minijail
