import Verif.Model.SyscallFilter
/-! A small concrete compiler environment for the examples beside the theorems. -/
set_option autoImplicit false
namespace Minijail

/-- x86-64 with a handful of system calls, some in the built-in allowlists. -/
def exCx : Ctx where
  t := ⟨true, false, 0xc000003e⟩
  syscalls := [("read".toList, 0), ("open".toList, 2), ("fstat".toList, 5), ("socket".toList, 41), ("prctl".toList, 157)]
  constants := [("PR_A".toList, 1#64), ("O_RDONLY".toList, 0#64)]
  logSyscalls := ["socket".toList]
  libcCompatibilitySyscalls := ["fstat".toList]
  fs := fun p => if p = "/inc".toList then some "prctl: arg0 == PR_A; return 5\n".toList else none
  opts := ⟨.kill, false, false, false, true⟩

/-- Comment, allow rule, continued DNF rule with errno, unconditional errno, include. -/
def exPolicy : CStr :=
  "# comment\nread: 1\nopen: arg1 == O_RDONLY && arg0 != 0 || \\\n arg1 in ~(PR_A|6); return 7\n@include /inc\nsocket: return 1\n".toList

/-- The program of a successful compilation, else the empty program. -/
def progOf : Res (List Insn) → List Insn
  | .ok p => p
  | _ => []

theorem ok_of_ne_nil {r : Res (List Insn)} (h : progOf r ≠ []) : r = .ok (progOf r) := by
  cases r <;> simp_all [progOf]

theorem exPolicy_compiles : compileFilter exCx exPolicy = .ok (progOf (compileFilter exCx exPolicy)) :=
  ok_of_ne_nil (by decide +kernel)

theorem exCx_numbers : ∀ e ∈ exCx.syscalls, e.2 < 2 ^ 31 := by decide

end Minijail
