import Verif.Model.SyscallFilter
import Verif.Spec.Builtin
/-! How the inputs of the compiler (generated tables, options, files) determine the policy language and the rules
that precede those of the policy file. This is the only place where specification and model types meet. -/
set_option autoImplicit false
namespace Minijail

/-- The meaning of names: the first entry of the generated table. -/
def ConstTable.named {w : Nat} (tbl : ConstTable w) (n : List Char) : Option Nat :=
  (tbl.find? (fun e => e.1 == n)).map (·.2.toNat)
/-- The action that `filteropts->action` stands for. -/
def BlockAction.act : BlockAction → Spec.Action
  | .kill => .killThread
  | .killProcess => .killProcess
  | .trap => .trap
  | .log => .log

/-- The policy language that a context defines: the first entry of a name in each generated table counts. -/
def Ctx.lang (cx : Ctx) : Spec.Lang where
  bits := cx.t.longBits
  syscall n := (cx.syscalls.find? (fun e => e.1 == n)).map (·.2)
  named := cx.constants.named
  dflt := cx.opts.action.act
  skipUnknown := cx.opts.allowLogging
  files := cx.fs

/-- The rules that precede those of the policy file. -/
def Ctx.builtin (cx : Ctx) : List (BitVec 32 × Spec.Rule) :=
  (if cx.opts.allowSyscallsForLogging then Spec.allowNames cx.lang cx.logSyscalls else []) ++
    (if cx.opts.includeLibcCompatibilityAllowlist then Spec.allowNames cx.lang cx.libcCompatibilitySyscalls else [])

end Minijail
