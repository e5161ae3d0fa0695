import Verif.Spec.PolicySize
import Verif.Spec.LabelDemand
import Verif.Spec.CtxLang
/-! Which policies fit into what the compiler of minijail has room for. -/
set_option autoImplicit false
namespace Minijail.Spec

/-- The table of system calls: numbers are `int`s, names have at most 32 characters and begin with no digit. The generated tables are like that. -/
structure NamesFit (cx : Ctx) : Prop where
  small : ∀ e ∈ cx.syscalls, e.2 < 2 ^ 31
  short : ∀ e ∈ cx.syscalls, e.1.length ≤ 32
  nodigit : ∀ e ∈ cx.syscalls, ∀ c, e.1.head? = some c → c.isDigit = false

/-- The rules of a policy, with those that come before it, can be made one program. -/
structure PolicyFits (cx : Ctx) (rules : List (BitVec 32 × Rule)) : Prop where
  /-- Unless duplicates are allowed, each system call has one rule. -/
  once : cx.opts.allowDuplicateSyscalls = false → (rules.map Prod.fst).Nodup
  /-- In any case it has at most one rule other than `1`. -/
  oneBlock : OneBlock rules
  /-- Blocked calls are let through and logged only if logging is allowed. -/
  log : cx.opts.action = .log → cx.opts.allowLogging = true
  labels : labelDemand rules ≤ 512
  size : policySize cx.t.longBits (cx.builtin ++ rules) ≤ 4096

end Minijail.Spec
