import Verif.Model.Bpf
import Verif.Spec.Policy
/-! The link between the compiler's operator enum (bpf.h:33-42) and the policy language. -/
set_option autoImplicit false
namespace Minijail

/-- The policy-language operator that a compiler operator implements. -/
def Op.cmp : Op → Spec.Cmp
  | .eq => .eq | .ne => .ne | .lt => .lt | .le => .le | .gt => .gt | .ge => .ge
  | .set => .anyFlag | .in_ => .subset

end Minijail
