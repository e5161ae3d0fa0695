import Verif.Spec.Common
import Verif.Model.OfflineParse
/-! The tables of minijail and of the offline compiler for the architecture that a policy was written for. -/
set_option autoImplicit false
namespace Minijail.Spec

/-- The tables of minijail are those the policy was written for. Only words name constants. -/
structure LangFits (T : CommonTables) (L : Lang) : Prop where
  bits : L.bits = T.bits
  syscall : ∀ n k, T.syscall n = some k → L.syscall n = some k
  named : ∀ w i, T.constant w = some i → ∃ v : Nat, L.named w = some v ∧ (v : Int) = i % 2 ^ T.bits
  onlyWords : ∀ w v, L.named w = some v → Word w
  files : ∀ p, L.files p = T.files p

/-- The tables of the offline compiler are those the policy was written for. -/
structure ArchFits (T : CommonTables) (a : Offline.Arch) : Prop where
  bits : a.bits = T.bits
  wide : 0 < T.bits
  syscall : ∀ n k, T.syscall n = some k → a.syscalls n = some k
  constant : ∀ w i, T.constant w = some i → a.constants w = some i

/-- The numbers of rules. -/
def numbered (T : CommonTables) (rules : List (List Char × Rule)) : List (BitVec 32 × Rule) := rules.map fun x => (BitVec.ofNat 32 ((T.syscall x.1).getD 0), x.2)

end Minijail.Spec
