import Verif.Model.ConfigMem
/-! What a list of config entries in memory holds. -/
set_option autoImplicit false
namespace Minijail.Spec
open ConfMem

/-- The pointers of an entry lead to its texts. -/
def Stored (m : CMem) (s : Slot) (e : ConfigEntry) : Prop :=
  (∃ k, s.1 = some k ∧ m.cells k = some (.text e.key)) ∧
  (e.value = none → s.2 = none) ∧ ∀ t, e.value = some t → ∃ v, s.2 = some v ∧ m.cells v = some (.text t)

/-- The list at an address can be read, and holds these entries. -/
def ListHolds (m : CMem) (list : Nat) (es : List ConfigEntry) : Prop :=
  ∃ entries allocated, m.cells list = some (.list entries es.length allocated) ∧
    ∀ (i : Nat) (e : ConfigEntry), es[i]? = some e → ∃ b slots s, entries = some b ∧ m.cells b = some (.array slots) ∧ slots[i]? = some (some s) ∧ Stored m s e

/-- Memory in which addresses that have not been given out are not in use. -/
def Ordinary (m : CMem) : Prop := ∀ x, m.brk ≤ x → m.cells x = none

/-- What was in use before is as it was. -/
def Untouched (m m' : CMem) : Prop := ∀ x, m.cells x ≠ none → m'.cells x = m.cells x

end Minijail.Spec
