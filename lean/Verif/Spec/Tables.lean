import Verif.Model.Tables
/-! What the tables of the policy compiler answer. -/
set_option autoImplicit false
namespace Minijail.Spec
open Tables

/-- The place of the first rule for a system call. -/
def firstRule : List Use → Nat → Option (List Char × Nat)
  | [], _ => none
  | .rule i file line :: us, ind => if i = ind then some (file, line) else firstRule us ind
  | .label _ :: us, ind => firstRule us ind

/-- Memory in which addresses that have not been given out are not in use. -/
def TablesOrdinary (m : TMem) : Prop := ∀ x, m.brk ≤ x → m.cells x = none

/-- The answers fit what was asked, as far as rules go: each is told the first rule for its system call, if one came before. -/
def RulesTold (us : List Use) (as : List Ans) : Prop :=
  ∀ (i ind : Nat) (file : List Char) (line : Nat), us[i]? = some (.rule ind file line) → as[i]? = some (.earlier (firstRule (us.take i) ind))

/-- As far as labels go: ids are below 512, and the same for the same name only. -/
def LabelsTold (us : List Use) (as : List Ans) : Prop :=
  (∀ (i : Nat) n, us[i]? = some (.label n) → ∃ r : Option Nat, as[i]? = some (.id r)) ∧
  (∀ (i : Nat) a, as[i]? = some (.id (some a)) → a < 512) ∧
  ∀ (i j : Nat) n n' a b, us[i]? = some (.label n) → us[j]? = some (.label n') → as[i]? = some (.id (some a)) → as[j]? = some (.id (some b)) → (a = b ↔ n = n')

end Minijail.Spec
