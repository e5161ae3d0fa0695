import Verif.Model.Ownership
/-! Which uses of a jail lose memory. For C72. -/
set_option autoImplicit false
namespace Minijail.Ownership.Spec
open Minijail.Ownership

/-- The settings that can be made again, and then replace what was set before. -/
inductive Setting where
  | user
  | groups
  | uidmap
  | gidmap
  | pidFile
  | altSyscall
  | program
  deriving DecidableEq, Repr

/-- What a use sets, if it succeeds; `changeUser false` names a user that does not exist and sets nothing. -/
def sets : Use → Option Setting
  | .changeUser true => some .user
  | .setSupplementaryGids _ => some .groups
  | .uidmap => some .uidmap
  | .gidmap => some .gidmap
  | .writePidFile => some .pidFile
  | .useAltSyscall => some .altSyscall
  | .run true => some .program
  | _ => none

/-- It gives the jail a filter. -/
def setsFilter : Use → Prop
  | .parseFilters false _ _ => True
  | .parseFiltersFromFd false _ _ => True
  | .setFilters false _ => True
  | _ => False

/-- It takes filters out of the jail, as the system has none and that is tolerated. -/
def clearsFilter : Use → Prop
  | .parseFilters true _ _ => True
  | .parseFiltersFromFd true _ _ => True
  | .setFilters true _ => True
  | _ => False

/-- The later use drops what the earlier one has set. -/
def Drops (earlier later : Use) : Prop := (sets earlier ≠ none ∧ sets earlier = sets later) ∨ (setsFilter earlier ∧ clearsFilter later)

/-- Nothing that is set is dropped later. -/
def NothingDropped (us : List Use) : Prop := us.Pairwise fun a b => ¬ Drops a b

/-- Memory, as far as it was used up to now: nothing is allocated where nothing was asked for. -/
def Sane (m : Ram) : Prop := ∀ a, m.asked ≤ a → m.at_ a = none

end Minijail.Ownership.Spec
