import Verif.Model.OriginalPath
/-! Where a path inside a jail is found outside. -/
set_option autoImplicit false
namespace Minijail.Spec
open Minijail

/-- The text between slashes (47), empty text included. -/
def pieces : BStr → List BStr
  | [] => [[]]
  | c :: p =>
    if c = 47#8 then [] :: pieces p
    else match pieces p with
      | [] => [[c]]
      | x :: xs => (c :: x) :: xs

/-- The components of a path: several slashes count as one, those at the ends count for nothing. -/
def components (p : BStr) : List BStr := (pieces p).filter (· ≠ [])

/-- An absolute path without superfluous slashes. -/
def Plain (p : BStr) : Prop := p = if components p = [] then [47#8] else (components p).flatMap fun c => 47#8 :: c

/-- The path is the target of the mount or below it. -/
def Covers (m : Mountpoint) (p : BStr) : Prop := components m.dest <+: components p

instance (m : Mountpoint) (p : BStr) : Decidable (Covers m p) := by unfold Covers; infer_instance

/-- The mount that is visible at a path: the last one made there. -/
def visible (ms : List Mountpoint) (p : BStr) : Option Mountpoint := ms.reverse.find? fun m => Covers m p

/-- Where a path inside the jail is found outside, as components: below the source of the bind mount that is visible there; below the new root if
there is no mount; nowhere if what is mounted is not a part of the outside (0x1000 is `MS_BIND`). -/
def outside (j : Jail) (p : BStr) : Option (List BStr) :=
  match visible j.mounts p with
  | some m => if m.flags &&& 0x1000#64 ≠ 0#64 then some (components m.src ++ (components p).drop (components m.dest).length) else none
  | none => some (components (j.chrootdir.getD []) ++ components p)

end Minijail.Spec
