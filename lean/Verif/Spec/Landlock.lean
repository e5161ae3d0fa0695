import Verif.Model.Landlock
/-! Landlock rights by their bit numbers in the kernel interface (linux/landlock.h). -/
set_option autoImplicit false
namespace Minijail.Spec

/-- Bit numbers: 0 execute; 1 write file; 2 read file; 3 read directory; 4, 5 remove directory, file; 6 to 12 create a device,
directory, file, socket, fifo, block device, link; 13 move or link between directories. -/
def readBits : List Nat := [2, 3]
/-- Rights to create something. -/
def createBits : List Nat := [6, 7, 8, 9, 10, 11, 12]
/-- Rights to change something that exists. -/
def changeBits : List Nat := [1, 4, 5]

/-- The mask grants exactly the rights listed. -/
def Grants (mask : BitVec 64) (bits : List Nat) : Prop := ∀ i : Nat, mask.getLsbD i = true ↔ i ∈ bits

/-- Every right in `a` is in `b`. -/
def Within (a b : BitVec 64) : Prop := ∀ i : Nat, a.getLsbD i = true → b.getLsbD i = true

/-- The rights documented for each kind of rule (libminijail.h:295-320); `refer`: the kernel knows right 13. -/
def documented (refer : Bool) : Call → Option (BStr × List Nat)
  | .addFsRestrictionRo p => some (p, readBits)
  | .addFsRestrictionRx p => some (p, 0 :: readBits)
  | .addFsRestrictionRw p => some (p, readBits ++ changeBits ++ [7, 8])
  | .addFsRestrictionEdit p => some (p, readBits ++ changeBits)
  | .addFsRestrictionAdvancedRw p => some (p, readBits ++ changeBits ++ createBits ++ (if refer then [13] else []))
  | _ => none

end Minijail.Spec
