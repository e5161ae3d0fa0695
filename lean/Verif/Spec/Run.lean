import Verif.Model.Run
import Verif.Spec.Transfer
/-! What it means that a program was started. -/
set_option autoImplicit false
namespace Minijail.Spec
open Minijail

/-- The child got as far as `execve`; `t` is what it asked of the system. -/
def Executed (env : EnterEnv) (preload : Bool) (j : Jail) (k : Kernel) (t : List Ev) : Prop := runChild env preload j k [] = (.ok (), t)

/-- The library called the program's `main`: it came by a jail over the pipe into which the parent wrote its jail, and entered it. -/
def MainCalled (env : EnterEnv) (j : Jail) (setid : Bool) (announced : Option Int) (writes : List WriteEv) (r1 r2 : ReadEv) (a : Addrs) (kl : LandlockKernel) (k : Kernel)
    (t : List Ev) : Prop :=
  ∃ j', fakeMain setid announced r1 r2 kl (toFd writes a j).1 = .enter j' ∧ minijailEnter env j' k [] = (.ok (), t)

/-- The jail, as the program should find it: a program that asked to be process 1 itself mounts its own /proc. -/
def wanted (j : Jail) : Jail :=
  if j.flags.pids = true ∧ (j.flags.do_init = false ∨ j.flags.run_as_init = true) then { j with flags := { j.flags with remount_proc_ro := false } } else j

end Minijail.Spec
