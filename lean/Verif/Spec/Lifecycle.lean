import Verif.Model.Lifecycle
/-!
Which program a jail stands for, told from what has happened (newest first), for C70.
-/
set_option autoImplicit false
namespace Minijail.Spec

/-- The program that the jail was last run with. -/
def lastRun (j : Nat) : List Note → Option Nat
  | [] => none
  | .ran k w _ :: l => if k = j then some w else lastRun j l
  | _ :: l => lastRun j l

/-- The program that was last started with signals to be forwarded to it. -/
def lastForwarded : List Note → Option Nat
  | [] => none
  | .ran _ w true :: l => some w
  | _ :: l => lastForwarded l

/-- Nobody has been told yet how the process has ended. -/
def Unreaped (w : Nat) (log : List Note) : Prop := (∀ j v, .reported j w v ∉ log) ∧ .taken w ∉ log

/-- The jail has been run, and has not yet told how that program has ended. -/
def Due (j : Nat) (log : List Note) : Prop := ∃ w, lastRun j log = some w ∧ ∀ v, .reported j w v ∉ log

/-- Each jail is waited for, or killed, only after it has been run and until it has told how the program has ended; and the caller does not reap the programs by
other means. -/
def Careful (sg : Signals) (s : System) : List LifeEv → Prop
  | [] => True
  | e :: es =>
    (match e with
      | .wait j => Due j s.log
      | .kill j _ => Due j s.log
      | .takes _ => False
      | _ => True) ∧ Careful sg (lifeStep sg s e) es

/-- Tells how `w` has ended. -/
def tells (w : Nat) : Note → Bool
  | .reported _ x _ => x = w
  | .taken x => x = w
  | _ => false

end Minijail.Spec
