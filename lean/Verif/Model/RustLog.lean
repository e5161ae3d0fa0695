import Verif.Spec.LogOwner
/-!
The descriptor for messages in the Rust crate: `log_to_fd` (rust/minijail/src/lib.rs:696-704), `try_clone` (439-459), `drop` (1055-1064, and the field `log_fd`, 383-385), `init_default_logging` (1109-1121),
over the one `logging_config` of the process (util.c:113-126, 531-536) and `do_log` (172-190).
-/
set_option autoImplicit false
namespace Minijail.RustLog

/-- The process: its descriptors and their files; `logging_config` (util.c:113-126, nothing: the system log); the jails that live, each with its `log_fd` (rust/minijail/src/lib.rs:380-386); whether
`LOGGING_INIT_LOCK` (1109) has been used; and where messages have gone, newest first. -/
structure Proc where
  table : Nat → Option Nat
  config : Option (Nat × Int)
  jails : Nat → Option (Option (Nat × Int))
  once : Bool
  sent : List (Nat × Went)

/-- The beginning: some files are open, standard error among them; messages go to the system log (util.c:124). -/
def Proc.start (table : Nat → Option Nat) : Proc := ⟨table, none, fun _ => none, false, []⟩

/-- `close` of what an `OwnedFd` holds (rust/minijail/src/lib.rs:385, 703, 1055-1064). -/
def closed (table : Nat → Option Nat) : Option (Nat × Int) → Nat → Option Nat
  | none => table
  | some (n, _) => fun i => if i = n then none else table i

/-- `do_log`, util.c:172-190. -/
def doLog (p : Proc) (priority : Int) : Option Went :=
  match p.config with
  | none => some .syslog
  | some (n, least) =>
    if least < priority then none
    else match p.table n with
      | some f => some (.file f)
      | none => some .nowhere

/-- What each action does: `Minijail::new` (rust/minijail/src/lib.rs:421-435); `log_to_fd` (696-704), which sets the `logging_config` first and closes the old descriptor of the jail when it stores the
new one; `try_clone` (439-459); `drop` (1055-1064); `init_default_logging` (1111-1115); other descriptors; `do_log` (util.c:172-190). -/
def act (p : Proc) : Act → Proc
  | .new j => { p with jails := fun i => if i = j then some none else p.jails i }
  | .logToFd j n f pr =>
    let table : Nat → Option Nat := fun i => if i = n then some f else p.table i
    { p with
      table := closed table ((p.jails j).getD none)
      config := some (n, pr)
      jails := fun i => if i = j then some (some (n, pr)) else p.jails i }
  | .clone j k n =>
    match p.jails j with
    | some (some (m, pr)) =>
      { p with
        table := fun i => if i = n then p.table m else p.table i
        config := some (n, pr)
        jails := fun i => if i = k then some (some (n, pr)) else p.jails i }
    | _ => { p with jails := fun i => if i = k then some none else p.jails i }
  | .drop j => { p with table := closed p.table ((p.jails j).getD none), jails := fun i => if i = j then none else p.jails i }
  | .initDefault => if p.once then p else { p with once := true, config := some (2, 6) }
  | .opens n f => { p with table := fun i => if i = n then some f else p.table i }
  | .closes n => { p with table := fun i => if i = n then none else p.table i }
  | .message pr m =>
    match doLog p pr with
    | none => p
    | some w => { p with sent := (m, w) :: p.sent }

/-- What can be done: numbers for new descriptors are free (open(2), dup(2)); a jail that is made is new, and others live (lifetimes); the program closes only what it owns itself, not what a jail owns
(`OwnedFd`, rust/minijail/src/lib.rs:385), nor standard error. -/
def Possible (p : Proc) : Act → Prop
  | .new j => p.jails j = none
  | .logToFd j n _ _ => p.jails j ≠ none ∧ p.table n = none
  | .clone j k n => p.jails j ≠ none ∧ p.jails k = none ∧ p.table n = none
  | .drop j => p.jails j ≠ none
  | .initDefault => True
  | .opens n _ => p.table n = none
  | .closes n => n ≠ 2 ∧ ∀ j pr, p.jails j ≠ some (some (n, pr))
  | .message _ _ => True

/-- One possible action after the other (any caller of rust/minijail/src/lib.rs). -/
inductive Does : Proc → List Act → Proc → Prop where
  | nil (p : Proc) : Does p [] p
  | snoc {p q : Proc} {l : List Act} (a : Act) (h : Does p l q) (ha : Possible q a) : Does p (l ++ [a]) (act q a)

end Minijail.RustLog
