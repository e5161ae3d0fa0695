/-! What a program does with the messages of the Rust crate, and where a reader of its documentation expects them. -/
set_option autoImplicit false
namespace Minijail.RustLog

/-- What a program does: it makes a jail; it opens a file (under the number `n`) and gives it to a jail for messages of at most a priority; it clones a jail (if that has such a file, a second number `n`
is made for it); it drops a jail; it asks for the default, standard error; it opens and closes other files; or the library has a message. -/
inductive Act where
  | new (j : Nat)
  | logToFd (j n file : Nat) (priority : Int)
  | clone (j k n : Nat)
  | drop (j : Nat)
  | initDefault
  | opens (n file : Nat)
  | closes (n : Nat)
  | message (priority : Int) (text : Nat)
  deriving DecidableEq, Repr

/-- Where messages are expected: in the system log, on standard error, or in the file that the jail `j` was given, for priorities up to one; or that jail is gone. -/
inductive Told where
  | syslog
  | stderr
  | jail (j file : Nat) (priority : Int)
  | gone
  deriving DecidableEq, Repr

/-- The files of the jails, whether the default has been asked for, and where messages are expected: wherever was asked for last. -/
structure Expect where
  files : Nat → Option (Nat × Int)
  asked : Bool
  told : Told

/-- Nothing has been asked for. -/
def Expect.start : Expect := ⟨fun _ => none, false, .syslog⟩

/-- What is expected after an action. The default can be asked for once; later ones do nothing. -/
def expect (e : Expect) : Act → Expect
  | .logToFd j _ f p => { e with files := fun i => if i = j then some (f, p) else e.files i, told := .jail j f p }
  | .clone j k _ =>
    match e.files j with
    | none => e
    | some (f, p) => { e with files := fun i => if i = k then some (f, p) else e.files i, told := .jail k f p }
  | .drop j =>
    { e with
      files := fun i => if i = j then none else e.files i
      told := match e.told with
        | .jail i f p => if i = j then .gone else .jail i f p
        | t => t }
  | .initDefault => if e.asked then e else { e with asked := true, told := .stderr }
  | _ => e

/-- The files that are open without any jail: those of the beginning and those the program opens itself, until it closes them. -/
def without (table : Nat → Option Nat) : Act → Nat → Option Nat
  | .opens n f => fun i => if i = n then some f else table i
  | .closes n => fun i => if i = n then none else table i
  | _ => table

/-- Where a message has gone. -/
inductive Went where
  | syslog
  | file (f : Nat)
  | nowhere
  deriving DecidableEq, Repr

end Minijail.RustLog
