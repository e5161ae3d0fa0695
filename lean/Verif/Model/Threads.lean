import Verif.Spec.TaskStatus
import Verif.Model.Rust
/-! How the Rust crate tells kernel threads from others, rust/minijail/src/lib.rs:1066-1087. -/
set_option autoImplicit false
namespace Minijail.Threads
open Minijail

/-- `str::contains`, rust/minijail/src/lib.rs:1069. -/
def holds (p : BStr) : BStr → Bool
  | [] => p.isPrefixOf []
  | a :: l => p.isPrefixOf (a :: l) || holds p l

/-- `task_is_kthread`, rust/minijail/src/lib.rs:1067-1070, on the contents of the file, if it can be read: `read_to_string` fails if they are no valid UTF-8. -/
def taskIsKthread (file : Option BStr) : Option Bool :=
  match file with
  | none => none
  | some s => if utf8From [] s then some (holds (bstr "\nKthread:\t1\n") s) else none

/-- `num_threads` on the files of all tasks, rust/minijail/src/lib.rs:1073-1083. -/
def countThreads (files : List (Option BStr)) : Option Nat := numThreads (files.map taskIsKthread)

end Minijail.Threads
