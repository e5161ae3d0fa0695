import Verif.Model.Jail
/-! Parent and child of `minijail_run_internal` between `fork` and the entry of the jail, as two processes that take turns in any order. -/
set_option autoImplicit false
namespace Minijail

/-- What the parent sets up for the child, libminijail.c:2391-2443 and 3794-3809. -/
inductive Setup where
  | handlers
  | pidFile (path : Option BStr)
  | cgroup (path : BStr)
  | rlimit (r : Rlimit)
  | uidMap (m : BStr)
  | denySetgroups
  | gidMap (m : BStr)
  deriving DecidableEq, Repr

/-- `write_ugid_maps_or_die`, libminijail.c:2419-2443: what it writes, in order. -/
def ugidMapSetup (j : Jail) : List Setup :=
  (match j.uidmap with
    | some m => [.uidMap m]
    | none => []) ++
  (match j.gidmap with
    | some m => (if j.flags.disable_setgroups then [.denySetgroups] else []) ++ [.gidMap m]
    | none => [])

/-- What the parent does between `fork` and `parent_setup_complete`, libminijail.c:3794-3809 (with `add_to_cgroups_or_die`, 2397-2405,
and `set_rlimits_or_die`, 2407-2417). Closing its copies of descriptors is left out. -/
def parentPlan (j : Jail) : List Setup :=
  (if j.flags.forward_signals then [.handlers] else []) ++
  (if j.flags.pid_file then [.pidFile j.pid_file_path] else []) ++
  (if j.flags.cgroups then (j.cgroups.take j.cgroup_count).map .cgroup else []) ++
  (if j.rlimit_count ≠ 0 then (j.rlimits.take j.rlimit_count).map .rlimit else []) ++
  (if j.flags.userns then ugidMapSetup j else [])

/-- `sync_child`, libminijail.c:3707-3712: whether the child is made to wait. -/
def syncChild (j : Jail) : Bool :=
  j.flags.forward_signals || j.flags.pid_file || j.flags.cgroups || j.rlimit_count != 0 || j.flags.userns

/-- Where the parent is: at its setup (libminijail.c:3794-3809), past a step that failed (`kill_child_and_die`, 2385-2389, before and after the
`kill`), past `parent_setup_complete` (3818), or gone. -/
inductive ParentAt where
  | setup
  | failed
  | killed
  | finished
  | gone
  deriving DecidableEq, Repr

/-- Where the child is: before `wait_for_parent_setup` (libminijail.c:3872-3957), in its `read` (2476), behind it and entering the jail (3961-4040), in the
program, or dead. -/
inductive ChildAt where
  | preparing
  | reading
  | entering
  | program
  | dead
  deriving DecidableEq, Repr

/-- Both processes and what they share. `parentWrite` and `childWrite`: whether the process holds the write end of the pipe (both do after `fork`; that
nobody else does is an assumption). `doomed`: SIGKILL was sent to the child. `did` lists what was set up; `missed` is what was found impossible and
tolerated; `left` tells that something else ended the parent during the setup. -/
structure SyncState where
  todo : List Setup
  did : List Setup
  missed : List Setup
  parent : ParentAt
  child : ChildAt
  parentWrite : Bool
  childWrite : Bool
  doomed : Bool
  left : Bool
  deriving DecidableEq, Repr

/-- The state after `fork`, libminijail.c:3707-3791. -/
def syncStart (j : Jail) : SyncState :=
  { todo := parentPlan j, did := [], missed := [], parent := .setup, child := .preparing,
    parentWrite := syncChild j, childWrite := syncChild j, doomed := false, left := false }

/-- What may happen next. A process that cannot take the step that is named does nothing. -/
inductive SyncEv where
  /-- The next step of the setup succeeds, or fails (with ENOENT, or otherwise). -/
  | setup
  | setupEnoent
  | setupFails
  /-- The parent goes on: sends SIGKILL, dies, or completes its setup. -/
  | parentGoes
  /-- Something else ends the parent. -/
  | parentEnds
  /-- The child goes on to its next stage. -/
  | childGoes
  /-- The child fails, is interrupted in its `read`, or is ended by a signal. -/
  | childEnds
  deriving DecidableEq, Repr

/-- One step of the two processes. The parent follows libminijail.c:2385-2443, 2459-2463 and 3794-3818, the child 2469-2479 and 3958-3959. A `read` of the
pipe returns 0 once nobody holds the write end, and blocks before (nobody writes); a process to which SIGKILL was sent does not return from it. -/
def syncStep (j : Jail) (s : SyncState) : SyncEv → SyncState
  | .setup => match s.parent, s.todo with
    | .setup, a :: rest => { s with todo := rest, did := s.did ++ [a] }
    | _, _ => s
  | .setupEnoent => match s.parent, s.todo with
    | .setup, .handlers :: _ => s -- `install_signal_handlers` reports no failure (libminijail.c:2738-2761)
    | .setup, .denySetgroups :: rest => { s with todo := rest, missed := s.missed ++ [.denySetgroups] }
    | .setup, _ :: _ => { s with parent := .failed }
    | _, _ => s
  | .setupFails => match s.parent, s.todo with
    | .setup, .handlers :: _ => s
    | .setup, _ :: _ => { s with parent := .failed }
    | _, _ => s
  | .parentGoes => match s.parent, s.todo with
    | .setup, [] => { s with parent := .finished, parentWrite := if syncChild j then false else s.parentWrite }
    | .failed, _ => { s with parent := .killed, doomed := true }
    | .killed, _ => { s with parent := .gone, parentWrite := false }
    | _, _ => s
  | .parentEnds => match s.parent with
    | .gone => s
    | .finished => { s with parent := .gone, parentWrite := false }
    | .killed => { s with parent := .gone, parentWrite := false }
    | _ => { s with parent := .gone, parentWrite := false, left := true }
  | .childGoes => match s.child with
    | .preparing => if syncChild j then { s with child := .reading, childWrite := false } else { s with child := .entering }
    | .reading => if !s.parentWrite && !s.childWrite && !s.doomed then { s with child := .entering } else s
    | .entering => { s with child := .program }
    | _ => s
  | .childEnds => { s with child := .dead, childWrite := false }

/-- Any number of steps in any order (both processes of libminijail.c:3791-4040). -/
def syncRun (j : Jail) (evs : List SyncEv) : SyncState := evs.foldl (syncStep j) (syncStart j)

end Minijail
