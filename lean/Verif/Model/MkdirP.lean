import Verif.Model.Jail
import Verif.Model.Res
/-! system.c: making the directories that lead to a path, and the target of a mount. -/
set_option autoImplicit false
namespace Minijail

/-- The file types that `setup_mount_destination` tells apart (system.c:391-393). -/
inductive FileKind where
  | dir
  | block
  | char
  | other
  deriving DecidableEq, Repr

/-- The system calls made by system.c:292-432 on a system in state `σ`: `stat` gives the type or an error number, the others the state afterwards and
0 or an error number. The mode arguments are not modelled. -/
structure FsOps (σ : Type) where
  stat : σ → BStr → Except Nat FileKind
  mkdir : σ → BStr → σ × Nat
  create : σ → BStr → σ × Nat
  chown : σ → BStr → BitVec 32 → BitVec 32 → σ × Nat

/-- EEXIST, system.c:305, 321. -/
def E_EXIST : Nat := 17

/-- EINVAL, system.c:402. -/
def E_INVAL : Nat := 22

variable {σ : Type}

/-- The loop of `mkdir_p`, system.c:302-313: `done` is what lies before `p`, `rest` starts at `p` or before; the error number or 0. -/
def mkdirLoop (ops : FsOps σ) : σ → BStr → BStr → σ × Nat
  | s, _, [] => (s, 0)
  | s, done, c :: rest =>
    if c = 47#8 then
      let r := ops.mkdir s done
      if r.2 ≠ 0 ∧ r.2 ≠ E_EXIST then r else mkdirLoop ops r.1 (done ++ [c]) rest
    else mkdirLoop ops s (done ++ [c]) rest

/-- `mkdir_p`, system.c:292-327. For an empty path `dir + 1` lies outside the copy (line 302). Exhausted memory is not modelled. -/
def mkdirP (ops : FsOps σ) (s : σ) (path : BStr) (isdir : Bool) : Res (σ × Int) :=
  match path with
  | [] => .ub
  | c :: rest =>
    let r := mkdirLoop ops s [c] rest
    if r.2 ≠ 0 then .ok (r.1, -(r.2 : Int))
    else if isdir then
      let l := ops.mkdir r.1 path
      if l.2 ≠ 0 ∧ l.2 ≠ E_EXIST then .ok (l.1, -(l.2 : Int)) else .ok (l.1, 0)
    else .ok (r.1, 0)

/-- `setup_mount_destination` once it is clear whether to make a directory, system.c:408-431. -/
def makeDestination (ops : FsOps σ) (s : σ) (dest : BStr) (uid gid : BitVec 32) (domkdir : Bool) : Res (σ × Int) :=
  match mkdirP ops s dest domkdir with
  | .ok (s1, rc) =>
    if rc ≠ 0 then .ok (s1, rc)
    else
      let r := if domkdir then (s1, 0) else ops.create s1 dest
      if r.2 ≠ 0 then .ok (r.1, -(r.2 : Int))
      else
        let r := ops.chown r.1 dest uid gid
        if r.2 ≠ 0 then .ok (r.1, -(r.2 : Int)) else .ok (r.1, 0)
  | .fail => .fail
  | .die => .die
  | .ub => .ub

/-- `setup_mount_destination`, system.c:352-432. `stat` sets an error number when it fails. -/
def setupMountDestination (ops : FsOps σ) (s : σ) (source dest : BStr) (uid gid : BitVec 32) (bind : Bool) : Res (σ × Int) :=
  match ops.stat s dest with
  | .ok _ => .ok (s, 0)
  | .error _ =>
    if source.head? = some 47#8 then
      match ops.stat s source with
      | .error e => .ok (s, -(e : Int))
      | .ok k => makeDestination ops s dest uid gid (k == .dir || (!bind && (k == .block || k == .char)))
    else if bind then .ok (s, -(E_INVAL : Int))
    else makeDestination ops s dest uid gid true

end Minijail
