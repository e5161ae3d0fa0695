import Verif.Model.MkdirP
/-! What is expected of a file system, as far as making directories goes. -/
set_option autoImplicit false
namespace Minijail.Spec

variable {σ : Type}

/-- `q` is a proper ancestor of the path in its text: what lies before a slash that does not only end the path. The root is left out. -/
def Ancestor (q path : BStr) : Prop := ∃ r, path = q ++ 47#8 :: r ∧ q ≠ [] ∧ ∃ c ∈ r, c ≠ 47#8

/-- The path leads to a directory. -/
def IsDir (ops : FsOps σ) (s : σ) (p : BStr) : Prop := ops.stat s p = .ok .dir

/-- The path leads to something. -/
def Present (ops : FsOps σ) (s : σ) (p : BStr) : Prop := ∃ k, ops.stat s p = .ok k

/-- A file system: the calls do not remove or replace what is there; a directory that was made is there; a name can only be looked up or made in a
directory. Symbolic links, dots, refusals and limits are all possible: nothing is said about when a call succeeds or what EEXIST means. -/
structure FileSystem (ops : FsOps σ) : Prop where
  mkdir_keeps : ∀ s p q k, ops.stat s q = .ok k → ops.stat (ops.mkdir s p).1 q = .ok k
  create_keeps : ∀ s p q k, ops.stat s q = .ok k → ops.stat (ops.create s p).1 q = .ok k
  chown_keeps : ∀ s p u g q k, ops.stat s q = .ok k → ops.stat (ops.chown s p u g).1 q = .ok k
  made : ∀ s p, (ops.mkdir s p).2 = 0 → IsDir ops (ops.mkdir s p).1 p
  chowned : ∀ s p u g, (ops.chown s p u g).2 = 0 → Present ops (ops.chown s p u g).1 p
  mkdir_in : ∀ s p q, (ops.mkdir s p).2 = 0 ∨ (ops.mkdir s p).2 = 17 → Ancestor q p → IsDir ops s q
  stat_in : ∀ s p q, Present ops s p → Ancestor q p → IsDir ops s q
  stat_error : ∀ s p e, ops.stat s p = .error e → e ≠ 0

/-- The directories leading to a path, shortest first: what lies before each slash but a leading one. -/
def waypoints (path : BStr) : List BStr :=
  (List.range path.length).filterMap fun i => if 0 < i ∧ path[i]? = some 47#8 then some (path.take i) else none

/-- The same system with a record of the directories it was asked to make, and its answers. -/
def recorded (ops : FsOps σ) : FsOps (σ × List (BStr × Nat)) where
  stat s p := ops.stat s.1 p
  mkdir s p := let (s', e) := ops.mkdir s.1 p; ((s', s.2 ++ [(p, e)]), e)
  create s p := let (s', e) := ops.create s.1 p; ((s', s.2), e)
  chown s p u g := let (s', e) := ops.chown s.1 p u g; ((s', s.2), e)

/-- The target of a mount from `source` is to be a directory: the source is no absolute path, or a directory, or a device that is not bound. -/
def DirWanted (ops : FsOps σ) (s : σ) (source : BStr) (bind : Bool) : Prop :=
  source.head? ≠ some 47#8 ∨ ops.stat s source = .ok .dir ∨
  (bind = false ∧ (ops.stat s source = .ok .block ∨ ops.stat s source = .ok .char))

end Minijail.Spec
