import Verif.Spec.Audit
/-!
How often files tell of a system call. Nothing here refers to a model.
-/
set_option autoImplicit false
namespace Minijail.Spec

/-- `k` elements of a list are such that `P`. -/
inductive Occurs {α : Type} (P : α → Prop) : List α → Nat → Prop
  | nil : Occurs P [] 0
  | yes {x l k} : P x → Occurs P l k → Occurs P (x :: l) (k + 1)
  | no {x l k} : ¬P x → Occurs P l k → Occurs P (x :: l) k

/-- The lines of the files, each with its file. -/
def allLines (files : List (List Char × List Char × List (List LogRecord))) : List ((List Char × List Char × List (List LogRecord)) × List Char) :=
  files.flatMap fun f => (physicalLines f.2.1).map fun line => (f, line)

/-- The records that auparse finds in the files, each with its file. -/
def allRecords (files : List (List Char × List Char × List (List LogRecord))) : List ((List Char × List Char × List (List LogRecord)) × LogRecord) :=
  files.flatMap fun f => f.2.2.flatten.map fun r => (f, r)

/-- The files tell `k` times of a system call: so many lines of traces and records of logs tell of it. -/
def ToldTimes (comm : List Char) (files : List (List Char × List Char × List (List LogRecord))) (syscall : List Char) (k : Nat) : Prop :=
  ∃ lines records, k = lines + records ∧
    Occurs (fun x => ¬LogLook x.1.2.1 ∧ ∃ name args, TraceRecord x.2 name args ∧ StraceName x.1.1 name syscall) (allLines files) lines ∧
    Occurs (fun x => LogLook x.1.2.1 ∧ ∃ args, RecordTells comm x.2 syscall args) (allRecords files) records

/-- The number that goes with a system call: how often it is told of, and 1 for one that every program needs and that is not told of. -/
def Frequency (comm : List Char) (files : List (List Char × List Char × List (List LogRecord))) (syscall : List Char) (k : Nat) : Prop :=
  (0 < k ∧ ToldTimes comm files syscall k) ∨ (k = 1 ∧ syscall ∈ basicNames ∧ ToldTimes comm files syscall 0)

end Minijail.Spec
