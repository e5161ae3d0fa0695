import Verif.Model.BpfLabels
/-!
The two tables of the policy compiler with their memory: the names of labels (bpf.c) and the places of earlier rules (`previous_syscalls`, syscall_filter.c). `Model/Blocks.lean` has the memory of
the rest of the compiler, and leaves these out.

Memory is a map from addresses to what is allocated there. Any request may fail. Addresses are not used again. What a policy makes the compiler ask of the tables is a list of `Use`s: here any list,
more than what policies lead to (syscall_filter.c:696, 718, and `get_label_id`, 210-231, which ends the process when there is no id).
-/
set_option autoImplicit false
namespace Minijail.Tables

/-- What is allocated: a string, a `struct parser_state` (syscall_filter.h:29-32) with the address of its file name, or the array `previous_syscalls` (syscall_filter.c:781-782). -/
inductive Cell where
  | str (s : List Char)
  | state (file : Option Nat) (line : Nat)
  | table (entries : List (Option Nat))
  deriving DecidableEq, Repr

/-- Memory: what is allocated, the next address, and how many requests there were, syscall_filter.c:166, 188, 782 and bpf.c:357, 378. -/
structure TMem where
  cells : Nat → Option Cell
  brk : Nat
  asked : Nat

/-- How a function ends: it returns; `die` (syscall_filter.c:168, 183, 190); or memory is used that is not allocated, syscall_filter.c:186, 927. -/
inductive R (α : Type) where
  | ok (a : α) (m : TMem)
  | die
  | ub

/-- One function after the other, e.g. syscall_filter.c:885-887. -/
def R.bind {α β : Type} (x : R α) (f : α → TMem → R β) : R β :=
  match x with
  | .ok a m => f a m
  | .die => .die
  | .ub => .ub

/-- `calloc`, `strdup` and `strndup` (syscall_filter.c:166, 188, 782, bpf.c:357, 378): `none` is NULL. -/
def request (fails : Nat → Bool) (c : Cell) (m : TMem) : Option Nat × TMem :=
  if fails m.asked then (none, { m with asked := m.asked + 1 })
  else (some m.brk, ⟨fun x => if x = m.brk then some c else m.cells x, m.brk + 1, m.asked + 1⟩)

/-- Writing to what a pointer points to, syscall_filter.c:170-171, 188. -/
def store (a : Nat) (c : Cell) (m : TMem) : R Unit :=
  match m.cells a with
  | none => .ub
  | some _ => .ok () { m with cells := fun x => if x = a then some c else m.cells x }

/-- `free`, syscall_filter.c:929-932, bpf.c:395. -/
def free (p : Option Nat) (m : TMem) : R Unit :=
  match p with
  | none => .ok () m
  | some a =>
    match m.cells a with
    | none => .ub
    | some _ => .ok () { m with cells := fun x => if x = a then none else m.cells x }

/-- The loop of `bpf_label_id`, bpf.c:365-370; the outer `none` is for memory that holds no string. -/
def findLabel (m : TMem) (label : List Char) : List Nat → (id : Nat) → Option (Option Nat)
  | [], _ => some none
  | p :: ps, id =>
    match m.cells p with
    | some (.str s) => if label = s then some (some id) else findLabel m label ps (id + 1)
    | _ => none

/-- `bpf_label_id`, bpf.c:352-383, on the pointers of the table so far: the id (`none` is -1) and the pointers. For the empty table the code has a case of its own (356-364) that does the same. -/
def labelId (fails : Nat → Bool) (ls : List Nat) (label : List Char) (m : TMem) : R (Option Nat × List Nat) :=
  match findLabel m label ls 0 with
  | none => .ub
  | some (some id) => .ok (some id, ls) m
  | some none =>
    if ls.length = BPF_LABELS_MAX then .ok (none, ls) m
    else
      match request fails (.str (label.take MAX_BPF_LABEL_LEN)) m with
      | (none, m) => .ok (none, ls) m
      | (some p, m) => .ok (some ls.length, ls ++ [p]) m

/-- `copy_parser_state`, syscall_filter.c:164-172, to a state at the address `dest`. -/
def copyState (fails : Nat → Bool) (dest : Nat) (file : List Char) (line : Nat) (m : TMem) : R Unit :=
  match request fails (.str file) m with
  | (none, _) => .die
  | (some f, m) => store dest (.state (some f) line) m

/-- `insert_and_check_duplicate_syscall`, syscall_filter.c:179-195, for `num` system calls. -/
def insertCheck (fails : Nat → Bool) (num : Nat) (tab : Option Nat) (ind : Nat) (file : List Char) (line : Nat) (m : TMem) : R Bool :=
  if num ≤ ind then .die
  else
    match tab with
    | none => .ub
    | some t =>
      match m.cells t with
      | some (.table es) =>
        match es[ind]? with
        | none => .ub
        | some (some _) => .ok false m
        | some none =>
          match request fails (.state none 0) m with
          | (none, _) => .die
          | (some p, m) => (store t (.table (es.set ind (some p))) m).bind fun _ m => (copyState fails p file line m).bind fun _ m => .ok true m
      | _ => .ub

/-- What the message about an earlier rule reads: `previous_syscalls[ind]->filename` and its `line_number`, syscall_filter.c:702-703 and 19-24. -/
def readPlace (tab : Option Nat) (ind : Nat) (m : TMem) : R (List Char × Nat) :=
  match tab.bind m.cells with
  | some (.table es) =>
    match es[ind]? with
    | some (some p) =>
      match m.cells p with
      | some (.state (some f) line) =>
        match m.cells f with
        | some (.str s) => .ok (s, line) m
        | _ => .ub
      | _ => .ub
    | _ => .ub
  | _ => .ub

/-- What is asked of the tables: the id of a label (syscall_filter.c:212, 718), or to note a rule for the system call with an index, on a line of a file (696). -/
inductive Use where
  | label (name : List Char)
  | rule (ind : Nat) (file : List Char) (line : Nat)
  deriving DecidableEq, Repr

/-- The answers: the id, `none` for -1 (bpf.c:352); or the place of the earlier rule, if there is one (syscall_filter.c:696-704). -/
inductive Ans where
  | id (n : Option Nat)
  | earlier (place : Option (List Char × Nat))
  deriving DecidableEq, Repr

/-- One use: `bpf_label_id` (bpf.c:352-383), or the check for duplicates with its messages (syscall_filter.c:696-704). -/
def use (fails : Nat → Bool) (num : Nat) (tab : Option Nat) (ls : List Nat) (u : Use) (m : TMem) : R (Ans × List Nat) :=
  match u with
  | .label name => (labelId fails ls name m).bind fun r m => .ok (.id r.1, r.2) m
  | .rule ind file line => (insertCheck fails num tab ind file line m).bind fun new m =>
      if new then .ok (.earlier none, ls) m
      else (readPlace tab ind m).bind fun p m => .ok (.earlier (some p), ls) m

/-- The uses of one run of `compile_file` with all it includes, syscall_filter.c:811-813. -/
def uses (fails : Nat → Bool) (num : Nat) (tab : Option Nat) : List Nat → List Use → TMem → R (List Ans × List Nat)
  | ls, [], m => .ok ([], ls) m
  | ls, u :: us, m => (use fails num tab ls u m).bind fun a m => (uses fails num tab a.2 us m).bind fun r m => .ok (a.1 :: r.1, r.2) m

/-- `free_label_strings`, bpf.c:385-399. -/
def freeLabels : List Nat → TMem → R Unit
  | [], m => .ok () m
  | p :: ps, m => (free (some p) m).bind fun _ m => freeLabels ps m

/-- The loop of `free_previous_syscalls`, syscall_filter.c:925-931, from the index `i` on for `left` entries. -/
def freeStates (tab : Option Nat) : (left i : Nat) → TMem → R Unit
  | 0, _, m => .ok () m
  | left + 1, i, m =>
    match tab.bind m.cells with
    | some (.table es) =>
      match es[i]? with
      | none => .ub
      | some none => freeStates tab left (i + 1) m
      | some (some p) =>
        match m.cells p with
        | some (.state f _) => (free f m).bind fun _ m => (free (some p) m).bind fun _ m => freeStates tab left (i + 1) m
        | _ => .ub
    | _ => .ub

/-- `free_previous_syscalls`, syscall_filter.c:922-933. -/
def freePrevious (num : Nat) (tab : Option Nat) (m : TMem) : R Unit := (freeStates tab num 0 m).bind fun _ m => free tab m

/-- What `compile_filter` does with the tables, syscall_filter.c:764-765, 781-782, 811-813 and 885-887: the array is requested, and whether there is one is not looked at. -/
def tables (fails : Nat → Bool) (num : Nat) (us : List Use) (m : TMem) : R (List Ans) :=
  let t := request fails (.table (List.replicate num none)) m
  (uses fails num t.1 [] us t.2).bind fun r m => (freeLabels r.2 m).bind fun _ m => (freePrevious num t.1 m).bind fun _ m => .ok r.1 m

end Minijail.Tables
