import Verif.Model.SyscallFilter
/-!
What the compiler of policies says about the lines of a policy: the messages of `compiler_warn` (syscall_filter.c:19-24), which begin with the name of the file and the number of the line. The
messages without a place (`warn` at syscall_filter.c:652, 733, 753, 814) are left out: they name neither.

Simplification: running out of memory is left out (`pdie` and `die`, syscall_filter.c:166-167, 189-190).
-/
set_option autoImplicit false
namespace Minijail.Complaints

/-- What a message is about: `@frequency` (syscall_filter.c:617), a statement that is no `@include` one can follow (528-566, 625), a file that cannot be read (635), an included file that
cannot be used (644), a rule without a body (666), a name that is no system call (675), a system call that has a rule already, with the place of that one (700-703), and what is wrong in the body
of a rule (244-294, 339, 357). -/
inductive What where
  | frequency | statement | unreadable | included | empty | unknown
  | redefined (file : CStr) (line : Nat)
  | body
  deriving DecidableEq, Repr

/-- A message: the place it names and what it is about, syscall_filter.c:19-21. -/
structure Said where
  file : CStr
  line : Nat
  what : What
  deriving DecidableEq, Repr

/-- What `compile_file` keeps (syscall_filter.c:573-580), and `previous_syscalls`: for the index of a system call the place of its rule (179-195). -/
structure PState where
  st : CState
  prev : List (Nat × CStr × Nat)

/-- Whether `compile_errno` fails without a message, syscall_filter.c:327-329. -/
def errnoSilent (s : CStr) : Bool :=
  match strtok ' ' s with
  | none => true
  | some (w, _) => decide (w.take 6 ≠ "return".toList)

/-- Whether `compile_policy_line`, when it fails, does so without a message, syscall_filter.c:404-521: an atom that is wrong is always told (244-294). -/
def bodySilent (cx : Ctx) (nr : Nat) (policyLine : CStr) (labels : Labels) : Bool :=
  if policyLine.take 6 = "return".toList then errnoSilent policyLine
  else
    let tok1 := strtok ';' policyLine
    let groups := match tok1 with
      | none => []
      | some x => tokenizeAll "||".toList x.1
    match compileGroups cx nr 0 groups labels, (tok1.bind fun x => strtok ';' x.2).map Prod.fst with
    | .fail, _ => false
    | _, some r => errnoSilent r
    | _, none => false

/-- `insert_and_check_duplicate_syscall`, syscall_filter.c:179-195: what is kept afterwards. -/
def remember (prev : List (Nat × CStr × Nat)) (ind : Nat) (file : CStr) (n : Nat) : List (Nat × CStr × Nat) :=
  match prev.lookup ind with
  | none => (ind, file, n) :: prev
  | some _ => prev

/-- What is said of a rule that is there already, syscall_filter.c:696-704. -/
def sayDuplicate (prev : List (Nat × CStr × Nat)) (ind : Nat) (file : CStr) (n : Nat) : List Said :=
  match prev.lookup ind with
  | none => []
  | some p => [⟨file, n, .redefined p.1 p.2⟩]

/-- One rule, syscall_filter.c:650-744, on line `n` of `file`: the messages and how it ends. -/
def sayRule (cx : Ctx) (file : CStr) (n : Nat) (line : CStr) (ps : PState) (bad : Bool) : List Said × Res (PState × Bool) :=
  match strsep ':' line with
  | (_, none) => ([], .fail)
  | (name, some policyLine) =>
    if strip policyLine = [] then ([⟨file, n, .empty⟩], .fail)
    else
      match lookupSyscall cx.syscalls (strip name) with
      | none => ([⟨file, n, .unknown⟩], if cx.opts.allowLogging then .ok (ps, bad) else .fail)
      | some (nr, ind) =>
        let dup := sayDuplicate ps.prev ind file n
        match compileRule cx line ps.st bad with
        | .ok (st, bad) => (dup, .ok (⟨st, remember ps.prev ind file n⟩, bad))
        | .fail => (dup ++ if bodySilent cx nr (strip policyLine) (bpfLabelId ps.st.labels (strip name)).2 then [] else [⟨file, n, .body⟩], .fail)
        | .die => (dup, .die)
        | .ub => (dup, .ub)

/-- One line of `compile_file`, syscall_filter.c:598-746; `includeFile` is the call for an included file (639-642). -/
def sayLine (cx : Ctx) (includeLevel : Nat) (includeFile : CStr → CStr → PState → List Said × Res PState) (file : CStr) (n : Nat) (line : CStr) (ps : PState) (bad : Bool) :
    List Said × Res (PState × Bool) :=
  match strip line with
  | [] => ([], .ok (ps, bad))
  | c :: cs =>
    if c = '#' then ([], .ok (ps, bad))
    else if c = '@' then
      if (c :: cs).take 10 = "@frequency".toList then ([⟨file, n, .frequency⟩], .ok (ps, bad))
      else
        match parseIncludeStatement (c :: cs) includeLevel with
        | .ok filename =>
          match cx.fs filename with
          | none => ([⟨file, n, .unreadable⟩], .fail)
          | some content =>
            let r := includeFile filename content ps
            match r.2 with
            | .ok ps => (r.1, .ok (ps, bad))
            | .fail => (r.1 ++ [⟨file, n, .included⟩], .fail)
            | .die => (r.1, .die)
            | .ub => (r.1, .ub)
        | _ => ([⟨file, n, .statement⟩], .fail)
    else sayRule cx file n (c :: cs) ps bad

/-- The loop of `compile_file`, syscall_filter.c:598-746; `n` lines have been read (602). -/
def sayLines (cx : Ctx) (includeLevel : Nat) (includeFile : CStr → CStr → PState → List Said × Res PState) (file : CStr) :
    (n : Nat) → List CStr → PState → (bad : Bool) → List Said × Res (PState × Bool)
  | _, [], ps, bad => ([], .ok (ps, bad))
  | n, l :: ls, ps, bad =>
    let r := sayLine cx includeLevel includeFile file (n + 1) l ps bad
    match r.2 with
    | .ok (ps, bad) =>
      let r' := sayLines cx includeLevel includeFile file (n + 1) ls ps bad
      (r.1 ++ r'.1, r'.2)
    | .fail => (r.1, .fail)
    | .die => (r.1, .die)
    | .ub => (r.1, .ub)

/-- `compile_file`, syscall_filter.c:573-759. -/
def sayFileWith (cx : Ctx) (includeLevel : Nat) (includeFile : CStr → CStr → PState → List Said × Res PState) (file content : CStr) (ps : PState) : List Said × Res PState :=
  let r := sayLines cx includeLevel includeFile file 0 (readLines content) ps false
  match r.2 with
  | .ok (ps, bad) => (r.1, if bad then .fail else .ok ps)
  | .fail => (r.1, .fail)
  | .die => (r.1, .die)
  | .ub => (r.1, .ub)

/-- `compile_file` for an included file, syscall_filter.c:573-759: its own `@include` statements fail (544-547). -/
def sayFile1 (cx : Ctx) : CStr → CStr → PState → List Said × Res PState := sayFileWith cx 1 fun _ _ _ => ([], .fail)

/-- `compile_file` as `compile_filter` calls it (syscall_filter.c:811-813), on the policy `content` with the name `file`. -/
def sayFile0 (cx : Ctx) (file content : CStr) : List Said × Res PState := sayFileWith cx 0 (sayFile1 cx) file content ⟨⟨filterPrefix cx, [], [], []⟩, []⟩

end Minijail.Complaints
