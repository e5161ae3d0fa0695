import Verif.Model.SyscallFilter
/-!
syscall_filter.c with its linked lists of blocks in memory. `Model/SyscallFilter.lean` takes a list of blocks for the list of its
instructions; here the lists are built of pointers, and their memory is allocated and freed. What is parsed, and which instructions it
gives, is as there.

Simplifications: allocations succeed; addresses are not used again after `free`. The strings of the labels and the array
`previous_syscalls` are not part of this memory (`Model/Tables.lean` has them).
-/
set_option autoImplicit false
namespace Minijail

/-- `struct filter_block`, syscall_filter.h:20-27. `none` is NULL. -/
structure FBlock where
  instrs : Option Nat := none
  len : Nat := 0
  next : Option Nat := none
  last : Option Nat := none
  totalLen : Nat := 0
  deriving DecidableEq, Repr

/-- An allocated object: a `struct filter_block` or an array of `struct sock_filter`, syscall_filter.c:58-77. -/
inductive Cell where
  | block (b : FBlock)
  | instrs (l : List Insn)
  deriving DecidableEq, Repr

/-- Memory: what is allocated at each address, and the next address for `calloc`, syscall_filter.c:60, 69. -/
structure Mem where
  cells : Nat → Option Cell
  brk : Nat

/-- How a function on memory ends: it returns; it returns -1 or NULL (with what its caller gets nevertheless); `die`; or undefined
behaviour: memory that is not allocated, or not large enough, is used, or freed. -/
inductive MRes (ε α : Type) where
  | ok (a : α) (m : Mem)
  | fail (e : ε) (m : Mem)
  | die
  | ub

/-- Store at an address that is allocated. -/
def Mem.put (m : Mem) (a : Nat) (c : Option Cell) : Mem := { m with cells := fun x => if x = a then c else m.cells x }

/-- `calloc`, syscall_filter.c:60, 69. -/
def Mem.alloc (m : Mem) (c : Cell) : Mem := { cells := fun x => if x = m.brk then some c else m.cells x, brk := m.brk + 1 }

/-- `new_instr_buf(count)` (syscall_filter.c:58-65) or the `calloc` of `bpf_arg_comp` (bpf.c:232-233), and `code` written to it. -/
def newInstrBuf (count : Nat) (code : List Insn) (m : Mem) : MRes Unit Nat :=
  if code.length ≤ count then .ok m.brk (m.alloc (.instrs (code ++ List.replicate (count - code.length) ⟨0, 0, 0, 0⟩))) else .ub

/-- `new_filter_block`, syscall_filter.c:67-77. -/
def newFilterBlock (m : Mem) : MRes Unit Nat := .ok m.brk (m.alloc (.block {}))

/-- `append_filter_block`, syscall_filter.c:79-104. -/
def appendFilterBlock (head : Nat) (instrs len : Nat) (m : Mem) : MRes Unit Unit :=
  match m.cells head with
  | some (.block h) =>
    if h.instrs = none then .ok () (m.put head (some (.block { instrs := some instrs, len := len, totalLen := len })))
    else
      let newLast := m.brk
      let m := m.alloc (.block { instrs := some instrs, len := len, totalLen := len })
      if h.next ≠ none then
        match h.last with
        | none => .ub
        | some last =>
          match m.cells last with
          | some (.block l) =>
            .ok () ((m.put last (some (.block { l with next := some newLast }))).put head
              (some (.block { h with last := some newLast, totalLen := h.totalLen + len })))
          | _ => .ub
      else .ok () (m.put head (some (.block { h with next := some newLast, last := some newLast, totalLen := h.totalLen + len })))
  | _ => .ub

/-- `extend_filter_block_list`, syscall_filter.c:106-117. -/
def extendFilterBlockList (list another : Nat) (m : Mem) : MRes Unit Unit :=
  match m.cells list, m.cells another with
  | some (.block h), some (.block a) =>
    match h.last with
    | some last =>
      match m.cells last with
      | some (.block l) =>
        .ok () ((m.put last (some (.block { l with next := some another }))).put list
          (some (.block { h with last := a.last, totalLen := h.totalLen + a.totalLen })))
      | _ => .ub
    | none => .ok () (m.put list (some (.block { h with next := some another, last := a.last, totalLen := h.totalLen + a.totalLen })))
  | _, _ => .ub

/-- `free_block_list`, syscall_filter.c:909-920, for at most `fuel` blocks. Each step frees a block, so that `brk` is enough: running out is taken for
undefined. -/
def freeBlocks : (fuel : Nat) → Option Nat → Mem → MRes Unit Unit
  | _, none, m => .ok () m
  | 0, some _, _ => .ub
  | fuel + 1, some p, m =>
    match m.cells p with
    | some (.block b) =>
      match b.instrs with
      | none => freeBlocks fuel b.next (m.put p none)
      | some i =>
        match m.cells i with
        | some (.instrs _) => freeBlocks fuel b.next ((m.put i none).put p none)
        | _ => .ub
    | _ => .ub

/-- `free_block_list`, syscall_filter.c:909-920. -/
def freeBlockList (head : Option Nat) (m : Mem) : MRes Unit Unit := freeBlocks m.brk head m

/-- The inner loop of `flatten_block_list`, syscall_filter.c:899-903: what `filter` holds after the instructions `src` from `index` on; `none` is -1. -/
def copyInstrs (cap : Nat) : List Insn → (index : Nat) → (filter : List Insn) → Option (Nat × List Insn)
  | [], index, filter => some (index, filter)
  | i :: src, index, filter => if index ≥ cap then none else copyInstrs cap src (index + 1) (filter.set index i)

/-- `flatten_block_list`, syscall_filter.c:891-907, for at most `fuel` blocks; `filter` is what the array holds, of length `cap`. -/
def flattenBlocks (m : Mem) (cap : Nat) : (fuel : Nat) → Option Nat → (index : Nat) → (filter : List Insn) → MRes Unit (List Insn)
  | _, none, _, filter => .ok filter m
  | 0, some _, _, _ => .ub
  | fuel + 1, some p, index, filter =>
    match m.cells p with
    | some (.block b) =>
      if b.len = 0 then flattenBlocks m cap fuel b.next index filter
      else
        match b.instrs.bind m.cells with
        | some (.instrs l) =>
          if l.length < b.len then .ub
          else
            match copyInstrs cap (l.take b.len) index filter with
            | none => .fail () m
            | some (index, filter) => flattenBlocks m cap fuel b.next index filter
        | _ => .ub
    | _ => .ub

/-- Sequencing: a failure is handed on, e.g. syscall_filter.c:453-458. -/
def MRes.bind {ε α β : Type} (x : MRes ε α) (f : α → Mem → MRes ε β) : MRes ε β :=
  match x with
  | .ok a m => f a m
  | .fail e m => .fail e m
  | .die => .die
  | .ub => .ub

/-- Allocate `code` in an array of `count` instructions and append it, e.g. syscall_filter.c:119-124. -/
def appendNew (head count : Nat) (code : List Insn) (m : Mem) : MRes Unit Unit :=
  (newInstrBuf count code m).bind fun b m => appendFilterBlock head b code.length m

/-- `compile_errno`, syscall_filter.c:322-362. -/
def compileErrnoM (cx : Ctx) (head : Nat) (retErrno : CStr) (m : Mem) : MRes Unit Unit :=
  match compileErrno cx retErrno with
  | .ok code => appendNew head 1 code m
  | .fail => .fail () m
  | .die => .die
  | .ub => .ub

/-- `compile_atom`, syscall_filter.c:237-320. -/
def compileAtomM (cx : Ctx) (head : Nat) (atom : CStr) (labels : Labels) (nr grpIdx : Nat) (m : Mem) : MRes Unit Labels :=
  match parseAtom cx atom with
  | .ok (argidx, op, c) =>
    match groupEndLbl labels nr grpIdx with
    | .ok (id, labels) =>
      (appendNew head (bpfArgCompLen cx.t op (c.setWidth 64)) (bpfArgComp cx.t op argidx (c.setWidth 64) id) m).bind fun _ m => .ok labels m
    | .fail => .fail () m
    | .die => .die
    | .ub => .ub
  | .fail => .fail () m
  | .die => .die
  | .ub => .ub

/-- The inner loop of `compile_policy_line`, syscall_filter.c:450-459. -/
def compileAtomsM (cx : Ctx) (head nr grpIdx : Nat) : List CStr → Labels → Mem → MRes Unit Labels
  | [], labels, m => .ok labels m
  | a :: rest, labels, m => (compileAtomM cx head a labels nr grpIdx m).bind fun labels m => compileAtomsM cx head nr grpIdx rest labels m

/-- The outer loop of `compile_policy_line`, syscall_filter.c:447-473. -/
def compileGroupsM (cx : Ctx) (head nr : Nat) : (grpIdx : Nat) → List CStr → Labels → Mem → MRes Unit Labels
  | _, [], labels, m => .ok labels m
  | grpIdx, g :: rest, labels, m =>
    (compileAtomsM cx head nr grpIdx (tokenizeAll "&&".toList g) labels m).bind fun labels m =>
      match successLbl labels nr with
      | .ok (sid, labels) =>
        match groupEndLbl labels nr grpIdx with
        | .ok (eid, labels) => (appendNew head 2 [bpfJumpLbl sid, bpfLbl eid] m).bind fun _ m => compileGroupsM cx head nr (grpIdx + 1) rest labels m
        | .fail => .fail () m
        | .die => .die
        | .ub => .ub
      | .fail => .fail () m
      | .die => .die
      | .ub => .ub

/-- What `compile_policy_line` appends to its block, syscall_filter.c:423-517; a failure here is followed by `free_block_list(head)`. -/
def policyLineBody (cx : Ctx) (head nr : Nat) (policyLine : CStr) (entryLblId : BitVec 32) (labels : Labels) (m : Mem) : MRes Unit Labels :=
  (appendNew head 1 [bpfLbl entryLblId] m).bind fun _ m =>
    if policyLine.take 6 = "return".toList then (compileErrnoM cx head policyLine m).bind fun _ m => .ok labels m
    else
      let tok1 := strtok ';' policyLine
      let retErrno := (tok1.bind fun x => strtok ';' x.2).map Prod.fst
      let groups := match tok1 with
        | none => []
        | some x => tokenizeAll "||".toList x.1
      (compileGroupsM cx head nr 0 groups labels m).bind fun labels m =>
        (match retErrno with
          | some r => compileErrnoM cx head r m
          | none => appendNew head 1 [retAction cx.opts.action] m).bind fun _ m =>
          match successLbl labels nr with
          | .ok (sid, labels) => (appendNew head 2 [bpfLbl sid, bpfRetAllow] m).bind fun _ m => .ok labels m
          | .fail => .fail () m
          | .die => .die
          | .ub => .ub

/-- `compile_policy_line`, syscall_filter.c:364-521: the block's address, and the labels. -/
def compilePolicyLineM (cx : Ctx) (nr : Nat) (policyLine : CStr) (entryLblId : BitVec 32) (labels : Labels) (m : Mem) : MRes Unit (Nat × Labels) :=
  if policyLine = [] then .fail () m
  else
    (newFilterBlock m).bind fun head m =>
      match policyLineBody cx head nr policyLine entryLblId labels m with
      | .ok labels m => .ok (head, labels) m
      | .fail _ m => (freeBlockList (some head) m).bind fun _ m => .fail () m
      | .die => .die
      | .ub => .ub

/-- The state of `compile_file`, syscall_filter.c:573-580: `*arg_blocks`, the labels and the indices with an entry in `previous_syscalls`. -/
structure FState where
  args : Option Nat
  labels : Labels
  seen : List Nat

/-- A call of a function that fails without changing `*arg_blocks`. -/
def MRes.lift {α : Type} (args : Option Nat) : MRes Unit α → MRes (Option Nat) α
  | .ok a m => .ok a m
  | .fail _ m => .fail args m
  | .die => .die
  | .ub => .ub

/-- One rule line of `compile_file`, syscall_filter.c:646-744. A failure returns `*arg_blocks` as it is then: if the line does not compile, its blocks
are freed and it is NULL (729-737). -/
def compileRuleM (cx : Ctx) (head : Nat) (line : CStr) (st : FState) (bad : Bool) (m : Mem) : MRes (Option Nat) (FState × Bool) :=
  match strsep ':' line with
  | (_, none) => .fail st.args m
  | (name, some policyLine) =>
    let policyLine := strip policyLine
    if policyLine = [] then .fail st.args m else
    let name := strip name
    match lookupSyscall cx.syscalls name with
    | none => if cx.opts.allowLogging then .ok (st, bad) m else .fail st.args m
    | some (nr, ind) =>
      let dup := st.seen.contains ind
      let seen := if dup then st.seen else ind :: st.seen
      let bad := bad || (dup && !cx.opts.allowDuplicateSyscalls)
      let nrK := BitVec.ofNat 32 nr
      if policyLine = "1".toList then
        ((appendNew head 2 (bpfAllowSyscall nrK) m).lift st.args).bind fun _ m => .ok ({ st with seen := seen }, bad) m
      else
        let l := bpfLabelId st.labels name
        let id : BitVec 32 := match l.1 with
          | some id => BitVec.ofNat 32 id
          | none => BitVec.ofInt 32 (-1)
        ((appendNew head 2 (bpfAllowSyscallArgs nrK id) m).lift st.args).bind fun _ m =>
          match compilePolicyLineM cx nr policyLine id l.2 m with
          | .fail _ m => ((freeBlockList st.args m).lift none).bind fun _ m => .fail none m
          | .die => .die
          | .ub => .ub
          | .ok (block, labels) m =>
            match st.args with
            | some a => ((extendFilterBlockList a block m).lift none).bind fun _ m => .ok ({ args := some a, labels := labels, seen := seen }, bad) m
            | none => .ok ({ args := some block, labels := labels, seen := seen }, bad) m

/-- One iteration of the loop in `compile_file`, syscall_filter.c:595-746; `includeFile` is the recursive call (636-639). -/
def compileLineM (cx : Ctx) (head includeLevel : Nat) (includeFile : CStr → FState → Mem → MRes (Option Nat) FState) (line : CStr)
    (st : FState) (bad : Bool) (m : Mem) : MRes (Option Nat) (FState × Bool) :=
  match strip line with
  | [] => .ok (st, bad) m
  | c :: cs =>
    if c = '#' then .ok (st, bad) m
    else if c = '@' then
      if (c :: cs).take 10 = "@frequency".toList then .ok (st, bad) m
      else
        match parseIncludeStatement (c :: cs) includeLevel with
        | .ok filename =>
          match cx.fs filename with
          | none => .fail st.args m
          | some content => (includeFile content st m).bind fun st m => .ok (st, bad) m
        | _ => .fail st.args m
    else compileRuleM cx head (c :: cs) st bad m

/-- The loop of `compile_file`, syscall_filter.c:595-746. -/
def compileLinesM (cx : Ctx) (head includeLevel : Nat) (includeFile : CStr → FState → Mem → MRes (Option Nat) FState) :
    List CStr → FState → (bad : Bool) → Mem → MRes (Option Nat) (FState × Bool)
  | [], st, bad, m => .ok (st, bad) m
  | l :: ls, st, bad, m =>
    (compileLineM cx head includeLevel includeFile l st bad m).bind fun r m => compileLinesM cx head includeLevel includeFile ls r.1 r.2 m

/-- `compile_file`, syscall_filter.c:573-759, without its recursion. A duplicate makes the result -1 at the end (out:, 757-758). -/
def compileFileM (cx : Ctx) (head includeLevel : Nat) (includeFile : CStr → FState → Mem → MRes (Option Nat) FState) (content : CStr)
    (st : FState) (m : Mem) : MRes (Option Nat) FState :=
  (compileLinesM cx head includeLevel includeFile (readLines content) st false m).bind fun r m =>
    if r.2 then .fail r.1.args m else .ok r.1 m

/-- `compile_file` for the initial file and for an included one, syscall_filter.c:573-759. -/
def compileFileM0 (cx : Ctx) (head : Nat) : CStr → FState → Mem → MRes (Option Nat) FState :=
  compileFileM cx head 0 (compileFileM cx head 1 fun _ st m => .fail st.args m)

/-- `allow_selected_syscalls`, syscall_filter.c:197-208. -/
def allowSelectedM (cx : Ctx) (head : Nat) : List CStr → Mem → MRes Unit Unit
  | [], m => .ok () m
  | name :: rest, m =>
    (appendNew head 2 (bpfAllowSyscall (match lookupSyscall cx.syscalls name with
      | some (nr, _) => BitVec.ofNat 32 nr
      | none => BitVec.ofInt 32 (-1))) m).bind fun _ m => allowSelectedM cx head rest m

/-- What `compile_filter` appends before the rules, syscall_filter.c:786-811. -/
def filterPrefixM (cx : Ctx) (head : Nat) (m : Mem) : MRes Unit Unit :=
  (appendNew head 3 (bpfValidateArch cx.t) m).bind fun _ m =>
    (appendNew head 1 [bpfLoadSyscallNr] m).bind fun _ m =>
      (if cx.opts.allowSyscallsForLogging then allowSelectedM cx head cx.logSyscalls m else .ok () m).bind fun _ m =>
        if cx.opts.includeLibcCompatibilityAllowlist then allowSelectedM cx head cx.libcCompatibilitySyscalls m else .ok () m

/-- `free_filter:` of `compile_filter`, syscall_filter.c:883-888, for the blocks; `r` is what is returned: the program's address or a failure. -/
def freeFilter (head : Nat) (args : Option Nat) (r : Option Nat) (m : Mem) : MRes Unit Nat :=
  (freeBlockList (some head) m).bind fun _ m => (freeBlockList args m).bind fun _ m =>
    match r with
    | some p => .ok p m
    | none => .fail () m

/-- `compile_filter` after the last instruction of `head`, syscall_filter.c:846-888. -/
def finishFilterM (head : Nat) (st : FState) (m : Mem) : MRes Unit Nat :=
  match m.cells head, st.args.map m.cells with
  | some (.block h), none => finish h.totalLen 0 m
  | some (.block h), some (some (.block a)) => finish h.totalLen a.totalLen m
  | _, _ => .ub
where
  /-- Lines 846-881; `headLen` and `argLen` are the `total_len`s. -/
  finish (headLen argLen : Nat) (m : Mem) : MRes Unit Nat :=
    if headLen + argLen > BPF_MAXINSNS then freeFilter head st.args none m
    else
      let final := m.brk
      (newInstrBuf (headLen + argLen) [] m).bind fun _ m =>
        match flattenBlocks m (headLen + argLen) m.brk (some head) 0 (List.replicate (headLen + argLen) ⟨0, 0, 0, 0⟩) with
        | .ok filter m =>
          match flattenBlocks m (headLen + argLen) m.brk st.args headLen filter with
          | .ok filter m =>
            match bpfResolveJumps st.labels.length filter with
            | .ok prog => freeFilter head st.args (some final) (m.put final (some (.instrs prog)))
            | .fail => freeFilter head st.args none (m.put final none)
            | .die => .die
            | .ub => .ub
          | .fail _ m => freeFilter head st.args none (m.put final none)
          | .die => .die
          | .ub => .ub
        | .fail _ m => freeFilter head st.args none (m.put final none)
        | .die => .die
        | .ub => .ub

/-- `compile_filter`, syscall_filter.c:761-889: the address of the program. -/
def compileFilterM (cx : Ctx) (content : CStr) (m : Mem) : MRes Unit Nat :=
  (newFilterBlock m).bind fun head m =>
    (filterPrefixM cx head m).bind fun _ m =>
      match compileFileM0 cx head content ⟨none, [], []⟩ m with
      | .fail args m => freeFilter head args none m
      | .die => .die
      | .ub => .ub
      | .ok st m =>
        if cx.opts.action = .log ∧ ¬ cx.opts.allowLogging then freeFilter head st.args none m
        else (appendNew head 1 [retAction cx.opts.action] m).bind fun _ m => finishFilterM head st m

end Minijail
