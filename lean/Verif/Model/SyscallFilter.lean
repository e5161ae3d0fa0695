import Verif.Model.BpfLabels
import Verif.Model.Util
/-!
syscall_filter.c: the policy compiler, from text to BPF.

Simplifications used throughout: the linked lists `struct filter_block` (syscall_filter.h:20-27) are the list of
all their instructions in order; warnings are dropped; allocations succeed.
-/
set_option autoImplicit false
namespace Minijail

/-- `enum block_action`, syscall_filter.h:34-39. -/
inductive BlockAction where
  | kill | trap | log | killProcess
  deriving DecidableEq, Repr

/-- `struct filter_options`, syscall_filter.h:41-47. -/
structure FilterOpts where
  action : BlockAction
  allowLogging : Bool
  allowSyscallsForLogging : Bool
  allowDuplicateSyscalls : Bool
  includeLibcCompatibilityAllowlist : Bool
  deriving DecidableEq, Repr

/-- Everything the compiler depends on besides the policy text: the target, the generated syscall table up to its
terminator (libsyscalls.h:9-15, gen_syscalls.sh; numbers are non-negative `int`s), the constant table
(libconstants.h:8-13), the two built-in allowlists (util.c:36-91 and 102-110), the file system (what
`fopen`+reading gives for a path, syscall_filter.c:629) and the options. -/
structure Ctx where
  t : Target
  syscalls : List (CStr × Nat)
  constants : ConstTable t.longBits
  logSyscalls : List CStr
  libcCompatibilitySyscalls : List CStr
  fs : CStr → Option CStr
  opts : FilterOpts

/-- `lookup_syscall`, util.c:196-211: the number and the index in the table. -/
def lookupSyscall (tbl : List (CStr × Nat)) (name : CStr) : Option (Nat × Nat) :=
  go tbl 0
where
  /-- The loop at util.c:200-207 with its index `ind_tmp`. -/
  go : List (CStr × Nat) → Nat → Option (Nat × Nat)
    | [], _ => none
    | e :: rest, ind => if e.1 = name then some (e.2, ind) else go rest (ind + 1)

/-- `str_to_op`, syscall_filter.c:35-56; `none` is 0 (less than `MIN_OPERATOR`). -/
def strToOp (s : CStr) : Option Op :=
  if s = "==".toList then some .eq
  else if s = "!=".toList then some .ne
  else if s = "<".toList then some .lt
  else if s = "<=".toList then some .le
  else if s = ">".toList then some .gt
  else if s = ">=".toList then some .ge
  else if s = "&".toList then some .set
  else if s = "in".toList then some .in_
  else none

/-- `get_label_id`, syscall_filter.c:210-216. -/
def getLabelId (labels : Labels) (label : CStr) : Res (BitVec 32 × Labels) :=
  match bpfLabelId labels label with
  | (some id, labels') => .ok (BitVec.ofNat 32 id, labels')
  | (none, _) => .die

/-- The name built by `group_end_lbl`, syscall_filter.c:220-221. Both numbers are non-negative `int`s, so the 32
byte buffer is never truncated. -/
def groupEndName (nr idx : Nat) : CStr := Nat.toDigits 10 nr ++ '_' :: (Nat.toDigits 10 idx ++ "_end".toList)

/-- The name built by `success_lbl`, syscall_filter.c:227-228 (never truncated either). -/
def successName (nr : Nat) : CStr := Nat.toDigits 10 nr ++ "_success".toList

/-- `group_end_lbl`, syscall_filter.c:218-223. -/
def groupEndLbl (labels : Labels) (nr idx : Nat) : Res (BitVec 32 × Labels) := getLabelId labels (groupEndName nr idx)

/-- `success_lbl`, syscall_filter.c:225-230. -/
def successLbl (labels : Labels) (nr : Nat) : Res (BitVec 32 × Labels) := getLabelId labels (successName nr)

/-- `is_implicit_relative_path`, syscall_filter.c:232-235. -/
def isImplicitRelativePath (s : CStr) : Bool :=
  s.head? != some '/' && (s.head? != some '.' || s.tail.head? != some '/')

/-- The part of `compile_atom` before label lookup, syscall_filter.c:240-293: argument index, operator, constant.
The `long` index is truncated to the `int` parameter of `bpf_arg_comp` (bpf.c:229). -/
def parseAtom (cx : Ctx) (atom : CStr) : Res (BitVec 32 × Op × BitVec cx.t.longBits) := do
  let (argidxStr, p1) ← Res.ofOption (strtok ' ' atom)
  let (operatorStr, p2) ← Res.ofOption (strtok ' ' p1)
  let (constantStr, p3) ← Res.ofOption (strtok ' ' p2)
  if (strtok ' ' p3).isSome then .fail else
  if argidxStr.take 3 ≠ "arg".toList then .fail else
  match strtol cx.t.longBits 10 (argidxStr.drop 3) with
  | none => .fail
  | some argidx =>
    if argidx.rest ≠ [] then .fail else
    match strToOp operatorStr with
    | none => .fail
    | some op =>
      match parseConstant cx.constants constantStr with
      | none => .fail
      | some c => .ok (BitVec.ofInt 32 argidx.val, op, c)

/-- `compile_atom`, syscall_filter.c:237-320. -/
def compileAtom (cx : Ctx) (atom : CStr) (labels : Labels) (nr grpIdx : Nat) : Res (List Insn × Labels) := do
  let (argidx, op, c) ← parseAtom cx atom
  let (id, labels) ← groupEndLbl labels nr grpIdx
  pure (bpfArgComp cx.t op argidx (c.setWidth 64) id, labels)

/-- The inner loop of `compile_policy_line`, syscall_filter.c:450-459: the atoms of one conjunction. -/
def compileAtoms (cx : Ctx) (nr grpIdx : Nat) : List CStr → Labels → Res (List Insn × Labels)
  | [], labels => pure ([], labels)
  | a :: rest, labels => do
    let (code, labels) ← compileAtom cx a labels nr grpIdx
    let (code', labels) ← compileAtoms cx nr grpIdx rest labels
    pure (code ++ code', labels)

/-- The outer loop of `compile_policy_line`, syscall_filter.c:447-473: the conjunctions from index `grpIdx` on. -/
def compileGroups (cx : Ctx) (nr : Nat) : (grpIdx : Nat) → List CStr → Labels → Res (List Insn × Labels)
  | _, [], labels => pure ([], labels)
  | grpIdx, g :: rest, labels => do
    let (code, labels) ← compileAtoms cx nr grpIdx (tokenizeAll "&&".toList g) labels
    let (sid, labels) ← successLbl labels nr
    let (eid, labels) ← groupEndLbl labels nr grpIdx
    let (code', labels) ← compileGroups cx nr (grpIdx + 1) rest labels
    pure (code ++ [bpfJumpLbl sid, bpfLbl eid] ++ code', labels)

/-- `compile_errno`, syscall_filter.c:322-362. The parsed `long` is truncated to `int` (line 337). -/
def compileErrno (cx : Ctx) (retErrno : CStr) : Res (List Insn) := do
  let (retStr, p) ← Res.ofOption (strtok ' ' retErrno)
  if retStr.take 6 ≠ "return".toList then .fail else
  match strtok ' ' p with
  | some (errnoValStr, _) =>
    match parseConstant cx.constants errnoValStr with
    | none => .fail
    | some v =>
      let errnoVal : BitVec 32 := v.setWidth 32
      if errnoVal = BitVec.ofInt 32 (-1) then .fail else .ok [bpfRetErrno errnoVal]
  | none =>
    match cx.opts.action with
    | .kill => .ok [bpfRetKill]
    | .killProcess => .ok [bpfRetKillProcess]
    | .trap => .ok [bpfRetTrap]
    | .log => .fail

/-- The return instruction for the block action, syscall_filter.c:488-501. -/
def retAction : BlockAction → Insn
  | .kill => bpfRetKill
  | .killProcess => bpfRetKillProcess
  | .trap => bpfRetTrap
  | .log => bpfRetLog

/-- The return instruction after the conjunctions, syscall_filter.c:475-502: the errno part if there is one, else the
block action. -/
def compileRet (cx : Ctx) : Option CStr → Res (List Insn)
  | some r => compileErrno cx r
  | none => .ok [retAction cx.opts.action]

/-- `compile_policy_line`, syscall_filter.c:364-521. -/
def compilePolicyLine (cx : Ctx) (nr : Nat) (policyLine : CStr) (entryLblId : BitVec 32) (labels : Labels) :
    Res (List Insn × Labels) :=
  if policyLine = [] then .fail
  else if policyLine.take 6 = "return".toList then do
    let code ← compileErrno cx policyLine
    pure (bpfLbl entryLblId :: code, labels)
  else do
    let tok1 := strtok ';' policyLine
    let retErrno := (tok1.bind fun x => strtok ';' x.2).map Prod.fst
    let groups := match tok1 with
      | none => []
      | some x => tokenizeAll "||".toList x.1
    let (code, labels) ← compileGroups cx nr 0 groups labels
    let ret ← compileRet cx retErrno
    let (sid, labels) ← successLbl labels nr
    pure (bpfLbl entryLblId :: (code ++ ret ++ [bpfLbl sid, bpfRetAllow]), labels)

/-- Compiler state threaded through `compile_file`, syscall_filter.c:573-580: the instructions of `head` and of
`*arg_blocks`, the label table and the indices with an entry in `previous_syscalls`. -/
structure CState where
  head : List Insn
  argBlocks : List Insn
  labels : Labels
  seen : List Nat
  deriving DecidableEq, Repr

/-- `parse_include_statement`, syscall_filter.c:523-571: the file name. -/
def parseIncludeStatement (policyLine : CStr) (includeLevel : Nat) : Res CStr :=
  if policyLine.take 8 ≠ "@include".toList then .fail
  else if (policyLine.drop 8).head? ≠ some ' ' then .fail
  else if includeLevel > 0 then .fail
  else match (strsep ' ' policyLine).2 with
    | none => .fail -- not reached: the line contains a space
    | some filename => if isImplicitRelativePath filename then .fail else .ok filename

/-- One rule line of `compile_file`, syscall_filter.c:646-744. The Boolean is `ret == -1` so far (set for a
duplicate, line 697); compilation goes on in that case. -/
def compileRule (cx : Ctx) (line : CStr) (st : CState) (bad : Bool) : Res (CState × Bool) :=
  match strsep ':' line with
  | (_, none) => .fail
  | (name, some policyLine) =>
    let policyLine := strip policyLine
    if policyLine = [] then .fail else
    let name := strip name
    match lookupSyscall cx.syscalls name with
    | none => if cx.opts.allowLogging then .ok (st, bad) else .fail
    | some (nr, ind) =>
      let dup := st.seen.contains ind
      let seen := if dup then st.seen else ind :: st.seen
      let bad := bad || (dup && !cx.opts.allowDuplicateSyscalls)
      let nrK := BitVec.ofNat 32 nr
      if policyLine = "1".toList then
        .ok ({ st with head := st.head ++ bpfAllowSyscall nrK, seen := seen }, bad)
      else
        -- bpf_label_id's -1 is not tested (syscall_filter.c:718)
        let (id?, labels) := bpfLabelId st.labels name
        let id : BitVec 32 := match id? with
          | some id => BitVec.ofNat 32 id
          | none => BitVec.ofInt 32 (-1)
        match compilePolicyLine cx nr policyLine id labels with
        | .ok (block, labels) =>
          .ok ({ head := st.head ++ bpfAllowSyscallArgs nrK id, argBlocks := st.argBlocks ++ block,
                 labels := labels, seen := seen }, bad)
        | .fail => .fail
        | .die => .die
        | .ub => .ub

/-- One iteration of the loop in `compile_file`, syscall_filter.c:595-746. `includeFile` is the recursive call for
an included file (lines 629-643). -/
def compileLine (cx : Ctx) (includeLevel : Nat) (includeFile : CStr → CState → Res CState) (line : CStr)
    (st : CState) (bad : Bool) : Res (CState × Bool) :=
  let policyLine := strip line
  match policyLine with
  | [] => .ok (st, bad)
  | c :: _ =>
    if c = '#' then .ok (st, bad)
    else if c = '@' then
      if policyLine.take 10 = "@frequency".toList then .ok (st, bad)
      else
        match parseIncludeStatement policyLine includeLevel with
        | .ok filename =>
          match cx.fs filename with
          | none => .fail
          | some content =>
            match includeFile content st with
            | .ok st' => .ok (st', bad)
            | .fail => .fail
            | .die => .die
            | .ub => .ub
        | _ => .fail
    else compileRule cx policyLine st bad

/-- The loop of `compile_file`, syscall_filter.c:595-746, over the lines that `getmultiline` delivers. -/
def compileLines (cx : Ctx) (includeLevel : Nat) (includeFile : CStr → CState → Res CState) :
    List CStr → CState → (bad : Bool) → Res (CState × Bool)
  | [], st, bad => .ok (st, bad)
  | l :: ls, st, bad =>
    match compileLine cx includeLevel includeFile l st bad with
    | .ok (st', bad') => compileLines cx includeLevel includeFile ls st' bad'
    | .fail => .fail
    | .die => .die
    | .ub => .ub

/-- `compile_file`, syscall_filter.c:573-759, without its recursion: see `compileFile0`. Reading errors are not
modelled, so `feof` holds at the end (lines 748-755). -/
def compileFileWith (cx : Ctx) (includeLevel : Nat) (includeFile : CStr → CState → Res CState) (content : CStr)
    (st : CState) : Res CState :=
  match compileLines cx includeLevel includeFile (readLines content) st false with
  | .ok (st', bad) => if bad then .fail else .ok st'
  | .fail => .fail
  | .die => .die
  | .ub => .ub

/-- `compile_file` for an included file (include level 1), syscall_filter.c:573-759. Its own include statements fail in
`parse_include_statement` (lines 544-547), so it never recurses. -/
def compileFile1 (cx : Ctx) : CStr → CState → Res CState := compileFileWith cx 1 fun _ _ => .fail

/-- `compile_file` for the initial file (include level 0), syscall_filter.c:573-759; included files are compiled by
the recursive call at lines 636-639. -/
def compileFile0 (cx : Ctx) : CStr → CState → Res CState := compileFileWith cx 0 (compileFile1 cx)

/-- `compile_file` with its recursion as it is written (lines 636-639 call it with `include_level + 1`), for at most
`fuel` nested calls, syscall_filter.c:573-759. Running out of fuel is `ub`. Only used to show that `compileFile0` and
`compileFile1` are this function and that two nested calls are enough. -/
def compileFileRec (cx : Ctx) : (fuel includeLevel : Nat) → CStr → CState → Res CState
  | 0, _ => fun _ _ => .ub
  | fuel + 1, includeLevel => compileFileWith cx includeLevel (compileFileRec cx fuel (includeLevel + 1))

/-- `allow_selected_syscalls`, syscall_filter.c:197-208; an unknown name gives the number -1. -/
def allowSelectedSyscalls (cx : Ctx) (allowlist : List CStr) : List Insn :=
  allowlist.flatMap fun name =>
    bpfAllowSyscall (match lookupSyscall cx.syscalls name with
      | some (nr, _) => BitVec.ofNat 32 nr
      | none => BitVec.ofInt 32 (-1))

/-- The instructions `compile_filter` emits before the rules, syscall_filter.c:786-811. -/
def filterPrefix (cx : Ctx) : List Insn :=
  bpfValidateArch cx.t ++ [bpfLoadSyscallNr] ++
    (if cx.opts.allowSyscallsForLogging then allowSelectedSyscalls cx cx.logSyscalls else []) ++
    (if cx.opts.includeLibcCompatibilityAllowlist then allowSelectedSyscalls cx cx.libcCompatibilitySyscalls else [])

/-- `compile_filter`, syscall_filter.c:761-889, on the content of the policy file. `flatten_block_list`
(lines 891-907) is concatenation here; its capacity test cannot fail because the capacity is the exact total. -/
def compileFilter (cx : Ctx) (content : CStr) : Res (List Insn) :=
  match compileFile0 cx content ⟨filterPrefix cx, [], [], []⟩ with
  | .fail => .fail
  | .die => .die
  | .ub => .ub
  | .ok st =>
    if cx.opts.action = .log ∧ ¬ cx.opts.allowLogging then .fail
    else
      let final := st.head ++ [retAction cx.opts.action] ++ st.argBlocks
      if final.length > BPF_MAXINSNS then .fail
      else bpfResolveJumps st.labels.length final

end Minijail
