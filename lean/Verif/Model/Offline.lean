import Verif.Model.BpfMachine
/-!
The policy compiler that runs offline: tools/compiler.py and tools/bpf.py.

Python objects: a block carries the number that stands for its identity (`id(block)`); `next` is the number the next
object gets. (Simplified: numbers of objects that are gone are not used again. Nothing in the code looks at the number of an
object that is gone.) Exceptions and failed assertions are `none`. Integers are natural numbers: the parser makes constants
unsigned (parser.py:288-295) and numbers of system calls are not negative.
-/
set_option autoImplicit false
namespace Minijail.Offline

/-- `SockFilter`, tools/bpf.py:139-144: integers of any size. -/
structure SockFilter where
  code : Nat
  jt : Nat
  jf : Nat
  k : Nat
  deriving DecidableEq, Repr

/-- `BPF_JEQ`, `BPF_JGT`, `BPF_JGE`, `BPF_JSET`, tools/bpf.py:42-45. -/
inductive JOp where
  | jeq | jgt | jge | jset
  deriving DecidableEq, Repr

/-- Their values, tools/bpf.py:42-45. -/
def JOp.code : JOp → Nat
  | .jeq => 0x10
  | .jgt => 0x20
  | .jge => 0x30
  | .jset => 0x40

/-- `BPF_JMP | op | BPF_K`, tools/bpf.py:23-49. -/
def jmpCode (op : JOp) : Nat := 0x05 ||| op.code ||| 0x00

/-- `BPF_LD | BPF_W | BPF_ABS`, tools/bpf.py:19-35. -/
def LD_W_ABS : Nat := 0x00 ||| 0x00 ||| 0x20

/-- `BPF_JMP | BPF_JA`, tools/bpf.py:24, 41. -/
def JMP_JA : Nat := 0x05 ||| 0x00

/-- `BPF_RET`, tools/bpf.py:25. -/
def RET : Nat := 0x06

/-- The classes of actions, tools/bpf.py:185-254. -/
inductive Action where
  | killProcess | killThread | trap | trace | userNotify | log
  | returnErrno (errno : Nat)
  | allow
  deriving DecidableEq, Repr

/-- The instructions of an action, tools/bpf.py:185-254 with the constants of 55-65. -/
def Action.instructions : Action → List SockFilter
  | .killProcess => [⟨RET, 0, 0, 0x80000000⟩]
  | .killThread => [⟨RET, 0, 0, 0x00000000⟩]
  | .trap => [⟨RET, 0, 0, 0x00030000⟩]
  | .trace => [⟨RET, 0, 0, 0x7FF00000⟩]
  | .userNotify => [⟨RET, 0, 0, 0x7FC00000⟩]
  | .log => [⟨RET, 0, 0, 0x7FFC0000⟩]
  | .returnErrno errno => [⟨RET, 0, 0, 0x00050000 ||| (errno &&& 0x0000FFFF)⟩]
  | .allow => [⟨RET, 0, 0, 0x7FFF0000⟩]

/-- The blocks, tools/bpf.py:151-370: `BasicBlock` (159-182; `action`: it is one of the classes of 185-254), `ValidateArch` (257-268),
`SyscallEntry` (271-302), `WideAtom` (305-323), `Atom` (326-370). -/
inductive Block where
  | basic (id : Nat) (action : Option Action) (instructions : List SockFilter)
  | validateArch (id : Nat) (next : Block)
  | syscallEntry (id : Nat) (op : JOp) (number : Nat) (jt jf : Block)
  | wideAtom (id : Nat) (offset : Nat) (op : JOp) (value : Nat) (jt jf : Block)
  | atom (id : Nat) (arg : Nat) (op : JOp) (value : Nat) (jt jf : Block)
  deriving DecidableEq, Repr

/-- `id(block)`. -/
def Block.id : Block → Nat
  | .basic i _ _ => i
  | .validateArch i _ => i
  | .syscallEntry i _ _ _ _ => i
  | .wideAtom i _ _ _ _ _ => i
  | .atom i _ _ _ _ _ => i

/-- `BasicBlock.instructions`, tools/bpf.py:171-173. -/
def Block.instructions : Block → List SockFilter
  | .basic _ _ l => l
  | _ => []

/-- An action object, tools/bpf.py:185-254: the parser makes one for each action it reads, or hands out `kill_action`. -/
structure ActObj where
  id : Nat
  act : Action
  deriving DecidableEq, Repr

/-- The action as a block. -/
def ActObj.block (a : ActObj) : Block := .basic a.id (some a.act) a.act.instructions

/-- The operators the tokenizer knows, tools/parser.py:53 (`OP`). -/
inductive PyOp where
  | eq | ne | gt | le | ge | lt | band | isIn
  deriving DecidableEq, Repr

/-- `arg_offset`, tools/bpf.py:69-73. -/
def argOffset (i : Nat) (hi : Bool) : Nat := 4 + 4 + 8 + 8 * i + 8 / 2 * (if hi then 1 else 0)

/-- `Atom.__init__`, tools/bpf.py:329-363. -/
def mkAtom (id arg : Nat) (op : PyOp) (value : Nat) (jt jf : Block) : Block :=
  match op with
  | .eq => .atom id arg .jeq value jt jf
  | .ne => .atom id arg .jeq value jf jt
  | .gt => .atom id arg .jgt value jt jf
  | .le => .atom id arg .jgt value jf jt
  | .ge => .atom id arg .jge value jt jf
  | .lt => .atom id arg .jge value jf jt
  | .band => .atom id arg .jset value jt jf
  | .isIn => .atom id arg .jset (2 ^ 64 - 1 - value % 2 ^ 64) jf jt

/-! ### Lowering -/

/-- The state of a `LoweringVisitor`, tools/bpf.py:376-377, 475-477, 559-561. -/
structure Low where
  visited : List Nat
  mapping : List (Nat × Block)
  next : Nat

/-- The copy of a block, or a `KeyError`. -/
def Low.get (s : Low) (b : Block) : Option Block := s.mapping.lookup b.id

/-- `self._mapping[id(block)] = copy`, behind `assert id(block) not in self._mapping`. -/
def Low.set (s : Low) (id : Nat) (copy : Block) (next : Nat) : Option Low :=
  if (s.mapping.lookup id).isSome then none else some { s with mapping := (id, copy) :: s.mapping, next := next }

/-- `LoweringVisitor.visitAtom`, tools/bpf.py:563-640: what stands for the comparison, and the number behind its last object. -/
def lowerAtom (bits n arg : Nat) (op : JOp) (value : Nat) (jt jf : Block) : Block × Nat :=
  let lo := value % 2 ^ 32
  let hi := value / 2 ^ 32 % 2 ^ 32
  let loBlock := Block.wideAtom n (argOffset arg false) op lo jt jf
  if bits = 32 then (loBlock, n + 1)
  else
    match op with
    | .jge | .jgt =>
      if hi = 0 then (.wideAtom (n + 1) (argOffset arg true) .jgt hi jt loBlock, n + 2)
      else
        let hiEq := Block.wideAtom (n + 1) (argOffset arg true) .jeq hi loBlock jf
        (.wideAtom (n + 2) (argOffset arg true) .jgt hi jt hiEq, n + 3)
    | .jset =>
      if hi = 0 then (loBlock, n + 1)
      else (.wideAtom (n + 1) (argOffset arg true) .jset hi jt loBlock, n + 2)
    | .jeq => (.wideAtom (n + 1) (argOffset arg true) .jeq hi loBlock jf, n + 2)

/-- `accept` of the blocks with a `LoweringVisitor`, tools/bpf.py:166-169, 264-268, 289-294, 318-323, 365-370, 379-383, 484-543, 563-640. -/
def lowerAccept (bits : Nat) : Block → Low → Option Low
  | .basic i act l, s =>
    if i ∈ s.visited then some s
    else { s with visited := i :: s.visited }.set i (.basic s.next act l) (s.next + 1)
  | .validateArch i b, s =>
    if i ∈ s.visited then some s
    else do
      let s ← lowerAccept bits b { s with visited := i :: s.visited }
      let b' ← s.get b
      s.set i (.validateArch s.next b') (s.next + 1)
  | .syscallEntry i op nr jt jf, s =>
    if i ∈ s.visited then some s
    else do
      let s ← lowerAccept bits jt { s with visited := i :: s.visited }
      let s ← lowerAccept bits jf s
      let jt' ← s.get jt
      let jf' ← s.get jf
      s.set i (.syscallEntry s.next op nr jt' jf') (s.next + 1)
  | .wideAtom i off op v jt jf, s =>
    if i ∈ s.visited then some s
    else do
      let s ← lowerAccept bits jt { s with visited := i :: s.visited }
      let s ← lowerAccept bits jf s
      let jt' ← s.get jt
      let jf' ← s.get jf
      s.set i (.wideAtom s.next off op v jt' jf') (s.next + 1)
  | .atom i arg op v jt jf, s =>
    if i ∈ s.visited then some s
    else do
      let s ← lowerAccept bits jt { s with visited := i :: s.visited }
      let s ← lowerAccept bits jf s
      let jt' ← s.get jt
      let jf' ← s.get jf
      s.set i (lowerAtom bits s.next arg op v jt' jf').1 (lowerAtom bits s.next arg op v jt' jf').2

/-- `CopyingVisitor.process` of a new `LoweringVisitor`, tools/bpf.py:479-482. -/
def lower (bits : Nat) (b : Block) (n : Nat) : Option (Block × Nat) := do
  let s ← lowerAccept bits b ⟨[], [], n⟩
  let b' ← s.get b
  return (b', s.next)

/-! ### Flattening -/

/-- The state of a `FlatteningVisitor`, tools/bpf.py:646-651. -/
structure Flat where
  visited : List Nat
  instructions : List SockFilter
  offsets : List (Nat × Int)

/-- A new one. -/
def Flat.new : Flat := ⟨[], [], []⟩

/-- `_distance`, tools/bpf.py:657-660: a `KeyError` or a failed assertion is `none`. -/
def Flat.distance (s : Flat) (b : Block) : Option Nat := do
  let off ← s.offsets.lookup b.id
  let distance := off + s.instructions.length
  if distance ≥ 0 then some distance.toNat else none

/-- `_emit_load_arg`, tools/bpf.py:662-663. -/
def emitLoadArg (offset : Nat) : List SockFilter := [⟨LD_W_ABS, 0, 0, offset⟩]

/-- `_emit_jmp`, tools/bpf.py:665-686. -/
def emitJmp (op : JOp) (value jt jf : Nat) : List SockFilter :=
  if jt < 0x100 ∧ jf < 0x100 then [⟨jmpCode op, jt, jf, value⟩]
  else if jt + 1 < 0x100 then [⟨jmpCode op, jt + 1, 0, value⟩, ⟨JMP_JA, 0, 0, jf⟩]
  else if jf + 1 < 0x100 then [⟨jmpCode op, 0, jf + 1, value⟩, ⟨JMP_JA, 0, 0, jt⟩]
  else [⟨jmpCode op, 0, 1, value⟩, ⟨JMP_JA, 0, 0, jt + 1⟩, ⟨JMP_JA, 0, 0, jf⟩]

/-- The instructions of a block, tools/bpf.py:697-732. -/
def flatInstructions (archNr : Nat) (kill : Action) (s : Flat) : Block → Option (List SockFilter)
  | .basic _ _ l => some l
  | .validateArch _ next => do
    let dist ← s.distance next
    return [⟨LD_W_ABS, 0, 0, 4⟩, ⟨jmpCode .jeq, dist + 1, 0, archNr⟩] ++ kill.instructions ++ [⟨LD_W_ABS, 0, 0, 0⟩]
  | .syscallEntry _ op nr jt jf => do
    let dt ← s.distance jt
    let df ← s.distance jf
    return emitJmp op nr dt df
  | .wideAtom _ off op v jt jf => do
    let dt ← s.distance jt
    let df ← s.distance jf
    return emitLoadArg off ++ emitJmp op v dt df
  | .atom _ _ _ _ _ _ => none

/-- `FlatteningVisitor.visit`, tools/bpf.py:694-735. -/
def Flat.visit (archNr : Nat) (kill : Action) (s : Flat) (b : Block) : Option Flat :=
  if (s.offsets.lookup b.id).isSome then none
  else do
    let l ← flatInstructions archNr kill s b
    return { s with instructions := l ++ s.instructions, offsets := (b.id, -(Int.ofNat (l ++ s.instructions).length)) :: s.offsets }

/-- `accept` of the blocks with a `FlatteningVisitor`, tools/bpf.py:166-169, 264-268, 289-294, 318-323, 365-370, 688-692. -/
def flatAccept (archNr : Nat) (kill : Action) : Block → Flat → Option Flat
  | .basic i act l, s =>
    if i ∈ s.visited then some s
    else { s with visited := i :: s.visited }.visit archNr kill (.basic i act l)
  | .validateArch i b, s =>
    if i ∈ s.visited then some s
    else do
      let s ← flatAccept archNr kill b { s with visited := i :: s.visited }
      s.visit archNr kill (.validateArch i b)
  | .syscallEntry i op nr jt jf, s =>
    if i ∈ s.visited then some s
    else do
      let s ← flatAccept archNr kill jt { s with visited := i :: s.visited }
      let s ← flatAccept archNr kill jf s
      s.visit archNr kill (.syscallEntry i op nr jt jf)
  | .wideAtom i off op v jt jf, s =>
    if i ∈ s.visited then some s
    else do
      let s ← flatAccept archNr kill jt { s with visited := i :: s.visited }
      let s ← flatAccept archNr kill jf s
      s.visit archNr kill (.wideAtom i off op v jt jf)
  | .atom i arg op v jt jf, s =>
    if i ∈ s.visited then some s
    else do
      let s ← flatAccept archNr kill jt { s with visited := i :: s.visited }
      let s ← flatAccept archNr kill jf s
      s.visit archNr kill (.atom i arg op v jt jf)

/-- `accept` of the blocks with an `ArgFilterForwardingVisitor`, tools/bpf.py:738-771: filters of arguments go to the other visitor. -/
def forwardAccept (archNr : Nat) (kill : Action) : Block → List Nat × Flat → Option (List Nat × Flat)
  | .basic i act l, (vis, s) =>
    if i ∈ vis then some (vis, s)
    else if act.isSome then some (i :: vis, s)
    else do
      let s ← flatAccept archNr kill (.basic i act l) s
      return (i :: vis, s)
  | .validateArch i b, (vis, s) => if i ∈ vis then some (vis, s) else forwardAccept archNr kill b (i :: vis, s)
  | .syscallEntry i _ _ jt jf, (vis, s) =>
    if i ∈ vis then some (vis, s)
    else do
      let x ← forwardAccept archNr kill jt (i :: vis, s)
      forwardAccept archNr kill jf x
  | .wideAtom i _ _ _ jt jf, (vis, s) =>
    if i ∈ vis then some (vis, s)
    else do
      let x ← forwardAccept archNr kill jt (i :: vis, s)
      forwardAccept archNr kill jf x
  | .atom i _ _ _ jt jf, (vis, s) =>
    if i ∈ vis then some (vis, s)
    else do
      let x ← forwardAccept archNr kill jt (i :: vis, s)
      forwardAccept archNr kill jf x

/-! ### Policies -/

/-- `parser.Atom`, tools/parser.py:191. -/
structure PAtom where
  arg : Nat
  op : PyOp
  value : Nat
  deriving DecidableEq, Repr

/-- `parser.Filter`, tools/parser.py:194: a condition (`none`: always) and an action. -/
structure PFilter where
  expression : Option (List (List PAtom))
  action : ActObj
  deriving DecidableEq, Repr

/-- `parser.FilterStatement`, tools/parser.py:214-216 (the name of the system call is used in messages only). -/
structure FilterStatement where
  number : Nat
  frequency : Nat
  filters : List PFilter
  deriving DecidableEq, Repr

/-- `SyscallPolicyEntry`, tools/compiler.py:34-42. -/
structure Entry where
  number : Nat
  frequency : Nat
  filter : Option Block
  deriving DecidableEq, Repr

/-- The atoms of one conjunction, tools/compiler.py:374-382. -/
def conjunction (atoms : List PAtom) (trueAction falseAction : Block) (n : Nat) : Block × Nat :=
  atoms.foldl (fun x a => (mkAtom x.2 a.arg a.op a.value x.1 falseAction, x.2 + 1)) (trueAction, n)

/-- The disjunction of one filter, tools/compiler.py:367-383. -/
def disjunction (expr : List (List PAtom)) (action falseAction : Block) (n : Nat) : Block × Nat :=
  expr.foldl (fun x c => conjunction c action x.1 x.2) (falseAction, n)

/-- The filters before the last one, last to first, tools/compiler.py:366-383. (`for disjunction in None` is an exception.) -/
def filterChain (filters : List PFilter) (falseAction : Block) (n : Nat) : Option (Block × Nat) :=
  filters.foldr (fun f x => do
    let x ← x
    let e ← f.expression
    return disjunction e f.action.block x.1 x.2) (some (falseAction, n))

/-- `compile_filter_statement`, tools/compiler.py:348-396. -/
def compileFilterStatement (bits archNr : Nat) (kill : Action) (denylist : Bool) (st : FilterStatement) (n : Nat) : Option (Entry × Nat) := do
  let last ← st.filters.getLast?
  if ¬denylist ∧ last.action.act.instructions = Action.allow.instructions then
    return (⟨st.number, st.frequency, none⟩, n)
  let x ← filterChain st.filters.dropLast last.action.block n
  let y ← lower bits x.1 x.2
  let s ← flatAccept archNr kill y.1 Flat.new
  return (⟨st.number, st.frequency, some (.basic y.2 none s.instructions)⟩, y.2 + 1)

/-- `SyscallPolicyRange`, tools/compiler.py:64-71; `lo` and `hi` are `numbers`. -/
structure Range where
  lo : Nat
  hi : Nat
  frequency : Nat
  accumulated : Nat
  filter : Option Block
  deriving DecidableEq, Repr

/-- Python's `sorted` (stable) by a key that is a number. -/
def insertBy {α : Type} (key : α → Nat) (x : α) : List α → List α
  | [] => [x]
  | y :: l => if key x ≤ key y then x :: y :: l else y :: insertBy key x l

/-- Python's `sorted`. -/
def sortBy {α : Type} (key : α → Nat) (l : List α) : List α := l.foldr (insertBy key) []

/-- The loop of `_convert_to_ranges`, tools/compiler.py:89-99: `cur` holds what began at `lower`, `prev` is the entry before `upper`. -/
def rangesFrom (cur : Range) (prev : Entry) : List Entry → List Range
  | [] => [cur]
  | e :: l =>
    if prev.filter.map Block.instructions ≠ e.filter.map Block.instructions ∨ prev.number + 1 ≠ e.number then
      cur :: rangesFrom ⟨e.number, e.number + 1, e.frequency, 0, e.filter⟩ e l
    else rangesFrom { cur with hi := e.number + 1, frequency := cur.frequency + e.frequency } e l

/-- `_convert_to_ranges`, tools/compiler.py:87-99. -/
def convertToRanges (entries : List Entry) : List Range :=
  match sortBy Entry.number entries with
  | [] => []
  | e :: l => rangesFrom ⟨e.number, e.number + 1, e.frequency, 0, e.filter⟩ e l

/-- `1e99`, tools/compiler.py:103. -/
def UPPER : Nat := 999999999999999967336168804116691273849533185806555472917961779471295845921727862608739868455469056

/-- `_compile_single_range` with its default bounds, tools/compiler.py:102-145: cost, block, next number. -/
def compileSingleRange (e : Range) (accept reject : Block) (n : Nat) : Nat × Block × Nat :=
  let action := e.filter.getD accept
  if e.hi - e.lo = 1 then (1, .syscallEntry n .jeq e.lo action reject, n + 1)
  else if e.lo = 0 then (1, .syscallEntry n .jge e.hi reject action, n + 1)
  else if e.hi = UPPER then (1, .syscallEntry n .jge e.lo action reject, n + 1)
  else (2, .syscallEntry (n + 1) .jge e.lo (.syscallEntry n .jge e.hi reject action) reject, n + 2)

/-- The state of the loop of `_compile_ranges_linear`, tools/compiler.py:153-155. -/
structure Linear where
  cost : Nat
  accumulated : Nat
  action : Block
  next : Nat

/-- `_compile_ranges_linear`, tools/compiler.py:148-162. -/
def compileRangesLinear (ranges : List Range) (accept reject : Block) (n : Nat) : Nat × Block × Nat :=
  let s := (sortBy Range.frequency ranges).foldl (fun (s : Linear) e =>
    let x := compileSingleRange e accept s.action s.next
    ⟨s.cost + (s.accumulated + e.frequency) * x.1, s.accumulated + e.frequency, x.2.1, x.2.2⟩) ⟨0, 0, reject, n⟩
  (s.cost, s.action, s.next)

/-- `_compile_entries_linear`, tools/compiler.py:165-168. -/
def compileEntriesLinear (entries : List Entry) (accept reject : Block) (n : Nat) : Block × Nat :=
  (compileRangesLinear (convertToRanges entries) accept reject n).2

/-- The running totals, tools/compiler.py:202-205. -/
def accumulate : Nat → List Range → List Range
  | _, [] => []
  | t, e :: l => { e with accumulated := t + e.frequency } :: accumulate (t + e.frequency) l

/-- `memoized_costs` and the next number, tools/compiler.py:209. -/
structure Bst where
  memo : List ((Nat × Nat) × (Nat × Block))
  next : Nat

/-- The points where the interval may be cut, tools/compiler.py:247-255: for each index the candidates that pass the tests. -/
def cutoffs (ranges : List Range) (lo hi : Nat) (bounds : Nat × Nat) : List (Nat × Nat) :=
  (List.range (hi - lo)).flatMap fun i =>
    let first := (ranges[lo + i]?.map Range.lo).toList
    let second := if i = 0 then [] else (ranges[i - 1 + lo]?.map Range.hi).toList
    ((first ++ second).filter fun c => bounds.1 < c ∧ c < bounds.2 ∧ lo < i + lo ∧ i + lo < hi).map fun c => (i + lo, c)

/-- The body of the loop over the cutoffs, tools/compiler.py:256-279; `gen` is the recursive call. Python's `min` keeps the first of two that cost
the same (`SyscallEntry.__lt__`, tools/bpf.py:281-287). -/
def bstStep (gen : Nat → Nat → Nat × Nat → Bst → Option ((Nat × Block) × Bst)) (lo hi : Nat) (bounds : Nat × Nat) (cmpCost : Nat)
    (x : (Nat × Block) × Bst) (cut : Nat × Nat) : Option ((Nat × Block) × Bst) := do
  let l ← gen lo cut.1 (bounds.1, cut.2) x.2
  let r ← gen cut.1 hi (cut.2, bounds.2) l.2
  let cost := cmpCost + l.1.1 + r.1.1
  let node := Block.syscallEntry r.2.next .jge cut.2 r.1.2 l.1.2
  return (if cost < x.1.1 then (cost, node) else x.1, { r.2 with next := r.2.next + 1 })

/-- `_generate_syscall_bst`, tools/compiler.py:211-282. `fuel` bounds the depth of the recursion; `C41_total` shows that it never runs out. -/
def generateBst (ranges : List Range) (accept reject : Block) : (fuel : Nat) → Nat → Nat → Nat × Nat → Bst → Option ((Nat × Block) × Bst)
  | 0, _, _, _, _ => none
  | fuel + 1, lo, hi, bounds, s => do
    let first ← ranges[lo]?
    let last ← ranges[hi - 1]?
    if ¬(bounds.1 ≤ first.lo ∧ last.hi ≤ bounds.2) then none
    else
      match s.memo.lookup bounds with
      | some x => some (x, s)
      | none =>
        if hi - lo = 1 then
          if bounds = (first.lo, first.hi) then
            some ((0, first.filter.getD accept), { s with memo := (bounds, (0, first.filter.getD accept)) :: s.memo })
          else
            let x := compileSingleRange first accept reject s.next
            some ((x.1 * first.frequency, x.2.1), ⟨(bounds, (x.1 * first.frequency, x.2.1)) :: s.memo, x.2.2⟩)
        else do
          let lin := compileRangesLinear ((ranges.drop lo).take (hi - lo)) accept reject s.next
          let cmpCost := last.accumulated - (first.accumulated - first.frequency)
          let best ← (cutoffs ranges lo hi bounds).foldlM (bstStep (generateBst ranges accept reject fuel) lo hi bounds cmpCost)
            ((lin.1, lin.2.1), { s with next := lin.2.2 })
          return (best.1, { best.2 with memo := (bounds, best.1) :: best.2.memo })

/-- `_compile_entries_bst`, tools/compiler.py:171-284. -/
def compileEntriesBst (entries : List Entry) (accept reject : Block) (n : Nat) : Option (Block × Nat) := do
  let ranges := accumulate 0 (convertToRanges entries)
  let x ← generateBst ranges accept reject ranges.length 0 ranges.length (0, 2 ^ 64 - 1) ⟨[], n⟩
  return (x.1.2, x.2.next)

/-- `parser.ParsedPolicy`, tools/parser.py:223-225. -/
structure ParsedPolicy where
  defaultAction : ActObj
  statements : List FilterStatement

/-- What `compile_file` is told, tools/compiler.py:293-312, and of `Arch`, tools/arch.py:11-23. -/
structure Options where
  bits : Nat
  archNr : Nat
  bst : Bool
  kill : ActObj
  denylist : Bool

/-- `compile_filter_statement` for each statement, tools/compiler.py:314-319. -/
def compileStatements (o : Options) : List FilterStatement → Nat → Option (List Entry × Nat)
  | [], n => some ([], n)
  | st :: l, n => do
    let x ← compileFilterStatement o.bits o.archNr o.kill.act o.denylist st n
    let y ← compileStatements o l x.2
    return (x.1 :: y.1, y.2)

/-- `compile_file` behind the parser, tools/compiler.py:314-346: the instructions of the filter. `n` is above the numbers of all objects of the policy. -/
def compileFile (o : Options) (p : ParsedPolicy) (n : Nat) : Option (List SockFilter) := do
  let x ← compileStatements o p.statements n
  let accept : ActObj := if o.denylist then o.kill else ⟨x.2, .allow⟩
  let reject : ActObj := if o.denylist then ⟨x.2, .allow⟩ else p.defaultAction
  let n := x.2 + 1
  if x.1 = [] then
    let s ← flatAccept o.archNr o.kill.act reject.block Flat.new
    let s ← flatAccept o.archNr o.kill.act (.validateArch n reject.block) s
    return s.instructions
  else
    let y ← (if o.bst then compileEntriesBst x.1 accept.block reject.block n else some (compileEntriesLinear x.1 accept.block reject.block n))
    let s ← forwardAccept o.archNr o.kill.act y.1 ([], Flat.new)
    let s ← flatAccept o.archNr o.kill.act reject.block s.2
    let s ← flatAccept o.archNr o.kill.act accept.block s
    let s ← flatAccept o.archNr o.kill.act (.validateArch y.2 y.1) s
    return s.instructions

/-- `SockFilter.encode`, tools/bpf.py:146-148: `struct.pack("HBBI", …)` raises an exception for numbers that do not fit. (The eight bytes in the order of the
machine are those of `struct sock_filter`.) -/
def SockFilter.encode (i : SockFilter) : Option Insn :=
  if i.code < 2 ^ 16 ∧ i.jt < 2 ^ 8 ∧ i.jf < 2 ^ 8 ∧ i.k < 2 ^ 32 then
    some ⟨BitVec.ofNat 16 i.code, BitVec.ofNat 8 i.jt, BitVec.ofNat 8 i.jf, BitVec.ofNat 32 i.k⟩
  else none

/-- `BasicBlock.opcodes`, tools/bpf.py:175-177. -/
def opcodes : List SockFilter → Option (List Insn)
  | [] => some []
  | i :: l => do
    let i ← i.encode
    let l ← opcodes l
    return i :: l

/-- The program that tools/compile_seccomp_policy.py:149-181 writes. -/
def compileProgram (o : Options) (p : ParsedPolicy) (n : Nat) : Option (List Insn) := do
  let l ← compileFile o p n
  opcodes l

end Minijail.Offline
