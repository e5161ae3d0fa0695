import Verif.Model.Util
/-!
`getmultiline` of util.c with its buffers in memory, and the loop with which policies and config files are read. `Model/Util.lean` takes the text of a line for the line; here a line is in
a buffer that is allocated, made larger and freed, and allocations can fail.

Simplifications: addresses are not used again after `free`; `realloc` always moves; `getline` asks for memory at most once for a line; errors of the disk are left out; lengths fit into
a `size_t`.
-/
set_option autoImplicit false
namespace Minijail.LineMem

/-- Memory: the bytes that are allocated at each address (`none` is a byte that was never written), the next address, and how often memory has been asked for (util.c:646, 671). -/
structure LMem where
  cells : Nat → Option (List (Option Char))
  brk : Nat
  tries : Nat

/-- How a function on memory ends (util.c:644-678): it returns; or undefined behaviour: memory that is not allocated, not written or not large enough is used, or freed. -/
inductive L (α : Type) where
  | ok (a : α) (m : LMem)
  | ub

/-- One after the other (`;` of C, e.g. util.c:649-653). -/
def L.bind {α β : Type} (r : L α) (f : α → LMem → L β) : L β :=
  match r with
  | .ok a m => f a m
  | .ub => .ub

/-- What the C library decides (util.c:646, 671): which requests for memory fail, how many bytes more than needed `getline` asks for, and how much of a line it has taken from the stream when
it finds that there is no memory. -/
structure Luck where
  fails : Nat → Bool
  slack : Nat → Nat
  eaten : Nat → Nat

/-- A `FILE *` (util.c:644): what has not been read, and the end-of-file indicator that `feof` tells (config_parser.c:139, syscall_filter.c:748). -/
structure Stream where
  rest : CStr
  eof : Bool
  deriving DecidableEq, Repr

/-- Store an object at an address, e.g. util.c:653. -/
def LMem.put (m : LMem) (a : Nat) (o : Option (List (Option Char))) : LMem := { m with cells := fun x => if x = a then o else m.cells x }

/-- `malloc` in `getline` and `realloc`, util.c:646, 671: NULL if this is one of the requests that fail. -/
def alloc (luck : Luck) (o : List (Option Char)) (m : LMem) : Option Nat × LMem :=
  if luck.fails m.tries then (none, { m with tries := m.tries + 1 })
  else (some m.brk, { cells := fun x => if x = m.brk then some o else m.cells x, brk := m.brk + 1, tries := m.tries + 1 })

/-- `free` at the end of `attribute_cleanup_str`, util.c:662; config_parser.c:95; syscall_filter.c:594. -/
def free (p : Option Nat) (m : LMem) : L Unit :=
  match p with
  | none => .ok () m
  | some a =>
    match m.cells a with
    | none => .ub
    | some _ => .ok () (m.put a none)

/-- `realloc(line, size)`, util.c:671, and in `getline`, 646: the new address; NULL leaves the old object as it is. -/
def realloc (luck : Luck) (a size : Nat) (m : LMem) : L (Option Nat) :=
  match m.cells a with
  | none => .ub
  | some o =>
    let r := alloc luck (o.take size ++ List.replicate (size - o.length) none) m
    match r.1 with
    | none => .ok none r.2
    | some b => .ok (some b) (r.2.put a none)

/-- `line[i]`, util.c:652, 656: `none` if it is outside of the object or was never written. -/
def readByte (a i : Nat) (m : LMem) : Option Char :=
  match m.cells a with
  | some o => o[i]?.join
  | none => none

/-- `line[i] = c`, util.c:653, 660, 674. -/
def writeByte (a i : Nat) (c : Char) (m : LMem) : L Unit :=
  match m.cells a with
  | some o => if i < o.length then .ok () (m.put a (some (o.set i (some c)))) else .ub
  | none => .ub

/-- `memcpy(&line[i], src, k)`, util.c:675. -/
def copyBytes (a i src k : Nat) (m : LMem) : L Unit :=
  match m.cells a, m.cells src with
  | some o, some s => if i + k ≤ o.length ∧ k ≤ s.length then .ok () (m.put a (some (o.take i ++ s.take k ++ o.drop (i + k)))) else .ub
  | _, _ => .ub

/-- What `getline` and `getmultiline` return and store (util.c:644-646): the length or -1 (`none`), `*lineptr`, `*n`, and the stream afterwards. -/
structure LRet where
  ret : Option Nat
  line : Option Nat
  n : Nat
  st : Stream

/-- `getline(3)` (util.c:646) with a buffer, when a line was read: it is stored with a NUL behind it. -/
def store (a n : Nat) (l : CStr) (st : Stream) (m : LMem) : L LRet :=
  match m.cells a with
  | none => .ub
  | some o =>
    if l.length + 1 ≤ o.length then .ok ⟨some l.length, some a, n, st⟩ (m.put a (some (l.map some ++ some '\x00' :: o.drop (l.length + 1)))) else .ub

/-- `getline(3)` (util.c:646) with a buffer of at least `n` bytes. If there is less at `*lineptr` than `*n` says, it is undefined behaviour. The end-of-file indicator is set when the end is
reached before a newline. -/
def getlineInto (luck : Luck) (a n : Nat) (st : Stream) (m : LMem) : L LRet :=
  match m.cells a with
  | none => .ub
  | some o =>
    if o.length < n then .ub
    else
      match getline st.rest with
      | none => .ok ⟨none, some a, n, { st with eof := true }⟩ m
      | some (l, rest) =>
        let st' : Stream := ⟨rest, st.eof || l.getLast? != some '\n'⟩
        if l.length + 1 ≤ n then store a n l st' m
        else
          let size := l.length + 1 + luck.slack m.tries
          let eaten := min (luck.eaten m.tries) l.length
          (realloc luck a size m).bind fun p m =>
            match p with
            | none => .ok ⟨none, some a, n, { st with rest := st.rest.drop eaten }⟩ m
            | some b => store b size l st' m

/-- `getline(3)` as called at util.c:646: without a buffer it gets one first. -/
def getlineMem (luck : Luck) (line : Option Nat) (n : Nat) (st : Stream) (m : LMem) : L LRet :=
  match line with
  | some a => getlineInto luck a n st m
  | none =>
    let r := alloc luck (List.replicate (1 + luck.slack m.tries) none) m
    match r.1 with
    | none => .ok ⟨none, none, n, st⟩ r.2
    | some a => getlineInto luck a (1 + luck.slack m.tries) st r.2

/-- "Merge the lines", util.c:669-677: `ret` characters of the line at `a` and the `next_ret` characters at `next`. -/
def merge (luck : Luck) (a ret : Nat) (next : LRet) (next_ret : Nat) (m : LMem) : L LRet :=
  let n := ret + next_ret + 2
  (realloc luck a n m).bind fun p m =>
    match p with
    | none => .ok ⟨none, some a, n, next.st⟩ m
    | some b =>
      (writeByte b ret ' ' m).bind fun _ m =>
        match next.line with
        | none => .ub
        | some src => (copyBytes b (ret + 1) src (next_ret + 1) m).bind fun _ m => .ok ⟨some (n - 1), some b, n, next.st⟩ m

/-- `getmultiline` behind the call for the next line, util.c:664-677; then the next line is freed (662). -/
def joinNext (luck : Luck) (a n ret : Nat) (next : LRet) (m : LMem) : L LRet :=
  let r : L LRet :=
    match next.ret with
    | none => .ok ⟨none, some a, n, next.st⟩ m
    | some k => merge luck a ret next k m
  r.bind fun r m => (free next.line m).bind fun _ m => .ok r m

/-- "Eat the newline", util.c:651-653: the new length. -/
def eatNewlineMem (a ret : Nat) (m : LMem) : L Nat :=
  if ret > 0 then
    match readByte a (ret - 1) m with
    | none => .ub
    | some c => if c = '\n' then (writeByte a (ret - 1) '\x00' m).bind fun _ m => .ok (ret - 1) m else .ok ret m
  else .ok ret m

/-- Whether the line ends in a backslash, util.c:656; `none` is undefined behaviour. -/
def continues (a ret : Nat) (m : LMem) : Option Bool :=
  if ret = 0 then some false
  else
    match readByte a (ret - 1) m with
    | none => none
    | some c => some (c == '\\')

/-- `getmultiline`, util.c:644-678. `fuel` bounds how deep the calls are: there is one for each line of the stream. -/
def getmultilineMem (luck : Luck) : (fuel : Nat) → Option Nat → Nat → Stream → LMem → L LRet
  | 0, _, _, _, _ => .ub
  | fuel + 1, line, n, st, m =>
    (getlineMem luck line n st m).bind fun r m =>
      match r.ret, r.line with
      | none, _ => .ok r m
      | some _, none => .ub
      | some ret, some a =>
        (eatNewlineMem a ret m).bind fun ret m =>
          match continues a ret m with
          | none => .ub
          | some false => .ok { r with ret := some ret } m
          | some true =>
            (writeByte a (ret - 1) '\x00' m).bind fun _ m =>
              (getmultilineMem luck fuel none 0 r.st m).bind fun next m => joinNext luck a r.n (ret - 1) next m

/-- The text of a line that was read: the bytes at `*lineptr` (config_parser.c:103, syscall_filter.c:599); `none` if they cannot be read. -/
def textAt (a k : Nat) (m : LMem) : Option CStr :=
  match m.cells a with
  | some o => if k ≤ o.length then (o.take k).mapM id else none
  | none => none

/-- The loops that read config files and policies, config_parser.c:95-141 behind its first line, and syscall_filter.c:594-755: the lines that were read; whether the file was read to its end,
as `feof` has it; and the buffer is freed. What is done with a line may change the bytes of the buffer (`strip`, util.c:440-450, ends it earlier): `used` is what they are afterwards. A
line that is refused ends the loop early; that is left out. -/
def readAll (luck : Luck) (used : List (Option Char) → List (Option Char)) : (fuel : Nat) → Option Nat → Nat → Stream → LMem → L (List CStr × Bool)
  | 0, _, _, _, _ => .ub
  | fuel + 1, line, n, st, m =>
    (getmultilineMem luck (st.rest.length + 1) line n st m).bind fun r m =>
      match r.ret, r.line with
      | none, line => (free line m).bind fun _ m => .ok ([], r.st.eof) m
      | some _, none => .ub
      | some k, some a =>
        match textAt a k m, m.cells a with
        | some text, some o =>
          (readAll luck used fuel (some a) r.n r.st (m.put a (some (used o)))).bind fun x m => .ok (text :: x.1, x.2) m
        | _, _ => .ub

end Minijail.LineMem
