import Verif.Model.Config
/-!
config_parser.c with its list in memory. `Model/Config.lean` takes a list of entries for the array; here the array grows and shrinks, its strings are allocated and freed,
and allocations can fail. What is parsed is as there.

Simplifications: addresses are not used again after `free`; `realloc` always moves, and `realloc(p, 0)` is that of glibc, which frees and returns NULL; sizes do not
overflow; the buffers of `getline` are not part of this memory.
-/
set_option autoImplicit false
namespace Minijail.ConfMem

/-- The pointers of a `struct config_entry`, config_parser.h:17-20: key and value; `none` is NULL. -/
abbrev Slot := Option Nat × Option Nat

/-- An allocated object: a string; an array of `struct config_entry`, where `none` is memory that was never written; a `struct config_entry_list` (config_parser.h:22-26). -/
inductive Obj where
  | text (s : CStr)
  | array (slots : List (Option Slot))
  | list (entries : Option Nat) (numEntries numAllocated : Nat)
  deriving DecidableEq, Repr

/-- The functions that allocate: `calloc` (config_parser.c:24-31), `strdup` (:61, 79-80), `realloc` (:117-119, 146-148). -/
inductive Kind where
  | calloc | strdup | realloc
  deriving DecidableEq, Repr

/-- Memory: what is allocated at each address, the next address, and how often memory has been asked for (config_parser.c:24-31, 61, 79-80, 117-119, 146-148). -/
structure CMem where
  cells : Nat → Option Obj
  brk : Nat
  tries : Nat

/-- How a function on memory ends (config_parser.c:18-153): it returns; or undefined behaviour: memory that is not allocated, not written or not large enough is used, or freed. -/
inductive R (α : Type) where
  | ok (a : α) (m : CMem)
  | ub

/-- One after the other (`;` of C, e.g. config_parser.c:43-44). -/
def R.bind {α β : Type} (r : R α) (f : α → CMem → R β) : R β :=
  match r with
  | .ok a m => f a m
  | .ub => .ub

/-- Store an object at an address, e.g. config_parser.c:35-37. -/
def CMem.put (m : CMem) (a : Nat) (o : Option Obj) : CMem := { m with cells := fun x => if x = a then o else m.cells x }

/-- `calloc` and `strdup`, config_parser.c:24-31, 61, 79-80: NULL if this is one of the calls that fail. -/
def alloc (fails : Kind → Nat → Bool) (kind : Kind) (o : Obj) (m : CMem) : Option Nat × CMem :=
  if fails kind m.tries then (none, { m with tries := m.tries + 1 })
  else (some m.brk, { cells := fun x => if x = m.brk then some o else m.cells x, brk := m.brk + 1, tries := m.tries + 1 })

/-- `free`, e.g. config_parser.c:43-44. -/
def free (p : Option Nat) (m : CMem) : R Unit :=
  match p with
  | none => .ok () m
  | some a =>
    match m.cells a with
    | none => .ub
    | some _ => .ok () (m.put a none)

/-- `realloc` of an array to `n` entries, config_parser.c:117-119, 146-148. -/
def realloc (fails : Kind → Nat → Bool) (p : Option Nat) (n : Nat) (m : CMem) : R (Option Nat) :=
  match p with
  | none => let r := alloc fails .realloc (.array (List.replicate n none)) m; .ok r.1 r.2
  | some a =>
    match m.cells a with
    | some (.array slots) =>
      if n = 0 then .ok none (m.put a none)
      else
        let r := alloc fails .realloc (.array (slots.take n ++ List.replicate (n - slots.length) none)) m
        match r.1 with
        | none => .ok none r.2
        | some b => .ok (some b) (r.2.put a none)
    | _ => .ub

/-- `LIST_DEFAULT_SIZE`, config_parser.c:16. -/
def listDefaultSize : Nat := 100

/-- `new_config_entry_list`, config_parser.c:18-39. -/
def newConfigEntryList (fails : Kind → Nat → Bool) (m : CMem) : R (Option Nat) :=
  let r := alloc fails .calloc (.array (List.replicate listDefaultSize (some (none, none)))) m
  match r.1 with
  | none => .ok none r.2
  | some entries =>
    let s := alloc fails .calloc (.list (some entries) 0 listDefaultSize) r.2
    match s.1 with
    | none => (free (some entries) s.2).bind fun _ m => .ok none m
    | some list => .ok (some list) s.2

/-- `clear_config_entry`, config_parser.c:41-45, on what the entry holds. -/
def clearConfigEntry (slot : Option Slot) (m : CMem) : R Unit :=
  match slot with
  | none => .ub
  | some (key, value) => (free key m).bind fun _ m => free value m

/-- The entry `entries[i]`, config_parser.c:52, 125: `none` if there is none. -/
def readSlot (entries : Option Nat) (i : Nat) (m : CMem) : Option (Option Slot) :=
  match entries with
  | none => none
  | some b =>
    match m.cells b with
    | some (.array slots) => slots[i]?
    | _ => none

/-- Store into `entries[i]`, config_parser.c:79-80. -/
def writeSlot (entries : Option Nat) (i : Nat) (slot : Slot) (m : CMem) : R Unit :=
  match entries with
  | none => .ub
  | some b =>
    match m.cells b with
    | some (.array slots) => if i < slots.length then .ok () (m.put b (some (.array (slots.set i (some slot))))) else .ub
    | _ => .ub

/-- The loop of `free_config_entry_list`, config_parser.c:51-53, for `todo` more entries from `i` on. -/
def clearEntries (entries : Option Nat) : (todo i : Nat) → CMem → R Unit
  | 0, _, m => .ok () m
  | todo + 1, i, m =>
    match readSlot entries i m with
    | none => .ub
    | some slot => (clearConfigEntry slot m).bind fun _ m => clearEntries entries todo (i + 1) m

/-- `free_config_entry_list`, config_parser.c:47-56. -/
def freeConfigEntryList (list : Option Nat) (m : CMem) : R Unit :=
  match list with
  | none => .ok () m
  | some a =>
    match m.cells a with
    | some (.list entries n _) =>
      (clearEntries entries n 0 m).bind fun _ m => (free entries m).bind fun _ m => free (some a) m
    | _ => .ub

/-- `value ? strdup(value) : NULL`, config_parser.c:80. -/
def dupValue (fails : Kind → Nat → Bool) (value : Option CStr) (m : CMem) : Option Nat × CMem :=
  match value with
  | none => (none, m)
  | some t => alloc fails .strdup (.text t) m

/-- The end of `parse_config_line`, config_parser.c:79-86: the copies are stored in `entries[i]`, and given up if there was no memory for one; the copy of the line is freed. -/
def storeEntry (line : Nat) (hasValue : Bool) (key value : Option Nat) (entries : Option Nat) (i : Nat) (m : CMem) : R Bool :=
  (writeSlot entries i (key, value) m).bind fun _ m =>
    if key = none ∨ (hasValue = true ∧ value = none) then
      (clearConfigEntry (some (key, value)) m).bind fun _ m => (free (some line) m).bind fun _ m => .ok false m
    else (free (some line) m).bind fun _ m => .ok true m

/-- `parse_config_line`, config_parser.c:58-86, with `&entries[i]` for the entry. -/
def parseConfigLineMem (fails : Kind → Nat → Bool) (configLine : CStr) (entries : Option Nat) (i : Nat) (m : CMem) : R Bool :=
  let l := alloc fails .strdup (.text configLine) m
  match l.1 with
  | none => .ok false l.2
  | some line =>
    match parseConfigLine configLine with
    | none => (free (some line) l.2).bind fun _ m => .ok false m
    | some e =>
      let k := alloc fails .strdup (.text e.key) l.2
      let v := dupValue fails e.value k.2
      storeEntry line e.value.isSome k.1 v.1 entries i v.2

/-- The growth of the array, config_parser.c:115-123: false is that it fails. -/
def grow (fails : Kind → Nat → Bool) (list : Nat) (m : CMem) : R Bool :=
  match m.cells list with
  | some (.list entries n allocated) =>
    if n ≥ allocated then
      (realloc fails entries (allocated * 2) m).bind fun entries m =>
        .ok entries.isSome (m.put list (some (.list entries n (allocated * 2))))
    else .ok true m
  | _ => .ub

/-- The loop of `parse_config_file`, config_parser.c:105-130. -/
def parseConfigLinesMem (fails : Kind → Nat → Bool) (list : Nat) : List CStr → CMem → R Bool
  | [], m => .ok true m
  | l :: ls, m =>
    let s := strip l
    if s = [] ∨ s.head? = some '#' then parseConfigLinesMem fails list ls m
    else
      (grow fails list m).bind fun b m =>
        if b = false then .ok false m
        else
          match m.cells list with
          | some (.list entries n _) =>
            (parseConfigLineMem fails s entries n m).bind fun b m =>
              if b = false then .ok false m
              else
                match m.cells list with
                | some (.list entries n allocated) => parseConfigLinesMem fails list ls (m.put list (some (.list entries (n + 1) allocated)))
                | _ => .ub
          | _ => .ub

/-- The end of `parse_config_file`, config_parser.c:144-150. -/
def shrink (fails : Kind → Nat → Bool) (list : Nat) (m : CMem) : R Unit :=
  match m.cells list with
  | some (.list entries n allocated) =>
    if n < allocated then (realloc fails entries n m).bind fun entries m => .ok () (m.put list (some (.list entries n n)))
    else .ok () m
  | _ => .ub

/-- `parse_config_file`, config_parser.c:93-153, on a file with the given content. Read errors are not modelled. -/
def parseConfigFileMem (fails : Kind → Nat → Bool) (content : CStr) (list : Nat) (m : CMem) : R Bool :=
  match getline content with
  | none => .ok false m
  | some (line, rest) =>
    if !matchSpecialDirective line then .ok false m
    else
      (parseConfigLinesMem fails list (readLines rest) m).bind fun b m =>
        if b = false then .ok false m else (shrink fails list m).bind fun _ m => .ok true m

/-- A list used for several files (config_parser.c:93-153), until one cannot be read. -/
def parseConfigFilesMem (fails : Kind → Nat → Bool) (list : Nat) : List CStr → CMem → R Bool
  | [], m => .ok true m
  | c :: cs, m => (parseConfigFileMem fails c list m).bind fun b m => if b = false then .ok false m else parseConfigFilesMem fails list cs m

end Minijail.ConfMem
