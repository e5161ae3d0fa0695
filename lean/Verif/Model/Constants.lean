import Verif.Model.OfflineParse
import Verif.Model.SyscallFilter
import Verif.Spec.Json
/-! The file of an architecture (constants.json): the two programs that write it, and how the offline compiler reads it. -/
set_option autoImplicit false
namespace Minijail.Constants
open Spec.Json Offline

/-- `std::to_string`, dump_constants.cc:21-46. -/
def toStringInt (i : Int) : CStr := if i < 0 then '-' :: Nat.toDigits 10 i.natAbs else Nat.toDigits 10 i.toNat

/-- One of the loops at dump_constants.cc:25-34 and 37-47: a comma and a line end before each entry but the first. -/
def dumpEntries : List (CStr × Int) → Bool → CStr
  | [], _ => []
  | e :: rest, first => (if first then [] else ",\n".toList) ++ "    \"".toList ++ e.1 ++ "\": ".toList ++ toStringInt e.2 ++ dumpEntries rest false

/-- `main` of dump_constants.cc:17-51. The tables are those before the entry without a name. -/
def dumpConstants (archNr : Nat) (archName : CStr) (bits : Nat) (syscalls constants : List (CStr × Int)) : CStr :=
  "{\n".toList ++ "  \"arch_nr\": ".toList ++ toStringInt archNr ++ ",\n".toList ++
  "  \"arch_name\": \"".toList ++ archName ++ "\",\n".toList ++
  "  \"bits\": ".toList ++ toStringInt bits ++ ",\n".toList ++
  "  \"syscalls\": {\n".toList ++ dumpEntries syscalls true ++ "\n  },\n".toList ++
  "  \"constants\": {\n".toList ++ dumpEntries constants true ++ "\n  }\n".toList ++ "}\n".toList

/-- What the program of dump_constants.cc:17-51 prints when it is linked with the tables of a library (libsyscalls.gen.c, libconstants.gen.c; the values of
constants are unsigned, libconstants.h:8-11). -/
def dumpOf (cx : Ctx) (archName : CStr) : CStr :=
  dumpConstants cx.t.archNr.toNat archName cx.t.longBits (cx.syscalls.map fun e => (e.1, (e.2 : Int))) (cx.constants.map fun e => (e.1, (e.2.toNat : Int)))

/-! ### `json.loads`, tools/arch.py:49

Simplified: fractions, exponents, escapes, lists, `true`, `false`, `null` and deeper objects are not read (`none`, as for an error). -/

/-- White space, tools/arch.py:49. -/
def skipWs (s : CStr) : CStr := s.dropWhile fun c => c == ' ' || c == '\n' || c == '\r' || c == '\t'

/-- A string, tools/arch.py:49. -/
def readStr (s : CStr) : Option (CStr × CStr) :=
  match s with
  | '"' :: r =>
    let plain := fun c : Char => c != '"' && c != '\\' && decide (32 ≤ c.toNat)
    match r.dropWhile plain with
    | '"' :: rest => some (r.takeWhile plain, rest)
    | _ => none
  | _ => none

/-- A whole number, tools/arch.py:49: no digit follows a zero at the beginning. -/
def readNum (s : CStr) : Option (Int × CStr) :=
  let neg := s.head? = some '-'
  let r := if neg then s.tail else s
  let ds := r.takeWhile Char.isDigit
  let ds := if ds.head? = some '0' then ['0'] else ds
  if ds = [] then none
  else some (if neg then -(digitsVal 10 ds : Int) else digitsVal 10 ds, r.drop ds.length)

/-- The members of an object behind `{`, tools/arch.py:49. The bound is the number of members. -/
def readMembers {α : Type} (value : CStr → Option (α × CStr)) : Nat → CStr → Option (List (CStr × α) × CStr)
  | 0, _ => none
  | fuel + 1, s =>
    match readStr (skipWs s) with
    | none => none
    | some (k, s) =>
      match skipWs s with
      | ':' :: s =>
        match value (skipWs s) with
        | none => none
        | some (v, s) =>
          match skipWs s with
          | '}' :: s => some ([(k, v)], s)
          | ',' :: s => (readMembers value fuel s).map fun x => ((k, v) :: x.1, x.2)
          | _ => none
      | _ => none

/-- An object, tools/arch.py:49. -/
def readObj {α : Type} (value : CStr → Option (α × CStr)) (s : CStr) : Option (List (CStr × α) × CStr) :=
  match s with
  | '{' :: s =>
    match skipWs s with
    | '}' :: rest => some ([], rest)
    | _ => readMembers value s.length s
  | _ => none

/-- A value, tools/arch.py:49. -/
def readVal (s : CStr) : Option (Val × CStr) :=
  match s with
  | '{' :: _ => (readObj readNum s).map fun x => (.table x.1, x.2)
  | '"' :: _ => (readStr s).map fun x => (.str x.1, x.2)
  | _ => (readNum s).map fun x => (.num x.1, x.2)

/-- The file, tools/arch.py:49. -/
def jsonLoads (s : CStr) : Option (List (CStr × Val)) :=
  match readObj readVal (skipWs s) with
  | some (l, rest) => if skipWs rest = [] then some l else none
  | none => none

/-- An item of a dictionary, tools/arch.py:51-56: the last of several with the same name. -/
def dictGet {α : Type} (l : List (CStr × α)) (k : CStr) : Option α := (l.reverse.find? fun e => e.1 == k).map (·.2)

/-- `load_from_json_bytes`, tools/arch.py:47-57, from the dictionary: the number of the architecture, and the rest. There are no groups. (Simplified: numbers of
system calls below zero are left out.) -/
def loadArch (l : List (CStr × Val)) : Option (Nat × Arch) :=
  match dictGet l "arch_nr".toList, dictGet l "arch_name".toList, dictGet l "bits".toList, dictGet l "syscalls".toList, dictGet l "constants".toList with
  | some (.num nr), some (.str name), some (.num bits), some (.table sys), some (.table con) =>
    some (nr.toNat, ⟨name, bits.toNat, fun n => (dictGet sys n).bind fun i => if 0 ≤ i then some i.toNat else none, dictGet con, fun _ => none⟩)
  | _, _, _, _, _ => none

/-- `load_from_json`, tools/arch.py:41-57. -/
def loadFromJson (text : CStr) : Option (Nat × Arch) := (jsonLoads text).bind loadArch

/-! ### tools/generate_constants_json.py -/

/-- `[a-zA-Z0-9.]`, tools/generate_constants_json.py:20, 30. -/
def isNameChar (c : Char) : Bool := c.isAlphanum || c == '.'

/-- `\s`, tools/generate_constants_json.py:21-23 (ASCII). -/
def isPySpace (c : Char) : Bool := c == ' ' || c == '\t' || c == '\n' || c == '\r' || c == '\x0b' || c == '\x0c'

/-- What is left behind a prefix, tools/generate_constants_json.py:20-23. -/
def afterPrefix (p s : CStr) : Option CStr := if p.isPrefixOf s then some (s.drop p.length) else none

/-- `c"([^"\\]+)\\00"` at the beginning, tools/generate_constants_json.py:20. -/
def quotedHere (s : CStr) : Option CStr :=
  match s with
  | 'c' :: '"' :: r =>
    let plain := fun c : Char => c != '"' && c != '\\'
    if r.takeWhile plain ≠ [] ∧ "\\00\"".toList.isPrefixOf (r.dropWhile plain) then some (r.takeWhile plain) else none
  | _ => none

/-- `.*c"([^"\\]+)\\00"`, tools/generate_constants_json.py:20: the last place where it fits. -/
def lastQuoted : CStr → Option CStr
  | [] => none
  | c :: r =>
    match lastQuoted r with
    | some x => some x
    | none => quotedHere (c :: r)

/-- `_STRING_CONSTANT_RE.match(line)`, tools/generate_constants_json.py:20: the label and the string. -/
def stringConstant (line : CStr) : Option (CStr × CStr) :=
  match line with
  | '@' :: r =>
    let label := r.takeWhile isNameChar
    if label = [] then none
    else
      match afterPrefix " = ".toList (r.dropWhile isNameChar) with
      | none => none
      | some rest => (lastQuoted rest).map fun s => ('@' :: label, s)
  | _ => none

/-- `_TABLE_ENTRY_RE` at the beginning, tools/generate_constants_json.py:21-23: what is between the braces, and what follows. (Simplified: the dot behind `%struct` is
a dot; nothing but white space between the braces does not count.) -/
def entryHere (s : CStr) : Option (CStr × CStr) :=
  match (match afterPrefix "%struct.constant_entry".toList s with
    | some r => some r
    | none => afterPrefix "%struct.syscall_entry".toList s) with
  | none => none
  | some r =>
    match r.dropWhile isPySpace with
    | '{' :: r =>
      let r := r.dropWhile isPySpace
      match r.dropWhile (· != '}') with
      | '}' :: rest => if r.takeWhile (· != '}') = [] then none else some (r.takeWhile (· != '}'), rest)
      | _ => none
    | _ => none

/-- `_TABLE_ENTRY_RE.findall(line)`, tools/generate_constants_json.py:76. The bound is the length of the line. -/
def findEntries : Nat → CStr → List CStr
  | 0, _ => []
  | _ + 1, [] => []
  | fuel + 1, c :: r =>
    match entryHere (c :: r) with
    | some (e, rest) => e :: findEntries fuel rest
    | none => findEntries fuel r

/-- `.*?(null|@[a-zA-Z0-9.]+)`, tools/generate_constants_json.py:30: the first, and what follows. -/
def firstSymbol : CStr → Option (CStr × CStr)
  | [] => none
  | c :: r =>
    if "null".toList.isPrefixOf (c :: r) then some ("null".toList, (c :: r).drop 4)
    else if c = '@' ∧ r.takeWhile isNameChar ≠ [] then some ('@' :: r.takeWhile isNameChar, r.dropWhile isNameChar)
    else firstSymbol r

/-- ` (-?\d+)` at the beginning, tools/generate_constants_json.py:30. -/
def numberHere (s : CStr) : Option Int :=
  match s with
  | ' ' :: r =>
    let neg := r.head? = some '-'
    let ds := (if neg then r.tail else r).takeWhile Char.isDigit
    if ds = [] then none else some (if neg then -(digitsVal 10 ds : Int) else digitsVal 10 ds)
  | _ => none

/-- `.* (-?\d+)`, tools/generate_constants_json.py:30: the last number behind a space. -/
def lastNumber : CStr → Option Int
  | [] => none
  | c :: r =>
    match lastNumber r with
    | some x => some x
    | none => numberHere (c :: r)

/-- Whether something occurs in a text, tools/generate_constants_json.py:71-72. -/
def occursIn (p : CStr) : CStr → Bool
  | [] => p.isEmpty
  | c :: r => p.isPrefixOf (c :: r) || occursIn p r

/-- `_IGNORED_ENTRY_CONTENTS.match(entry)`, tools/generate_constants_json.py:47: ` ptrto`, later ` (`, later `)`. -/
def ignoredEntry (s : CStr) : Bool :=
  match s with
  | [] => false
  | c :: r =>
    (match afterPrefix " ptrto".toList (c :: r) with
      | some rest => openParen rest
      | none => false) || ignoredEntry r
where
  /-- The rest of the expression, tools/generate_constants_json.py:47. -/
  openParen : CStr → Bool
    | [] => false
    | c :: r => (" (".toList.isPrefixOf (c :: r) && (r.drop 1).contains ')') || openParen r

/-- The entries of a line, tools/generate_constants_json.py:76-86; `none`: an exception. -/
def tableEntries (strings : List (CStr × CStr)) : List CStr → Option (List (CStr × Int))
  | [] => some []
  | e :: rest =>
    match (match firstSymbol e with
      | some (name, r) => (lastNumber r).map fun v => (name, v)
      | none => none) with
    | none => if ignoredEntry e then tableEntries strings rest else none
    | some (name, v) =>
      if name = "null".toList then some []
      else
        match dictGet strings name with
        | none => none
        | some s => (tableEntries strings rest).map fun l => (s, v) :: l

/-- `parse_llvm_ir`, tools/generate_constants_json.py:58-88: the name of the table and its entries, as they are put into the dictionary. The lines are without their ends. -/
def parseLlvmIr : List CStr → List (CStr × CStr) → CStr → List (CStr × Int) → Option (CStr × List (CStr × Int))
  | [], _, name, entries => some (name, entries)
  | line :: rest, strings, name, entries =>
    match stringConstant line with
    | some s => parseLlvmIr rest (strings ++ [s]) name entries
    | none =>
      if occursIn "@syscall_table".toList line || occursIn "@constant_table".toList line then
        match tableEntries strings (findEntries (line.length + 1) line) with
        | none => none
        | some l => parseLlvmIr rest strings (if occursIn "@syscall_table".toList line then "syscalls".toList else "constants".toList) (entries ++ l)
      else parseLlvmIr rest strings name entries

/-- The names of architectures, tools/generate_constants_json.py:124-137. -/
def archNameOf (nr : Int) : Option CStr :=
  if nr = 0xC000003E then some "x86_64".toList
  else if nr = 0x40000003 then some "x86".toList
  else if nr = 0xC00000B7 then some "arm64".toList
  else if nr = 0x40000028 then some "arm".toList
  else if nr = 0xC00000F3 then some "riscv64".toList
  else none

/-- `main` of tools/generate_constants_json.py:113-139, for the lines of each file: the dictionary that is written. -/
def generateConstants (files : List (List CStr)) : Option (List (CStr × Val)) :=
  match go files with
  | none => none
  | some l =>
    match dictGet l "constants".toList with
    | some (.table con) =>
      match dictGet con "MINIJAIL_ARCH_NR".toList, dictGet con "MINIJAIL_ARCH_BITS".toList with
      | some nr, some bits => (archNameOf nr).map fun name => l ++ [("arch_nr".toList, .num nr), ("bits".toList, .num bits), ("arch_name".toList, .str name)]
      | _, _ => none
    | _ => none
where
  /-- The loop at tools/generate_constants_json.py:113-116. -/
  go : List (List CStr) → Option (List (CStr × Val))
    | [] => some []
    | ir :: rest =>
      match parseLlvmIr ir [] [] [] with
      | none => none
      | some (name, entries) => (go rest).map fun l => (name, .table entries) :: l

end Minijail.Constants
