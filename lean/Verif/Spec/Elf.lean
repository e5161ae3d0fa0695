import Verif.Model.Elf
/-! What an ELF file says about its linkage (elf(5)). A program is dynamically linked if it names an interpreter. -/
set_option autoImplicit false
namespace Minijail.Spec
open Minijail

/-- The number that bytes stand for: least significant byte first, or last. -/
def number (little : Bool) (bs : List (BitVec 8)) : Nat :=
  (if little then bs.reverse else bs).foldl (fun n b => n * 256 + b.toNat) 0

/-- Four properties of the identification: the file starts with 7f 'E' 'L' 'F'; byte 4 is the class, 2 for 64 bits and 1 for 32 bits; byte 5 is the
byte order, 1 for least significant first and 2 for most significant first. -/
structure IsElf (file : List (BitVec 8)) (wide little : Bool) : Prop where
  magic : file.take 4 = [0x7f, 0x45, 0x4c, 0x46]
  class_ : file[4]? = some (if wide then 2 else 1)
  order : file[5]? = some (if little then 1 else 2)

/-- A field of the file header. -/
def headerField (file : List (BitVec 8)) (little : Bool) (off n : Nat) : Nat := number little ((file.drop off).take n)

/-- Where the program headers start (`e_phoff`). -/
def tableStart (file : List (BitVec 8)) (wide little : Bool) : Nat :=
  if wide then headerField file little 32 8 else headerField file little 28 4
/-- The size of a program header as the file says (`e_phentsize`). -/
def entrySize (file : List (BitVec 8)) (wide little : Bool) : Nat := headerField file little (if wide then 54 else 42) 2
/-- The number of program headers (`e_phnum`). -/
def entryCount (file : List (BitVec 8)) (wide little : Bool) : Nat := headerField file little (if wide then 56 else 44) 2
/-- The size of a program header. -/
def headerSize (wide : Bool) : Nat := if wide then 56 else 32

/-- Program header `i`, if it lies inside the file. -/
def programHeader (file : List (BitVec 8)) (wide little : Bool) (i : Nat) : Option (List (BitVec 8)) :=
  let pos := tableStart file wide little + i * headerSize wide
  if pos + headerSize wide ≤ file.length then some ((file.drop pos).take (headerSize wide)) else none

/-- Its type: the first four bytes. -/
def headerType (file : List (BitVec 8)) (wide little : Bool) (i : Nat) : Option Nat :=
  (programHeader file wide little i).map fun h => number little (h.take 4)

/-- The file names an interpreter (`PT_INTERP` is 3). -/
def NamesInterpreter (file : List (BitVec 8)) (wide little : Bool) : Prop :=
  ∃ i < entryCount file wide little, headerType file wide little i = some 3

/-- All program headers lie inside the file. -/
def WholeTable (file : List (BitVec 8)) (wide little : Bool) : Prop :=
  ∀ i < entryCount file wide little, (programHeader file wide little i).isSome = true

/-- The headers have the right size and a position a file can have. -/
def GoodTable (file : List (BitVec 8)) (wide little : Bool) : Prop :=
  entrySize file wide little = headerSize wide ∧ tableStart file wide little < 2 ^ 63

end Minijail.Spec
