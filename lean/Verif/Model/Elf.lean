import Verif.Model.Res
/-! elfparse.c: whether a program is statically or dynamically linked. The host is little endian with 64-bit `long`; reading a file that can be
opened does not fail before its end. -/
set_option autoImplicit false
namespace Minijail

/-- `ElfType`, elfparse.h:86-91. -/
inductive ElfType where
  | error
  | static
  | dynamic
  deriving DecidableEq, Repr

/-- Bytes of an object inside an array: reading beyond its end is undefined behaviour (the struct that `pHead` is cast to, elfparse.c:34). -/
def readBytes (buf : List (BitVec 8)) (off n : Nat) : Res (List (BitVec 8)) :=
  if off + n ≤ buf.length then .ok ((buf.drop off).take n) else .ub

/-- The value of an unsigned integer in memory on the (little endian) host, e.g. `pheader.p_type`, elfparse.c:52. -/
def hostNat : List (BitVec 8) → Nat
  | [] => 0
  | b :: bs => b.toNat + 256 * hostNat bs

/-- `le16toh` and the like on the host, elfparse.c:36-42: the identity, or a swap of the bytes. -/
def toHost (little : Bool) (bs : List (BitVec 8)) : Nat := hostNat (if little then bs else bs.reverse)

/-- The loop over program headers, elfparse.c:50-62, with `n` headers left and the file position. `p_type` is the first field of both structs
(elfparse.h:62-83) and is not byte-swapped. `PT_INTERP` is 3. -/
def phdrLoop (file : List (BitVec 8)) (size : Nat) : Nat → Nat → ElfType
  | 0, _ => .static
  | n + 1, pos =>
    let pheader := (file.drop pos).take size
    if pheader.length = size then
      if hostNat (pheader.take 4) = 3 then .dynamic else phdrLoop file size n (pos + size)
    else .error

/-- `parseElf64` and `parseElf32`, elfparse.c:22-64, with the offsets of `e_phoff`, `e_phentsize` and `e_phnum` in the packed structs at
elfparse.h:25-60. `fseek` takes a signed offset and refuses negative ones. -/
def parseElf (wide : Bool) (file pHead : List (BitVec 8)) (little : Bool) : Res ElfType := do
  let phoff ← readBytes pHead (if wide then 32 else 28) (if wide then 8 else 4)
  let phentsize ← readBytes pHead (if wide then 54 else 42) 2
  let phnum ← readBytes pHead (if wide then 56 else 44) 2
  let size := if wide then 56 else 32
  if toHost little phentsize ≠ size then pure .error
  else if toHost little phoff ≥ 2 ^ 63 then pure .error
  else pure (phdrLoop file size (toHost little phnum) (toHost little phoff))

/-- `get_elf_linkage`, elfparse.c:67-117; `none` is a file that cannot be opened. -/
def getElfLinkage : Option (List (BitVec 8)) → Res ElfType
  | none => pure .error
  | some file => do
    let pHeader := file.take 128
    if pHeader.length ≠ 128 then pure .dynamic
    else
      let magic ← readBytes pHeader 0 4
      if magic ≠ [0x7f, 0x45, 0x4c, 0x46] then pure .dynamic
      else
        let class_ ← readBytes pHeader 4 1
        let data ← readBytes pHeader 5 1
        if data = [1] ∧ class_ = [2] then parseElf true file pHeader true
        else if data = [2] ∧ class_ = [2] then parseElf true file pHeader false
        else if data = [1] ∧ class_ = [1] then parseElf false file pHeader true
        else if data = [2] ∧ class_ = [1] then parseElf false file pHeader false
        else pure .error

end Minijail
