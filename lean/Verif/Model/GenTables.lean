import Verif.Model.Constants
import Verif.Model.Generate
/-! The generators of the tables of system calls and constants: gen_syscalls.sh and gen_constants.sh. The lines are those the preprocessor prints (`cc -dD -E`). -/
set_option autoImplicit false
namespace Minijail.GenTables
open Constants

/-- `[[:lower:]0-9_]`, gen_syscalls.sh:49. -/
def isCallChar (c : Char) : Bool := c.isLower || c.isDigit || c == '_'

/-- The substitution of gen_syscalls.sh:49-51: the name in the table and the macro that is its number. (Simplified: `#define __` is looked for at the beginning of a
line only.) -/
def sedSyscall (line : CStr) : Option (CStr × CStr) :=
  match afterPrefix "#define __".toList line with
  | none => none
  | some r =>
    let arm := if "ARM_".toList.isPrefixOf r then "ARM_".toList else []
    match afterPrefix "NR_".toList (r.drop arm.length) with
    | none => none
    | some r =>
      match r.dropWhile isCallChar with
      | ' ' :: _ => some (arm ++ r.takeWhile isCallChar, "__".toList ++ arm ++ "NR_".toList ++ r.takeWhile isCallChar)
      | _ => none

/-- The table of libsyscalls.gen.c, gen_syscalls.sh:53-61: an entry is compiled where its macro is defined (`macros`: the values of the macros when the table is
compiled). -/
def syscallTable (macros : CStr → Option Int) (lines : List CStr) : List (CStr × Int) :=
  (lines.filterMap sedSyscall).filterMap fun e => (macros e.2).map fun v => (e.1, v)

/-- `[[:upper:]0-9_]`, gen_constants.sh:47, 60. -/
def isConstChar (c : Char) : Bool := c.isUpper || c.isDigit || c == '_'

/-- The first `grep`, gen_constants.sh:60. -/
def grepDefine (line : CStr) : Bool :=
  match afterPrefix "#define ".toList line with
  | some (c :: r) =>
    let rest := r.dropWhile isConstChar
    c.isUpper && !(rest.takeWhile isPySpace).isEmpty &&
      (match rest.dropWhile isPySpace with
        | d :: _ => d.isAlphanum || d == '_'
        | [] => false)
  | _ => false

/-- The second `grep`, gen_constants.sh:61: lines with one of these words are left out. -/
def grepWords (line : CStr) : Bool :=
  !(occursIn "SIGRTMAX".toList line || occursIn "SIGRTMIN".toList line || occursIn "SIG_".toList line || occursIn "NULL".toList line)

/-- `sort -u`, gen_constants.sh:62. (Simplified: by the codes of the characters; `sort` follows the locale. No theorem depends on the order.) -/
def sortU (l : List CStr) : List CStr := Generate.pySorted Generate.strLe l.eraseDups

/-- The substitution of gen_constants.sh:47-49: the name. -/
def sedConstant (line : CStr) : CStr :=
  match afterPrefix "#define ".toList line with
  | some (c :: r) => c :: r.takeWhile isConstChar
  | _ => []

/-- The table of libconstants.gen.c, gen_constants.sh:54-65: `(unsigned long)` of the macro, where it is defined. -/
def constantTable (w : Nat) (macros : CStr → Option Int) (lines : List CStr) : List (CStr × BitVec w) :=
  ((sortU ((lines.filter grepDefine).filter grepWords)).map sedConstant).filterMap fun n => (macros n).map fun v => (n, BitVec.ofInt w v)

end Minijail.GenTables
