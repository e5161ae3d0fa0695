/-!
C strings and the libc string functions minijail uses.  A C string is the list of its characters
without the terminating NUL.  These functions are specified from ISO C / POSIX (trusted base); the
repository only calls them.
-/
set_option autoImplicit false
namespace Minijail

/-- A C string without its terminator (e.g. the arguments of util.c:440-486). -/
abbrev CStr := List Char

/-- `isblank(3)` in the C locale (used at util.c:443 and 446). -/
def isblank (c : Char) : Bool := c == ' ' || c == '\t'

/-- `isspace(3)` in the C locale (used inside `strtol`). -/
def isspace (c : Char) : Bool :=
  c == ' ' || c == '\t' || c == '\n' || c == '\x0b' || c == '\x0c' || c == '\r'

/-- `strstr(3)` (used at util.c:470) for a non-empty needle: the text before the first occurrence and
the text after it. -/
def strstr (needle : CStr) : CStr → Option (CStr × CStr)
  | [] => if needle = [] then some ([], []) else none
  | c :: s =>
    if needle.isPrefixOf (c :: s) then some ([], (c :: s).drop needle.length)
    else (strstr needle s).map fun (a, b) => (c :: a, b)

/-- `strtok_r(3)` with a one-character delimiter (syscall_filter.c:242, 249, 255, 263, 328, 333, 438-439): skips
leading delimiters; `none` is NULL, otherwise the token and what the save pointer then designates. -/
def strtok (d : Char) (s : CStr) : Option (CStr × CStr) :=
  let s' := s.dropWhile (· == d)
  if s' = [] then none
  else some (s'.takeWhile (· != d), (s'.dropWhile (· != d)).drop 1)

/-- `strsep(3)` with a one-character delimiter on a non-NULL string (syscall_filter.c:552, 650): the field, and the
rest (`none` is NULL, when the delimiter does not occur). -/
def strsep (d : Char) (s : CStr) : CStr × Option CStr :=
  let a := s.takeWhile (· != d)
  match s.dropWhile (· != d) with
  | [] => (a, none)
  | _ :: b => (a, some b)

/-- Value of a digit character as `strtol(3)` sees it. -/
def digitVal (c : Char) : Option Nat :=
  if '0' ≤ c ∧ c ≤ '9' then some (c.toNat - '0'.toNat)
  else if 'a' ≤ c ∧ c ≤ 'z' then some (c.toNat - 'a'.toNat + 10)
  else if 'A' ≤ c ∧ c ≤ 'Z' then some (c.toNat - 'A'.toNat + 10)
  else none

/-- The character is a digit in the given base. -/
def isDigitIn (base : Nat) (c : Char) : Bool :=
  match digitVal c with
  | some v => v < base
  | none => false

/-- Value of a digit string, most significant digit first. -/
def digitsVal (base : Nat) (s : CStr) : Nat :=
  s.foldl (fun acc c => acc * base + (digitVal c).getD 0) 0

/-- The subject sequence of `strtol(3)` after blanks and sign: base and digits start. For base 0 the
prefix decides; a `0x` that is not followed by a hexadecimal digit is the number 0 followed by `x`.
(The `0b` prefix of C23 is not modelled.) -/
def strtolPrefix (base : Nat) (s : CStr) : Nat × CStr :=
  if base = 0 then
    match s with
    | '0' :: 'x' :: c :: t => if isDigitIn 16 c then (16, c :: t) else (8, s)
    | '0' :: 'X' :: c :: t => if isDigitIn 16 c then (16, c :: t) else (8, s)
    | '0' :: _ => (8, s)
    | _ => (10, s)
  else (base, s)

/-- The digits that `strtol(3)` converts after blanks and sign: their value and the unconsumed rest; `none` when
there is no digit. -/
def strtolMag (base : Nat) (s : CStr) : Option (Nat × CStr) :=
  let p := strtolPrefix base s
  let ds := p.2.takeWhile (isDigitIn p.1)
  if ds = [] then none else some (digitsVal p.1 ds, p.2.dropWhile (isDigitIn p.1))

/-- The optional sign that `strtol(3)` accepts: whether it is a minus, and the rest. -/
def strtolSign : CStr → Bool × CStr
  | '-' :: t => (true, t)
  | '+' :: t => (false, t)
  | s => (false, s)

/-- What `strtol(3)` and its siblings recognise: sign, magnitude and the unconsumed rest, or `none` when no
conversion could be performed (then `*endptr` is the start of the string). Base 0 or 10. -/
def strtolScan (base : Nat) (s : CStr) : Option (Bool × Nat × CStr) :=
  let p := strtolSign (s.dropWhile isspace)
  (strtolMag base p.2).map fun x => (p.1, x.1, x.2)

/-- Result of a number conversion: value, rest and whether `errno` became ERANGE. -/
structure StrtolRes where
  val : Int
  rest : CStr
  erange : Bool
  deriving DecidableEq, Repr

/-- `strtol(3)` with a `bits`-bit `long` (util.c:234, syscall_filter.c:275). `none`: no digits. -/
def strtol (bits base : Nat) (s : CStr) : Option StrtolRes :=
  match strtolScan base s with
  | none => none
  | some (true, m, rest) =>
    if m ≤ 2 ^ (bits - 1) then some ⟨-m, rest, false⟩ else some ⟨-2 ^ (bits - 1), rest, true⟩
  | some (false, m, rest) =>
    if m < 2 ^ (bits - 1) then some ⟨m, rest, false⟩ else some ⟨2 ^ (bits - 1) - 1, rest, true⟩

/-- `strtoul(3)` / `strtoull(3)` with a `bits`-bit result (util.c:239, 403). `none`: no digits. -/
def strtoul (bits base : Nat) (s : CStr) : Option StrtolRes :=
  match strtolScan base s with
  | none => none
  | some (neg, m, rest) =>
    if m < 2 ^ bits then some ⟨if neg then (-(m : Int)) % 2 ^ bits else m, rest, false⟩
    else some ⟨2 ^ bits - 1, rest, true⟩

/-- `getline(3)` (util.c:646) on the unread part of a stream: the line with its newline if it has one, and
what remains; `none` at end of file. Read errors are not modelled. -/
def getline : CStr → Option (CStr × CStr)
  | [] => none
  | c :: s =>
    if c = '\n' then some ([c], s)
    else match getline s with
      | none => some ([c], [])
      | some (l, rest) => some (c :: l, rest)

end Minijail
