import Verif.Model.Offline
import Verif.Model.CString
/-!
The parser of the policy compiler that runs offline: tools/parser.py, and the command tools/compile_seccomp_policy.py.

Exceptions are `none`: the command ends without writing a program. The parser raises the first error it meets and nothing it did before is kept, so
it does not matter here that `tokenize` is a generator and reads lines only when they are needed. Loops that take tokens from a list have the number
of tokens as a bound; each round takes one at least. (Simplified: Python's limits on recursion and on the number of digits of an integer are not
modelled. The classes `\s` and `\w` of the regular expressions are those of ASCII; other characters are then in neither.)
-/
set_option autoImplicit false
namespace Minijail.Offline

/-! ### Tokens -/

/-- The names of `_TOKEN_SPECIFICATION`, tools/parser.py:30-63, but for `COMMENT`, `WHITESPACE` and `CONTINUATION`, which give no token (155-156). -/
inductive TokType where
  | default | include | frequency | denylist | path | numeric | colon | semicolon | comma | complement | lparen | rparen | lbrace | rbrace
  | rbracket | lbracket | or | and | bitOr | op | equal | argument | ret | action | identifier
  deriving DecidableEq, Repr

/-- `Token`, tools/parser.py:25-27 (file name, line and column are used in messages only). -/
structure Token where
  type : TokType
  value : CStr
  deriving DecidableEq, Repr

/-- `\s` of ASCII, tools/parser.py:32. -/
def isPySpace (c : Char) : Bool := c ∈ [' ', '\t', '\n', '\x0b', '\x0c', '\r', '\x1c', '\x1d', '\x1e', '\x1f']

/-- `\w` of ASCII: what `\b` looks at, tools/parser.py:34-60. -/
def isPyWord (c : Char) : Bool := c.isAlphanum || c == '_'

/-- `[a-zA-Z_]`, tools/parser.py:62. -/
def isIdentStart (c : Char) : Bool := c.isAlpha || c == '_'

/-- `[a-zA-Z_0-9-@]`, tools/parser.py:62. -/
def isIdentChar (c : Char) : Bool := c.isAlphanum || c == '_' || c == '-' || c == '@'

/-- `\b` in front of the text `s`, where `prev` tells whether the character before it is in `\w`; tools/parser.py:34-60. -/
def boundary (prev : Bool) (s : CStr) : Bool := prev != (match s with | [] => false | c :: _ => isPyWord c)

/-- A literal text in front of `s`; `lead` and `trail`: with `\b` before and after it. The length of the match. tools/parser.py:34-60. -/
def literalAt (w : CStr) (lead trail prev : Bool) (s : CStr) : Option Nat :=
  if w.isPrefixOf s ∧ (lead → boundary prev s) ∧ (trail → boundary ((w.getLast?.map isPyWord).getD false) (s.drop w.length)) then some w.length
  else none

/-- `[...]+` for a class of characters: the length of the match. tools/parser.py:20-22, 32, 38, 55. -/
def runAt (p : Char → Bool) (s : CStr) : Option Nat :=
  let k := (s.takeWhile p).length
  if k = 0 then none else some k

/-- `HEX_REGEX|OCTAL_REGEX|DECIMAL_REGEX` behind the optional minus sign, tools/parser.py:20-22, 39. -/
def numeralAt (s : CStr) : Option Nat :=
  match s with
  | '0' :: x :: t =>
    match (if x = 'x' ∨ x = 'X' then runAt (isDigitIn 16) t else none) with
    | some k => some (k + 2)
    | none =>
      match runAt (isDigitIn 8) (x :: t) with
      | some k => some (k + 1)
      | none => runAt (isDigitIn 10) s
  | _ => runAt (isDigitIn 10) s

/-- `NUMERIC_CONSTANT`, tools/parser.py:39. -/
def numericAt (s : CStr) : Option Nat :=
  match s with
  | '-' :: t => (numeralAt t).map (· + 1)
  | _ => numeralAt s

/-- `PATH`, tools/parser.py:38. -/
def pathAt (s : CStr) : Option Nat :=
  match s with
  | '.' :: '/' :: t => (runAt (fun c => !isPySpace c) t).map (· + 2)
  | '/' :: t => (runAt (fun c => !isPySpace c) t).map (· + 1)
  | _ => none

/-- `ARGUMENT`, tools/parser.py:55. -/
def argumentAt (prev : Bool) (s : CStr) : Option Nat :=
  match s with
  | 'a' :: 'r' :: 'g' :: t =>
    match runAt (isDigitIn 10) t with
    | some k => if boundary prev s ∧ boundary true (t.drop k) then some (k + 3) else none
    | none => none
  | _ => none

/-- `IDENTIFIER`, tools/parser.py:62. -/
def identifierAt (s : CStr) : Option Nat :=
  match s with
  | c :: t => if isIdentStart c then some ((t.takeWhile isIdentChar).length + 1) else none
  | [] => none

/-- The operators, tools/parser.py:53, in the order of the expression, with the `\b` of `in`. -/
def operators : List (CStr × Bool) :=
  [("&".toList, false), ("in".toList, true), ("==".toList, false), ("!=".toList, false), ("<=".toList, false), ("<".toList, false),
   (">=".toList, false), (">".toList, false)]

/-- The actions, tools/parser.py:57-61, in the order of the expression. -/
def actionWords : List CStr :=
  ["allow".toList, "kill-process".toList, "kill-thread".toList, "kill".toList, "trap".toList, "trace".toList, "log".toList, "user-notify".toList]

/-- `_TOKEN_RE` at a place of a line, tools/parser.py:30-66: the alternatives in their order, the first that matches wins. `some none` is a match that gives
no token. The number is the length of the match. `prev` tells whether the character before is in `\w`. -/
def tokenAt (prev : Bool) (s : CStr) : Option (Option TokType × Nat) :=
  let alternatives : List (Option TokType × Option Nat) :=
    [(none, if s.head? = some '#' ∧ '\n' ∉ s then some s.length else none),
     (none, runAt isPySpace s),
     (none, if s = ['\\'] then some 1 else none),
     (some .default, literalAt "@default".toList false true prev s),
     (some .include, literalAt "@include".toList false true prev s),
     (some .frequency, literalAt "@frequency".toList false true prev s),
     (some .denylist, if s = "@denylist".toList then some s.length else none),
     (some .path, pathAt s),
     (some .numeric, numericAt s),
     (some .colon, literalAt ":".toList false false prev s),
     (some .semicolon, literalAt ";".toList false false prev s),
     (some .comma, literalAt ",".toList false false prev s),
     (some .complement, literalAt "~".toList false false prev s),
     (some .lparen, literalAt "(".toList false false prev s),
     (some .rparen, literalAt ")".toList false false prev s),
     (some .lbrace, literalAt "{".toList false false prev s),
     (some .rbrace, literalAt "}".toList false false prev s),
     (some .rbracket, literalAt "]".toList false false prev s),
     (some .lbracket, literalAt "[".toList false false prev s),
     (some .or, literalAt "||".toList false false prev s),
     (some .and, literalAt "&&".toList false false prev s),
     (some .bitOr, literalAt "|".toList false false prev s),
     (some .op, operators.findSome? fun x => literalAt x.1 x.2 x.2 prev s),
     (some .equal, literalAt "=".toList false false prev s),
     (some .argument, argumentAt prev s),
     (some .ret, literalAt "return".toList true true prev s),
     (some .action, actionWords.findSome? fun w => literalAt w true true prev s),
     (some .identifier, identifierAt s)]
  alternatives.findSome? fun x => x.2.map fun k => (x.1, k)

/-- The tokens of one line, tools/parser.py:135-178: `finditer` must find a match wherever the one before ended. The bound is the number of characters. -/
def lexLine : Nat → Bool → CStr → Option (List Token)
  | _, _, [] => some []
  | 0, _, _ :: _ => none
  | fuel + 1, prev, s => do
    let m ← tokenAt prev s
    let rest ← lexLine fuel (((s.take m.2).getLast?.map isPyWord).getD false) (s.drop m.2)
    return (match m.1 with | some ty => ⟨ty, s.take m.2⟩ :: rest | none => rest)

/-- The lines of a file that was opened as text, tools/parser.py:710, 781 (`\r\n` and `\r` end a line as `\n` does), without their ends (135). -/
def pyLines : CStr → List CStr
  | [] => []
  | '\n' :: s => [] :: pyLines s
  | '\r' :: '\n' :: s => [] :: pyLines s
  | '\r' :: s => [] :: pyLines s
  | c :: s =>
    match pyLines s with
    | [] => [[c]]
    | l :: ls => (c :: l) :: ls

/-- `tokenize`, tools/parser.py:129-188: the lists of tokens it yields. `acc` is `tokens`: what the lines before, which ended in a backslash, gave. Tokens of a
last line that ends in a backslash are lost. -/
def tokenizeLines : List Token → List CStr → Option (List (List Token))
  | _, [] => some []
  | acc, line :: lines => do
    let ts ← lexLine line.length false line
    if line.getLast? = some '\\' then tokenizeLines (acc ++ ts) lines
    else do
      let rest ← tokenizeLines [] lines
      return (if acc ++ ts = [] then rest else (acc ++ ts) :: rest)

/-- `tokenize` of the text of a file, tools/parser.py:129-188, 710-711, 781-782. -/
def tokenize (text : CStr) : Option (List (List Token)) := tokenizeLines [] (pyLines text)

/-! ### Statements -/

/-- `Arch`, tools/arch.py:11-23 (`arch_nr` is in `Options`). The dictionaries are functions. -/
structure Arch where
  name : CStr
  bits : Nat
  syscalls : CStr → Option Nat
  constants : CStr → Option Int
  groups : CStr → Option (CStr → Option (List CStr))

/-- What `PolicyParser` is made with, tools/parser.py:233-254 (the depth limit and the override are arguments of the functions that use them). -/
structure Settings where
  arch : Arch
  kill : ActObj
  denylist : Bool
  retLog : Bool

/-- The tokens that are left, and the number the next object gets. -/
structure PS where
  toks : List Token
  next : Nat

/-- The type of the next token, `tokens[0].type`. tools/parser.py:301-816. -/
def PS.peek (s : PS) : Option TokType := s.toks.head?.map Token.type

/-- `tokens.pop(0)` for the tokens that are left. tools/parser.py:301-816. -/
def PS.pop (s : PS) : PS := { s with toks := s.toks.tail }

/-- `tokens.pop(0)` of a token that must have the given type, tools/parser.py:315-321, 540-542, 667-672. -/
def PS.expect (ty : TokType) (s : PS) : Option (Token × PS) :=
  match s.toks with
  | [] => none
  | t :: ts => if t.type = ty then some (t, { s with toks := ts }) else none

/-- The loop "`while tokens:` read an item, leave unless a separator follows, pop it", tools/parser.py:345-353, 379-387, 399-407, 518-525, 543-553, 567-578,
653-662. Where the loop ends because there are no tokens, an error follows in each of these places (`else:`, or the closing bracket that is missing). -/
def sepBy {α : Type} (sep : TokType) (item : PS → Option (α × PS)) : Nat → PS → Option (List α × PS)
  | 0, _ => none
  | fuel + 1, s =>
    if s.toks = [] then none
    else do
      let x ← item s
      if x.2.peek = some sep then do
        let y ← sepBy sep item fuel x.2.pop
        return (x.1 :: y.1, y.2)
      else return ([x.1], x.2)

/-- The base that the form of a number tells, and its digits, tools/parser.py:20-22, 274-282. -/
def numeralParts (s : CStr) : Nat × CStr :=
  match s with
  | '0' :: x :: t =>
    if (x = 'x' ∨ x = 'X') ∧ (t.head?.map (isDigitIn 16)).getD false then (16, t)
    else if isDigitIn 8 x then (8, x :: t)
    else (10, s)
  | _ => (10, s)

/-- `int(token.value, base)`, tools/parser.py:273-285; `none` is `ValueError`. (Simplified: `int` also takes blanks and underscores, which no token of the
type has.) -/
def numericValue (v : CStr) : Option Int :=
  let neg := v.head? = some '-'
  let bd := numeralParts (if neg then v.tail else v)
  if bd.2 ≠ [] ∧ bd.2.all (isDigitIn bd.1) then some (if neg then -(digitsVal bd.1 bd.2 : Int) else digitsVal bd.1 bd.2) else none

/-- `_parse_single_constant`, tools/parser.py:263-296, with `max_unsigned`, `min_signed`, `truncate_word`, tools/arch.py:25-37. -/
def parseSingleConstant (a : Arch) (t : Token) : Option Nat := do
  let i ← (if t.type = .identifier then a.constants t.value else if t.type = .numeric then numericValue t.value else none)
  if i > 2 ^ a.bits - 1 then none
  else if i < -2 ^ (a.bits - 1) then none
  else return (i % 2 ^ a.bits).toNat

/-- `_parse_constant`, tools/parser.py:301-324; `value` is `parse_value`. The caller makes sure that there is a token. -/
def parseConstant (a : Arch) (value : PS → Option (Nat × PS)) (s : PS) : Option (Nat × PS) := do
  let negate := s.peek = some .complement
  let s := if negate then s.pop else s
  if negate ∧ s.peek = some .complement then none
  else do
    let x ← (if s.peek = some .lparen then do
        let x ← value s.pop
        let y ← x.2.expect .rparen
        return (x.1, y.2)
      else
        match s.toks with
        | [] => none
        | t :: ts => do
          let v ← parseSingleConstant a t
          return (v, { s with toks := ts }) : Option (Nat × PS))
    return (if negate then 2 ^ a.bits - 1 - x.1 % 2 ^ a.bits else x.1, x.2)

/-- `parse_value`, tools/parser.py:328-353. The bound is the depth of parentheses. -/
def parseValue (a : Arch) : Nat → PS → Option (Nat × PS)
  | 0, _ => none
  | fuel + 1, s => do
    let x ← sepBy .bitOr (parseConstant a (parseValue a fuel)) s.toks.length s
    return (x.1.foldl (· ||| ·) 0, x.2)

/-- The operator a token of type `OP` stands for: tools/bpf.py:329-363 takes its text. -/
def pyOp (v : CStr) : Option PyOp :=
  if v = "&".toList then some .band
  else if v = "in".toList then some .isIn
  else if v = "==".toList then some .eq
  else if v = "!=".toList then some .ne
  else if v = "<=".toList then some .le
  else if v = "<".toList then some .lt
  else if v = ">=".toList then some .ge
  else if v = ">".toList then some .gt
  else none

/-- `_parse_atom`, tools/parser.py:357-374; `MAX_SYSCALL_ARGUMENTS` is 7, tools/bpf.py:14. -/
def parseAtom (a : Arch) (s : PS) : Option (PAtom × PS) := do
  let x ← s.expect .argument
  let y ← x.2.expect .op
  let v ← parseValue a y.2.toks.length y.2
  let digits := x.1.value.drop 3
  let op ← pyOp y.1.value
  if digits ≠ [] ∧ digits.all (isDigitIn 10) ∧ digitsVal 10 digits < 7 then return (⟨digitsVal 10 digits, op, v.1⟩, v.2) else none

/-- `_parse_clause`, tools/parser.py:378-387. -/
def parseClause (a : Arch) (s : PS) : Option (List PAtom × PS) := sepBy .and (parseAtom a) s.toks.length s

/-- `parse_argument_expression`, tools/parser.py:391-407. -/
def parseExpression (a : Arch) (s : PS) : Option (List (List PAtom) × PS) := sepBy .or (parseClause a) s.toks.length s

/-- A new object for an action. tools/parser.py:423-486. -/
def PS.fresh (s : PS) (act : Action) : ActObj × PS := (⟨s.next, act⟩, { s with next := s.next + 1 })

/-- `_parse_default_action`, tools/parser.py:415-435. -/
def parseDefaultAction (g : Settings) (s : PS) : Option (ActObj × PS) := do
  let x ← s.expect .action
  if x.1.value = "kill-process".toList then return x.2.fresh .killProcess
  else if x.1.value = "kill-thread".toList then return x.2.fresh .killThread
  else if x.1.value = "kill".toList then return (g.kill, x.2)
  else if x.1.value = "trap".toList then return x.2.fresh .trap
  else if x.1.value = "user-notify".toList then return x.2.fresh .userNotify
  else none

/-- The action a word names, for the words that make a new object, tools/parser.py:457-472. -/
def actionOf (v : CStr) : Option Action :=
  if v = "allow".toList then some .allow
  else if v = "kill-process".toList then some .killProcess
  else if v = "kill-thread".toList then some .killThread
  else if v = "trap".toList then some .trap
  else if v = "trace".toList then some .trace
  else if v = "user-notify".toList then some .userNotify
  else if v = "log".toList then some .log
  else none

/-- `parse_action`, tools/parser.py:447-487. -/
def parseAction (g : Settings) (s : PS) : Option (ActObj × PS) :=
  match s.toks with
  | [] => none
  | t :: ts =>
    let s := { s with toks := ts }
    if g.denylist ∧ t.type ≠ .ret then none
    else if t.type = .action then
      if t.value = "kill".toList then some (g.kill, s)
      else do
        let act ← actionOf t.value
        return s.fresh act
    else if t.type = .numeric then do
      let v ← parseSingleConstant g.arch t
      if v = 1 then return s.fresh .allow else none
    else if t.type = .ret then
      match ts with
      | [] => none
      | u :: us =>
        if g.retLog then some (({ s with toks := us } : PS).fresh .log)
        else do
          let v ← parseSingleConstant g.arch u
          return ({ s with toks := us } : PS).fresh (.returnErrno v)
    else none

/-- `_parse_single_filter`, tools/parser.py:493-506. -/
def parseSingleFilter (g : Settings) (s : PS) : Option (PFilter × PS) :=
  if s.peek = some .argument then do
    let x ← parseExpression g.arch s
    let y ← (if x.2.peek = some .semicolon then parseAction g x.2.pop else some (x.2.fresh .allow))
    return (⟨some x.1, y.1⟩, y.2)
  else do
    let x ← parseAction g s
    return (⟨none, x.1⟩, x.2)

/-- `parse_filter`, tools/parser.py:511-528. -/
def parseFilter (g : Settings) (s : PS) : Option (List PFilter × PS) :=
  if s.peek = some .lbrace then do
    let x ← sepBy .comma (parseSingleFilter g) s.pop.toks.length s.pop
    let y ← x.2.expect .rbrace
    return (x.1, y.2)
  else do
    let x ← parseSingleFilter g s
    return ([x.1], x.2)

/-- `_parse_key_value_pair`, tools/parser.py:532-554. -/
def parseKeyValue (s : PS) : Option ((CStr × List CStr) × PS) := do
  let k ← s.expect .identifier
  let e ← k.2.expect .equal
  let x ← sepBy .comma (PS.expect .identifier) e.2.toks.length e.2
  return ((k.1.value, x.1.map Token.value), x.2)

/-- `_parse_metadata`, tools/parser.py:558-581: an error if a key comes twice. -/
def parseMetadata (s : PS) : Option (List (CStr × List CStr) × PS) := do
  let b ← s.expect .lbracket
  let x ← sepBy .semicolon parseKeyValue b.2.toks.length b.2
  let e ← x.2.expect .rbracket
  if (x.1.map Prod.fst).Nodup then return (x.1, e.2) else none

/-- `Syscall`, tools/parser.py:202. -/
structure Syscall where
  name : CStr
  number : Nat
  deriving DecidableEq, Repr

/-- The names of system calls in a table; a name that is not there is an exception. tools/parser.py:626-639. -/
def lookupSyscalls (a : Arch) : List CStr → Option (List Syscall)
  | [] => some []
  | n :: l => do
    let k ← a.syscalls n
    let rest ← lookupSyscalls a l
    return ⟨n, k⟩ :: rest

/-- The system calls a descriptor names, tools/parser.py:606-639. -/
def namedSyscalls (a : Arch) (v : CStr) : Option (List Syscall) :=
  match v.dropWhile (· != '@') with
  | [] => lookupSyscalls a [v]
  | _ :: ns =>
    if '@' ∈ ns then none
    else do
      let namespace_ ← a.groups ns
      let names ← namespace_ (v.takeWhile (· != '@'))
      lookupSyscalls a names

/-- `_parse_syscall_descriptor`, tools/parser.py:586-639. -/
def parseDescriptor (a : Arch) (s : PS) : Option (List Syscall × PS) :=
  match s.toks with
  | [] => none
  | t :: ts =>
    if t.type ≠ .identifier ∧ t.value ≠ "kill".toList then none
    else do
      let m ← (if (PS.mk ts s.next).peek = some .lbracket then parseMetadata ⟨ts, s.next⟩ else some ([], ⟨ts, s.next⟩))
      if ((m.1.lookup "arch".toList).map fun l => decide (a.name ∉ l)).getD false then return ([], m.2)
      else do
        let l ← namedSyscalls a t.value
        return (l, m.2)

/-- `ParsedFilterStatement`, tools/parser.py:205-207. -/
structure Statement where
  syscalls : List Syscall
  filters : List PFilter
  deriving DecidableEq, Repr

/-- `parse_filter_statement`, tools/parser.py:646-678. A statement without system calls stands for `None`. -/
def parseStatement (g : Settings) (s : PS) : Option (Statement × PS) := do
  let x ← (if s.peek = some .lbrace then do
      let x ← sepBy .comma (parseDescriptor g.arch) s.pop.toks.length s.pop
      let y ← x.2.expect .rbrace
      return (x.1.flatten, y.2)
    else parseDescriptor g.arch s)
  let c ← x.2.expect .colon
  let f ← parseFilter g c.2
  return (⟨x.1, f.1⟩, f.2)

/-! ### Files -/

/-- `os.path.dirname` of posixpath (called at tools/parser.py:697, 753): what is before the last slash, without the slashes it ends in unless it has
nothing else. -/
def dirname (p : CStr) : CStr :=
  let head := (p.reverse.dropWhile (· != '/')).reverse
  if head.all (· == '/') then head else (head.reverse.dropWhile (· == '/')).reverse

/-- `os.path.join` of posixpath with two arguments (called at tools/parser.py:696-698, 752-755). -/
def pathJoin (a b : CStr) : CStr :=
  if b.head? = some '/' then b
  else if a = [] ∨ a.getLast? = some '/' then a ++ b
  else a ++ '/' :: b

/-- The components of a path (`split("/")` of Python) for `normpath`. -/
def splitSlash : CStr → List CStr
  | [] => [[]]
  | c :: s =>
    if c = '/' then [] :: splitSlash s
    else
      match splitSlash s with
      | [] => [[c]]
      | w :: ws => (c :: w) :: ws

/-- `os.path.normpath` of posixpath (called at tools/parser.py:695, 751). -/
def normpath (p : CStr) : CStr :=
  if p = [] then ['.']
  else
    let slashes : Nat := if p.head? ≠ some '/' then 0 else if p.take 2 = ['/', '/'] ∧ p.take 3 ≠ ['/', '/', '/'] then 2 else 1
    let comps := (splitSlash p).foldl (fun (l : List CStr) comp =>
      if comp = [] ∨ comp = ['.'] then l
      else if comp ≠ ['.', '.'] ∨ (slashes = 0 ∧ l = []) ∨ l.getLast? = some ['.', '.'] then l ++ [comp]
      else l.dropLast) []
    let path := List.replicate slashes '/' ++ (List.intercalate ['/'] comps)
    if path = [] then ['.'] else path

/-- The file a statement in the file `filename` names, tools/parser.py:695-699, 751-756. -/
def resolve (filename path : CStr) : CStr := normpath (pathJoin (dirname filename) path)

/-- What the parser keeps besides the statements: the number of the next object, `_default_action`, `_frequency_mapping`. tools/parser.py:243-254. -/
structure FState where
  next : Nat
  default : ActObj
  frequency : Syscall → Option Nat

/-- `mapping[syscall] += n` on a `defaultdict(int)`, tools/parser.py:731, 790. -/
def addFrequency (f : Syscall → Option Nat) (c : Syscall) (n : Nat) : Syscall → Option Nat :=
  fun x => if x = c then some ((f c).getD 0 + n) else f x

/-- What `int(_, base=0)` takes of the numbers that are not below zero: a decimal number must not begin with 0 unless it is zero. An octal number of C is
an exception. tools/parser.py:726. -/
def plainNumeral (s : CStr) : Bool :=
  match s with
  | '0' :: x :: _ => x == 'x' || x == 'X' || s.all (· == '0')
  | _ => true

/-- `int(_, base=0)` of a numeric constant, tools/parser.py:726; one below zero is an exception (727-728). -/
def frequencyNumber (v : CStr) : Option Nat := do
  let i ← numericValue v
  if plainNumeral (if v.head? = some '-' then v.tail else v) ∧ 0 ≤ i then some i.toNat else none

/-- One line of a frequency file, tools/parser.py:712-731. Tokens behind the number are not looked at. -/
def parseFrequencyLine (a : Arch) (toks : List Token) : Option (List (Syscall × Nat)) := do
  let x ← parseDescriptor a ⟨toks, 0⟩
  let c ← x.2.expect .colon
  let n ← c.2.expect .numeric
  let v ← frequencyNumber n.1.value
  return x.1.map fun c => (c, v)

/-- The lines of a frequency file, tools/parser.py:709-732. (Simplified: the increments in their order instead of the dictionary of their sums; they are
added to the same counters in the end, 791-797.) -/
def parseFrequencyLines (a : Arch) : List (List Token) → Option (List (Syscall × Nat))
  | [] => some []
  | l :: ls => do
    let x ← parseFrequencyLine a l
    let y ← parseFrequencyLines a ls
    return x ++ y

/-- `_parse_frequency_file`, tools/parser.py:706-734. -/
def parseFrequencyFile (a : Arch) (text : CStr) : Option (List (Syscall × Nat)) := do
  let ls ← tokenize text
  parseFrequencyLines a ls

/-- The file system the parser sees: what is in the regular files it can read. -/
abbrev PyFiles := CStr → Option CStr

/-- What one line adds: statements, and whether it is the header of a denylist. -/
structure LineOut where
  statements : List Statement
  header : Bool

/-- The path of an include or a frequency statement, tools/parser.py:682-692, 738-750, with the test for more tokens, 813-816. -/
def pathStatement (ts : List Token) : Option CStr :=
  match ts with
  | [t] => if t.type = .path then some t.value else none
  | _ => none

/-- One statement of a policy file, tools/parser.py:783-816; `includes` is `_parse_policy_file` one level deeper, or an error where the limit is reached
(693-694). The statement that is skipped because all its system calls are for another architecture is not tested for more tokens (807-810). -/
def parseLine (fs : PyFiles) (g : Settings) (includes : CStr → FState → Option (List Statement × FState)) (filename : CStr) (toks : List Token)
    (st : FState) : Option (LineOut × FState) :=
  match toks with
  | [] => none
  | t :: ts =>
    if t.type = .include then do
      let p ← pathStatement ts
      let x ← includes (resolve filename p) st
      return (⟨x.1, false⟩, x.2)
    else if t.type = .frequency then do
      let p ← pathStatement ts
      let text ← fs (resolve filename p)
      let l ← parseFrequencyFile g.arch text
      return (⟨[], false⟩, { st with frequency := l.foldl (fun f x => addFrequency f x.1 x.2) st.frequency })
    else if t.type = .default then do
      let x ← parseDefaultAction g ⟨ts, st.next⟩
      if x.2.toks = [] then return (⟨[], false⟩, { st with next := x.2.next, default := x.1 }) else none
    else if t.type = .denylist then
      if g.denylist ∧ ts = [] then some (⟨[], true⟩, st) else none
    else do
      let x ← parseStatement g ⟨toks, st.next⟩
      if x.1.syscalls = [] then return (⟨[], false⟩, { st with next := x.2.next })
      else if x.2.toks = [] then return (⟨[x.1], false⟩, { st with next := x.2.next })
      else none

/-- The loop over the statements of a file, tools/parser.py:782-816. -/
def parseLines (fs : PyFiles) (g : Settings) (includes : CStr → FState → Option (List Statement × FState)) (filename : CStr) :
    List (List Token) → FState → Option (LineOut × FState)
  | [], st => some (⟨[], false⟩, st)
  | l :: ls, st => do
    let x ← parseLine fs g includes filename l st
    let y ← parseLines fs g includes filename ls x.2
    return (⟨x.1.statements ++ y.1.statements, x.1.header || y.1.header⟩, y.2)

/-- `_parse_policy_file`, tools/parser.py:776-824. The number says how many levels of files may still be included: `_include_depth_limit` less the files
that are open, less one for `<memory>` (243, 693). -/
def parsePolicyFile (fs : PyFiles) (g : Settings) : Nat → CStr → FState → Option (List Statement × FState)
  | depth, filename, st => do
    let text ← fs filename
    let ls ← tokenize text
    let includes := match depth with
      | 0 => fun _ _ => none
      | depth + 1 => parsePolicyFile fs g depth
    let x ← parseLines fs g includes filename ls st
    if g.denylist ∧ ¬x.1.header then none else return (x.1.statements, x.2)

/-- `syscall_filter_mapping`, tools/parser.py:840-855: the filters of each system call, in the order in which system calls first come. -/
def addFilters (m : List (Syscall × List PFilter)) (c : Syscall) (fs : List PFilter) : List (Syscall × List PFilter) :=
  if c ∈ m.map Prod.fst then m.map fun x => if x.1 = c then (c, x.2 ++ fs) else x
  else m ++ [(c, fs)]

/-- The loops over the statements, tools/parser.py:843-855. -/
def collapse (l : List Statement) : List (Syscall × List PFilter) :=
  l.foldl (fun m s => s.syscalls.foldl (fun m c => addFilters m c s.filters) m) []

/-- The filters of one system call are completed, tools/parser.py:856-894. -/
def finish (default : ActObj) (fs : List PFilter) : Option (List PFilter) :=
  match fs.dropWhile (fun f => f.expression.isSome) with
  | [] => some (fs ++ [⟨none, default⟩])
  | [_] => some fs
  | _ => none

/-- The same for all, tools/parser.py:856-894, with the frequencies of 848. -/
def finishAll (default : ActObj) (frequency : Syscall → Option Nat) : List (Syscall × List PFilter) → Option (List FilterStatement)
  | [] => some []
  | (c, fs) :: l => do
    let x ← finish default fs
    let y ← finishAll default frequency l
    return ⟨c.number, (frequency c).getD 1, x⟩ :: y

/-- `parse_file`, tools/parser.py:826-895, of a new `PolicyParser` (233-254). `n` is above the numbers of the objects that exist; the result has the next
number too. -/
def parseFile (fs : PyFiles) (g : Settings) (depth : Nat) (override : Option ActObj) (filename : CStr) (n : Nat) : Option (ParsedPolicy × Nat) := do
  let st : FState := if g.denylist then ⟨n + 1, ⟨n, .allow⟩, fun _ => none⟩ else ⟨n, g.kill, fun _ => none⟩
  let x ← parsePolicyFile fs g depth filename st
  let default := override.getD x.2.default
  let l ← finishAll default x.2.frequency (collapse x.1)
  return (⟨default, l⟩, x.2.next)

/-! ### The command -/

/-- The options of the command, tools/compile_seccomp_policy.py:55-107, with `arch_nr` of the architecture. `depth` is the value of `--include-depth-limit` less
two: the file on the command line and `<memory>` count. (The default limit is ten. Simplified: a limit that is given on the command line is a string, which
never equals a number, so it switches the limit off; the model takes it as a number.) `retLog`: the option or the environment variable (124-134). -/
structure Command where
  arch : Arch
  archNr : Nat
  bst : Bool
  denylist : Bool
  killProcess : Bool
  retLog : Bool
  defaultAction : Option CStr
  depth : Nat
  policy : CStr

/-- `kill_action`, tools/compile_seccomp_policy.py:135-143. -/
def killAction (c : Command) : Option Action :=
  if c.retLog then some .log
  else if c.denylist then do
    let e ← c.arch.constants "EPERM".toList
    return .returnErrno e.toNat
  else if c.killProcess then some .killProcess
  else some .killThread

/-- `rstrip("\r\n")`, tools/parser.py:135, of a text that is not a line of a file. -/
def stripNewlines (s : CStr) : CStr := (s.reverse.dropWhile fun c => c == '\r' || c == '\n').reverse

/-- `override_default_action`, tools/compile_seccomp_policy.py:144-149: the first statement of the text, read as an action; its own `kill_action` is a
`KillProcess`, object 1, and further objects get the numbers after that. The whole text is one line. -/
def overrideAction (c : Command) : Option (Option ActObj × Nat) :=
  match c.defaultAction with
  | none => some (none, 1)
  | some [] => some (none, 1)
  | some text => do
    let ls ← tokenizeLines [] [stripNewlines text]
    let toks ← ls.head?
    let x ← parseAction ⟨c.arch, ⟨1, .killProcess⟩, false, false⟩ ⟨toks, 2⟩
    return (some x.1, x.2.next)

/-- `main`, tools/compile_seccomp_policy.py:112-181, up to the program that is written, with `compile_file`, tools/compiler.py:293-346. -/
def offlineMain (fs : PyFiles) (c : Command) : Option (List Insn) := do
  let k ← killAction c
  let ov ← overrideAction c
  let g : Settings := ⟨c.arch, ⟨0, k⟩, c.denylist, c.retLog⟩
  let x ← parseFile fs g c.depth ov.1 c.policy ov.2
  compileProgram ⟨c.arch.bits, c.archNr, c.bst, ⟨0, k⟩, c.denylist⟩ x.1 x.2

end Minijail.Offline
