/-! The lines of an LLVM file (`clang -S -emit-llvm`) that holds one of the tables of minijail. -/
set_option autoImplicit false
namespace Minijail.Spec.Llvm

/-- The name of a string, behind `@`: `.str.5`. -/
def StrLabel (l : List Char) : Prop := l ≠ [] ∧ ∀ c ∈ l, c.isAlphanum = true ∨ c = '.'

/-- `@.str.5 = private unnamed_addr constant [5 x i8] c"read\00", align 1`. -/
inductive StringLine : List Char → List Char → List Char → Prop
  | mk {l s mid tail} : StrLabel l → s ≠ [] → (∀ c ∈ s, c ≠ '"' ∧ c ≠ '\\') → '"' ∉ mid → '"' ∉ tail →
      StringLine l s ('@' :: l ++ " = ".toList ++ mid ++ "c\"".toList ++ s ++ "\\00\"".toList ++ tail)

/-- A whole number. -/
def Number (i : Int) (t : List Char) : Prop := t = (if i < 0 then '-' :: Nat.toDigits 10 i.natAbs else Nat.toDigits 10 i.toNat)

/-- Nowhere does a number follow a space. -/
def NoNumber (s : List Char) : Prop :=
  ∀ a c b, s = a ++ ' ' :: c :: b → c.isDigit = false ∧ (c = '-' → ∀ x, b.head? = some x → x.isDigit = false)

/-- What comes before a name in an entry: `ptr `, or `i8* getelementptr inbounds ([5 x i8], [5 x i8]* `. -/
def Before (s : List Char) : Prop :=
  (∀ c, s.head? = some c → c ∉ [' ', '\t', '\n', '\r', '\x0b', '\x0c']) ∧ '@' ∉ s ∧ '}' ∉ s ∧ ¬"null".toList <:+: s

/-- An entry of a table: the name of the string, and the value if it is a number. Two forms of it: `ptr @.str.5, i32 5 ` and
`i8* getelementptr inbounds ([5 x i8], [5 x i8]* @.str.5, i32 0, i32 0), i32 5 `; and for a constant that is a pointer `ptr @.str.5, i32 ptrtoint (ptr @.str.6 to i32) `. -/
inductive EntryText : List Char → Option Int → List Char → Prop
  | number {pre l mid i num} : Before pre → StrLabel l → '}' ∉ mid → Number i num → EntryText l (some i) (pre ++ '@' :: l ++ ',' :: mid ++ ' ' :: num ++ " ".toList)
  | pointer {pre l mid arg} : Before pre → StrLabel l → '}' ∉ mid → '}' ∉ arg → NoNumber (mid ++ " ptrtoint (".toList ++ arg ++ ") ".toList) →
      EntryText l none (pre ++ '@' :: l ++ ',' :: mid ++ " ptrtoint (".toList ++ arg ++ ") ".toList)

/-- The entries, and the one without a name at the end: `{ ptr null, i32 -1 }`, or `zeroinitializer` where the number is 0. -/
inductive Entries (kind : List Char) : List (List Char × Option Int) → List Char → Prop
  | null {pre mid i num tail} : Before pre → '}' ∉ mid → Number i num →
      Entries kind [] ("%struct.".toList ++ kind ++ "_entry { ".toList ++ (pre ++ "null,".toList ++ mid ++ ' ' :: num ++ " ".toList) ++ '}' :: tail)
  | zero {tail} : '%' ∉ tail → Entries kind [] ("%struct.".toList ++ kind ++ "_entry zeroinitializer".toList ++ tail)
  | more {l v e r t} : EntryText l v e → Entries kind r t → Entries kind ((l, v) :: r) ("%struct.".toList ++ kind ++ "_entry { ".toList ++ e ++ "}, ".toList ++ t)

/-- `@syscall_table = dso_local constant [3 x %struct.syscall_entry] [%struct.syscall_entry { ptr @.str, i32 0 }, …], align 16`. The line of one table does not
speak of the other. -/
inductive TableLine (kind other : List Char) (r : List (List Char × Option Int)) : List Char → Prop
  | mk {mid t} : '%' ∉ mid → Entries kind r t →
      ¬('@' :: other ++ "_table".toList) <:+: ('@' :: kind ++ "_table = ".toList ++ mid ++ "%struct.".toList ++ kind ++ "_entry] [".toList ++ t) →
      TableLine kind other r ('@' :: kind ++ "_table = ".toList ++ mid ++ "%struct.".toList ++ kind ++ "_entry] [".toList ++ t)

/-- Other lines: those that define nothing and do not speak of the tables, and that of the size of the table. -/
inductive OtherLine (kind : List Char) : List Char → Prop
  | plain {s} : s.head? ≠ some '@' → ¬"@syscall_table".toList <:+: s → ¬"@constant_table".toList <:+: s → OtherLine kind s
  | size {t} : '%' ∉ t → '@' ∉ t → OtherLine kind ('@' :: kind ++ "_table_size = ".toList ++ t)

/-- Lines that are no tables: the strings they define. -/
inductive Lines (kind : List Char) : List (List Char × List Char) → List (List Char) → Prop
  | nil : Lines kind [] []
  | string {l s line strings rest} : StringLine l s line → Lines kind strings rest → Lines kind ((l, s) :: strings) (line :: rest)
  | other {line strings rest} : OtherLine kind line → Lines kind strings rest → Lines kind strings (line :: rest)

/-- The file of a table: the strings come first, each name stands for one string, and the entries are those of the table. -/
def TableFile (kind other : List Char) (table : List (List Char × Option Int)) (lines : List (List Char)) : Prop :=
  ∃ strings more before line after entries, lines = before ++ line :: after ∧ Lines kind strings before ∧ Lines kind more after ∧ TableLine kind other entries line ∧
    (∀ l s s', (l, s) ∈ strings → (l, s') ∈ strings → s = s') ∧
    table.length = entries.length ∧ ∀ x ∈ table.zip entries, (x.2.1, x.1.1) ∈ strings ∧ x.1.2 = x.2.2

/-- The files of both tables. -/
def SyscallFile : List (List Char × Option Int) → List (List Char) → Prop := TableFile "syscall".toList "constant".toList
def ConstantFile : List (List Char × Option Int) → List (List Char) → Prop := TableFile "constant".toList "syscall".toList

end Minijail.Spec.Llvm
