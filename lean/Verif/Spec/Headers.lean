/-! What the lines of the headers (`#define NAME value`, as the preprocessor prints them) say about system calls and constants. -/
set_option autoImplicit false
namespace Minijail.Spec.Headers

/-- The part of the name of a system call behind `__NR_`. -/
def CallName (n : List Char) : Prop := ∀ c ∈ n, c.isLower = true ∨ c.isDigit = true ∨ c = '_'

/-- A line that defines the number of a system call: the name it has in policies, and the macro. Those that only ARM has begin with `ARM_`. -/
inductive DefinesCall : List Char → List Char → List Char → Prop
  | call {n value} : CallName n → DefinesCall n ("__NR_".toList ++ n) ("#define __NR_".toList ++ n ++ ' ' :: value)
  | arm {n value} : CallName n → DefinesCall ("ARM_".toList ++ n) ("__ARM_NR_".toList ++ n) ("#define __ARM_NR_".toList ++ n ++ ' ' :: value)

/-- The names of constants: capital letters, digits, underscores, a letter first. -/
def ConstantName (n : List Char) : Prop := ∃ c t, n = c :: t ∧ c.isUpper = true ∧ ∀ x ∈ t, x.isUpper = true ∨ x.isDigit = true ∨ x = '_'

/-- Blanks. -/
def Blanks (s : List Char) : Prop := s ≠ [] ∧ ∀ c ∈ s, c ∈ [' ', '\t', '\n', '\r', '\x0b', '\x0c']

/-- A line that defines a constant. -/
inductive DefinesConstant : List Char → List Char → List Char → Prop
  | mk {n blanks value} : ConstantName n → Blanks blanks → (∀ c, value.head? = some c → c ∉ [' ', '\t', '\n', '\r', '\x0b', '\x0c']) →
      DefinesConstant n value ("#define ".toList ++ n ++ blanks ++ value)

/-- The constants that are taken: the value begins with a letter, a digit or an underscore, and the line has none of four words. -/
def Taken (value line : List Char) : Prop :=
  (∃ c t, value = c :: t ∧ (c.isAlphanum = true ∨ c = '_')) ∧ ∀ w ∈ ["SIGRTMAX".toList, "SIGRTMIN".toList, "SIG_".toList, "NULL".toList], ¬w <:+: line

end Minijail.Spec.Headers
