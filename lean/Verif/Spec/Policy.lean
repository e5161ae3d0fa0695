import Verif.Model.BpfMachine
/-!
What a seccomp policy means (minijail0.5, "SECCOMP_FILTER SYNTAX"; comment at syscall_filter.c:370-400).
This file does not use the compiler model: only the input type `SeccompData` of the kernel.
-/
set_option autoImplicit false
namespace Minijail.Spec

/-- The comparison operators of the policy language (minijail0.5, "Atom Syntax"). -/
inductive Cmp where
  | eq | ne | lt | le | gt | ge
  /-- `&`: some flag of the constant is set in the argument -/
  | anyFlag
  /-- `in`: every flag set in the argument is also in the constant -/
  | subset
  deriving DecidableEq, Repr

/-- Unsigned comparison of an argument value with a constant. -/
def Cmp.holds : Cmp → (arg const : Nat) → Prop
  | .eq, a, c => a = c
  | .ne, a, c => a ≠ c
  | .lt, a, c => a < c
  | .le, a, c => a ≤ c
  | .gt, a, c => a > c
  | .ge, a, c => a ≥ c
  | .anyFlag, a, c => ∃ bit, a.testBit bit = true ∧ c.testBit bit = true
  | .subset, a, c => ∀ bit, a.testBit bit = true → c.testBit bit = true

/-- The value of syscall argument `i` as the program sees it: a `bits`-bit unsigned number. -/
def argValue (bits : Nat) (d : SeccompData) (i : Nat) : Nat :=
  match d.arg i with
  | some x => x.toNat % 2 ^ bits
  | none => 0

/-- One comparison `argN op C`; the index is as written. -/
structure Atom where
  arg : Int
  cmp : Cmp
  const : Nat
  deriving DecidableEq, Repr

/-- The index names one of the six arguments. -/
def Atom.valid (a : Atom) : Prop := 0 ≤ a.arg ∧ a.arg < 6

/-- An atom (with a valid index) is true of a system call. -/
def Atom.holds (bits : Nat) (d : SeccompData) (a : Atom) : Prop :=
  a.cmp.holds (argValue bits d a.arg.toNat) a.const

/-- A filter expression: a disjunction of conjunctions of atoms. -/
abbrev Dnf := List (List Atom)

/-- Some conjunction has all its atoms true. -/
def dnfHolds (bits : Nat) (d : SeccompData) (f : Dnf) : Prop :=
  ∃ conj ∈ f, ∀ a ∈ conj, a.holds bits d

/-- What the kernel does with a system call. -/
inductive Action where
  | allow
  | killThread
  | killProcess
  | trap
  | log
  | errno (e : Nat)
  deriving DecidableEq, Repr

/-- The 32-bit seccomp return word of an action (linux/seccomp.h); the errno field has 16 bits. -/
def Action.word : Action → BitVec 32
  | .allow => 0x7fff0000#32
  | .killThread => 0#32
  | .killProcess => 0x80000000#32
  | .trap => 0x00030000#32
  | .log => 0x7ffc0000#32
  | .errno e => BitVec.ofNat 32 (0x50000 + e % 65536)

/-- The right-hand side of a policy line. -/
inductive Rule where
  /-- `1` -/
  | allow
  /-- `DNF [; return ...]` -/
  | filter (f : Dnf) (otherwise : Action)
  /-- `return ...` -/
  | block (a : Action)
  deriving DecidableEq, Repr

open Classical in
/-- The action a rule prescribes for a system call. -/
noncomputable def Rule.action (bits : Nat) (d : SeccompData) : Rule → Action
  | .allow => .allow
  | .filter f o => if dnfHolds bits d f then .allow else o
  | .block a => a

/-- All comparisons of the rule inspect one of the six arguments. -/
def Rule.valid : Rule → Prop
  | .filter f _ => ∀ conj ∈ f, ∀ a ∈ conj, a.valid
  | _ => True

/-- The action of a policy: the first rule for the system call number decides, else the default. -/
noncomputable def policyAction (bits : Nat) (d : SeccompData) (dflt : Action) :
    List (BitVec 32 × Rule) → Action
  | [] => dflt
  | (nr, r) :: rest => if d.nr = nr then r.action bits d else policyAction bits d dflt rest

end Minijail.Spec
