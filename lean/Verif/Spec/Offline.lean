import Verif.Model.Offline
import Verif.Spec.Policy
/-!
What a policy means to the offline compiler (minijail0.5 and the grammar in the comments of tools/parser.py). Of the model only the types of the
parsed policy and of the options are used.
-/
set_option autoImplicit false
namespace Minijail.Spec
open Minijail.Offline

/-- What an operator compares. -/
def opCmp : PyOp → Cmp
  | .eq => .eq
  | .ne => .ne
  | .gt => .gt
  | .le => .le
  | .ge => .ge
  | .lt => .lt
  | .band => .anyFlag
  | .isIn => .subset

/-- The seccomp return word of an action (linux/seccomp.h); the errno field has 16 bits. -/
def actionWord : Offline.Action → BitVec 32
  | .killProcess => 0x80000000#32
  | .killThread => 0#32
  | .trap => 0x00030000#32
  | .trace => 0x7ff00000#32
  | .userNotify => 0x7fc00000#32
  | .log => 0x7ffc0000#32
  | .returnErrno e => BitVec.ofNat 32 (0x50000 + e % 65536)
  | .allow => 0x7fff0000#32

/-- A comparison is true of a system call. -/
def patomHolds (bits : Nat) (d : SeccompData) (a : PAtom) : Prop := (opCmp a.op).holds (argValue bits d a.arg) a.value

/-- The condition of a filter is true of a system call: some conjunction has all its comparisons true. -/
def condition (bits : Nat) (d : SeccompData) : Option (List (List PAtom)) → Prop
  | none => True
  | some e => ∃ c ∈ e, ∀ a ∈ c, patomHolds bits d a

open Classical in
/-- Filters are tried in order: the first whose condition is true decides. -/
noncomputable def firstMatch (bits : Nat) (d : SeccompData) : List PFilter → Option Offline.Action
  | [] => none
  | f :: l => if condition bits d f.expression then some f.action.act else firstMatch bits d l

/-- What happens to a system call that has no statement. -/
def otherwise (o : Options) (p : ParsedPolicy) : Offline.Action := if o.denylist then .allow else p.defaultAction.act

/-- What a policy prescribes for a system call. -/
noncomputable def prescribed (o : Options) (p : ParsedPolicy) (d : SeccompData) : Offline.Action :=
  if d.arch.toNat ≠ o.archNr then o.kill.act
  else
    match p.statements.find? (fun st => st.number = d.nr.toNat) with
    | some st => (firstMatch o.bits d st.filters).getD (otherwise o p)
    | none => otherwise o p

/-- What the parser guarantees about the filters of a system call (tools/parser.py:219-222, 862-895): the last one is unconditional, the others are not. -/
def GoodFilters (bits : Nat) (fs : List PFilter) : Prop :=
  ∃ init last, fs = init ++ [last] ∧ last.expression = none ∧ ∀ f ∈ init, ∃ e, f.expression = some e ∧ ∀ c ∈ e, ∀ a ∈ c, a.arg < 6 ∧ a.value < 2 ^ bits

/-- The action objects of a policy. -/
def actObjs (o : Options) (p : ParsedPolicy) : List ActObj :=
  o.kill :: p.defaultAction :: p.statements.flatMap fun st => st.filters.map PFilter.action

/-- A parsed policy: each system call has one statement, comparisons are of one of the six arguments with a word, and numbers tell objects apart. -/
structure GoodPolicy (o : Options) (p : ParsedPolicy) (n : Nat) : Prop where
  bits : o.bits = 32 ∨ o.bits = 64
  distinct : p.statements.Pairwise fun a b => a.number ≠ b.number
  small : ∀ st ∈ p.statements, st.number < 2 ^ 32 - 1
  filters : ∀ st ∈ p.statements, GoodFilters o.bits st.filters
  objects : ∀ a ∈ actObjs o p, a.id < n ∧ ∀ b ∈ actObjs o p, a.id = b.id → a = b

/-- No statement of an allowlist that ends in `allow` has a filter with another action. -/
def NoDroppedConditions (o : Options) (p : ParsedPolicy) : Prop :=
  o.denylist = false → ∀ st ∈ p.statements, ∀ last, st.filters.getLast? = some last → last.action.act = .allow → ∀ f ∈ st.filters, f.action.act = .allow

/-- What a conditional jump of the machine tests. -/
def jumpTest : JOp → (a k : Nat) → Prop
  | .jeq, a, k => a = k
  | .jgt, a, k => a > k
  | .jge, a, k => a ≥ k
  | .jset, a, k => ∃ bit, a.testBit bit = true ∧ k.testBit bit = true

end Minijail.Spec
