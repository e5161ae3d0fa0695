import Verif.Model.Complaints
import Verif.Spec.Text
/-! Which lines of a policy a message can be about. -/
set_option autoImplicit false
namespace Minijail.Spec
open Complaints

/-- The line with this number, counted from 1, of the file with this name. -/
def LineOf (lines : List Char → List (List Char)) (fs : List Char → Option (List Char)) (file : List Char) (n : Nat) (text : List Char) : Prop :=
  ∃ content, fs file = some content ∧ 0 < n ∧ (lines content)[n - 1]? = some text

/-- A rule: a name, a colon and a body that is not empty; none of the three is a comment or a statement. -/
def IsRule (text name body : List Char) : Prop :=
  (∃ n b, trim text = n ++ ':' :: b ∧ ':' ∉ n ∧ name = trim n ∧ body = trim b) ∧ (trim text).head? ≠ some '#' ∧ (trim text).head? ≠ some '@'

/-- What is said of a line is so. For the body of a rule: it does not compile. -/
def Deserved (lines : List Char → List (List Char)) (cx : Ctx) (text : List Char) : What → Prop
  | .frequency => "@frequency".toList <+: trim text
  | .statement => (trim text).head? = some '@' ∧ ¬ "@frequency".toList <+: trim text
  | .unreadable => ∃ file, trim text = "@include ".toList ++ file ∧ cx.fs file = none
  | .included => ∃ file content, trim text = "@include ".toList ++ file ∧ cx.fs file = some content
  | .empty => ∃ name, IsRule text name []
  | .unknown => ∃ name body, IsRule text name body ∧ lookupSyscall cx.syscalls name = none
  | .redefined file line => ∃ name body text' body', IsRule text name body ∧ (lookupSyscall cx.syscalls name).isSome ∧
      LineOf lines cx.fs file line text' ∧ IsRule text' name body'
  | .body => ∃ name body nr ind id labels, IsRule text name body ∧ lookupSyscall cx.syscalls name = some (nr, ind) ∧ compilePolicyLine cx nr body id labels = .fail

/-- Messages for which a policy is refused: not of `@frequency`, and of unknown calls and of second rules only if the options do not allow them. -/
def Fault (cx : Ctx) : What → Prop
  | .frequency => False
  | .unknown => cx.opts.allowLogging = false
  | .redefined _ _ => cx.opts.allowDuplicateSyscalls = false
  | _ => True

/-- A line whose faults are not told: one without a colon that is not empty, a comment or a statement, or one with something other than `return` behind the semicolon. -/
def Untold (text : List Char) : Prop :=
  (trim text ≠ [] ∧ (trim text).head? ≠ some '#' ∧ (trim text).head? ≠ some '@' ∧ ':' ∉ trim text) ∨ ∃ name body a r l, IsRule text name body ∧ words ';' body = a :: r :: l ∧ ¬ ∃ w ws, words ' ' r = w :: ws ∧ "return".toList <+: w

/-- Policies without lines that are continued. -/
def NoContinuations (fs : List Char → Option (List Char)) : Prop := ∀ file content, fs file = some content → ∀ l ∈ physicalLines content, l.getLast? ≠ some '\\'

end Minijail.Spec
