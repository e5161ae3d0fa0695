import Verif.Spec.Text
/-! Config files (minijail0.5 "Configuration File"). -/
set_option autoImplicit false
namespace Minijail.Spec

/-- A line of the form `key` or `key = value`; key and value are trimmed and not empty. The first `=` separates. -/
inductive ConfigLine : List Char → List Char → Option (List Char) → Prop
  | key {s} : '=' ∉ s → trim s ≠ [] → ConfigLine s (trim s) none
  | keyValue {a b} : '=' ∉ a → trim a ≠ [] → trim b ≠ [] → ConfigLine (a ++ '=' :: b) (trim a) (some (trim b))

/-- The line holds no entry: blank or a comment. -/
def NoEntry (l : List Char) : Prop := trim l = [] ∨ (trim l).head? = some '#'

/-- The entries of a list of lines. -/
inductive ConfigLines : List (List Char) → List (List Char × Option (List Char)) → Prop
  | nil : ConfigLines [] []
  | skip {l ls es} : NoEntry l → ConfigLines ls es → ConfigLines (l :: ls) es
  | entry {l ls k v es} : ¬ NoEntry l → ConfigLine (trim l) k v → ConfigLines ls es → ConfigLines (l :: ls) ((k, v) :: es)

/-- A config file and its entries: the directive and then lines, joined at backslashes. -/
def ConfigText (content : List Char) (es : List (List Char × Option (List Char))) : Prop :=
  ∃ rest, content = "% minijail-config-file v0\n".toList ++ rest ∧ ConfigLines (joinAll (physicalLines rest)) es

/-- What the format can represent as the argument of an option: text without newlines that is not empty, has no blanks
at its ends and does not end in a backslash. -/
structure Representable (a : List Char) : Prop where
  nonempty : a ≠ []
  trimmed : trim a = a
  oneLine : '\n' ∉ a
  noContinuation : a.getLast? ≠ some '\\'

end Minijail.Spec
