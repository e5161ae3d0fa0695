import Verif.Spec.Text
/-! Files with symbolic links, and which file a path leads to (path_resolution(7), realpath(3)). It refers to no model. -/
set_option autoImplicit false
namespace Minijail.Links
open Spec

/-- What can be at a place. -/
inductive Node where
  | dir
  | file
  | link (target : List Char)
  deriving DecidableEq, Repr

/-- What is at each place; a place is the list of the names from the root. -/
abbrev Tree := List (List Char) → Option Node

/-- A name that a directory can have an entry for. -/
def Proper (n : List Char) : Prop := n ≠ [] ∧ n ≠ ['.'] ∧ n ≠ ['.', '.'] ∧ '/' ∉ n

/-- From the directory `cur`, the names lead to the place `r`. -/
inductive Leads (T : Tree) : List (List Char) → List (List Char) → List (List Char) → Prop
  | done {cur} : Leads T cur [] cur
  | stay {cur n rest r} : n = [] ∨ n = ['.'] → Leads T cur rest r → Leads T cur (n :: rest) r
  | up {cur rest r} : Leads T cur.dropLast rest r → Leads T cur (['.', '.'] :: rest) r
  | down {cur n rest r} : Proper n → T (cur ++ [n]) = some .dir → Leads T (cur ++ [n]) rest r → Leads T cur (n :: rest) r
  | file {cur n} : Proper n → T (cur ++ [n]) = some .file → Leads T cur [n] (cur ++ [n])
  | link {cur n rest t r} : Proper n → T (cur ++ [n]) = some (.link t) → t ≠ [] →
      Leads T (if t.head? = some '/' then [] else cur) (fields '/' t ++ rest) r → Leads T cur (n :: rest) r

/-- Where the path leads to for a process whose working directory is `cwd`. -/
def PathLeads (T : Tree) (cwd : List (List Char)) (path : List Char) (r : List (List Char)) : Prop :=
  path ≠ [] ∧ Leads T (if path.head? = some '/' then [] else cwd) (fields '/' path) r

/-- The place is there, and neither it nor any directory above it is a symbolic link. -/
def Direct (T : Tree) (r : List (List Char)) : Prop :=
  (∀ n ∈ r, Proper n) ∧ ∀ p, p ≠ [] → p <+: r → T p = some .dir ∨ (p = r ∧ T p = some .file)

/-- The path that names a place. -/
def pathTo (r : List (List Char)) : List Char := if r = [] then ['/'] else r.flatMap fun n => '/' :: n

/-- What realpath(3) answers: if it answers at all, it is the path of the place that its argument leads to. (It may fail for lack of rights, for
too many links, and so on.) -/
def TrueAnswers (T : Tree) (cwd : List (List Char)) (realpath : List Char → Option (List Char)) : Prop :=
  ∀ path s, realpath path = some s → ∃ r, PathLeads T cwd path r ∧ s = pathTo r

end Minijail.Links
