/-!
Which file a path leads to, in a tree without symbolic links. It refers to no model.
-/
set_option autoImplicit false
namespace Minijail.Spec

/-- Directories by the names that lead to them from the root, the last first. -/
abbrev Dir := List (List Char)

/-- One component of a path. The root is its own parent. -/
def visit (d : Dir) (name : List Char) : Dir :=
  if name = [] ∨ name = ['.'] then d
  else if name = ['.', '.'] then d.tail
  else name :: d

/-- The components of a path. -/
def Components (path : List Char) (names : List (List Char)) : Prop := names ≠ [] ∧ (∀ n ∈ names, '/' ∉ n) ∧ path = List.intercalate ['/'] names

/-- Where a path begins: the root, or where one is. -/
def begins (d : Dir) (path : List Char) : Dir := if path.head? = some '/' then [] else d

/-- A path leads from a directory to a place. -/
def LeadsTo (d : Dir) (path : List Char) (place : Dir) : Prop := ∃ names, Components path names ∧ place = names.foldl visit (begins d path)

/-- The directory that a file is in. -/
def FolderOf (d : Dir) (file : List Char) (folder : Dir) : Prop :=
  ∃ names base, Components file (names ++ [base]) ∧ folder = names.foldl visit (begins d file)

end Minijail.Spec
