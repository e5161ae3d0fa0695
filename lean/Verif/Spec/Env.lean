/-! An environment array as a finite map from names to values. -/
set_option autoImplicit false
namespace Minijail.Spec

/-- Name and value of an entry: the text before and after its first `=`. -/
def envEntry (e : List Char) : Option (List Char × List Char) :=
  match e.dropWhile (· != '=') with
  | [] => none
  | _ :: value => some (e.takeWhile (· != '='), value)

/-- The variables of an environment array, in order. -/
def envVars (env : List (List Char)) : List (List Char × List Char) := env.filterMap envEntry

/-- The value of a variable: the first one counts. -/
def envValue (env : List (List Char)) (name : List Char) : Option (List Char) :=
  ((envVars env).find? fun p => p.1 == name).map (·.2)

/-- No variable occurs twice. -/
def EnvDistinct (env : List (List Char)) : Prop := ((envVars env).map (·.1)).Nodup

/-- What may be the name of a variable. -/
def ValidName (n : List Char) : Prop := n ≠ [] ∧ '=' ∉ n

/-- Editing operations. -/
inductive EnvOp where
  | set (name value : List Char) (overwrite : Bool)
  | unset (name : List Char)

/-- The name an operation is about. -/
def EnvOp.name : EnvOp → List Char
  | .set n _ _ => n
  | .unset n => n

/-- The operation on maps. -/
def EnvOp.onMap : EnvOp → (List Char → Option (List Char)) → List Char → Option (List Char)
  | .set n v o, m => fun x => if x = n then (if o = false ∧ (m n).isSome then m n else some v) else m x
  | .unset n, m => fun x => if x = n then none else m x

end Minijail.Spec
