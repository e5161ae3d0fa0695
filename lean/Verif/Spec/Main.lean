import Verif.Spec.CliValues
import Verif.Spec.Preload
/-! How the command line says the program is to be started (minijail0.1: -T, -i, --env-reset, --env-add, --preload-library). -/
set_option autoImplicit false
namespace Minijail.Spec
open Minijail

/-- `NAME=value` sets the variable of this name. -/
def addVar (x : List Char) (v : Option (List Char)) (arg : Option (List Char)) : Option (List Char) :=
  match arg.bind envEntry with
  | some (name, value) => if name = x then some value else v
  | none => v

/-- What an option makes of a variable whose value is `v`: `--env-reset` leaves no variable, `--env-add` sets one. -/
def editVar (x : List Char) (v : Option (List Char)) (p : Nat × Option CStr) : Option (List Char) :=
  if ("env-reset".toList, p.1) ∈ longOptions then none else if ("env-add".toList, p.1) ∈ longOptions then addVar x v p.2 else v

/-- The value of a variable that the options ask for, one after the other, given the environment of the caller. -/
def wantedVar (caller : List (List Char)) (opts : Options) (x : List Char) : Option (List Char) := opts.foldl (editVar x) (envValue caller x)

/-- What the program then sees: minijail0 may add the name of the policy file, and takes the variable for its pipe away. -/
def seenVar (want : List Char → Option (List Char)) (policy : Option (List Char)) (preloaded : Bool) (x : List Char) : Option (List Char) :=
  if preloaded ∧ x = fdVar then none else if x = policyVar ∧ policy.isSome then policy else want x

/-- The linkage that counts: the last -T says it, or else that of the file. -/
structure LinkageOf (opts : Options) (file t : ElfType) : Prop where
  static : Last opts (letter 'T') (some "static".toList) → t = .static
  dynamic : Last opts (letter 'T') (some "dynamic".toList) → t = .dynamic
  said : ¬ Without opts (letter 'T') → t = .static ∨ t = .dynamic
  file : Without opts (letter 'T') → t = file

/-- The library that counts: the last one given, or else the built-in one. -/
structure LibraryOf (opts : Options) (builtin path : CStr) : Prop where
  given : ∀ a, Last opts (long "preload-library") a → a = some path
  builtin : Without opts (long "preload-library") → path = builtin

end Minijail.Spec
