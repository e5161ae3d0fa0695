import Verif.Model.EnvMem
import Mathlib.Data.List.Forall2
/-! What an environment in memory holds, and whose memory it is. -/
set_option autoImplicit false
namespace Minijail.Spec
open EnvMem

/-- The array at an address can be read up to its NULL, and its strings are these. -/
def EnvReads (m : EMem) (a : Nat) (env : Env) : Prop :=
  ∃ (ps : List Nat) (rest : List (Option (Option Nat))), m.cells a = some (.array (ps.map (fun p => some (some p)) ++ some none :: rest)) ∧
    List.Forall₂ (fun p e => m.cells p = some (.text e)) ps env

/-- There is this string at a pointer: behind the first so many characters of an allocated string. -/
def TextAt (m : EMem) (p : Nat × Nat) (s : CStr) : Prop := ∃ t, m.cells p.1 = some (.text (t ++ s)) ∧ t.length = p.2

/-- Memory in which addresses that have not been given out are not in use. -/
def EnvOrdinary (m : EMem) : Prop := ∀ x, m.brk ≤ x → m.cells x = none

/-- The environment at an address holds these strings; its array and each string are memory of its own; and the rest of memory is that of `base`. -/
def EnvOwned (base m : EMem) (a : Nat) (env : Env) : Prop :=
  EnvOrdinary m ∧ base.cells a = none ∧
  ∃ (ps : List Nat) (rest : List (Option (Option Nat))), m.cells a = some (.array (ps.map (fun p => some (some p)) ++ some none :: rest)) ∧
    List.Forall₂ (fun p e => m.cells p = some (.text e)) ps env ∧ ps.Nodup ∧ (∀ p ∈ ps, base.cells p = none) ∧
    ∀ x, x ≠ a → x ∉ ps → m.cells x = base.cells x

/-- The same is allocated in both, with the same contents. -/
def SameCells (m m' : EMem) : Prop := ∀ x, m.cells x = m'.cells x

end Minijail.Spec
