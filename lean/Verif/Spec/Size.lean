import Verif.Spec.Const
/-! Size strings: decimal digits and at most one of the suffixes K M G T P E. -/
set_option autoImplicit false
namespace Minijail.Spec

/-- The power of 1024 that a suffix stands for. -/
def suffixPower : List Char → Option Nat
  | [] => some 0
  | ['K'] => some 1
  | ['M'] => some 2
  | ['G'] => some 3
  | ['T'] => some 4
  | ['P'] => some 5
  | ['E'] => some 6
  | _ => none

/-- `s` is a size string for `v` bytes (`v` need not fit any word). -/
def SizeText (s : List Char) (v : Nat) : Prop :=
  ∃ ds suf n k, s = ds ++ suf ∧ ds ≠ [] ∧ Digits 10 ds n ∧ suffixPower suf = some k ∧ v = n * 1024 ^ k

end Minijail.Spec
