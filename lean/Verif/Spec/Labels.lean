import Verif.Model.BpfMachine
/-! What it means to resolve the symbolic jumps of a filter (bpf.c, comment at 310-313; bpf.h:129-133). -/
set_option autoImplicit false
namespace Minijail.Spec

/-- The pseudo instruction "jump to label `l`". -/
def jumpTo (l : BitVec 32) : Insn := ⟨0x05, 0xff, 0xff, l⟩
/-- The pseudo instruction "label `l` is here". -/
def labelDef (l : BitVec 32) : Insn := ⟨0x05, 0xfe, 0xfe, l⟩
/-- A real unconditional jump over `n` instructions. -/
def skipOver (n : Nat) : Insn := ⟨0x05, 0, 0, BitVec.ofNat 32 n⟩

/-- `q` is `p` with every symbolic jump replaced by a jump that lands on the definition of its label,
every label replaced by a jump to the next instruction, and nothing else changed. -/
structure ResolvesTo (p q : List Insn) : Prop where
  sameLength : q.length = p.length
  jump : ∀ (i : Nat) (l : BitVec 32), p[i]? = some (jumpTo l) →
    ∃ n, n < 4096 ∧ p[i + 1 + n]? = some (labelDef l) ∧ q[i]? = some (skipOver n)
  label : ∀ (i : Nat) (l : BitVec 32), p[i]? = some (labelDef l) → q[i]? = some (skipOver 0)
  other : ∀ (i : Nat) (x : Insn), p[i]? = some x → (∀ l, x ≠ jumpTo l) → (∀ l, x ≠ labelDef l) → q[i]? = some x

/-- A program whose symbolic jumps can be resolved with `count` known labels. -/
structure Resolvable (count : Nat) (p : List Insn) : Prop where
  short : p.length ≤ 4096
  jumpKnown : ∀ (i : Nat) (l : BitVec 32), p[i]? = some (jumpTo l) → l.toNat < count
  /-- every jump has its label later in the program -/
  forward : ∀ (i : Nat) (l : BitVec 32), p[i]? = some (jumpTo l) → ∃ j, i < j ∧ p[j]? = some (labelDef l)
  labelKnown : ∀ (i : Nat) (l : BitVec 32), p[i]? = some (labelDef l) → l.toNat < count
  /-- no label is defined twice -/
  unique : ∀ (i j : Nat) (l : BitVec 32), p[i]? = some (labelDef l) → p[j]? = some (labelDef l) → i = j

end Minijail.Spec
