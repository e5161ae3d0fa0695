import Verif.Model.Bpf
/-!
bpf.c: the label table and jump resolution.
-/
set_option autoImplicit false
namespace Minijail

/-- Names in `struct bpf_labels` (bpf.h:138-144) in table order; `count` is the length. The
`location` fields are kept apart (`Locs`): they are all 0xffffffff until `bpf_resolve_jumps`. -/
abbrev Labels := List (List Char)

/-- `bpf_label_id`, bpf.c:352-383: the id, or `none` for -1, and the new table. `strndup` truncates the
stored name to `MAX_BPF_LABEL_LEN` bytes; its allocation failure is not modelled. The special case
`count == 0` (bpf.c:356-364) does the same as the general one. -/
def bpfLabelId (labels : Labels) (label : List Char) : Option Nat × Labels :=
  match labels.idxOf? label with
  | some id => (some id, labels)
  | none =>
    if labels.length = BPF_LABELS_MAX then (none, labels)
    else (some labels.length, labels ++ [label.take MAX_BPF_LABEL_LEN])

/-- The `location` fields of the label table (bpf.h:142). -/
abbrev Locs := Nat → BitVec 32

/-- The location "not seen yet", bpf.c:326 and 374. -/
def NOLOC : BitVec 32 := 0xffffffff

/-- All locations as `bpf_label_id` initialises them, bpf.c:361 and 380. -/
def Locs.init : Locs := fun _ => NOLOC

/-- One iteration of the loop in `bpf_resolve_jumps`, bpf.c:314-346. `count` is `labels->count`.
A label id outside the table is only tested for jumps; for a label definition it is an access outside
the initialised part of the array (bpf.c:336), hence `ub`. -/
def resolveStep (count : Nat) (offset : Nat) (i : Insn) (loc : Locs) : Res (Insn × Locs) :=
  if i.code ≠ JA then .ok (i, loc)
  else if i.jt = 0xff ∧ i.jf = 0xff then
    if i.k.toNat ≥ count then .fail
    else if loc i.k.toNat = NOLOC then .fail
    else .ok (⟨i.code, 0, 0, loc i.k.toNat - BitVec.ofNat 32 (offset + 1)⟩, loc)
  else if i.jt = 0xfe ∧ i.jf = 0xfe then
    if i.k.toNat ≥ count then .ub
    else if loc i.k.toNat ≠ NOLOC then .fail
    else .ok (⟨i.code, 0, 0, 0⟩, fun j => if j = i.k.toNat then BitVec.ofNat 32 offset else loc j)
  else .ok (i, loc)

/-- The backward walk of `bpf_resolve_jumps`, bpf.c:314-347: the last instruction is handled first.
The list is the part of the filter that starts at `offset`. -/
def resolveFrom (count : Nat) : (offset : Nat) → List Insn → Res (List Insn × Locs)
  | _, [] => .ok ([], Locs.init)
  | offset, i :: rest => do
    let (rest', loc) ← resolveFrom count (offset + 1) rest
    let (i', loc') ← resolveStep count offset i loc
    pure (i' :: rest', loc')

/-- `bpf_resolve_jumps`, bpf.c:301-349. The location table starts with all labels unresolved. -/
def bpfResolveJumps (count : Nat) (filter : List Insn) : Res (List Insn) :=
  if filter.length > BPF_MAXINSNS then .fail
  else do
    let (filter', _) ← resolveFrom count 0 filter
    pure filter'

end Minijail
