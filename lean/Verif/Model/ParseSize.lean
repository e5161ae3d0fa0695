import Verif.Model.CString
/-! util.c: `parse_size`. -/
set_option autoImplicit false
namespace Minijail

/-- The two error numbers of `parse_size` (util.c:400, 406, 418, 427, 436). -/
inductive SizeErr where
  | einval
  | erange
  deriving DecidableEq, Repr

/-- The suffixes, util.c:412. -/
def sizeSuffixes : CStr := "KMGTPE".toList

/-- The scaling of a suffix at index `i`, util.c:421-430: the overflow test on the high bits, then the shift. -/
def scaleSize (size : BitVec 64) (i : Nat) : Except SizeErr (BitVec 64) :=
  let scale := (i + 1) * 10
  let mask : BitVec 64 := ~~~((1#64 <<< (64 - scale)) - 1#64)
  if size &&& mask ≠ 0#64 then .error .erange else .ok (size <<< scale)

/-- `parse_size`, util.c:392-438: `.error e` is the return value `-e` with `*result` untouched, `.ok v` is 0 with
`*result = v`. `strtoull` reports no other error than ERANGE. -/
def parseSize (sizespec : CStr) : Except SizeErr (BitVec 64) :=
  match sizespec with
  | [] => .error .einval
  | c :: _ =>
    if c < '0' ∨ c > '9' then .error .einval
    else
      match strtoul 64 10 sizespec with
      | none => .ok 0#64 -- no digits: cannot happen, the first character is one
      | some r =>
        if r.erange then .error .erange
        else
          let size := BitVec.ofInt 64 r.val
          match r.rest with
          | [] => .ok size
          | e :: end1 =>
            if end1 ≠ [] then .error .einval
            else match sizeSuffixes.idxOf? e with
              | none => .error .einval
              | some i => scaleSize size i

end Minijail
