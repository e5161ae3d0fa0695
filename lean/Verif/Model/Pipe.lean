import Verif.Model.Marshal
/-! Sending a jail over a pipe. -/
set_option autoImplicit false
namespace Minijail

/-- What one call of `write` does: it is interrupted before anything is written (EINTR), it fails with another error, or
it writes some of the bytes (at most all of them: a larger number stands for all). libminijail.c:285-294. -/
inductive WriteEv where
  | eintr
  | error (errno : Nat)
  | wrote (n : Nat)
  deriving DecidableEq, Repr

/-- How `write_exactly` ends: `none` when the schedule ends before it does (it is still running or blocked). -/
abbrev WriteEnd := Option (Except Nat Unit)

/-- `write_exactly`, libminijail.c:281-298: the bytes that reached the pipe, how it ended, and the rest of the
schedule. -/
def writeExactly : List WriteEv → Bytes → Bytes × WriteEnd × List WriteEv
  | evs, [] => ([], some (.ok ()), evs)
  | [], _ :: _ => ([], none, [])
  | .eintr :: evs, b => writeExactly evs b
  | .error e :: evs, _ => ([], some (.error e), evs)
  | .wrote n :: evs, b =>
    let r := writeExactly evs (b.drop n)
    (b.take n ++ r.1, r.2)

/-- `minijail_to_fd`, libminijail.c:3043-3063: the bytes that reached the pipe and how it ended. `EINVAL` is 22; a
nonzero result of `minijail_marshal` is returned as is. -/
def toFd (evs : List WriteEv) (a : Addrs) (j : Jail) : Bytes × WriteEnd :=
  let sz := minijailSize a j
  if sz = 0 then ([], some (.error 22))
  else
    let m := minijailMarshal a j sz
    if m.1 then ([], some (.error 1))
    else
      let r := writeExactly evs (enc64 (BitVec.ofNat 64 sz))
      match r.2.1 with
      | some (.ok ()) =>
        let r' := writeExactly r.2.2 m.2
        (r.1 ++ r'.1, r'.2.1)
      | e => (r.1, e)

/-- What one call of `read` does: it fails (-1, which the code stores in a `size_t`), or delivers some of the bytes that
are in the pipe. libminijail.c:3026, 3036. -/
inductive ReadEv where
  | error
  | got (n : Nat)
  deriving DecidableEq, Repr

/-- One `read` of at most `want` bytes from the pipe: the bytes delivered, and the rest. -/
def readOnce (ev : ReadEv) (want : Nat) (pipe : Bytes) : Option (Bytes × Bytes) :=
  match ev with
  | .error => none
  | .got n => some ((pipe.take want).take n, pipe.drop ((pipe.take want).take n).length)

/-- The outcome of `minijail_from_fd`: an error code before any deserialisation, or what `minijail_unmarshal` did. -/
inductive FromFd where
  | errno (e : Nat)
  | unmarshal (u : Unm Jail)
  deriving DecidableEq, Repr

/-- `minijail_from_fd`, libminijail.c:3023-3041. `EINVAL` is 22, `E2BIG` is 7. Allocation failure is not modelled. -/
def fromFd (r1 r2 : ReadEv) (k : LandlockKernel) (pipe : Bytes) : FromFd :=
  match readOnce r1 8 pipe with
  | none => .errno 22
  | some (szBytes, pipe) =>
    if szBytes.length ≠ 8 then .errno 22
    else
      let sz := (decLE 64 szBytes).toNat
      if sz > USHRT_MAX then .errno 7
      else
        match readOnce r2 sz pipe with
        | none => .errno 22
        | some (buf, _) =>
          if buf.length ≠ sz then .errno 22 else .unmarshal (minijailUnmarshal k buf)

end Minijail
