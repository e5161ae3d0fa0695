import Verif.Model.Pipe
/-! Sending a jail to the process that is to enter it, with both processes at work: the caller writes, the library in the new process reads. -/
set_option autoImplicit false
namespace Minijail.Delivery

/-- A `write` that the kernel has still to finish (libminijail.c:285): what is left of it, and whether it may be split. -/
structure Wr where
  left : Bytes
  split : Bool

/-- Where `minijail_from_fd` is (libminijail.c:3023-3041): before its first `read`, before its second one, or done. -/
inductive Reader where
  | size
  | body (sz : Nat)
  | done (r : FromFd)

/-- What is in the pipe, what is still to be written, and the reader, libminijail.c:3839-3841 and libminijailpreload.c:77. -/
structure St where
  pipe : Bytes
  writes : List Wr
  reader : Reader

/-- A `write`, libminijail.c:285; pipe(7): up to PIPE_BUF (4096) bytes are written at once. -/
def wr (b : Bytes) : Wr := ⟨b, decide (b.length > 4096)⟩

/-- `minijail_to_fd` (libminijail.c:3058-3062) is about to write the size and the bytes `m` of a jail. -/
def start (m : Bytes) : St := ⟨[], [wr (enc64 (BitVec.ofNat 64 m.length)), wr m], .size⟩

/-- After the first `read` delivered `b`, libminijail.c:3030-3033. -/
def afterSize (b : Bytes) : Reader :=
  if b.length ≠ 8 then .done (.errno 22) else if (decLE 64 b).toNat > USHRT_MAX then .done (.errno 7) else .body (decLE 64 b).toNat

/-- After the second `read` delivered `b`, libminijail.c:3037-3040. -/
def afterBody (k : LandlockKernel) (sz : Nat) (b : Bytes) : Reader := if b.length ≠ sz then .done (.errno 22) else .done (.unmarshal (minijailUnmarshal k b))

/-- One step of either process, with a pipe that holds `cap` bytes, libminijail.c:281-298, 3026, 3036. The kernel takes a `write` at once when there is room for it. Otherwise it waits, or takes a
part if the `write` is one that may be split. A `read` waits until there is something in the pipe or everything was written, and delivers what is there, up to what it asked for. Errors of
`read` and `write` are left out (C21). The kernel counts pages; here the capacity is in bytes. -/
inductive Step (cap : Nat) (k : LandlockKernel) : St → St → Prop where
  | whole (p : Bytes) (w : Wr) (ws : List Wr) (r : Reader) (h : p.length + w.left.length ≤ cap) : Step cap k ⟨p, w :: ws, r⟩ ⟨p ++ w.left, ws, r⟩
  | part (p : Bytes) (w : Wr) (ws : List Wr) (r : Reader) (n : Nat) (hs : w.split = true) (h0 : 0 < n) (h1 : p.length + n ≤ cap) (h2 : cap < p.length + w.left.length) :
      Step cap k ⟨p, w :: ws, r⟩ ⟨p ++ w.left.take n, { w with left := w.left.drop n } :: ws, r⟩
  | size (p : Bytes) (ws : List Wr) (h : p ≠ [] ∨ ws = []) : Step cap k ⟨p, ws, .size⟩ ⟨p.drop 8, ws, afterSize (p.take 8)⟩
  | body (p : Bytes) (ws : List Wr) (sz : Nat) (h : p ≠ [] ∨ ws = []) : Step cap k ⟨p, ws, .body sz⟩ ⟨p.drop sz, ws, afterBody k sz (p.take sz)⟩

/-- A number of steps, in any order of the two processes (libminijail.c:3839-3841 and libminijailpreload.c:77 run at the same time). -/
inductive Steps (cap : Nat) (k : LandlockKernel) : Nat → St → St → Prop where
  | refl (s : St) : Steps cap k 0 s s
  | step {n : Nat} {s m t : St} (h : Steps cap k n s m) (h' : Step cap k m t) : Steps cap k (n + 1) s t

end Minijail.Delivery
