import Verif.Model.Env
/-!
The functions of util.c on environments, with the arrays and strings in memory. `Model/Env.lean` takes a list of strings for the array; here the strings are allocated and freed, the
array ends where NULL is found in it, and allocations can fail.

Simplifications: addresses are not used again after `free`; `realloc` always moves; the numbers of entries fit into an `int`.
-/
set_option autoImplicit false
namespace Minijail.EnvMem

/-- An allocated object: a string, or an array of pointers (the `char **` of util.c:538-711). In an array the outer `none` is memory that was never written, the inner one is NULL. -/
inductive EObj where
  | text (s : CStr)
  | array (slots : List (Option (Option Nat)))
  deriving DecidableEq, Repr

/-- Memory: what is allocated at each address, the next address, and how often memory has been asked for (util.c:553, 559, 564, 618, 629). -/
structure EMem where
  cells : Nat → Option EObj
  brk : Nat
  tries : Nat

/-- How a function on memory ends (util.c:538-711): it returns; or undefined behaviour: memory that is not allocated, not written or not large enough is used, or freed. -/
inductive E (α : Type) where
  | ok (a : α) (m : EMem)
  | ub

/-- One after the other (`;` of C, e.g. util.c:544-547). -/
def E.bind {α β : Type} (r : E α) (f : α → EMem → E β) : E β :=
  match r with
  | .ok a m => f a m
  | .ub => .ub

/-- Store an object at an address, e.g. util.c:635. -/
def EMem.put (m : EMem) (a : Nat) (o : Option EObj) : EMem := { m with cells := fun x => if x = a then o else m.cells x }

/-- `calloc`, `strdup` and `asprintf`, util.c:553, 559, 564, 618: NULL if this is one of the calls that fail. -/
def alloc (fails : Nat → Bool) (o : EObj) (m : EMem) : Option Nat × EMem :=
  if fails m.tries then (none, { m with tries := m.tries + 1 })
  else (some m.brk, { cells := fun x => if x = m.brk then some o else m.cells x, brk := m.brk + 1, tries := m.tries + 1 })

/-- `free`, util.c:544, 547, 622, 631. -/
def free (p : Option Nat) (m : EMem) : E Unit :=
  match p with
  | none => .ok () m
  | some a =>
    match m.cells a with
    | none => .ub
    | some _ => .ok () (m.put a none)

/-- A pointer into a string: its address and how far into it. It is what `name` and `value` are (util.c:601). -/
abbrev SPtr := Nat × Nat

/-- The string at a pointer, e.g. util.c:584, 592, 618; `none` if there is none. -/
def readText (p : SPtr) (m : EMem) : Option CStr :=
  match m.cells p.1 with
  | some (.text s) => if p.2 ≤ s.length then some (s.drop p.2) else none
  | _ => none

/-- `env[i]`, e.g. util.c:556, 585: `none` if it is outside of the array or was never written. -/
def readSlot (env i : Nat) (m : EMem) : Option (Option Nat) :=
  match m.cells env with
  | some (.array slots) => slots[i]?.join
  | _ => none

/-- Store to `env[i]`, e.g. util.c:564, 623, 635. -/
def writeSlot (env i : Nat) (p : Option Nat) (m : EMem) : E Unit :=
  match m.cells env with
  | some (.array slots) => if i < slots.length then .ok () (m.put env (some (.array (slots.set i (some p))))) else .ub
  | _ => .ub

/-- How many entries there may be from `i` on: a bound for the loops that end at NULL (util.c:543, 556, 585, 704), which run into undefined behaviour at the end of the array. -/
def bound (env : Nat) (m : EMem) : Nat :=
  match m.cells env with
  | some (.array slots) => slots.length + 1
  | _ => 1

/-- The loop of `minijail_free_env`, util.c:543-545, from `i` on. -/
def freeEntries (env : Nat) : (fuel i : Nat) → EMem → E Unit
  | 0, _, _ => .ub
  | fuel + 1, i, m =>
    match readSlot env i m with
    | none => .ub
    | some none => .ok () m
    | some (some p) => (free (some p) m).bind fun _ m => freeEntries env fuel (i + 1) m

/-- `minijail_free_env`, util.c:538-548. -/
def freeEnvMem (env : Option Nat) (m : EMem) : E Unit :=
  match env with
  | none => .ok () m
  | some a => (freeEntries a (bound a m) 0 m).bind fun _ m => free (some a) m

/-- The loop that counts, util.c:556-557, and that of `minijail_unsetenv`, 704-705: from `i` on to NULL. -/
def countFrom (env : Nat) (m : EMem) : (fuel i : Nat) → Option Nat
  | 0, _ => none
  | fuel + 1, i =>
    match readSlot env i m with
    | none => none
    | some none => some i
    | some (some _) => countFrom env m fuel (i + 1)

/-- The loop of `minijail_copy_env`, util.c:563-569, from entry `i` on: false if there was no memory. -/
def copyEntries (fails : Nat → Bool) (env copy : Nat) : (fuel i : Nat) → EMem → E Bool
  | 0, _, _ => .ub
  | fuel + 1, i, m =>
    match readSlot env i m with
    | none => .ub
    | some none => .ok true m
    | some (some p) =>
      match readText (p, 0) m with
      | none => .ub
      | some s =>
        (writeSlot copy i (alloc fails (.text s) m).1 (alloc fails (.text s) m).2).bind fun _ m2 =>
          if (alloc fails (.text s) m).1.isNone then .ok false m2 else copyEntries fails env copy fuel (i + 1) m2

/-- `minijail_copy_env`, util.c:550-572: the copy, or NULL. -/
def copyEnvMem (fails : Nat → Bool) (env : Option Nat) (m : EMem) : E (Option Nat) :=
  match env with
  | none => .ok (alloc fails (.array [some none]) m).1 (alloc fails (.array [some none]) m).2
  | some a =>
    match countFrom a m (bound a m) 0 with
    | none => .ub
    | some len =>
      let r := alloc fails (.array (List.replicate (len + 1) (some none))) m
      match r.1 with
      | none => .ok none r.2
      | some copy =>
        (copyEntries fails a copy (bound a m) 0 r.2).bind fun done m2 =>
          if done then .ok (some copy) m2 else (freeEnvMem (some copy) m2).bind fun _ m3 => .ok none m3

/-- What `getenv_index` looks for in an entry, util.c:592-593. -/
def named (name e : CStr) : Bool := e.take name.length == name && e[name.length]? == some '='

/-- The loop of `getenv_index`, util.c:585-596, from `i` on: whether the name was found, and `*i`. The outer `none` is undefined behaviour. -/
def indexFrom (env : Nat) (name : CStr) (m : EMem) : (fuel i : Nat) → Option (Bool × Nat)
  | 0, _ => none
  | fuel + 1, i =>
    match readSlot env i m with
    | none => none
    | some none => some (false, i)
    | some (some p) =>
      match readText (p, 0) m with
      | none => none
      | some e => if named name e then some (true, i) else indexFrom env name m fuel (i + 1)

/-- `getenv_index`, util.c:579-599, with pointers that are not NULL. -/
def getenvIndexMem (env : Nat) (name : SPtr) (m : EMem) : Option (Bool × Nat) :=
  match readText name m with
  | none => none
  | some n => indexFrom env n m (bound env m) 0

/-- What `minijail_setenv` returns (util.c:605, 613, 619, 624): 0, EINVAL, ENOMEM. -/
inductive SetRet where
  | ok | einval | enomem
  deriving DecidableEq, Repr

/-- `realloc` of the array to `n` pointers, util.c:629. -/
def realloc (fails : Nat → Bool) (a n : Nat) (m : EMem) : E (Option Nat) :=
  match m.cells a with
  | some (.array slots) =>
    let r := alloc fails (.array (slots.take n ++ List.replicate (n - slots.length) none)) m
    match r.1 with
    | none => .ok none r.2
    | some b => .ok (some b) (r.2.put a none)
  | _ => .ub

/-- `minijail_setenv` for a name that is there, util.c:621-625: the entry `i` is freed and replaced. -/
def replaceEntry (a i : Nat) (entry : Nat) (m : EMem) : E (SetRet × Option Nat) :=
  match readSlot a i m with
  | none => .ub
  | some old => (free old m).bind fun _ m => (writeSlot a i (some entry) m).bind fun _ m => .ok (.ok, some a) m

/-- `minijail_setenv` for a name that is not there, util.c:627-638; `n` is the number of entries. -/
def appendEntry (fails : Nat → Bool) (a n : Nat) (entry : Nat) (m : EMem) : E (SetRet × Option Nat) :=
  (realloc fails a (n + 2) m).bind fun p m =>
    match p with
    | none => (free (some entry) m).bind fun _ m => .ok (.enomem, some a) m
    | some b => (writeSlot b n (some entry) m).bind fun _ m => (writeSlot b (n + 1) none m).bind fun _ m => .ok (.ok, some b) m

/-- `minijail_setenv` behind the search, util.c:611-638. -/
def setFound (fails : Nat → Bool) (a : Nat) (name value : SPtr) (overwrite : Bool) (found : Bool × Nat) (m : EMem) : E (SetRet × Option Nat) :=
  if found.1 && !overwrite then .ok (.ok, some a) m
  else
    match readText name m, readText value m with
    | some n, some v =>
      let r := alloc fails (.text (n ++ '=' :: v)) m
      match r.1 with
      | none => .ok (.enomem, some a) r.2
      | some entry => if found.1 then replaceEntry a found.2 entry r.2 else appendEntry fails a found.2 entry r.2
    | _, _ => .ub

/-- `minijail_setenv`, util.c:601-639: what it returns, and `*env` afterwards. `none` arguments are NULL. -/
def setenvMem (fails : Nat → Bool) (env : Option Nat) (name value : Option SPtr) (overwrite : Bool) (m : EMem) : E (SetRet × Option Nat) :=
  match env, name with
  | some a, some name =>
    match readText name m with
    | none => .ub
    | some n =>
      match n, value with
      | [], _ => .ok (.einval, env) m
      | _, none => .ok (.einval, env) m
      | _, some value =>
        match getenvIndexMem a name m with
        | none => .ub
        | some found => setFound fails a name value overwrite found m
  | _, _ => .ok (.einval, env) m

/-- `minijail_getenv`, util.c:680-691: a pointer to the value, or NULL. -/
def getenvMem (env : Option Nat) (name : Option SPtr) (m : EMem) : E (Option SPtr) :=
  match env, name with
  | some a, some name =>
    match getenvIndexMem a name m with
    | none => .ub
    | some (false, _) => .ok none m
    | some (true, i) =>
      match readSlot a i m, readText name m with
      | some (some p), some n => .ok (some (p, n.length + 1)) m
      | _, _ => .ub
  | _, _ => .ok none m

/-- `minijail_unsetenv`, util.c:693-711. -/
def unsetenvMem (env : Option Nat) (name : Option SPtr) (m : EMem) : E Bool :=
  match env, name with
  | some a, some name =>
    match getenvIndexMem a name m with
    | none => .ub
    | some (false, _) => .ok false m
    | some (true, i) =>
      match countFrom a m (bound a m) i with
      | none => .ub
      | some n =>
        match readSlot a (n - 1) m with
        | none => .ub
        | some last => (writeSlot a i last m).bind fun _ m => (writeSlot a (n - 1) none m).bind fun _ m => .ok true m
  | _, _ => .ok false m

end Minijail.EnvMem
