/-!
The memory of a jail: what the configuration functions of libminijail.c allocate, where the jail keeps the pointers, and what `minijail_destroy` frees. Strings are
allocated blocks without contents. Decisions that depend on other things than memory are arguments.

Simplifications: addresses are not used again after `free`; the jail is used by one thread; `minijail_unmarshal` is not here (`Model/Cleanup`), nor is the memory that
`compile_filter` uses and frees (`Model/Blocks`).
-/
set_option autoImplicit false
namespace Minijail.Ownership

/-- The structs that are kept in lists, libminijail.c:88-116. -/
inductive Kind where
  | mount
  | remount
  | hook
  | rule
  deriving DecidableEq, Repr

/-- An allocated block: a string; an array; `struct sock_fprog` with its pointer; an element of a list with its strings (NULL is `none`) and the next element; the
`struct minijail` itself, whose members are `Members`. libminijail.c:88-116, 485, 534, 1428-1432. -/
inductive Block where
  | text
  | array
  | prog (filter : Option Nat)
  | node (k : Kind) (texts : List (Option Nat)) (next : Option Nat)
  | jail
  deriving DecidableEq, Repr

/-- Memory: what is allocated where, and how often memory was asked for; the next block gets that number as its address. -/
structure Ram where
  at_ : Nat → Option Block
  asked : Nat

/-- Store, or remove, what is at an address, e.g. libminijail.c:1214. -/
def Ram.put (m : Ram) (a : Nat) (b : Option Block) : Ram := { m with at_ := fun x => if x = a then b else m.at_ x }

/-- The members of `struct minijail` that are strings, libminijail.c:183-206, 228. -/
inductive Text where
  | user
  | chrootdir
  | pidFile
  | uidmap
  | gidmap
  | hostname
  | preload
  | filename
  | altTable
  | policy
  deriving DecidableEq, Repr

/-- The members of `struct minijail` that are pointers, libminijail.c:183-228. A list is its head and tail; `cgroups` holds the first `cgroup_count` of them. -/
structure Members where
  text : Text → Option Nat := fun _ => none
  gids : Option Nat := none
  prog : Option Nat := none
  cgroups : List Nat := []
  head : Kind → Option Nat := fun _ => none
  tail : Kind → Option Nat := fun _ => none

/-- How a function ends: it returns; it calls `die`; or undefined behaviour: memory that is not allocated is used or freed. -/
inductive Ends (α : Type) where
  | ok (a : α)
  | died
  | ub

/-- One statement after another. -/
def Ends.bind {α β : Type} (x : Ends α) (f : α → Ends β) : Ends β :=
  match x with
  | .ok a => f a
  | .died => .died
  | .ub => .ub

/-- `malloc`, `calloc` or `strdup` (e.g. libminijail.c:558): `short n` says whether memory is short when it is asked for the `n`-th time. -/
def alloc (short : Nat → Bool) (b : Block) (m : Ram) : Option Nat × Ram :=
  if short m.asked then (none, { m with asked := m.asked + 1 })
  else (some m.asked, { at_ := fun x => if x = m.asked then some b else m.at_ x, asked := m.asked + 1 })

/-- `free`, e.g. libminijail.c:244. -/
def free (p : Option Nat) (m : Ram) : Ends Ram :=
  match p with
  | none => .ok m
  | some a => if m.at_ a = none then .ub else .ok (m.put a none)

/-- `free` for each of these in order, e.g. libminijail.c:244-247. -/
def freeAll : List (Option Nat) → Ram → Ends Ram
  | [], m => .ok m
  | p :: ps, m => (free p m).bind (freeAll ps)

/-- A state: the jail's members and memory. -/
abbrev State := Members × Ram

/-- Replace a string of the jail, e.g. libminijail.c:558. -/
def Members.set (p : Members) (f : Text) (v : Option Nat) : Members := { p with text := fun x => if x = f then v else p.text x }

/-- `j->f = strdup(…)`, whatever was there before: `minijail_change_user` (libminijail.c:558), `minijail_uidmap` (906), `minijail_gidmap` (919),
`minijail_write_pid_file` (1026), `minijail_use_alt_syscall` (1580), `minijail_run_internal` (3647). -/
def replaceText (short : Nat → Bool) (f : Text) (s : State) : State :=
  let r := alloc short .text s.2
  (s.1.set f r.1, r.2)

/-- The functions that refuse to replace a string: `minijail_namespace_set_hostname` (libminijail.c:844-853), `minijail_enter_chroot` (944-953),
`minijail_enter_pivot_root` (955-964), `minijail_set_preload_path` (1333-1341). -/
def setTextOnce (short : Nat → Bool) (f : Text) (s : State) : State := if s.1.text f ≠ none then s else replaceText short f s

/-- `minijail_set_supplementary_gids`, libminijail.c:515-543, after its first checks. -/
def setSupplementaryGids (short : Nat → Bool) (empty : Bool) (s : State) : Ends State :=
  if empty then .ok ({ s.1 with gids := none }, s.2)
  else
    let r := alloc short .array s.2
    if r.1 = none then .died else .ok ({ s.1 with gids := r.1 }, r.2)

/-- `minijail_add_to_cgroup`, libminijail.c:1033-1043; `MAX_CGROUPS` is 10. -/
def addToCgroup (short : Nat → Bool) (s : State) : State :=
  if s.1.cgroups.length ≥ 10 then s
  else
    let r := alloc short .text s.2
    match r.1 with
    | none => (s.1, r.2)
    | some a => ({ s.1 with cgroups := s.1.cgroups ++ [a] }, r.2)

/-- Append an element to a list: libminijail.c:1212-1216 (mounts), 1288-1292 (remounts), 1312-1316 (hooks), 390-396 (rules). -/
def link (k : Kind) (a : Nat) (s : State) : Ends State :=
  let p := { s.1 with tail := fun x => if x = k then some a else s.1.tail x }
  match s.1.tail k with
  | none => .ok ({ p with head := fun x => if x = k then some a else s.1.head x }, s.2)
  | some t =>
    match s.2.at_ t with
    | some (.node k' ts _) => if k' = k then .ok (p, s.2.put t (some (.node k ts (some a)))) else .ub
    | _ => .ub

/-- `minijail_mount_with_data` after the check of the destination, libminijail.c:1169-1230. The element is allocated before its strings; they are stored in it one by
one. -/
def mountWithData (short : Nat → Bool) (data : Bool) (s : State) : Ends State :=
  let m := alloc short (.node .mount [none, none, none, none] none) s.2
  match m.1 with
  | none => .ok (s.1, m.2)
  | some a =>
    let back (src dest type : Option Nat) (ram : Ram) : Ends State := (freeAll [type, src, dest, some a] ram).bind fun ram => .ok (s.1, ram)
    let d := alloc short .text m.2
    if d.1 = none then back none none none d.2
    else
      let r := alloc short .text d.2
      if r.1 = none then back none d.1 none r.2
      else
        let t := alloc short .text r.2
        if t.1 = none then back r.1 d.1 none t.2
        else
          if data then
            let x := alloc short .text t.2
            if x.1 = none then back r.1 d.1 t.1 x.2
            else link .mount a (s.1, x.2.put a (some (.node .mount [r.1, d.1, t.1, x.1] none)))
          else link .mount a (s.1, t.2.put a (some (.node .mount [r.1, d.1, t.1, none] none)))

/-- `minijail_add_remount` after the check of the name, libminijail.c:1277-1294. -/
def addRemount (short : Nat → Bool) (s : State) : Ends State :=
  let m := alloc short (.node .remount [none] none) s.2
  match m.1 with
  | none => .ok (s.1, m.2)
  | some a =>
    let r := alloc short .text m.2
    if r.1 = none then (free (some a) r.2).bind fun ram => .ok (s.1, ram)
    else link .remount a (s.1, r.2.put a (some (.node .remount [r.1] none)))

/-- `minijail_add_hook` after the check of the event, libminijail.c:1304-1318. -/
def addHook (short : Nat → Bool) (s : State) : Ends State :=
  let m := alloc short (.node .hook [] none) s.2
  match m.1 with
  | none => .ok (s.1, m.2)
  | some a => link .hook a (s.1, m.2)

/-- `add_fs_restriction_path`, libminijail.c:384-396: nobody looks whether the path could be copied. -/
def addFsRestrictionPath (short : Nat → Bool) (s : State) : Ends State :=
  let m := alloc short (.node .rule [none] none) s.2
  match m.1 with
  | none => .ok (s.1, m.2)
  | some a =>
    let r := alloc short .text m.2
    link .rule a (s.1, r.2.put a (some (.node .rule [r.1] none)))

/-- `clear_seccomp_options`, libminijail.c:1343-1356: the filter is forgotten, not freed. -/
def clearSeccompOptions (s : State) : Ends State :=
  (free (s.1.text .policy) s.2).bind fun m => .ok ({ s.1.set .policy none with prog := none }, m)

/-- Free a `struct sock_fprog` and its instructions, libminijail.c:1441-1444, 4175-4178. -/
def freeProg (p : Option Nat) (m : Ram) : Ends Ram :=
  match p with
  | none => .ok m
  | some a =>
    match m.at_ a with
    | some (.prog f) => (free f m).bind (free (some a))
    | _ => .ub

/-- `set_seccomp_filters_internal` with a filter that is owned, libminijail.c:1441-1448. -/
def setFilterOwned (a : Nat) (s : State) : Ends State := (freeProg s.1.prog s.2).bind fun m => .ok ({ s.1 with prog := some a }, m)

/-- `parse_seccomp_filters`, libminijail.c:1451-1502, and its callers, which die if it fails: `fprog` and, in syscall_filter.c:857-880, its instructions.
`compiles`: the policy compiles. -/
def parseSeccompFilters (short : Nat → Bool) (compiles : Bool) (s : State) : Ends State :=
  let m := alloc short (.prog none) s.2
  match m.1 with
  | none => .died
  | some a =>
    if compiles then
      let f := alloc short .array m.2
      if f.1 = none then .died else setFilterOwned a (s.1, f.2.put a (some (.prog f.1)))
    else .died

/-- The end of `minijail_parse_seccomp_filters` and of `minijail_parse_seccomp_filters_from_fd`: the path of the policy is replaced, libminijail.c:1521-1524,
1551-1554; `path` is where the new one is. -/
def replacePolicyPath (path : Option Nat) (s : State) : Ends State := (free (s.1.text .policy) s.2).bind fun m => .ok (s.1.set .policy path, m)

/-- `minijail_parse_seccomp_filters`, libminijail.c:1504-1525. `soft`: filters are not supported, and that is tolerated; `opens`: the file can be opened. -/
def parseFilters (short : Nat → Bool) (soft opens compiles : Bool) (s : State) : Ends State :=
  if soft then clearSeccompOptions s
  else if !opens then .died
  else
    (parseSeccompFilters short compiles s).bind fun s =>
      (free (s.1.text .policy) s.2).bind fun m =>
        let r := alloc short .text m
        .ok (s.1.set .policy r.1, r.2)

/-- `minijail_parse_seccomp_filters_from_fd`, libminijail.c:1527-1555: the name of the descriptor is built and freed; `path` is what `realpath` returns. -/
def parseFiltersFromFd (short : Nat → Bool) (soft opens compiles : Bool) (s : State) : Ends State :=
  if soft then clearSeccompOptions s
  else if !opens then .died
  else
    let d := alloc short .text s.2
    if d.1 = none then .died
    else
      let path := alloc short .text d.2
      (free d.1 path.2).bind fun m => (parseSeccompFilters short compiles (s.1, m)).bind (replacePolicyPath path.1)

/-- `minijail_set_seccomp_filters`, libminijail.c:1557-1576, 1427-1448. `logging`: it dies as failures are to be logged. -/
def setFilters (short : Nat → Bool) (soft logging : Bool) (s : State) : Ends State :=
  if soft then clearSeccompOptions s
  else if logging then .died
  else
    let m := alloc short (.prog none) s.2
    match m.1 with
    | none => .died
    | some a =>
      let f := alloc short .array m.2
      if f.1 = none then .died else setFilterOwned a (s.1, f.2.put a (some (.prog f.1)))

/-- The strings of an element that are freed with it, in order: `free_mounts_list` (libminijail.c:244-247), `free_remounts_list` (259), `free_fs_rules_list` (271), the
hooks in `minijail_destroy` (4181-4185). -/
def freedMembers : Kind → List Nat
  | .mount => [3, 2, 1, 0]
  | .remount => [0]
  | .hook => []
  | .rule => [0]

/-- The loops of `free_mounts_list`, `free_remounts_list`, `free_fs_rules_list` (libminijail.c:239-275) and of `minijail_destroy` (4181-4185), for at most `fuel` elements.
Each step frees one, so that as many as were ever allocated are enough: running out is taken for undefined. -/
def freeNodes (k : Kind) : (fuel : Nat) → Option Nat → Ram → Ends Ram
  | _, none, m => .ok m
  | 0, some _, _ => .ub
  | fuel + 1, some a, m =>
    match m.at_ a with
    | some (.node k' ts next) =>
      if k' = k then
        (freeAll ((freedMembers k).map fun i => (ts[i]?).getD none) m).bind fun m => (free (some a) m).bind (freeNodes k fuel next)
      else .ub
    | _ => .ub

/-- Free a list; it is empty afterwards: libminijail.c:239-275, 4181-4186. -/
def freeList (k : Kind) (s : State) : Ends State :=
  (freeNodes k s.2.asked (s.1.head k) s.2).bind fun m =>
    .ok ({ s.1 with head := fun x => if x = k then none else s.1.head x, tail := fun x => if x = k then none else s.1.tail x }, m)

/-- `minijail_preenter`, libminijail.c:313-335. -/
def preenter (s : State) : Ends State := freeList .remount s

/-- Free a string of the jail and forget it, e.g. libminijail.c:451-453. -/
def dropText (f : Text) (s : State) : Ends State := (free (s.1.text f) s.2).bind fun m => .ok (s.1.set f none, m)

/-- `minijail_preexec`, libminijail.c:451-461. -/
def preexec (s : State) : Ends State :=
  (dropText .user s).bind fun s =>
    (free s.1.gids s.2).bind fun m =>
      (dropText .preload ({ s.1 with gids := none }, m)).bind fun s => (freeList .mount s).bind (freeList .rule)

/-- Read a string or an array: libminijail.c:1620, 1654. -/
def look (p : Option Nat) (m : Ram) : Ends Unit :=
  match p with
  | none => .ub
  | some a => if m.at_ a = none then .ub else .ok ()

/-- Read it if it is there: libminijail.c:1648-1664. -/
def lookIf (p : Option Nat) (m : Ram) : Ends Unit := if p = none then .ok () else look p m

/-- One after another. -/
def lookAll (f : Option Nat → Ram → Ends Unit) : List (Option Nat) → Ram → Ends Unit
  | [], _ => .ok ()
  | p :: ps, m => (f p m).bind fun _ => lookAll f ps m

/-- The strings of an element: `marshal_mount` (libminijail.c:1623-1633; `has_data` says that there is the last), `marshal_fs_rule` (1635-1641). -/
def lookNode (k : Kind) (ts : List (Option Nat)) (m : Ram) : Ends Unit :=
  match k with
  | .mount => (lookAll look (ts.take 3) m).bind fun _ => lookAll lookIf (ts.drop 3) m
  | _ => lookAll look ts m

/-- Go through a list: libminijail.c:1671-1677. As in `freeNodes`. -/
def lookNodes (k : Kind) (m : Ram) : (fuel : Nat) → Option Nat → Ends Unit
  | _, none => .ok ()
  | 0, some _ => .ub
  | fuel + 1, some a =>
    match m.at_ a with
    | some (.node k' ts next) => if k' = k then (lookNode k ts m).bind fun _ => lookNodes k m fuel next else .ub
    | _ => .ub

/-- The filter: libminijail.c:1665-1669. -/
def lookProg (p : Option Nat) (m : Ram) : Ends Unit :=
  match p with
  | none => .ok ()
  | some a =>
    match m.at_ a with
    | some (.prog f) => look f m
    | _ => .ub

/-- `minijail_marshal_helper`, libminijail.c:1643-1682, which `minijail_size`, `minijail_to_fd` and `minijail_copy_jail` use. `filter`: a filter is to be used. -/
def marshalReads (filter : Bool) (s : State) : Ends Unit :=
  (lookAll lookIf [s.1.text .user, s.1.gids, s.1.text .chrootdir, s.1.text .hostname, s.1.text .altTable] s.2).bind fun _ =>
    (if filter then lookProg s.1.prog s.2 else .ok ()).bind fun _ =>
      (lookNodes .mount s.2 s.2.asked (s.1.head .mount)).bind fun _ =>
        (lookAll look (s.1.cgroups.map some) s.2).bind fun _ =>
          (lookNodes .rule s.2 s.2.asked (s.1.head .rule)).bind fun _ => lookIf (s.1.text .policy) s.2

/-- A use of a jail. -/
inductive Use where
  | changeUser (found : Bool)
  | setSupplementaryGids (empty : Bool)
  | setHostname
  | uidmap
  | gidmap
  | enterChroot
  | enterPivotRoot
  | writePidFile
  | addToCgroup
  | addFsRestriction
  | mount (valid data : Bool)
  | addRemount (valid : Bool)
  | addHook (valid : Bool)
  | setPreloadPath
  | parseFilters (soft opens compiles : Bool)
  | parseFiltersFromFd (soft opens compiles : Bool)
  | setFilters (soft logging : Bool)
  | useAltSyscall
  | run (filename : Bool)
  | preenter
  | preexec
  | send (filter : Bool)
  deriving DecidableEq, Repr

/-- What it does with memory. libminijail.c:550-1585, 313-335, 435-479, 3646-3648, 1643-1694. -/
def use (short : Nat → Bool) (u : Use) (s : State) : Ends State :=
  match u with
  | .changeUser found => .ok (if found then replaceText short .user s else s)
  | .setSupplementaryGids empty => setSupplementaryGids short empty s
  | .setHostname => .ok (setTextOnce short .hostname s)
  | .uidmap => .ok (replaceText short .uidmap s)
  | .gidmap => .ok (replaceText short .gidmap s)
  | .enterChroot => .ok (setTextOnce short .chrootdir s)
  | .enterPivotRoot => .ok (setTextOnce short .chrootdir s)
  | .writePidFile => .ok (replaceText short .pidFile s)
  | .addToCgroup => .ok (addToCgroup short s)
  | .addFsRestriction => addFsRestrictionPath short s
  | .mount valid data => if valid then mountWithData short data s else .ok s
  | .addRemount valid => if valid then addRemount short s else .ok s
  | .addHook valid => if valid then addHook short s else .ok s
  | .setPreloadPath => .ok (setTextOnce short .preload s)
  | .parseFilters soft opens compiles => parseFilters short soft opens compiles s
  | .parseFiltersFromFd soft opens compiles => parseFiltersFromFd short soft opens compiles s
  | .setFilters soft logging => setFilters short soft logging s
  | .useAltSyscall => .ok (replaceText short .altTable s)
  | .run filename => .ok (if filename then replaceText short .filename s else s)
  | .preenter => preenter s
  | .preexec => preexec s
  | .send filter => (marshalReads filter s).bind fun _ => .ok s

/-- One use after another. -/
def uses (short : Nat → Bool) : List Use → State → Ends State
  | [], s => .ok s
  | u :: us, s => (use short u s).bind (uses short us)

/-- `minijail_destroy`, libminijail.c:4171-4213; `self` is the jail. -/
def destroy (self : Nat) (s : State) : Ends Ram :=
  (freeProg s.1.prog s.2).bind fun m =>
    (freeList .mount (s.1, m)).bind fun s =>
      (freeList .remount s).bind fun s =>
        (freeList .hook s).bind fun s =>
          (freeList .rule s).bind fun s =>
            freeAll ([s.1.text .user, s.1.gids, s.1.text .chrootdir, s.1.text .pidFile, s.1.text .uidmap, s.1.text .gidmap, s.1.text .hostname, s.1.text .preload,
              s.1.text .filename, s.1.text .altTable] ++ s.1.cgroups.map some ++ [s.1.text .policy, some self]) s.2

/-- A jail from its creation (`minijail_new`, libminijail.c:483-496) to its end: what memory is left. `minijail_new` returns NULL if memory is short: then there is no jail
to use. -/
def lifetime (short : Nat → Bool) (us : List Use) (m : Ram) : Ends Ram :=
  let r := alloc short .jail m
  match r.1 with
  | none => .ok r.2
  | some self => (uses short us ({}, r.2)).bind (destroy self)

end Minijail.Ownership
