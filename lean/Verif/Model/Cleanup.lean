import Verif.Model.Marshal
/-! The error path of `minijail_unmarshal` and `minijail_destroy` as far as the received pointers go. -/
set_option autoImplicit false
namespace Minijail

/-- `free` of a field (`none`: undefined behaviour, the address is another process's or was freed before), e.g.
libminijail.c:1908-1909. The field itself is not reset. -/
def freeField : Ptr → Option Ptr
  | .null => some .null
  | .live => some .freed
  | .stale => none
  | .freed => none

/-- `free_mounts_list`, `free_fs_rules_list` (libminijail.c:239-252, 266-275): the list is empty afterwards. -/
def freeList : Ptr → Option Ptr
  | .null => some .null
  | .live => some .null
  | .stale => none
  | .freed => none

/-- One group of statements of the error path, libminijail.c:1895-1924. `free_remounts_list` at 1897 has nothing to
free. The cgroup strings are freed at 1898-1899, after which `cgroup_count = 0` (1922) makes them unreachable. -/
def cleanupAt : Label → Ptrs → Option Ptrs
  | .bad_cgroups, p => do
    let m ← freeList p.mounts
    let c ← freeField p.cgroups
    return { p with mounts := m, cgroups := c }
  | .bad_fs_rules, p => do
    let r ← freeList p.fsRules
    return { p with fsRules := r }
  | .bad_mounts, p => do
    let f ← freeField p.filter
    return { p with filter := f }
  | .bad_filters, p => do
    let x ← freeField p.alt
    return { p with alt := x }
  | .bad_syscall_table, p => do
    let x ← freeField p.hostname
    return { p with hostname := x }
  | .bad_hostname, p => do
    let x ← freeField p.chrootdir
    return { p with chrootdir := x }
  | .bad_chrootdir, p => do
    let x ← freeField p.gids
    return { p with gids := x }
  | .bad_gid_list, p => do
    let x ← freeField p.user
    return { p with user := x }
  | .clear_pointers, p => some { p with user := .null, gids := .null, chrootdir := .null, hostname := .null, alt := .null, policy := .null }
  | .out, p => some p

/-- The order of the labels, libminijail.c:1895-1925. -/
def labels : List Label :=
  [.bad_cgroups, .bad_fs_rules, .bad_mounts, .bad_filters, .bad_syscall_table, .bad_hostname, .bad_chrootdir,
    .bad_gid_list, .clear_pointers, .out]

/-- The error path from a label to the end, libminijail.c:1895-1926. -/
def cleanup (f : Failure) : Option Ptrs :=
  (labels.dropWhile (· ≠ f.label)).foldl (fun p l => p.bind (cleanupAt l)) (some f.ptrs)

/-- `minijail_destroy` (libminijail.c:4171-4213) restricted to the fields above. `cgroup_count` is 0 after a failed
`minijail_unmarshal`, and on a fresh jail. -/
def destroyPtrs (p : Ptrs) : Option Ptrs := do
  let f ← freeField p.filter
  let m ← freeList p.mounts
  let r ← freeList p.fsRules
  let u ← freeField p.user
  let g ← freeField p.gids
  let c ← freeField p.chrootdir
  let h ← freeField p.hostname
  let a ← freeField p.alt
  let s ← freeField p.policy
  return { p with filter := f, mounts := m, fsRules := r, user := u, gids := g, chrootdir := c, hostname := h, alt := a, policy := s }

end Minijail
