import Verif.Spec.Process
/-! What a process may do to its own identity and privileges, whatever program it runs: the rules of the system (capabilities(7), credentials(7),
execve(2), prctl(2), seccomp(2)), each stated so as to allow the process at least what the system allows. Not among them is a new user
namespace: capabilities there are capabilities over that namespace only. -/
set_option autoImplicit false
namespace Minijail.Spec
open Minijail

/-- Every capability in `x` is in `y`. -/
def SubsetOf (x y : BitVec 64) : Prop := ∀ i, x.getLsbD i = true → y.getLsbD i = true

/-- CAP_SETGID and CAP_SETUID. -/
def capSetgid : Nat := 6
def capSetuid : Nat := 7

/-- One step of a process. -/
inductive Act : Proc → Proc → Prop
  /-- capset(2): nothing new is permitted, nothing effective that is not permitted, and nothing inheritable from outside the bounding set. -/
  | capset (p : Proc) (e pm i : BitVec 64) (h1 : SubsetOf e pm) (h2 : SubsetOf pm p.perm) (h3 : SubsetOf i (p.inh ||| p.perm ||| p.bound)) :
      Act p { p with eff := e, perm := pm, inh := i, amb := p.amb &&& pm &&& i }
  /-- prctl(PR_CAP_AMBIENT): what is raised is permitted and inheritable. -/
  | ambient (p : Proc) (a : BitVec 64) (h : SubsetOf a (p.amb ||| p.perm &&& p.inh)) : Act p { p with amb := a }
  /-- prctl(PR_CAPBSET_DROP). -/
  | bounding (p : Proc) (b : BitVec 64) (h : SubsetOf b p.bound) : Act p { p with bound := b }
  /-- prctl(PR_SET_SECUREBITS). -/
  | securebits (p : Proc) (b : BitVec 64) : Act p { p with securebits := b }
  /-- prctl(PR_SET_NO_NEW_PRIVS): there is no way back. -/
  | noNewPrivs (p : Proc) : Act p { p with noNewPrivs := true }
  /-- seccomp(2): one more filter; there is no way to remove one. -/
  | filter (p : Proc) (f : Option (List Insn)) : Act p { p with filters := f :: p.filters }
  /-- setresuid(2) and its kin: without CAP_SETUID only among the user ids the process has. Entering or leaving user 0 rearranges the
  capabilities, but permits nothing new. -/
  | user (p : Proc) (u : BitVec 32) (e pm a : BitVec 64) (h : u = p.uid ∨ p.eff.getLsbD capSetuid = true) (h1 : SubsetOf e p.perm)
      (h2 : SubsetOf pm p.perm) (h3 : SubsetOf a p.amb) : Act p { p with uid := u, eff := e, perm := pm, amb := a }
  /-- setresgid(2) and its kin. -/
  | group (p : Proc) (g : BitVec 32) (h : g = p.gid ∨ p.eff.getLsbD capSetgid = true) : Act p { p with gid := g }
  /-- setgroups(2). -/
  | groups (p : Proc) (l : List (BitVec 32)) (h : p.eff.getLsbD capSetgid = true) : Act p { p with groups := l }
  /-- execve(2) of any file: `u` and `g` are its owner and group if it is set-user-id or set-group-id, which does not count once
  no_new_privs is set; `fi` and `fp` are its inheritable and permitted capabilities, or all of them if user 0 runs it. -/
  | exec (p : Proc) (u g : BitVec 32) (fi fp a e : BitVec 64) (b : BitVec 64) (h1 : SubsetOf a p.amb)
      (h2 : SubsetOf e (p.inh &&& fi ||| fp &&& p.bound ||| a)) :
      Act p { p with uid := if p.noNewPrivs = true then p.uid else u, gid := if p.noNewPrivs = true then p.gid else g, eff := e,
                     perm := p.inh &&& fi ||| fp &&& p.bound ||| a, amb := a, securebits := b }

/-- Whatever the process does, for however long. Its children start out as copies of it, so this is also what they can become. -/
inductive Later : Proc → Proc → Prop
  | now (p : Proc) : Later p p
  | step {p q r : Proc} (h : Act p q) (hr : Later q r) : Later p r

/-- The process is as jail `j` wants it; `n` is the last capability the system knows. -/
structure Jailed (env : EnterEnv) (groupsOf : Option BStr → BitVec 32 → List (BitVec 32)) (j : Jail) (n : Nat) (q : Proc) : Prop where
  uid : j.flags.uid = true → j.uid ≠ 4294967295#32 → q.uid = j.uid
  gid : j.flags.gid = true → j.gid ≠ 4294967295#32 → q.gid = j.gid
  groups : j.flags.set_suppl_gids = true → q.groups = (j.suppl_gid_list.getD []).take j.suppl_gid_count
  inherited : j.flags.inherit_suppl_gids = true → ∃ u, j.user = some u ∧ q.groups = groupsOf (some u) j.usergid
  noGroups : j.flags.set_suppl_gids = false → j.flags.inherit_suppl_gids = false → j.flags.keep_suppl_gids = false →
    j.flags.disable_setgroups = false → j.flags.uid = true ∨ j.flags.gid = true → q.groups = []
  caps : j.flags.use_caps = true → ∀ i, q.eff.getLsbD i = (j.caps.getLsbD i && decide (i ≤ n)) ∧
    q.perm.getLsbD i = (j.caps.getLsbD i && decide (i ≤ n)) ∧ q.inh.getLsbD i = (j.caps.getLsbD i && decide (i ≤ n))
  ambient : j.flags.use_caps = true → j.flags.set_ambient_caps = true → ∀ i, q.amb.getLsbD i = (j.caps.getLsbD i && decide (i ≤ n))
  noAmbient : j.flags.use_caps = true → ∀ i, q.amb.getLsbD i = true → j.caps.getLsbD i = true ∧ i ≤ n
  bounding : j.flags.use_caps = true → j.securebits_skip_mask.getLsbD 0 = false → j.securebits_skip_mask.getLsbD 1 = false →
    ∀ i ≤ n, j.caps.getLsbD i = false → q.bound.getLsbD i = false
  requested : j.flags.capbset_drop = true → ∀ i ≤ n, j.cap_bset.getLsbD i = false → q.bound.getLsbD i = false
  noroot : j.flags.use_caps = true → env.secureAllBits.getLsbD 0 = true → j.securebits_skip_mask.getLsbD 0 = false →
    q.securebits.getLsbD 0 = true
  filter : j.flags.seccomp_filter = true → env.asan = false → q.filters.head? = some j.filter_prog
  noNewPrivs : j.flags.no_new_privs = true → q.noNewPrivs = true

/-- What jail `j` keeps a process from for good: `r` is the process at any later time. The user and the groups are certain with no_new_privs
and without CAP_SETUID and CAP_SETGID. -/
structure Stays (env : EnterEnv) (groupsOf : Option BStr → BitVec 32 → List (BitVec 32)) (j : Jail) (n : Nat) (r : Proc) : Prop where
  caps : j.flags.use_caps = true → j.securebits_skip_mask.getLsbD 0 = false → j.securebits_skip_mask.getLsbD 1 = false →
    ∀ i ≤ n, j.caps.getLsbD i = false → r.eff.getLsbD i = false ∧ r.perm.getLsbD i = false ∧ r.inh.getLsbD i = false ∧
      r.amb.getLsbD i = false ∧ r.bound.getLsbD i = false
  filter : j.flags.seccomp_filter = true → env.asan = false → j.filter_prog ∈ r.filters
  noNewPrivs : j.flags.no_new_privs = true → r.noNewPrivs = true
  user : j.flags.use_caps = true → j.securebits_skip_mask.getLsbD 0 = false → j.securebits_skip_mask.getLsbD 1 = false →
    j.flags.no_new_privs = true → capSetuid ≤ n → j.caps.getLsbD capSetuid = false → j.flags.uid = true → j.uid ≠ 4294967295#32 → r.uid = j.uid
  groups : j.flags.use_caps = true → j.securebits_skip_mask.getLsbD 0 = false → j.securebits_skip_mask.getLsbD 1 = false →
    j.flags.no_new_privs = true → capSetgid ≤ n → j.caps.getLsbD capSetgid = false →
    (j.flags.gid = true → j.gid ≠ 4294967295#32 → r.gid = j.gid) ∧
    (j.flags.set_suppl_gids = true → r.groups = (j.suppl_gid_list.getD []).take j.suppl_gid_count) ∧
    (j.flags.inherit_suppl_gids = true → ∃ u, j.user = some u ∧ r.groups = groupsOf (some u) j.usergid) ∧
    (j.flags.set_suppl_gids = false → j.flags.inherit_suppl_gids = false → j.flags.keep_suppl_gids = false →
      j.flags.disable_setgroups = false → j.flags.uid = true ∨ j.flags.gid = true → r.groups = [])

/-- execve(2) of a file without set-id bits and without capabilities: for user 0 without SECURE_NOROOT (bit 0) the file counts as having all
capabilities; otherwise only ambient capabilities stay. -/
def PlainExec (p q : Proc) : Prop :=
  let root := p.uid = 0#32 ∧ p.securebits.getLsbD 0 = false
  q.uid = p.uid ∧ q.gid = p.gid ∧ q.groups = p.groups ∧ q.inh = p.inh ∧ q.bound = p.bound ∧ q.amb = p.amb ∧
    q.noNewPrivs = p.noNewPrivs ∧ q.filters = p.filters ∧
    (root → q.perm = (p.inh ||| p.bound ||| p.amb) ∧ q.eff = q.perm) ∧ (¬ root → q.perm = p.amb ∧ q.eff = p.amb)

end Minijail.Spec
