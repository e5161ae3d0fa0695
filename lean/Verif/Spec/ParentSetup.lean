import Verif.Model.ParentSetup
/-!
What is to be set up for the child, for C69.
-/
set_option autoImplicit false
namespace Minijail.Spec

/-- What a file that held `c` holds after one deed: emptied by an opening that empties it, longer by what is written to it. -/
def changed (path c : BStr) : Deed → BStr
  | .opened p true => if p = path then [] else c
  | .wrote p b => if p = path then c ++ b else c
  | _ => c

/-- What a file that held `c` at first holds after all of this. -/
def holds (path c : BStr) (deeds : List Deed) : BStr := deeds.foldl (changed path) c

/-- A number in digits, and a line feed. -/
def line (n : Nat) : BStr := decimalOf n ++ [0x0a#8]

/-- The name of a file of the child's in /proc. -/
def procPath (pid : Nat) (name : String) : BStr := bstr "/proc/" ++ decimalOf pid ++ bstr ("/" ++ name)

/-- All of `text` is written to `path` at once. -/
def givenTo (path : BStr) (emptied : Bool) (text : BStr) : List Deed := [.opened path emptied, .wrote path text]

/-- What a jail asks to be done for the child: the file with its number, its groups of processes, its limits, and the maps of its ids; with a map of
group ids, `setgroups` is denied before it (if that is asked for, and `deniable`: the kernel has it). Nothing else, in this order, everything once. -/
def setupDeeds (pid : Nat) (j : Jail) (deniable : Bool) : List Deed :=
  (if j.flags.pid_file then givenTo (j.pid_file_path.getD []) true (line pid) else []) ++
  (if j.flags.cgroups then (j.cgroups.take j.cgroup_count).flatMap fun c => givenTo c true (line pid) else []) ++
  (j.rlimits.take j.rlimit_count).map (Deed.limited pid) ++
  (if j.flags.userns then
    (match j.uidmap with
      | some m => givenTo (procPath pid "uid_map") false m
      | none => []) ++
    (match j.gidmap with
      | some m => (if j.flags.disable_setgroups && deniable then givenTo (procPath pid "setgroups") false (bstr "deny") else []) ++
        givenTo (procPath pid "gid_map") false m
      | none => [])
  else [])

/-- What of a plan may have been done when it is given up: some first part of it, or this and some first bytes of the next text to be written. -/
def Begun (plan done : List Deed) : Prop :=
  done <+: plan ∨ ∃ p path text n, done = p ++ [.wrote path (text.take n)] ∧ p ++ [.wrote path text] <+: plan

/-- `s` is `n` in decimal: digits only, at least one, no leading zero but for zero itself, of value `n`. -/
def IsDecimal (s : BStr) (n : Nat) : Prop :=
  s ≠ [] ∧ (∀ b ∈ s, 48 ≤ b.toNat ∧ b.toNat ≤ 57) ∧ (s.head? = some 48#8 → s = [48#8]) ∧ s.foldl (fun v b => 10 * v + (b.toNat - 48)) 0 = n

/-- Errors are not zero, and `write` to a file that is open does not answer that it does not exist. -/
structure SetupErrors (env : SetupEnv) : Prop where
  open_ : ∀ h p e, env.open_ h p = some e → e ≠ 0
  flush : ∀ h p n e, env.flush h p = some (n, e) → e ≠ 0
  write : ∀ h p e, env.write h p = .inr e → e ≠ 0 ∧ e ≠ 2

/-- Writing to the log keeps `errno`. -/
def LogKeeps (env : SetupEnv) : Prop := ∀ h e, env.errnoAfter h e = e

/-- Nothing is refused, and files take all that is written to them. -/
structure Willing (env : SetupEnv) (j : Jail) : Prop where
  open_ : ∀ h p, env.open_ h p = none
  print : ∀ h p, env.print h p = true
  flush : ∀ h p, env.flush h p = none
  write : ∀ h p, ∃ n, env.write h p = .inl n ∧ 4 ≤ n ∧ (∀ m, j.uidmap = some m → m.length ≤ n) ∧ ∀ m, j.gidmap = some m → m.length ≤ n
  limit : ∀ h l, env.limit h l = true

/-- What a step of the plan of C27 is, outside the process. -/
def deedsOf (pid : Nat) : Setup → List Deed
  | .handlers => []
  | .pidFile p => givenTo (p.getD []) true (line pid)
  | .cgroup c => givenTo c true (line pid)
  | .rlimit r => [.limited pid r]
  | .uidMap m => givenTo (procPath pid "uid_map") false m
  | .denySetgroups => givenTo (procPath pid "setgroups") false (bstr "deny")
  | .gidMap m => givenTo (procPath pid "gid_map") false m

end Minijail.Spec
