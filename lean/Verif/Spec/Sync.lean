import Verif.Model.Sync
/-! What the caller asked the parent to set up for the child. -/
set_option autoImplicit false
namespace Minijail.Spec
open Minijail

/-- All that was asked for has been done: signals are forwarded, the pid file is written, the child is in every control group and under every limit, and its
id maps are written, the group map after `setgroups` was denied if that was asked for and the system knows it (`missed` tells what it does not know). -/
structure SetUp (j : Jail) (did missed : List Setup) : Prop where
  handlers : j.flags.forward_signals → .handlers ∈ did
  pidFile : j.flags.pid_file → .pidFile j.pid_file_path ∈ did
  cgroups : j.flags.cgroups → ∀ c ∈ j.cgroups.take j.cgroup_count, .cgroup c ∈ did
  rlimits : ∀ r ∈ j.rlimits.take j.rlimit_count, .rlimit r ∈ did
  uidMap : j.flags.userns → ∀ m, j.uidmap = some m → .uidMap m ∈ did
  gidMap : j.flags.userns → ∀ m, j.gidmap = some m → .gidMap m ∈ did
  setgroups : j.flags.userns → j.flags.disable_setgroups → ∀ m, j.gidmap = some m →
    (∃ a b, did = a ++ .denySetgroups :: b ∧ .gidMap m ∈ b ∧ .gidMap m ∉ a) ∨ .denySetgroups ∈ missed
  tolerated : ∀ a ∈ missed, a = .denySetgroups

/-- Limits are applied in the order in which they were added. -/
def limitsOf (did : List Setup) : List Rlimit := did.filterMap fun
  | .rlimit r => some r
  | _ => none

/-- The jailed program, or the code that confines it, has started. -/
def PastSetup (s : SyncState) : Prop := s.child = .entering ∨ s.child = .program

end Minijail.Spec
