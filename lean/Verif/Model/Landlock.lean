import Verif.Model.Api
/-! landlock_util.c and the use of path rules when a jail is entered. -/
set_option autoImplicit false
namespace Minijail

/-- `ACCESS_FILE`, landlock_util.h:59-61. -/
def ACCESS_FILE : BitVec 64 := LL_EXECUTE ||| LL_WRITE_FILE ||| LL_READ_FILE

/-- The rights the new ruleset handles, `setup_fs_rules_fd`, libminijail.c:358-362. -/
def handledAccess (k : LandlockKernel) (j : Jail) : BitVec 64 :=
  if (fsReferSupported k j).1 then HANDLED_ACCESS_TYPES ||| LL_REFER else HANDLED_ACCESS_TYPES

/-- A rule in the kernel's ruleset: a directory or file and the rights allowed beneath it. Identified by the path it was
opened with (landlock_util.c:43-45). -/
structure KernelRule where
  path : BStr
  allowed : BitVec 64
  deriving DecidableEq, Repr

/-- The kernel's answer to `landlock_add_rule` (landlock_util.c:57): rights outside the handled ones (EINVAL) and empty rights
(ENOMSG) are refused. -/
def landlockAddRule (handled : BitVec 64) (rules : List KernelRule) (r : KernelRule) : Option (List KernelRule) :=
  if r.allowed &&& ~~~handled ≠ 0#64 then none
  else if r.allowed = 0#64 then none
  else some (rules ++ [r])

/-- `populate_ruleset_internal`, landlock_util.c:37-63. `stat`: what `open` and `fstat` find, `none` if one fails, else whether it
is a directory. A failure leaves the ruleset alone; the caller ignores it (libminijail.c:2637-2638). -/
def populateRuleset (stat : BStr → Option Bool) (handled : BitVec 64) (rules : List KernelRule) (r : FsRule) : List KernelRule :=
  match stat r.path with
  | none => rules
  | some isDir =>
    let allowed := if isDir then r.landlock_flags else r.landlock_flags &&& ACCESS_FILE
    (landlockAddRule handled rules ⟨r.path, allowed⟩).getD rules

/-- What the process is restricted to by landlock: nothing, or to the rules for the handled rights. -/
inductive Restriction where
  | none
  | rules (handled : BitVec 64) (rules : List KernelRule)
  deriving DecidableEq, Repr

/-- `apply_landlock_restrictions`, libminijail.c:2624-2651; outer `none`: the process dies. `handled` are the rights of the ruleset
behind `fs_rules_fd`, `available` is `minijail_is_fs_restriction_available()` and `enforced` the kernel's answer to
`landlock_restrict_self`. -/
def applyLandlock (stat : BStr → Option Bool) (handled : BitVec 64) (available enforced : Bool) (j : Jail) :
    Option Restriction :=
  if !j.flags.enable_fs_restrictions || j.fs_rules.isEmpty then some .none
  else
    let rules := if available then j.fs_rules.foldl (populateRuleset stat handled) [] else []
    if j.fs_rules_fd.toInt ≥ 0 then
      if enforced then some (.rules handled rules) else none
    else some .none

end Minijail
