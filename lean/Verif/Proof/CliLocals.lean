import Verif.Proof.CliStep
/-! Which option changes which local variable of the front end. -/
set_option linter.unusedSimpArgs false
set_option autoImplicit false
namespace Minijail

/-- What an option does to the local variables that carry a value. -/
structure Locals (env : CliEnv) (o : Opt) (arg : Option CStr) (c c' : Cli) : Prop where
  uid : o ≠ .u → c'.uid = c.uid
  gid : o ≠ .u → o ≠ .g → c'.gid = c.gid
  uidmap : c'.uidmap = if o = .m then arg else c.uidmap
  gidmap : c'.gidmap = if o = .M then arg else c.gidmap
  remount_mode : c'.remount_mode = if o = .K then arg else c.remount_mode
  filter_path : o ≠ .S → o ≠ .seccompBpfBinary → c'.filter_path = c.filter_path
  filter : o = .S ∨ o = .seccompBpfBinary → arg = some c'.filter_path
  tmp : o ≠ .t → o ≠ .profile → c'.tmp_size = c.tmp_size
  tmp_none : o = .t → arg = none → c'.tmp_size = if c.tmp_size = 0#64 then DEFAULT_TMP_SIZE else c.tmp_size
  tmp_some : ∀ a, o = .t → arg = some a → parseSize a = .ok c'.tmp_size
  tmp_profile : o = .profile → c'.tmp_size = if c.tmp_size = 0#64 then DEFAULT_TMP_SIZE else c.tmp_size
  preload : c'.preload_path = if o = .preloadLibrary then some arg else c.preload_path
  suppl : o ≠ .addSupplGroup → c'.suppl_gids = c.suppl_gids
  suppl_add : ∀ a, o = .addSupplGroup → arg = some a → supplGroupAdd env c a = .ok c'
  envp : o ≠ .envAdd → o ≠ .envReset → c'.envp = c.envp
  env_reset : o = .envReset → c'.envp = some []
  env_add : ∀ a, o = .envAdd → arg = some a → setChildEnv env c a = .ok c'
  elf : o ≠ .T → c'.elftype = c.elftype
  elf_T : o = .T → (arg = some "static".toList ∧ c'.elftype = some .static) ∨ (arg = some "dynamic".toList ∧ c'.elftype = some .dynamic)
  log : o ≠ .logging → c'.log_to_stderr = c.log_to_stderr

/-- Shows what an option does to the local variables. -/
macro "locals" : tactic => `(tactic| (constructor <;> simp [defaultTmp, *]))

theorem pivot_tmp {env : CliEnv} {c : Cli} {path : BStr} : (usePivotRoot env c path).All fun c' => c'.tmp_size = c.tmp_size := by
  refine all_mono pivot_locals ?_
  rintro _ ⟨_, _, rfl⟩
  rfl

theorem profile_tmp {env : CliEnv} {c : Cli} {profile : CStr} :
    (useProfile env c profile).All fun c' => ∃ j, c' = { c with j := j, tmp_size := if c.tmp_size = 0#64 then DEFAULT_TMP_SIZE else c.tmp_size, pivot_root := true } := by
  unfold useProfile
  refine all_bind (all_refuse fun h => all_bind (all_lib fun _ j _ => all_bind (all_libMust fun j _ => all_bind (all_libMust fun j _ =>
    all_bind (all_mono dev_locals ?_)))))
  rintro _ ⟨j, rfl⟩
  refine all_bind (all_lib fun _ j _ => all_bind (all_lib fun _ j _ => all_mono pivot_locals ?_))
  rintro _ ⟨h, j, rfl⟩
  exact ⟨j, rfl⟩

theorem optStep_locals {env : CliEnv} {c : Cli} {o : Opt} {arg : Option CStr} : (optStep env c o arg).All (Locals env o arg c) := by
  cases o <;> simp only [optStep]
  case u =>
    cli_step
    · locals
    · refine all_mono user_locals ?_
      rintro _ ⟨j, u, g, rfl⟩
      locals
  case g =>
    cli_step
    · locals
    · refine all_mono group_locals ?_
      rintro _ ⟨j, g, rfl⟩
      locals
  case c =>
    cli_step
    refine all_mono same_caps ?_
    rintro _ ⟨j, rfl⟩
    locals
  case b =>
    cli_step
    · locals
    · refine all_mono same_binding ?_
      rintro _ ⟨j, rfl⟩
      locals
  case R =>
    refine all_mono same_rlimit ?_
    rintro _ ⟨j, rfl⟩
    locals
  case k =>
    cli_step
    · locals
    · refine all_mono same_mount ?_
      rintro _ ⟨j, rfl⟩
      locals
  case C =>
    cli_step
    refine all_mono chroot_locals ?_
    rintro _ ⟨h, j, rfl⟩
    locals
  case P =>
    cli_step
    refine all_mono pivot_locals ?_
    rintro _ ⟨h, j, rfl⟩
    locals
  case profile =>
    cli_step
    refine all_mono profile_tmp ?_
    rintro _ ⟨j, rfl⟩
    locals
  case addSupplGroup =>
    refine all_bind (all_need fun a ha => all_of fun c' e => ?_)
    obtain ⟨g, rfl⟩ := all_ok suppl_locals e
    constructor <;> simp
    intro a' ha'
    rw [ha] at ha'; cases ha'; exact e
  case envAdd =>
    refine all_bind (all_need fun a ha => all_of fun c' e => ?_)
    obtain ⟨g, rfl⟩ := all_ok childenv_locals e
    constructor <;> simp
    intro a' ha'
    rw [ha] at ha'; cases ha'; exact e
  all_goals
    cli_step
    all_goals locals

end Minijail
