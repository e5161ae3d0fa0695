import Verif.Model.Cli
import Mathlib.Tactic.SplitIfs
/-! What one option does to the local variables of the front end. -/
set_option linter.unusedSimpArgs false
set_option autoImplicit false
namespace Minijail

/-- The predicate holds if the part goes on. -/
def CliOut.All {α : Type} (P : α → Prop) : CliOut α → Prop
  | .ok a => P a
  | _ => True

theorem all_ok {α : Type} {P : α → Prop} {x : CliOut α} {a : α} (h : x.All P) (e : x = .ok a) : P a := by
  subst e; exact h

theorem all_of {α : Type} {P : α → Prop} {x : CliOut α} (h : ∀ a, x = .ok a → P a) : x.All P := by
  cases x <;> first | exact h _ rfl | trivial

theorem all_bind {α β : Type} {P : β → Prop} {x : CliOut α} {f : α → CliOut β} (h : x.All fun a => (f a).All P) : (x >>= f).All P := by
  cases x <;> first | exact h | trivial

theorem all_bind' {α β : Type} {P : β → Prop} {x : CliOut α} {f : α → CliOut β} (h : x.All fun a => (f a).All P) : (x.bind f).All P := by
  cases x <;> first | exact h | trivial

theorem all_pure {α : Type} {P : α → Prop} {a : α} (h : P a) : (pure a : CliOut α).All P := h

theorem all_mono {α : Type} {P Q : α → Prop} {x : CliOut α} (h : x.All P) (hpq : ∀ a, P a → Q a) : x.All Q := by
  cases x <;> first | exact hpq _ h | trivial

theorem all_lib {env : CliEnv} {c : Cli} {k : Call} {P : Cli → Prop} (h : ∀ rc j, call env.api c.j k = .ret rc j → P { c with j := j }) :
    (lib env c k).All P := by
  unfold lib
  split
  · trivial
  · next rc j e => exact h rc j e

theorem all_libMust {env : CliEnv} {c : Cli} {k : Call} {P : Cli → Prop} (h : ∀ j, call env.api c.j k = .ret 0 j → P { c with j := j }) :
    (libMust env c k).All P := by
  unfold libMust
  split
  · trivial
  · next rc j e =>
    split
    · trivial
    · next h0 =>
      have : rc = 0 := by simpa using h0
      subst this
      exact h j e

theorem all_refuse {b : Bool} {P : Unit → Prop} (h : b = false → P ()) : (refuseIf b).All P := by
  unfold refuseIf
  cases b
  · exact h rfl
  · trivial

theorem all_need {arg : Option CStr} {P : CStr → Prop} (h : ∀ a, arg = some a → P a) : (need arg).All P := by
  unfold need
  cases arg
  · trivial
  · exact h _ rfl

/-- What an option does to the local variables, and what it demands of them. -/
structure Effect (o : Opt) (c c' : Cli) : Prop where
  entries : c'.entries = c.entries
  parse_mode : c'.parse_mode = (c.parse_mode || decide (o = .genConfig))
  use_uid : c'.use_uid = (c.use_uid || decide (o = .u))
  use_gid : c'.use_gid = (c.use_gid || decide (o = .g))
  u_once : o = .u → c.use_uid = false
  g_once : o = .g → c.use_gid = false
  chroot : c'.chroot = (c.chroot || decide (o = .C))
  pivot_root : c'.pivot_root = (c.pivot_root || decide (o = .P) || decide (o = .profile))
  no_pivot : o = .C → c.pivot_root = false
  no_chroot : o = .P ∨ o = .profile → c.chroot = false
  inherit : c'.inherit_suppl_gids = (c.inherit_suppl_gids || decide (o = .G))
  keep : c'.keep_suppl_gids = (c.keep_suppl_gids || decide (o = .y))
  no_keep : o = .G → c.keep_suppl_gids = false
  no_inherit : o = .y → c.inherit_suppl_gids = false
  seccomp_s : o = .s → (c.seccomp = .none ∨ c.seccomp = .strict) ∧ c'.seccomp = .strict
  seccomp_S : o = .S → (c.seccomp = .none ∨ c.seccomp = .filter) ∧ c'.seccomp = .filter
  seccomp_b : o = .seccompBpfBinary → (c.seccomp = .none ∨ c.seccomp = .bpfBinary) ∧ c'.seccomp = .bpfBinary
  seccomp_other : o ≠ .s → o ≠ .S → o ≠ .seccompBpfBinary → c'.seccomp = c.seccomp
  filter : c'.use_seccomp_filter = (c.use_seccomp_filter || decide (o = .S))
  binary : c'.use_seccomp_filter_binary = (c.use_seccomp_filter_binary || decide (o = .seccompBpfBinary))
  log : c'.use_seccomp_log = (c.use_seccomp_log || decide (o = .L))
  log_binary : o = .L → c.seccomp ≠ .bpfBinary
  binary_log : o = .seccompBpfBinary → c.use_seccomp_log = false
  caps : c'.caps = (c.caps || decide (o = .c))
  ambient : c'.use_ambient_caps = (c.use_ambient_caps || decide (o = .ambient))
  binds : c'.have_bind_mounts = (c.have_bind_mounts || decide (o = .b))
  mount_ns : c'.use_mount_ns = (c.use_mount_ns || decide (o = .v))
  remount : c'.change_remount = (c.change_remount || decide (o = .K))
  fs_used : c'.fs_path_flag_used = (c.fs_path_flag_used || decide (o = .fsDefaultPaths) || decide (o = .fsPathRx) || decide (o = .fsPathRo) || decide (o = .fsPathRw) || decide (o = .fsPathAdvancedRw))
  fs_enabled : c'.fs_path_rules_enabled = (c.fs_path_rules_enabled && !decide (o = .noFsRestrictions))
  suppl : (c'.suppl_gids = [] ↔ c.suppl_gids = [] ∧ o ≠ .addSupplGroup)
  uidmap : c'.set_uidmap = (c.set_uidmap || decide (o = .m))
  gidmap : c'.set_gidmap = (c.set_gidmap || decide (o = .M))
  signals : c'.forward_signals = (c.forward_signals && !decide (o = .z))
  exits : c'.exit_immediately = (c.exit_immediately || decide (o = .i))
  confs : o ≠ .config → c'.confs = c.confs
  no_confs : o = .config → c.confs = none ∧ c'.confs.isSome

/-- Only the jail differs. -/
def SameLocals (c c' : Cli) : Prop := ∃ j, c' = { c with j := j }

theorem same_binding {env : CliEnv} {c : Cli} {arg : Option CStr} : (addBinding env c arg).All (SameLocals c) := by
  unfold addBinding addBindingOf
  dsimp only
  (repeat' split) <;> first | trivial | exact all_libMust fun j _ => ⟨j, rfl⟩

theorem same_rlimit {env : CliEnv} {c : Cli} {arg : Option CStr} : (addRlimitArg env c arg).All (SameLocals c) := by
  unfold addRlimitArg
  dsimp only
  (repeat' split) <;> first | trivial | exact all_libMust fun j _ => ⟨j, rfl⟩

theorem same_mount {env : CliEnv} {c : Cli} {arg : Option CStr} : (addMountArg env c arg).All (SameLocals c) := by
  unfold addMountArg
  dsimp only
  (repeat' split) <;> first | trivial | exact all_libMust fun j _ => ⟨j, rfl⟩

theorem same_caps {env : CliEnv} {c : Cli} {arg : CStr} : (useCapsArg env c arg).All (SameLocals c) := by
  unfold useCapsArg
  apply all_bind
  exact all_of fun _ _ => all_lib fun _ j _ => ⟨j, rfl⟩

theorem same_trans {a b c : Cli} (h : SameLocals a b) (h' : SameLocals b c) : SameLocals a c := by
  obtain ⟨j, rfl⟩ := h
  obtain ⟨j', rfl⟩ := h'
  exact ⟨j', rfl⟩

theorem user_locals {env : CliEnv} {c : Cli} {arg : CStr} : (setUser env c arg).All fun c' => ∃ j u g, c' = { c with j := j, uid := u, gid := g } := by
  unfold setUser
  split
  · exact all_lib fun _ j _ => ⟨j, _, _, rfl⟩
  · split
    · trivial
    · exact all_libMust fun j _ => ⟨j, _, _, rfl⟩

theorem group_locals {env : CliEnv} {c : Cli} {arg : CStr} : (setGroup env c arg).All fun c' => ∃ j g, c' = { c with j := j, gid := g } := by
  unfold setGroup
  split
  · exact all_lib fun _ j _ => ⟨j, _, rfl⟩
  · split
    · trivial
    · exact all_lib fun _ j _ => ⟨j, _, rfl⟩

theorem suppl_locals {env : CliEnv} {c : Cli} {arg : CStr} : (supplGroupAdd env c arg).All fun c' => ∃ g, c' = { c with suppl_gids := c.suppl_gids ++ [g] } := by
  unfold supplGroupAdd
  split
  · exact ⟨_, rfl⟩
  · split
    · trivial
    · exact ⟨_, rfl⟩

theorem childenv_locals {env : CliEnv} {c : Cli} {arg : CStr} : (setChildEnv env c arg).All fun c' => ∃ e, c' = { c with envp := e } := by
  unfold setChildEnv
  split
  · trivial
  · split
    · exact ⟨_, rfl⟩
    · trivial

theorem chroot_locals {env : CliEnv} {c : Cli} {path : BStr} :
    (useChroot env c path).All fun c' => c.pivot_root = false ∧ ∃ j, c' = { c with j := j, chroot := true } := by
  unfold useChroot
  refine all_bind (all_refuse fun h => all_bind (all_libMust fun j _ => all_pure ⟨h, j, rfl⟩))

theorem pivot_locals {env : CliEnv} {c : Cli} {path : BStr} :
    (usePivotRoot env c path).All fun c' => c.chroot = false ∧ ∃ j, c' = { c with j := j, pivot_root := true } := by
  unfold usePivotRoot
  refine all_bind (all_refuse fun h => all_bind (all_libMust fun j _ => all_bind (all_lib fun _ j _ => all_pure ⟨h, j, rfl⟩)))

theorem dev_locals {env : CliEnv} {c : Cli} {profile : CStr} : (profileDev env c profile).All (SameLocals c) := by
  unfold profileDev
  split
  · exact all_bind (all_libMust fun _ _ => all_lib fun _ j _ => ⟨j, rfl⟩)
  · exact ⟨c.j, rfl⟩

theorem profile_locals {env : CliEnv} {c : Cli} {profile : CStr} :
    (useProfile env c profile).All fun c' => c.chroot = false ∧ ∃ j t, c' = { c with j := j, tmp_size := t, pivot_root := true } := by
  unfold useProfile
  refine all_bind (all_refuse fun h => all_bind (all_lib fun _ j _ => all_bind (all_libMust fun j _ => all_bind (all_libMust fun j _ =>
    all_bind (all_mono dev_locals ?_)))))
  rintro _ ⟨j, rfl⟩
  refine all_bind (all_lib fun _ j _ => all_bind (all_lib fun _ j _ => all_mono pivot_locals ?_))
  rintro _ ⟨h, j, rfl⟩
  exact ⟨h, j, _, rfl⟩

/-- Goes through an option. -/
macro "cli_step" : tactic => `(tactic| repeat' (first
  | with_reducible apply all_bind | with_reducible apply all_pure | (with_reducible apply all_refuse; intro _) | (with_reducible apply all_need; intro _ _)
  | (with_reducible apply all_lib; intro _ _ _)
  | (with_reducible apply all_libMust; intro _ _) | split | trivial))

/-- Shows what an option does to the local variables. -/
macro "effect" : tactic => `(tactic| (constructor <;> simp [defaultTmp, *]))

theorem optStep_effect {env : CliEnv} {c : Cli} {o : Opt} {arg : Option CStr} : (optStep env c o arg).All (Effect o c) := by
  cases o <;> simp only [optStep]
  case u =>
    cli_step
    · effect
    · refine all_mono user_locals ?_
      rintro _ ⟨j, u, g, rfl⟩
      effect
  case g =>
    cli_step
    · effect
    · refine all_mono group_locals ?_
      rintro _ ⟨j, g, rfl⟩
      effect
  case c =>
    cli_step
    refine all_mono same_caps ?_
    rintro _ ⟨j, rfl⟩
    effect
  case b =>
    cli_step
    · effect
    · refine all_mono same_binding ?_
      rintro _ ⟨j, rfl⟩
      effect
  case R =>
    refine all_mono same_rlimit ?_
    rintro _ ⟨j, rfl⟩
    effect
  case k =>
    cli_step
    · effect
    · refine all_mono same_mount ?_
      rintro _ ⟨j, rfl⟩
      effect
  case C =>
    cli_step
    refine all_mono chroot_locals ?_
    rintro _ ⟨h, j, rfl⟩
    effect
  case P =>
    cli_step
    refine all_mono pivot_locals ?_
    rintro _ ⟨h, j, rfl⟩
    effect
  case profile =>
    cli_step
    refine all_mono profile_locals ?_
    rintro _ ⟨h, j, t, rfl⟩
    effect
  case addSupplGroup =>
    cli_step
    refine all_mono suppl_locals ?_
    rintro _ ⟨g, rfl⟩
    effect
  case envAdd =>
    cli_step
    refine all_mono childenv_locals ?_
    rintro _ ⟨g, rfl⟩
    effect
  case s =>
    cli_step
    next h _ _ _ =>
      constructor <;> simp
      cases hs : c.seccomp <;> simp_all
  case S =>
    cli_step
    next h _ _ _ _ _ =>
      constructor <;> simp
      cases hs : c.seccomp <;> simp_all
  case seccompBpfBinary =>
    cli_step
    next h _ _ _ _ _ _ =>
      constructor <;> simp [*]
      cases hs : c.seccomp <;> simp_all
  case L =>
    cli_step
    next h _ _ _ =>
      constructor <;> simp
      simpa using h
  case config =>
    cli_step
    constructor <;> simp
    all_goals simpa using ‹c.confs.isSome = false›
  all_goals
    cli_step
    all_goals effect

end Minijail
