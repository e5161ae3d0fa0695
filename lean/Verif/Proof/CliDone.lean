import Verif.Proof.CliSettle
import Verif.Spec.CliEffect
import Mathlib.Tactic.CasesM
/-! What an option does to the jail stays done. -/
set_option linter.unusedSimpArgs false
set_option autoImplicit false
namespace Minijail
open Spec

/-- What an option leaves in the jail, while options are read. -/
def Done (soft : Bool) (o : Opt) (arg : Option CStr) (j : Jail) : Prop :=
  match o with
  | .a => j.flags.alt_syscall = true
  | .b => j.mounts ≠ []
  | .c => j.flags.use_caps = true
  | .C => j.flags.chroot = true ∧ ∀ d, arg = some d → j.chrootdir = some (bytesOf d)
  | .d => j.flags.mount_dev = true ∧ j.flags.vfs = true
  | .e => if arg = none then j.flags.net = true else j.flags.enter_net = true
  | .f => j.flags.pid_file = true
  | .g => j.flags.gid = true
  | .G => j.flags.inherit_suppl_gids = true
  | .I => j.flags.run_as_init = true ∧ j.flags.pids = true ∧ j.flags.remount_proc_ro = true ∧ j.flags.vfs = true
  | .k => j.mounts ≠ []
  | .l => j.flags.ipc = true
  | .n => soft = false → j.flags.no_new_privs = true
  | .N => j.flags.ns_cgroups = true
  | .p => j.flags.pids = true ∧ j.flags.remount_proc_ro = true ∧ j.flags.vfs = true
  | .P => j.flags.pivot_root = true ∧ (∀ d, arg = some d → j.chrootdir = some (bytesOf d)) ∧ j.flags.vfs = true
  | .r => j.flags.remount_proc_ro = true ∧ j.flags.vfs = true
  | .R => j.rlimits.take j.rlimit_count ≠ []
  | .s => j.flags.seccomp = true
  | .S => soft = false → j.flags.seccomp_filter = true
  | .t => j.flags.vfs = true
  | .u => j.flags.uid = true
  | .U => j.flags.userns = true ∧ j.flags.pids = true ∧ j.flags.remount_proc_ro = true ∧ j.flags.vfs = true
  | .v => j.flags.vfs = true
  | .V => j.flags.enter_vfs = true
  | .w => j.flags.new_session_keyring = true
  | .y => j.flags.keep_suppl_gids = true
  | .Y => soft = false → j.flags.seccomp_filter_tsync = true
  | .ambient => j.flags.set_ambient_caps = true
  | .uts => j.flags.uts = true
  | .profile => j.flags.pivot_root = true ∧ j.flags.remount_proc_ro = true ∧ j.flags.using_minimalistic_mountns = true ∧ j.flags.vfs = true
  | .seccompBpfBinary => soft = false → j.flags.seccomp_filter = true
  | _ => True

theorem prefix_ne {α : Type} {a b : List α} (h : a <+: b) (ha : a ≠ []) : b ≠ [] := by
  rintro rfl
  exact ha (List.prefix_nil.1 h)

theorem done_kept {soft : Bool} {o : Opt} {arg : Option CStr} {j j' : Jail} (k : Kept soft j j') (h : Done soft o arg j) : Done soft o arg j' := by
  have f := k.flags
  have sc := k.seccomp
  cases o <;> simp only [Done] at h ⊢
  case a => exact f.alt_syscall h
  case b => exact prefix_ne k.mounts h
  case c => exact f.use_caps h
  case C => exact ⟨f.chroot h.1, fun d e => k.chrootdir _ (h.2 d e)⟩
  case d => exact ⟨f.mount_dev h.1, f.vfs h.2⟩
  case e =>
    split at h
    · next e => rw [if_pos e]; exact f.net h
    · next e => rw [if_neg e]; exact f.enter_net h
  case f => exact f.pid_file h
  case g => exact f.gid h
  case G => exact f.inherit_suppl_gids h
  case I => exact ⟨f.run_as_init h.1, f.pids h.2.1, f.remount_proc_ro h.2.2.1, f.vfs h.2.2.2⟩
  case k => exact prefix_ne k.mounts h
  case l => exact f.ipc h
  case n => exact fun q => (sc q).no_new_privs (h q)
  case N => exact f.ns_cgroups h
  case p => exact ⟨f.pids h.1, f.remount_proc_ro h.2.1, f.vfs h.2.2⟩
  case P => exact ⟨f.pivot_root h.1, fun d e => k.chrootdir _ (h.2.1 d e), f.vfs h.2.2⟩
  case r => exact ⟨f.remount_proc_ro h.1, f.vfs h.2⟩
  case R => exact prefix_ne k.rlimits h
  case s => exact f.seccomp h
  case S => exact fun q => (sc q).seccomp_filter (h q)
  case t => exact f.vfs h
  case u => exact f.uid h
  case U => exact ⟨f.userns h.1, f.pids h.2.1, f.remount_proc_ro h.2.2.1, f.vfs h.2.2.2⟩
  case v => exact f.vfs h
  case V => exact f.enter_vfs h
  case w => exact f.new_session_keyring h
  case y => exact f.keep_suppl_gids h
  case Y => exact fun q => (sc q).tsync (h q)
  case ambient => exact f.set_ambient_caps h
  case uts => exact f.uts h
  case profile => exact ⟨f.pivot_root h.1, f.remount_proc_ro h.2.1, f.using_minimalistic_mountns h.2.2.1, f.vfs h.2.2.2⟩
  case seccompBpfBinary => exact fun q => (sc q).seccomp_filter (h q)

theorem reach_keeps {env : CliEnv} {j j' : Jail} (h : Reach env j j') (hj : Inv j) : Kept env.api.softfail j j' := by
  obtain ⟨ks, hk, e⟩ := h
  have hm : ∀ p ∈ ks.map fun k => (env.api, k), p.1 = env.api ∧ GoodCall p.1 p.2 := by
    intro p hp
    obtain ⟨k, hm, rfl⟩ := List.mem_map.1 hp
    exact ⟨rfl, hk k hm⟩
  exact kept_calls _ _ _ _ hj (fun p hp => (hm p hp).2) (fun q p hp => by rw [(hm p hp).1]; exact q) e

/-- The mounts are not empty behind a mount that is accepted. -/
theorem mount_some {env : ApiEnv} {j j' : Jail} {s d t : BStr} {f : BitVec 64} {x : Option BStr} (h : mountCall env j s d t f x = .ret 0 j') :
    j'.mounts ≠ [] := by
  unfold mountCall at h
  split at h
  · simp [EINVAL] at h
  · next j1 hj =>
    split at h
    · simp [ENOMEM] at h
    · simp only [ApiRes.ok, ApiRes.ret.injEq, true_and] at h
      subst h
      unfold mountWithData at hj
      dsimp only at hj
      split at hj
      · simp at hj
      · injection hj with hj
        subst hj
        simp

theorem done_binding {env : CliEnv} {c : Cli} {arg : Option CStr} : (addBinding env c arg).All fun c' => c'.j.mounts ≠ [] := by
  have key : ∀ s d w, (libMust env c (.bind s d w)).All fun c' => c'.j.mounts ≠ [] := by
    intro s d w
    refine all_libMust fun j e => ?_
    simp only [call, bindCall] at e
    split at e
    · simp [ELOOP] at e
    · exact mount_some e
  unfold addBinding addBindingOf
  dsimp only
  (repeat' split) <;> first | trivial | exact key _ _ _

theorem done_mount {env : CliEnv} {c : Cli} {arg : Option CStr} : (addMountArg env c arg).All fun c' => c'.j.mounts ≠ [] := by
  unfold addMountArg
  dsimp only
  (repeat' split) <;> first | trivial | exact all_libMust fun j e => mount_some e

theorem rlimit_some {j j' : Jail} {t : BitVec 32} {a b : BitVec 64} (hj : Inv j) (h : setRlimit j t a b = .ret 0 j') : j'.rlimits.take j'.rlimit_count ≠ [] := by
  have hl := hj.1.rlimits
  unfold setRlimit at h
  split at h
  · simp [ENOMEM] at h
  · split at h
    · simp [EEXIST] at h
    · simp only [ApiRes.ok, ApiRes.ret.injEq, true_and] at h
      subst h
      intro q
      have := congrArg List.length q
      simp only [List.length_take, List.length_set, List.length_nil] at this
      omega

theorem done_rlimit {env : CliEnv} {c : Cli} {arg : Option CStr} (hj : Inv c.j) : (addRlimitArg env c arg).All fun c' => c'.j.rlimits.take c'.j.rlimit_count ≠ [] := by
  unfold addRlimitArg
  dsimp only
  (repeat' split) <;> first | trivial | exact all_libMust fun j e => rlimit_some hj e

theorem done_pivot {env : CliEnv} {c : Cli} {p : BStr} :
    (usePivotRoot env c p).All fun c' => c'.j.flags = { c.j.flags with pivot_root := true, vfs := true } ∧ c'.j.chrootdir = some p := by
  unfold usePivotRoot
  refine all_bind (all_refuse fun h => all_bind (all_libMust fun j e => all_bind (all_lib fun _ j' e' => all_pure ?_)))
  simp only [call, enterPivotRootCall] at e
  split at e
  · simp [EINVAL] at e
  · split at e
    · simp [ENOMEM] at e
    · simp only [call, ApiRes.ok, namespaceVfs, ApiRes.ret.injEq, true_and] at e e'
      rw [← e'.2, ← e]
      exact ⟨rfl, rfl⟩

theorem done_chroot {env : CliEnv} {c : Cli} {p : BStr} :
    (useChroot env c p).All fun c' => c'.j.flags.chroot = true ∧ c'.j.chrootdir = some p := by
  unfold useChroot
  refine all_bind (all_refuse fun h => all_bind (all_libMust fun j e => all_pure ?_))
  simp only [call, enterChrootCall] at e
  split at e
  · simp [EINVAL] at e
  · split at e
    · simp [ENOMEM] at e
    · simp only [ApiRes.ok, ApiRes.ret.injEq, true_and] at e
      rw [← e]
      exact ⟨rfl, rfl⟩

theorem done_profile {env : CliEnv} {c : Cli} {p : CStr} : (useProfile env c p).All fun c' =>
    c'.j.flags.pivot_root = true ∧ c'.j.flags.remount_proc_ro = true ∧ c'.j.flags.using_minimalistic_mountns = true ∧ c'.j.flags.vfs = true := by
  unfold useProfile
  refine all_bind (all_refuse fun _ => all_bind (all_lib fun _ _ _ => all_bind (all_libMust fun _ _ =>
    all_bind (all_libMust fun _ _ => all_bind (all_of fun c1 _ => all_bind (all_lib fun _ j2 e2 => all_bind (all_lib fun _ j3 e3 => all_mono done_pivot ?_)))))))
  rintro c' ⟨h, _⟩
  simp only [call, setFlags, ApiRes.ok, ApiRes.ret.injEq] at e2 e3
  rw [h, ← e3.2, ← e2.2]
  exact ⟨rfl, rfl, rfl, rfl⟩

theorem done_user {env : CliEnv} {c : Cli} {a : CStr} : (setUser env c a).All fun c' => c'.j.flags.uid = true := by
  unfold setUser
  split
  · refine all_lib fun rc j e => ?_
    simp only [call, changeUid] at e
    split at e
    · simp at e
    · simp only [ApiRes.ok, ApiRes.ret.injEq] at e
      rw [← e.2]
  · split
    · trivial
    · refine all_libMust fun j e => ?_
      simp only [call, changeUser] at e
      split at e
      · next h =>  simp_all
      · simp only [changeUid] at e
        split at e
        · simp at e
        · next h =>
          split at h
          · simp at h
          · simp only [ApiRes.ok, ApiRes.ret.injEq] at h
            split at e
            · simp [ENOMEM] at e
            · simp only [ApiRes.ok, ApiRes.ret.injEq, true_and] at e
              rw [← e, ← h.2]

theorem done_group {env : CliEnv} {c : Cli} {a : CStr} : (setGroup env c a).All fun c' => c'.j.flags.gid = true := by
  have key : ∀ c g, (lib env c (.changeGid g)).All fun c' => c'.j.flags.gid = true := by
    intro c g
    refine all_lib fun rc j e => ?_
    simp only [call, changeGid] at e
    split at e
    · simp at e
    · simp only [ApiRes.ok, ApiRes.ret.injEq] at e
      rw [← e.2]
  unfold setGroup
  split
  · exact key _ _
  · split
    · trivial
    · exact key _ _

theorem done_caps {env : CliEnv} {c : Cli} {a : CStr} : (useCapsArg env c a).All fun c' => c'.j.flags.use_caps = true := by
  unfold useCapsArg
  refine all_bind (all_of fun m _ => all_lib fun rc j e => ?_)
  simp only [call, useCaps, ApiRes.ok, ApiRes.ret.injEq] at e
  rw [← e.2]

theorem optStep_done {env : CliEnv} {c : Cli} {o : Opt} {arg : Option CStr} (hj : Inv c.j) (hm : c.parse_mode = false) :
    (optStep env c o arg).All fun c' => Done env.api.softfail o arg c'.j := by
  cases o <;> simp only [optStep, Done, hm, Bool.false_eq_true, if_false]
  case u => cli_step; exact done_user
  case g => cli_step; exact done_group
  case c => cli_step; exact done_caps
  case b => exact done_binding
  case k => exact done_mount
  case R => exact done_rlimit hj
  case C =>
    cli_step
    refine all_mono done_chroot ?_
    rintro c' ⟨h1, h2⟩
    exact ⟨h1, fun d q => by simp_all⟩
  case e =>
    cases arg with
    | some a =>
      refine all_lib fun rc j h => ?_
      rw [if_neg (by simp)]
      simp only [call, namespaceEnterNet, ApiRes.ok] at h
      split at h
      · simp at h
      · simp only [ApiRes.ret.injEq] at h
        simp [← h.2]
    | none =>
      refine all_lib fun rc j h => ?_
      rw [if_pos rfl]
      simp only [call, setFlags, ApiRes.ok, ApiRes.ret.injEq] at h
      simp [← h.2]
  case P =>
    cli_step
    refine all_mono done_pivot ?_
    rintro c' ⟨h1, h2⟩
    rw [h1, h2]
    exact ⟨rfl, fun d q => by simp_all, rfl⟩
  case profile => cli_step; exact done_profile
  all_goals cli_step
  all_goals try simp only [call, setFlags, ApiRes.ok, namespaceVfs, ApiRes.ret.injEq, reduceCtorEq] at *
  all_goals clear hj hm
  all_goals try casesm* _ ∧ _
  all_goals try subst_vars
  all_goals try (simp [defaultTmp]; done)
  case addSupplGroup => exact all_of fun _ _ => trivial
  case envAdd => exact all_of fun _ _ => trivial
  all_goals
    rename_i h
    simp only [writePidFile, namespaceEnterVfs, namespaceEnterNet, useAltSyscall, setSeccompFilterTsync, namespaceSetHostname, setFlags, ApiRes.ok] at h
    repeat' split at h
    all_goals try (simp [ENOMEM] at h; done)
    all_goals
      simp only [ApiRes.ret.injEq] at h
      simp [← h.2]

end Minijail
