import Verif.Proof.ApiOn
import Verif.Proof.CliFrame
/-! What an option turns on and off. -/
set_option linter.unusedSimpArgs false
set_option autoImplicit false
namespace Minijail
open Spec

/-- What an option turns on while options are read. -/
def optOn (o : Opt) (arg : Option CStr) : List Feature :=
  match o with
  | .u => [.uid]
  | .g => [.gid]
  | .n => [.no_new_privs]
  | .s => [.seccomp]
  | .S | .seccompBpfBinary => [.seccomp_filter]
  | .l => [.ipc]
  | .L => [.seccomp_filter_logging]
  | .b | .k | .t | .v => [.vfs]
  | .c => [.use_caps]
  | .C => [.chroot]
  | .P => [.pivot_root, .vfs]
  | .f => [.pid_file]
  | .V => [.enter_vfs]
  | .r => [.remount_proc_ro, .vfs]
  | .G => [.inherit_suppl_gids]
  | .y => [.keep_suppl_gids]
  | .N => [.ns_cgroups]
  | .p => [.pids, .vfs, .remount_proc_ro, .do_init]
  | .e => if arg = none then [.net, .net_loopback] else [.enter_net]
  | .I => [.run_as_init, .pids, .vfs, .remount_proc_ro, .do_init]
  | .U => [.userns, .pids, .vfs, .remount_proc_ro, .do_init]
  | .a => [.alt_syscall]
  | .w => [.new_session_keyring]
  | .Y => [.seccomp_filter_tsync]
  | .d => [.mount_dev, .vfs]
  | .ambient => [.set_ambient_caps]
  | .uts => [.uts]
  | .profile => if arg = some "minimalistic-mountns".toList then [.vfs, .pivot_root, .remount_proc_ro, .using_minimalistic_mountns, .mount_dev]
    else [.vfs, .pivot_root, .remount_proc_ro, .using_minimalistic_mountns]
  | .enableProfileFsRestrictions => [.enable_profile_fs_restrictions]
  | .allowSpeculativeExecution => [.seccomp_filter_allow_speculation]
  | _ => []

/-- What an option turns off. -/
def optOff (o : Opt) : List Feature :=
  match o with
  | .c => [.capbset_drop]
  | .noFsRestrictions => [.enable_fs_restrictions]
  | .noDefaultRuntime => [.enable_default_runtime]
  | .noNewSessions => [.enable_new_sessions]
  | _ => []

theorem Switched.call {env : ApiEnv} {G L : List Feature} {j j1 j2 : Jail} {k : Call} {rc : Int} (h : Switched G L j j1) (e : call env j1 k = .ret rc j2)
    (hg : ∀ f ∈ turnsOn k, f ∈ G) (hl : ∀ f ∈ turnsOff env.softfail k, f ∈ L) : Switched G L j j2 := h.trans ((switched_ret e).more hg hl)

theorem sub_none {L : List Feature} : ∀ f ∈ ([] : List Feature), f ∈ L := fun _ h => absurd h List.not_mem_nil

theorem on_lib {env : CliEnv} {c : Cli} {k : Call} {G L : List Feature} {j : Jail} {P : Cli → Prop} (hg : ∀ f ∈ turnsOn k, f ∈ G)
    (hl : ∀ f ∈ turnsOff env.api.softfail k, f ∈ L) (h : Switched G L j c.j) (n : ∀ j', Switched G L j j' → P { c with j := j' }) : (lib env c k).All P :=
  all_lib fun _ j' e => n j' (h.call e hg hl)

theorem on_libMust {env : CliEnv} {c : Cli} {k : Call} {G L : List Feature} {j : Jail} {P : Cli → Prop} (hg : ∀ f ∈ turnsOn k, f ∈ G)
    (hl : ∀ f ∈ turnsOff env.api.softfail k, f ∈ L) (h : Switched G L j c.j) (n : ∀ j', Switched G L j j' → P { c with j := j' }) : (libMust env c k).All P :=
  all_libMust fun j' e => n j' (h.call e hg hl)

theorem on_binding {env : CliEnv} {c : Cli} {arg : Option CStr} : (addBinding env c arg).All fun c' => Switched [.vfs] [] c.j c'.j := by
  unfold addBinding addBindingOf
  dsimp only
  (repeat' split) <;> first | trivial | exact on_libMust (fun _ h => h) (fun _ h => h) (.refl _ _ _) fun _ h => h

theorem on_rlimit {env : CliEnv} {c : Cli} {arg : Option CStr} : (addRlimitArg env c arg).All fun c' => Switched [] [] c.j c'.j := by
  unfold addRlimitArg
  dsimp only
  (repeat' split) <;> first | trivial | exact on_libMust (fun _ h => h) (fun _ h => h) (.refl _ _ _) fun _ h => h

theorem on_mount {env : CliEnv} {c : Cli} {arg : Option CStr} : (addMountArg env c arg).All fun c' => Switched [.vfs] [] c.j c'.j := by
  unfold addMountArg
  dsimp only
  (repeat' split) <;> first | trivial | exact on_libMust (fun _ h => h) (fun _ h => h) (.refl _ _ _) fun _ h => h

theorem on_caps {env : CliEnv} {c : Cli} {arg : CStr} : (useCapsArg env c arg).All fun c' => Switched [.use_caps] [.capbset_drop] c.j c'.j := by
  unfold useCapsArg
  exact all_bind (all_of fun _ _ => on_lib (fun _ h => h) (fun _ h => h) (.refl _ _ _) fun _ h => h)

theorem on_user {env : CliEnv} {c : Cli} {arg : CStr} : (setUser env c arg).All fun c' => Switched [.uid] [] c.j c'.j := by
  unfold setUser
  split
  · exact on_lib (fun _ h => h) (fun _ h => h) (.refl _ _ _) fun _ h => h
  · split
    · trivial
    · exact on_libMust (fun _ h => h) (fun _ h => h) (.refl _ _ _) fun _ h => h

theorem on_group {env : CliEnv} {c : Cli} {arg : CStr} : (setGroup env c arg).All fun c' => Switched [.gid] [] c.j c'.j := by
  unfold setGroup
  split
  · exact on_lib (fun _ h => h) (fun _ h => h) (.refl _ _ _) fun _ h => h
  · split
    · trivial
    · exact on_lib (fun _ h => h) (fun _ h => h) (.refl _ _ _) fun _ h => h

theorem on_pivot {env : CliEnv} {c : Cli} {path : BStr} {G : List Feature} {j : Jail} (h1 : Feature.pivot_root ∈ G) (h2 : Feature.vfs ∈ G)
    (h : Switched G [] j c.j) : (usePivotRoot env c path).All fun c' => Switched G [] j c'.j := by
  unfold usePivotRoot
  exact all_bind (all_refuse fun _ => all_bind (on_libMust (fun _ q => by rw [List.mem_singleton.1 q]; exact h1) (fun _ h => h) h fun _ h =>
    all_bind (on_lib (fun _ q => by rw [List.mem_singleton.1 q]; exact h2) (fun _ h => h) h fun _ h => all_pure h)))

theorem on_chroot {env : CliEnv} {c : Cli} {path : BStr} : (useChroot env c path).All fun c' => Switched [.chroot] [] c.j c'.j := by
  unfold useChroot
  exact all_bind (all_refuse fun _ => all_bind (on_libMust (fun _ h => h) (fun _ h => h) (.refl _ _ _) fun _ h => all_pure h))

theorem on_profile {env : CliEnv} {c : Cli} {p : CStr} : (useProfile env c p).All fun c' => Switched (optOn .profile (some p)) [] c.j c'.j := by
  have hv : ∀ f ∈ [Feature.vfs, .pivot_root, .remount_proc_ro, .using_minimalistic_mountns], f ∈ optOn .profile (some p) := by
    intro f hf
    unfold optOn
    dsimp only
    split
    · exact List.mem_append_left [Feature.mount_dev] hf
    · exact hf
  have hd : ∀ c1, Switched (optOn .profile (some p)) [] c.j c1.j → (profileDev env c1 p).All fun c' => Switched (optOn .profile (some p)) [] c.j c'.j := by
    intro c1 h
    unfold profileDev
    split
    · next hp =>
      refine all_bind (on_libMust (fun f q => hv f (List.mem_of_mem_take (i := 1) q)) (fun _ h => h) h fun _ h => on_lib (fun f q => ?_) (fun _ h => h) h fun _ h => h)
      rw [List.mem_singleton.1 q]
      unfold optOn
      dsimp only
      rw [if_pos (by rw [hp])]
      decide
    · exact h
  unfold useProfile
  refine all_bind (all_refuse fun _ => all_bind (on_lib (fun f q => hv f ?_) (fun _ h => h) (.refl _ _ _) fun _ h => all_bind (on_libMust (fun f q => hv f ?_) (fun _ h => h) h fun _ h =>
    all_bind (on_libMust (fun f q => hv f ?_) (fun _ h => h) h fun _ h => all_bind (all_mono (hd _ h) fun c1 h => all_bind (on_lib (fun f q => hv f ?_) (fun _ h => h) h fun _ h =>
      all_bind (on_lib (fun f q => hv f ?_) (fun _ h => h) h fun _ h => on_pivot (hv _ (by decide)) (hv _ (by decide)) h)))))))
  all_goals revert f; decide

theorem optStep_on {env : CliEnv} {c : Cli} {o : Opt} {arg : Option CStr} : (optStep env c o arg).All fun c' => Switched (optOn o arg) (optOff o) c.j c'.j := by
  cases o <;> simp only [optStep, optOff]
  case u => cli_step; exact .refl _ _ _; exact on_user
  case g => cli_step; exact .refl _ _ _; exact on_group
  case c => cli_step; exact on_caps
  case b => cli_step; exact .refl _ _ _; exact on_binding
  case k => cli_step; exact .refl _ _ _; exact on_mount
  case R => exact on_rlimit
  case C => cli_step; exact on_chroot
  case P => cli_step; exact on_pivot (.head _) (.tail _ (.head _)) (.refl _ _ _)
  case profile =>
    refine all_bind (all_need fun a ha => ?_)
    subst ha
    exact on_profile
  case addSupplGroup =>
    cli_step
    refine all_mono suppl_locals ?_
    rintro _ ⟨g, rfl⟩
    exact .refl _ _ _
  case envAdd =>
    cli_step
    refine all_mono childenv_locals ?_
    rintro _ ⟨g, rfl⟩
    exact .refl _ _ _
  case S =>
    exact all_bind (all_refuse fun _ => all_bind (on_lib (fun _ h => h) (fun _ h => h) (.refl _ _ _) fun _ h => all_bind (all_need fun _ _ => all_pure h)))
  case seccompBpfBinary =>
    exact all_bind (all_refuse fun _ => all_bind (all_refuse fun _ => all_bind (on_lib (fun _ h => h) (fun _ h => h) (.refl _ _ _) fun _ h =>
      all_bind (all_need fun _ _ => all_pure h))))
  case t =>
    refine all_bind (on_lib (G := [.vfs]) (L := []) (fun _ h => h) (fun _ h => h) (.refl _ _ _) fun _ h => ?_)
    (repeat' split) <;> first | trivial | exact h
  case uts =>
    refine all_bind (on_lib (G := [.uts]) (L := []) (fun _ h => h) (fun _ h => h) (.refl _ _ _) fun _ h => ?_)
    split
    · exact on_lib (fun _ h => h) (fun _ h => h) h fun _ h => h
    · exact h
  case I =>
    exact all_bind (on_lib (G := [.run_as_init, .pids, .vfs, .remount_proc_ro, .do_init]) (L := []) (fun _ h => .tail _ h) (fun _ h => h) (.refl _ _ _) fun _ h =>
      on_lib (fun _ q => by rw [List.mem_singleton.1 q]; exact .head _) (fun _ h => h) h fun _ h => h)
  case U =>
    exact all_bind (on_lib (G := [.userns, .pids, .vfs, .remount_proc_ro, .do_init]) (L := []) (fun _ q => by rw [List.mem_singleton.1 q]; exact .head _) (fun _ h => h)
      (.refl _ _ _) fun _ h => on_lib (fun _ h => .tail _ h) (fun _ h => h) h fun _ h => h)
  case d =>
    exact all_bind (on_lib (G := [.mount_dev, .vfs]) (L := []) (fun _ h => .tail _ h) (fun _ h => h)
      (.refl _ _ _) fun _ h => on_lib (fun _ q => by rw [List.mem_singleton.1 q]; exact .head _) (fun _ h => h) h fun _ h => h)
  case v =>
    exact all_bind (on_lib (G := [.vfs]) (L := []) (fun _ h => h) (fun _ h => h) (.refl _ _ _) fun _ h =>
      all_bind (on_lib sub_none (fun _ h => h) h fun _ h => all_pure h))
  case e =>
    split
    · exact .refl _ _ _
    · split
      · exact on_lib (fun _ h => h) (fun _ h => h) (.refl _ _ _) fun _ h => h
      · exact on_lib (fun _ h => h) (fun _ h => h) (.refl _ _ _) fun _ h => h
  all_goals cli_step
  all_goals first
    | exact .refl _ _ _
    | (rename_i h; exact (Switched.refl _ _ _).call h (fun _ h => h) (fun _ h => h))

end Minijail
