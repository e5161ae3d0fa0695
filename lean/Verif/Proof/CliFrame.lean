import Verif.Proof.CliFinal
/-! Which settings of the jail an option changes. -/
set_option linter.unusedSimpArgs false
set_option autoImplicit false
namespace Minijail
open Spec

/-- The settings an option may give a value while options are read. -/
def optGives : Opt → List Setting
  | .u => [.uid, .user]
  | .g => [.gid]
  | .c => [.caps, .bounding]
  | .B => [.skipMask]
  | .C | .P => [.root]
  | .profile => [.mounts, .root]
  | .b | .k => [.mounts]
  | .v => [.propagation]
  | .V => [.mountNs]
  | .e => [.netNs, .loopback]
  | .f => [.pidFile]
  | .a => [.table]
  | .R => [.limits]
  | .uts => [.hostname]
  | .preserveFd => [.preserved]
  | .fsDefaultPaths | .fsPathRx | .fsPathRo | .fsPathRw | .fsPathAdvancedRw => [.rules]
  | .noDefaultRuntime => [.runtime]
  | .noNewSessions => [.sessions]
  | _ => []

/-- Nothing but these settings changed. -/
def Frames (G : List Setting) (j j' : Jail) : Prop := ∀ s, s ∉ G → Agree j j' s

theorem Frames.refl (G : List Setting) (j : Jail) : Frames G j j := fun s _ => AgreeAll.refl j s

theorem Frames.call {env : ApiEnv} {G : List Setting} {j j1 j2 : Jail} {k : Call} {rc : Int} (h : Frames G j j1) (e : call env j1 k = .ret rc j2)
    (hg : ∀ s ∈ gives k, s ∈ G) : Frames G j j2 := fun s hs => Agree.trans (h s hs) (C49_frame _ _ _ _ _ e s fun q => hs (hg s q))

theorem sub_nil {G : List Setting} {k : Call} (h : gives k = []) : ∀ s ∈ gives k, s ∈ G := by rw [h]; exact fun s hs => absurd hs List.not_mem_nil

theorem sub_self {G : List Setting} {k : Call} (h : gives k = G) : ∀ s ∈ gives k, s ∈ G := by rw [h]; exact fun s hs => hs

theorem sub_one {G : List Setting} {k : Call} {s : Setting} (h : gives k = [s]) (hs : s ∈ G) : ∀ s ∈ gives k, s ∈ G := by
  rw [h]; intro s' hs'; rw [List.mem_singleton.1 hs']; exact hs

theorem frames_lib {env : CliEnv} {c : Cli} {k : Call} {G : List Setting} {j : Jail} {P : Cli → Prop} (hg : ∀ s ∈ gives k, s ∈ G) (h : Frames G j c.j)
    (n : ∀ j', Frames G j j' → P { c with j := j' }) : (lib env c k).All P :=
  all_lib fun _ j' e => n j' (h.call e hg)

theorem frames_libMust {env : CliEnv} {c : Cli} {k : Call} {G : List Setting} {j : Jail} {P : Cli → Prop} (hg : ∀ s ∈ gives k, s ∈ G) (h : Frames G j c.j)
    (n : ∀ j', Frames G j j' → P { c with j := j' }) : (libMust env c k).All P :=
  all_libMust fun j' e => n j' (h.call e hg)

theorem frames_binding {env : CliEnv} {c : Cli} {arg : Option CStr} : (addBinding env c arg).All fun c' => Frames [.mounts] c.j c'.j := by
  unfold addBinding addBindingOf
  dsimp only
  (repeat' split) <;> first | trivial | exact frames_libMust (sub_self rfl) (.refl _ _) fun _ h => h

theorem frames_rlimit {env : CliEnv} {c : Cli} {arg : Option CStr} : (addRlimitArg env c arg).All fun c' => Frames [.limits] c.j c'.j := by
  unfold addRlimitArg
  dsimp only
  (repeat' split) <;> first | trivial | exact frames_libMust (sub_self rfl) (.refl _ _) fun _ h => h

theorem frames_mount {env : CliEnv} {c : Cli} {arg : Option CStr} : (addMountArg env c arg).All fun c' => Frames [.mounts] c.j c'.j := by
  unfold addMountArg
  dsimp only
  (repeat' split) <;> first | trivial | exact frames_libMust (sub_self rfl) (.refl _ _) fun _ h => h

theorem frames_caps {env : CliEnv} {c : Cli} {arg : CStr} : (useCapsArg env c arg).All fun c' => Frames [.caps, .bounding] c.j c'.j := by
  unfold useCapsArg
  exact all_bind (all_of fun _ _ => frames_lib (sub_self rfl) (.refl _ _) fun _ h => h)

theorem frames_user {env : CliEnv} {c : Cli} {arg : CStr} : (setUser env c arg).All fun c' => Frames [.uid, .user] c.j c'.j := by
  unfold setUser
  split
  · exact frames_lib (sub_one rfl (by decide)) (.refl _ _) fun _ h => h
  · split
    · trivial
    · exact frames_libMust (sub_self rfl) (.refl _ _) fun _ h => h

theorem frames_group {env : CliEnv} {c : Cli} {arg : CStr} : (setGroup env c arg).All fun c' => Frames [.gid] c.j c'.j := by
  unfold setGroup
  split
  · exact frames_lib (sub_self rfl) (.refl _ _) fun _ h => h
  · split
    · trivial
    · exact frames_lib (sub_self rfl) (.refl _ _) fun _ h => h

theorem frames_pivot {env : CliEnv} {c : Cli} {path : BStr} {G : List Setting} {j : Jail} (hg : Setting.root ∈ G) (h : Frames G j c.j) :
    (usePivotRoot env c path).All fun c' => Frames G j c'.j := by
  unfold usePivotRoot
  exact all_bind (all_refuse fun _ => all_bind (frames_libMust (sub_one rfl hg) h fun _ h => all_bind (frames_lib (sub_nil rfl) h fun _ h => all_pure h)))

theorem frames_chroot {env : CliEnv} {c : Cli} {path : BStr} : (useChroot env c path).All fun c' => Frames [.root] c.j c'.j := by
  unfold useChroot
  exact all_bind (all_refuse fun _ => all_bind (frames_libMust (sub_self rfl) (.refl _ _) fun _ h => all_pure h))

theorem frames_profile {env : CliEnv} {c : Cli} {p : CStr} : (useProfile env c p).All fun c' => Frames [.mounts, .root] c.j c'.j := by
  have hd : ∀ c1, Frames [.mounts, .root] c.j c1.j → (profileDev env c1 p).All fun c' => Frames [.mounts, .root] c.j c'.j := by
    intro c1 h
    unfold profileDev
    split
    · exact all_bind (frames_libMust (sub_one rfl (by decide)) h fun _ h => frames_lib (sub_nil rfl) h fun _ h => h)
    · exact h
  unfold useProfile
  exact all_bind (all_refuse fun _ => all_bind (frames_lib (sub_nil rfl) (.refl _ _) fun _ h => all_bind (frames_libMust (sub_one rfl (by decide)) h fun _ h =>
    all_bind (frames_libMust (sub_one rfl (by decide)) h fun _ h => all_bind (all_mono (hd _ h) fun c1 h => all_bind (frames_lib (sub_nil rfl) h fun _ h =>
      all_bind (frames_lib (sub_nil rfl) h fun _ h => frames_pivot (by decide) h)))))))

theorem optStep_frames {env : CliEnv} {c : Cli} {o : Opt} {arg : Option CStr} : (optStep env c o arg).All fun c' => Frames (optGives o) c.j c'.j := by
  cases o <;> simp only [optStep, optGives]
  case u => cli_step; exact .refl _ _; exact frames_user
  case g => cli_step; exact .refl _ _; exact frames_group
  case c => cli_step; exact frames_caps
  case b => cli_step; exact .refl _ _; exact frames_binding
  case k => cli_step; exact .refl _ _; exact frames_mount
  case R => exact frames_rlimit
  case C => cli_step; exact frames_chroot
  case P => cli_step; exact frames_pivot (by decide) (.refl _ _)
  case profile => cli_step; exact frames_profile
  case addSupplGroup =>
    cli_step
    refine all_mono suppl_locals ?_
    rintro _ ⟨g, rfl⟩
    exact .refl _ _
  case envAdd =>
    cli_step
    refine all_mono childenv_locals ?_
    rintro _ ⟨g, rfl⟩
    exact .refl _ _
  case S =>
    exact all_bind (all_refuse fun _ => all_bind (frames_lib (sub_nil rfl) (.refl _ _) fun _ h => all_bind (all_need fun _ _ => all_pure h)))
  case seccompBpfBinary =>
    exact all_bind (all_refuse fun _ => all_bind (all_refuse fun _ => all_bind (frames_lib (sub_nil rfl) (.refl _ _) fun _ h =>
      all_bind (all_need fun _ _ => all_pure h))))
  case t =>
    refine all_bind (frames_lib (G := []) (sub_nil rfl) (.refl _ _) fun _ h => ?_)
    (repeat' split) <;> first | trivial | exact h
  case uts =>
    refine all_bind (frames_lib (G := [.hostname]) (sub_nil rfl) (.refl _ _) fun _ h => ?_)
    split
    · exact frames_lib (sub_self rfl) h fun _ h => h
    · exact h
  all_goals cli_step
  all_goals first
    | exact .refl _ _
    | (rename_i h; exact (Frames.refl _ _).call h (sub_self rfl))
    | (rename_i h; exact (Frames.refl _ _).call h (sub_nil rfl))
    | (rename_i h; exact (Frames.refl _ _).call h (sub_one rfl (by decide)))
    | (rename_i h1 _ _ h2; exact ((Frames.refl _ _).call h1 (sub_nil rfl)).call h2 (sub_nil rfl))
    | (rename_i h1 _ _ h2; exact ((Frames.refl _ _).call h1 (sub_nil rfl)).call h2 (sub_self rfl))

end Minijail
