import Verif.Proof.CliCalls
/-! What the front end checks behind the options. -/
set_option linter.unusedSimpArgs false
set_option autoImplicit false
namespace Minijail
open Spec

/-- The jail was reached and nothing else changed. -/
def Moved (env : CliEnv) (j : Jail) (c c' : Cli) : Prop := ∃ j', c' = { c with j := j' } ∧ Reach env j j'

theorem moved_pure {env : CliEnv} {j : Jail} {c : Cli} (h : Reach env j c.j) : (pure c : CliOut Cli).All (Moved env j c) := ⟨c.j, rfl, h⟩

theorem moved_lib {env : CliEnv} {j : Jail} {c : Cli} {k : Call} (h : Reach env j c.j) (hk : GoodCall env.api k) : (lib env c k).All (Moved env j c) :=
  reach_lib h hk fun j' r => ⟨j', rfl, r⟩

theorem moved_libMust {env : CliEnv} {j : Jail} {c : Cli} {k : Call} (h : Reach env j c.j) (hk : GoodCall env.api k) :
    (libMust env c k).All (Moved env j c) := reach_libMust h hk fun j' r => ⟨j', rfl, r⟩

theorem moved_keep {env : CliEnv} {j : Jail} {c : Cli} (h : Reach env j c.j) : (keepStderr env c).All (Moved env j c) := by
  unfold keepStderr
  split
  · exact moved_libMust h trivial
  · exact moved_pure h

theorem moved_uid {env : CliEnv} {j : Jail} {c : Cli} (h : Reach env j c.j) : (setUidMapping env c).All (Moved env j c) := by
  unfold setUidMapping
  split
  · exact all_bind (reach_lib h trivial fun _ r => all_bind (reach_lib r trivial fun _ r => reach_libMust r trivial fun j' r => ⟨j', rfl, r⟩))
  · exact moved_pure h

theorem moved_setgroups {env : CliEnv} {j : Jail} {c : Cli} (h : Reach env j c.j) : (maybeDisableSetgroups env c).All (Moved env j c) := by
  unfold maybeDisableSetgroups
  split
  · exact moved_pure h
  · exact moved_lib h trivial

theorem moved_gid {env : CliEnv} {j : Jail} {c : Cli} (h : Reach env j c.j) : (setGidMapping env c).All (Moved env j c) := by
  unfold setGidMapping
  split
  · refine all_bind (reach_lib h trivial fun _ r => all_bind (reach_lib r trivial fun _ r => all_bind (all_mono (moved_setgroups r) ?_)))
    rintro _ ⟨_, rfl, r⟩
    exact reach_libMust r trivial fun j' r => ⟨j', rfl, r⟩
  · exact moved_pure h

theorem moved_signals {env : CliEnv} {j : Jail} {c : Cli} (h : Reach env j c.j) : (settleSignals env c).All (Moved env j c) := by
  unfold settleSignals
  split
  · exact moved_lib h trivial
  · exact moved_pure h

theorem moved_remount {env : CliEnv} {j : Jail} {c : Cli} (h : Reach env j c.j) : (settleRemount env c).All (Moved env j c) := by
  unfold settleRemount setRemountMode
  (repeat' split) <;> first | trivial | exact moved_lib h trivial | exact moved_pure h

theorem moved_groups {env : CliEnv} {j : Jail} {c : Cli} (h : Reach env j c.j) : (settleGroups env c).All fun c' => Moved env j c c' ∧
    (c.suppl_gids ≠ [] → c.j.flags.inherit_suppl_gids = false ∧ c.j.flags.keep_suppl_gids = false) := by
  unfold settleGroups
  split
  · refine all_and (moved_lib h trivial) (all_lib fun rc j' e _ => ?_)
    simp only [call, setSupplementaryGids] at e
    cases hi : c.j.flags.inherit_suppl_gids <;> cases hk : c.j.flags.keep_suppl_gids <;> simp_all
  · next h' => exact ⟨⟨c.j, rfl, h⟩, fun q => absurd q h'⟩

theorem moved_file {env : CliEnv} {j : Jail} {c : Cli} {p : CStr} (h : Reach env j c.j) : (setSeccompFile env c p).All (Moved env j c) := by
  unfold setSeccompFile
  split
  · trivial
  · split
    · trivial
    · next prog _ _ _ =>
      refine moved_lib h ?_
      show (prog.take (prog.length % 65536)).length ≤ 65535
      rw [List.length_take]
      omega

theorem moved_default {env : CliEnv} {j : Jail} {c : Cli} (h : Reach env j c.j) : (defaultSeccomp env c).All (Moved env j c) := by
  unfold defaultSeccomp
  split
  · refine all_bind (reach_lib h trivial fun _ r => all_mono (moved_file r) ?_)
    rintro _ ⟨j', rfl, r⟩
    exact ⟨j', rfl, r⟩
  · exact moved_pure h

theorem moved_seccomp {env : CliEnv} {j : Jail} {c : Cli} (he : GoodCliEnv env) (hp : IsText c.filter_path) (h : Reach env j c.j) :
    (settleSeccomp env c).All (Moved env j c) := by
  unfold settleSeccomp
  split
  · exact moved_lib h ⟨text_bytes hp, he.compiled _⟩
  · split
    · exact moved_file h
    · split
      · refine all_bind (all_mono (moved_default h) ?_)
        rintro _ ⟨_, rfl, r⟩
        exact reach_lib r trivial fun j' r => ⟨j', rfl, r⟩
      · exact moved_pure h

theorem moved_tmp {env : CliEnv} {j : Jail} {c : Cli} (h : Reach env j c.j) : (settleTmp env c).All (Moved env j c) := by
  unfold settleTmp
  split
  · exact moved_lib h trivial
  · exact moved_pure h

/-- What is checked behind the options. -/
structure Settled (c : Cli) : Prop where
  ambient : c.use_ambient_caps = true → c.caps = true
  binds : c.have_bind_mounts = true → c.chroot = true ∨ c.pivot_root = true ∨ c.use_mount_ns = true
  remount : c.change_remount = true → c.use_mount_ns = true

theorem settle_ok {env : CliEnv} {j : Jail} {c : Cli} (he : GoodCliEnv env) (hj : Inv j) (I : CliInv env j c) :
    (settle env c).All fun c' => (∃ j' e, c' = { c with j := j', envp := e } ∧ Reach env j j') ∧ Settled c ∧
      (c.suppl_gids ≠ [] → c.inherit_suppl_gids = false ∧ c.keep_suppl_gids = false) := by
  have hi := (reach_kept I.good.reach hj).1
  have g0 : Reach env c.j c.j := Reach.refl _ _
  unfold settle
  refine all_bind (all_mono (moved_uid g0) ?_)
  rintro _ ⟨_, rfl, r⟩
  refine all_bind (all_mono (moved_gid r) ?_)
  rintro _ ⟨_, rfl, r⟩
  refine all_bind (all_refuse fun h1 => all_bind (all_mono (moved_signals r) ?_))
  rintro _ ⟨_, rfl, r⟩
  refine all_bind (all_refuse fun h2 => all_bind (all_refuse fun h3 => all_bind (all_mono (moved_remount r) ?_)))
  rintro _ ⟨_, rfl, r⟩
  refine all_bind (all_mono (moved_groups r) ?_)
  rintro _ ⟨⟨_, rfl, r'⟩, hg⟩
  have kf := (reach_kept r hi).2
  refine all_bind (all_mono (moved_seccomp he I.good.path r') ?_)
  rintro _ ⟨_, rfl, r⟩
  refine all_bind (all_mono (moved_tmp r) ?_)
  rintro _ ⟨_, rfl, r⟩
  refine all_bind (reach_lib r trivial fun j' r => all_pure ⟨⟨j', _, rfl, I.good.reach.trans r⟩, ⟨?_, ?_, ?_⟩, ?_⟩)
  · intro q
    dsimp only at h1
    simpa [q] using h1
  · intro q
    dsimp only at h2
    cases h : c.chroot <;> cases h' : c.pivot_root <;> simp_all
  · intro q
    dsimp only at h3
    simpa [q] using h3
  · intro q
    have := hg q
    dsimp only at this
    constructor
    · cases h : c.inherit_suppl_gids
      · rfl
      · have := kf.inherit_suppl_gids (I.inherit h); simp_all
    · cases h : c.keep_suppl_gids
      · rfl
      · have := kf.keep_suppl_gids (I.keep h); simp_all

end Minijail
