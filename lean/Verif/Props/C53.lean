import Verif.Proof.CliOnFinal
import Verif.Proof.CliCarry
/-! C53: the front end does nothing that no option asks for. -/
set_option linter.unusedSimpArgs false
set_option autoImplicit false
namespace Minijail
open Spec

/-- What an option turns on is what it asks for. -/
private theorem asks_of {n : Nat} {o : Opt} {arg : Option CStr} {f : Feature} (hn : n = o.num) (h : f ∈ optOn o arg) (hd : f ≠ .enable_profile_fs_restrictions) :
    Asks (n, arg) f := by
  subst hn
  have hl : ∀ (ch : Char) (fs : List Feature), (ch, fs) ∈ letterAsks → ch.toNat = o.num → f ∈ fs → Asks (o.num, arg) f := fun ch fs h1 h2 h3 =>
    .inl ⟨ch, fs, h1, h2.symm, h3⟩
  have hg : ∀ (name : String) (fs : List Feature), (name, fs) ∈ longAsks → (name.toList, o.num) ∈ longOptions → f ∈ fs → Asks (o.num, arg) f := fun name fs h1 h2 h3 =>
    .inr (.inl ⟨name, fs, h1, h2, h3⟩)
  cases o
  case u => exact hl 'u' [.uid] (by decide +kernel) (by decide +kernel) h
  case g => exact hl 'g' [.gid] (by decide +kernel) (by decide +kernel) h
  case n => exact hl 'n' [.no_new_privs] (by decide +kernel) (by decide +kernel) h
  case s => exact hl 's' [.seccomp] (by decide +kernel) (by decide +kernel) h
  case S => exact hl 'S' [.seccomp_filter] (by decide +kernel) (by decide +kernel) h
  case l => exact hl 'l' [.ipc] (by decide +kernel) (by decide +kernel) h
  case L => exact hl 'L' [.seccomp_filter_logging] (by decide +kernel) (by decide +kernel) h
  case b => exact hl 'b' [.vfs] (by decide +kernel) (by decide +kernel) h
  case k => exact hl 'k' [.vfs] (by decide +kernel) (by decide +kernel) h
  case t => exact hl 't' [.mount_tmp, .vfs] (by decide +kernel) (by decide +kernel) (.tail _ h)
  case v => exact hl 'v' [.vfs] (by decide +kernel) (by decide +kernel) h
  case c => exact hl 'c' [.use_caps] (by decide +kernel) (by decide +kernel) h
  case C => exact hl 'C' [.chroot] (by decide +kernel) (by decide +kernel) h
  case P => exact hl 'P' [.pivot_root, .vfs] (by decide +kernel) (by decide +kernel) h
  case f => exact hl 'f' [.pid_file] (by decide +kernel) (by decide +kernel) h
  case V => exact hl 'V' [.enter_vfs] (by decide +kernel) (by decide +kernel) h
  case r => exact hl 'r' [.remount_proc_ro, .vfs] (by decide +kernel) (by decide +kernel) h
  case G => exact hl 'G' [.inherit_suppl_gids] (by decide +kernel) (by decide +kernel) h
  case y => exact hl 'y' [.keep_suppl_gids] (by decide +kernel) (by decide +kernel) h
  case N => exact hl 'N' [.ns_cgroups] (by decide +kernel) (by decide +kernel) h
  case p => exact hl 'p' [.pids, .vfs, .remount_proc_ro, .do_init] (by decide +kernel) (by decide +kernel) h
  case I => exact hl 'I' [.run_as_init, .pids, .vfs, .remount_proc_ro, .do_init] (by decide +kernel) (by decide +kernel) h
  case U => exact hl 'U' [.userns, .pids, .vfs, .remount_proc_ro, .do_init] (by decide +kernel) (by decide +kernel) h
  case a => exact hl 'a' [.alt_syscall] (by decide +kernel) (by decide +kernel) h
  case w => exact hl 'w' [.new_session_keyring] (by decide +kernel) (by decide +kernel) h
  case Y => exact hl 'Y' [.seccomp_filter_tsync] (by decide +kernel) (by decide +kernel) h
  case d => exact hl 'd' [.mount_dev, .vfs] (by decide +kernel) (by decide +kernel) h
  case ambient => exact hg "ambient" [.set_ambient_caps] (by decide +kernel) (by decide +kernel) h
  case uts => exact hg "uts" [.uts] (by decide +kernel) (by decide +kernel) h
  case seccompBpfBinary => exact hg "seccomp-bpf-binary" [.seccomp_filter] (by decide +kernel) (by decide +kernel) h
  case allowSpeculativeExecution => exact hg "allow-speculative-execution" [.seccomp_filter_allow_speculation] (by decide +kernel) (by decide +kernel) h
  case e =>
    have hn : Opt.e.num = 'e'.toNat := by decide +kernel
    unfold optOn at h
    dsimp only at h
    split at h
    · next ha => exact .inr (.inr (.inl ⟨hn, ha, by simpa using h⟩))
    · next ha => exact .inr (.inr (.inr (.inl ⟨hn, ha, by simpa using h⟩)))
  case profile =>
    have hn : ("profile".toList, Opt.profile.num) ∈ longOptions := by decide +kernel
    have hp : ∀ f ∈ [Feature.vfs, .pivot_root, .remount_proc_ro, .using_minimalistic_mountns],
        f ∈ [Feature.vfs, .pivot_root, .mount_tmp, .remount_proc_ro, .using_minimalistic_mountns] := by decide
    unfold optOn at h
    dsimp only at h
    split at h
    · next ha =>
      rcases List.mem_append.1 (show f ∈ [Feature.vfs, .pivot_root, .remount_proc_ro, .using_minimalistic_mountns] ++ [.mount_dev] from h) with h | h
      · exact hg "profile" [.vfs, .pivot_root, .mount_tmp, .remount_proc_ro, .using_minimalistic_mountns] (by decide +kernel) hn (hp f h)
      · exact .inr (.inr (.inr (.inr ⟨hn, ha, List.mem_singleton.1 h⟩)))
    · exact hg "profile" [.vfs, .pivot_root, .mount_tmp, .remount_proc_ro, .using_minimalistic_mountns] (by decide +kernel) hn (hp f h)
  case enableProfileFsRestrictions => exact absurd (List.mem_singleton.1 h) hd
  all_goals exact absurd h List.not_mem_nil

/-- What is on so far was asked for, and what can be refused is on unless it was. -/
private structure OnSoFar (c : Cli) : Prop where
  on : ∀ f, On f c.j → On f minijailNew ∨ ∃ p ∈ c.entries, Asks p f
  kept : ∀ f o, (f, o) ∈ [(Feature.enable_fs_restrictions, Opt.noFsRestrictions), (.enable_new_sessions, .noNewSessions), (.enable_default_runtime, .noDefaultRuntime)] →
    ¬ Has c.entries o → On f c.j
  refused : Has c.entries .noDefaultRuntime → ¬ On .enable_default_runtime c.j
  tmp : c.tmp_size ≠ 0#64 → Has c.entries .t ∨ Has c.entries .profile

private theorem asked_new {f : Feature} (h : f = .enable_profile_fs_restrictions) : On f minijailNew := by rw [h]; rfl

private theorem carried_on {env : CliEnv} {j : Jail} : Carried env j OnSoFar where
  step := by
    intro c n o arg I q ha ho
    have hr : (optStep env { c with entries := c.entries ++ [(n, arg)] } o arg).All fun c' => o = .noDefaultRuntime → ¬ On .enable_default_runtime c'.j := by
      by_cases h : o = .noDefaultRuntime
      · subst h
        simp only [optStep]
        refine all_lib fun rc j' e => ?_
        simp only [call, setFlags, ApiRes.ok, ApiRes.ret.injEq] at e
        rw [← e.2]
        exact fun _ h => Bool.false_ne_true h
      · exact all_of fun _ _ h' => absurd h' h
    refine all_mono (all_and optStep_on (all_and hr (all_and optStep_locals optStep_effect))) ?_
    rintro c' ⟨⟨s1, s2⟩, hr, L, E⟩
    have hE : c'.entries = c.entries ++ [(n, arg)] := E.entries
    refine ⟨fun f hf => ?_, fun f o' hm hh => ?_, fun hh => ?_, fun ht => ?_⟩
    · rcases s1 f hf with h | h
      · rcases q.on f h with h | ⟨p, hp, h⟩
        · exact .inl h
        · exact .inr ⟨p, by rw [hE]; exact List.mem_append_left _ hp, h⟩
      · by_cases hd : f = .enable_profile_fs_restrictions
        · exact .inl (asked_new hd)
        · exact .inr ⟨_, by rw [hE]; exact List.mem_append_right _ (.head _), asks_of (num_of ho) h hd⟩
    · rw [hE, has_append ho, not_or] at hh
      rcases s2 f (q.kept f o' hm hh.1) with h | h
      · exact h
      · refine absurd ?_ hh.2
        clear hh hr L E s1 s2
        simp only [List.mem_cons, List.not_mem_nil, or_false, Prod.mk.injEq] at hm
        rcases hm with ⟨rfl, rfl⟩ | ⟨rfl, rfl⟩ | ⟨rfl, rfl⟩ <;> revert h <;> cases o <;> simp [optOff]
    · rw [hE, has_append ho] at hh
      rcases hh with hh | rfl
      · intro h
        rcases s1 _ h with h | h
        · exact q.refused hh h
        · revert h
          clear hr L E s1 s2 hh
          unfold optOn
          cases o <;> dsimp only <;> try split
          all_goals simp
      · exact hr rfl
    · rw [hE, has_append ho, has_append ho]
      by_cases h1 : o = .t
      · exact .inl (.inr h1)
      · by_cases h2 : o = .profile
        · exact .inr (.inr h2)
        · rw [L.tmp h1 h2] at ht
          exact (q.tmp ht).imp .inl .inl
  confs := fun c es q => ⟨q.on, q.kept, q.refused, q.tmp⟩

private theorem new_kept (f : Feature) (o : Opt)
    (hm : (f, o) ∈ [(Feature.enable_fs_restrictions, Opt.noFsRestrictions), (.enable_new_sessions, .noNewSessions), (.enable_default_runtime, .noDefaultRuntime)]) : On f minijailNew := by
  simp only [List.mem_cons, List.not_mem_nil, or_false, Prod.mk.injEq] at hm
  rcases hm with ⟨rfl, _⟩ | ⟨rfl, _⟩ | ⟨rfl, _⟩ <;> rfl

private theorem maps_sub : ∀ f ∈ mapFeatures, f ∈ [Feature.userns, .disable_setgroups, .pids, .vfs, .remount_proc_ro, .do_init] := by decide

private theorem without_num {opts : Options} {opt : Nat → Prop} {o : Opt} (h : IsOpt opt o) (hh : ¬ Has opts o) : Without opts opt := fun p hp q =>
  hh ⟨p.2, by rw [← (h p.1).1 q]; exact hp⟩

/-- **C53**, nothing more: when a command line is accepted, whatever the jail then does is asked for by an option, on the command line or in a configuration
file, or is a default. -/
theorem C53_on (env : CliEnv) (he : GoodCliEnv env) (opts : Options) (ht : ∀ p ∈ opts, TextArg p.2) (program : Option CStr) (c : Cli)
    (h : parseArgs env minijailNew opts program = .ok (.run c)) :
    ∃ all, Expanded env.readConf opts all ∧ (∀ f, On f c.j → Default env all f ∨ ∃ p ∈ all, Asks p f) ∧
      ∀ f name, (f, name) ∈ mayRefuse → Without all (long name) → On f c.j := by
  obtain ⟨c0, j1, c2, I, q, r1, a1, hk, hm, I1, hx, h2, h3, h4, h5⟩ := run_carry carried_on he inv_new
    ⟨fun f h => .inl h, fun f o hm _ => new_kept f o hm, fun ⟨a, h⟩ => by simp at h, fun h => absurd rfl h⟩ ht h
  have L := I.loop
  have hkeep : (∀ f, On f j1 ↔ On f c0.j) := by
    have hs : (keepStderr env c0).All fun c1 => Switched [] [] c0.j c1.j := by
      unfold keepStderr
      split
      · exact on_libMust (fun _ h => h) (fun _ h => h) (.refl _ _ _) fun _ h => h
      · exact .refl _ _ _
    have s := all_ok hs hk
    exact fun f => ⟨fun h => (s.1 f h).elim id fun h => absurd h List.not_mem_nil, fun h => (s.2 f h).elim id fun h => absurd h List.not_mem_nil⟩
  obtain ⟨s1, s2⟩ := all_ok settle_on h2
  have hdr : On .enable_default_runtime j1 → ¬ Has c0.entries .noDefaultRuntime := fun h q' => q.refused q' ((hkeep _).1 h)
  have hnew : ∀ f, On f minijailNew → Default env c0.entries f := by
    intro f
    cases f <;> first | exact fun _ => trivial | exact fun h => absurd h (by decide)
  have hl : ∀ (o : Opt) (ch : Char) (fs : List Feature) (f : Feature), Has c0.entries o → (ch, fs) ∈ letterAsks → o.num = ch.toNat → f ∈ fs → ∃ p ∈ c0.entries, Asks p f :=
    fun o ch fs f ⟨a, ha⟩ h1 h2 h3 => ⟨_, ha, .inl ⟨ch, fs, h1, h2, h3⟩⟩
  have hg : ∀ (o : Opt) (name : String) (fs : List Feature) (f : Feature), Has c0.entries o → (name, fs) ∈ longAsks → (name.toList, o.num) ∈ longOptions → f ∈ fs →
      ∃ p ∈ c0.entries, Asks p f := fun o name fs f ⟨a, ha⟩ h1 h2 h3 => ⟨_, ha, .inr (.inl ⟨name, fs, h1, h2, h3⟩)⟩
  refine ⟨c0.entries, hx, fun f hf => ?_, fun f name hm hw => ?_⟩
  · rw [h4] at hf
    rcases s1 f hf with h | h
    · rcases q.on f ((hkeep f).1 h) with h | h
      · exact .inl (hnew f h)
      · exact .inr h
    · have h' := h.why
      clear h
      rename' h' => h
      dsimp only at h
      rcases h with ⟨h, hf⟩ | ⟨h, hf⟩ | ⟨h, rfl⟩ | ⟨h, rfl⟩ | ⟨h1, h2, h3, hf⟩ | ⟨h, rfl⟩
      · exact .inr (hl .m 'm' [.userns, .pids, .vfs, .remount_proc_ro, .do_init] f (L.uidmap.1 h) (by decide +kernel) (by decide +kernel) hf)
      · refine .inr (hl .M 'M' [.userns, .disable_setgroups, .pids, .vfs, .remount_proc_ro, .do_init] f (L.gidmap.1 h) (by decide +kernel) (by decide +kernel) ?_)
        rcases hf with hf | ⟨rfl, _⟩
        · exact maps_sub f hf
        · decide
      · exact .inl (without_num (isOpt_letter (by decide +kernel)) (L.signals.1 h))
      · exact .inr (hg .addSupplGroup "add-suppl-group" [.set_suppl_gids] _ (L.suppl.1 h) (by decide +kernel) (by decide +kernel) (.head _))
      · have w1 : Without c0.entries (letter 'S') := without_num (isOpt_letter (o := .S) (by decide +kernel)) fun q => by rw [← L.use_filter] at q; simp [h1] at q
        have w2 : Without c0.entries (long "seccomp-bpf-binary") :=
          without_num (isOpt_long (o := .seccompBpfBinary) (by decide +kernel) (by decide +kernel)) fun q => by rw [← L.use_binary] at q; simp [h2] at q
        have w3 : Without c0.entries (long "no-default-runtime-environment") := without_num (isOpt_long (by decide +kernel) (by decide +kernel)) (hdr h3)
        rcases hf with rfl | ⟨rfl, hp⟩
        · exact .inl ⟨w1, w2, w3⟩
        · exact .inl ⟨w1, w2, w3, hp⟩
      · rcases q.tmp h with h | h
        · exact .inr (hl .t 't' [.mount_tmp, .vfs] _ h (by decide +kernel) (by decide +kernel) (.head _))
        · exact .inr (hg .profile "profile" [.vfs, .pivot_root, .mount_tmp, .remount_proc_ro, .using_minimalistic_mountns] _ h (by decide +kernel) (by decide +kernel) (by decide))
  · rw [h4]
    have key : ∀ o, (f, o) ∈ [(Feature.enable_fs_restrictions, Opt.noFsRestrictions), (.enable_new_sessions, .noNewSessions), (.enable_default_runtime, .noDefaultRuntime)] →
        (name.toList, o.num) ∈ longOptions → On f c2.j := by
      intro o ho hn
      have hh : ¬ Has c0.entries o := fun ⟨a, ha⟩ => hw _ ha hn
      rcases s2 f ((hkeep f).2 (q.kept f o ho hh)) with h | h
      · exact h
      · exfalso
        clear hh
        simp only [List.mem_cons, List.not_mem_nil, or_false, Prod.mk.injEq] at ho
        rcases ho with ⟨rfl, _⟩ | ⟨rfl, _⟩ | ⟨rfl, _⟩ <;> exact absurd h (by decide)
    simp only [mayRefuse, List.mem_cons, List.not_mem_nil, or_false, Prod.mk.injEq] at hm
    rcases hm with ⟨rfl, rfl⟩ | ⟨rfl, rfl⟩ | ⟨rfl, rfl⟩
    · exact key .noFsRestrictions (by decide) (by decide +kernel)
    · exact key .noNewSessions (by decide) (by decide +kernel)
    · exact key .noDefaultRuntime (by decide) (by decide +kernel)

/-- What an option gives a value is what the manual says. -/
private theorem gives_of {n : Nat} {o : Opt} {s : Setting} (hn : n = o.num) (h : s ∈ optGives o) : Gives n s := by
  subst hn
  have hl : ∀ (ch : Char) (fs : List Setting), (ch, fs) ∈ letterSets → ch.toNat = o.num → s ∈ fs → Gives o.num s := fun ch fs h1 h2 h3 => .inl ⟨ch, fs, h1, h2.symm, h3⟩
  have hg : ∀ (name : String) (fs : List Setting), (name, fs) ∈ longSets → (name.toList, o.num) ∈ longOptions → s ∈ fs → Gives o.num s := fun name fs h1 h2 h3 =>
    .inr ⟨name, fs, h1, h2, h3⟩
  cases o
  case u => exact hl 'u' [.uid, .user] (by decide +kernel) (by decide +kernel) h
  case g => exact hl 'g' [.gid] (by decide +kernel) (by decide +kernel) h
  case c => exact hl 'c' [.caps, .bounding] (by decide +kernel) (by decide +kernel) h
  case B => exact hl 'B' [.skipMask] (by decide +kernel) (by decide +kernel) h
  case C => exact hl 'C' [.root] (by decide +kernel) (by decide +kernel) h
  case P => exact hl 'P' [.root] (by decide +kernel) (by decide +kernel) h
  case b => exact hl 'b' [.mounts] (by decide +kernel) (by decide +kernel) h
  case k => exact hl 'k' [.mounts] (by decide +kernel) (by decide +kernel) h
  case v => exact hl 'v' [.propagation] (by decide +kernel) (by decide +kernel) h
  case V => exact hl 'V' [.mountNs] (by decide +kernel) (by decide +kernel) h
  case e => exact hl 'e' [.netNs, .loopback] (by decide +kernel) (by decide +kernel) h
  case f => exact hl 'f' [.pidFile] (by decide +kernel) (by decide +kernel) h
  case a => exact hl 'a' [.table] (by decide +kernel) (by decide +kernel) h
  case R => exact hl 'R' [.limits] (by decide +kernel) (by decide +kernel) h
  case profile =>
    exact hg "profile" [.mounts, .root, .tmpSize, .rules] (by decide +kernel) (by decide +kernel)
      (List.mem_append_left [Setting.tmpSize, .rules] (show s ∈ [Setting.mounts, .root] from h))
  case uts => exact hg "uts" [.hostname] (by decide +kernel) (by decide +kernel) h
  case preserveFd => exact hg "preserve-fd" [.preserved] (by decide +kernel) (by decide +kernel) h
  case fsDefaultPaths => exact hg "fs-default-paths" [.rules] (by decide +kernel) (by decide +kernel) h
  case fsPathRx => exact hg "fs-path-rx" [.rules] (by decide +kernel) (by decide +kernel) h
  case fsPathRo => exact hg "fs-path-ro" [.rules] (by decide +kernel) (by decide +kernel) h
  case fsPathRw => exact hg "fs-path-rw" [.rules] (by decide +kernel) (by decide +kernel) h
  case fsPathAdvancedRw => exact hg "fs-path-advanced-rw" [.rules] (by decide +kernel) (by decide +kernel) h
  case noDefaultRuntime => exact hg "no-default-runtime-environment" [.runtime] (by decide +kernel) (by decide +kernel) h
  case noNewSessions => exact hg "no-new-sessions" [.sessions] (by decide +kernel) (by decide +kernel) h
  all_goals exact absurd h List.not_mem_nil

/-- What has a value so far was given one. -/
private structure SetSoFar (c : Cli) : Prop where
  set : ∀ s, Agree minijailNew c.j s ∨ ∃ p ∈ c.entries, Gives p.1 s
  log : c.log_to_stderr = none ∨ Has c.entries .logging
  profile : On .using_minimalistic_mountns c.j → Has c.entries .profile

private theorem carried_set {env : CliEnv} {j : Jail} : Carried env j SetSoFar where
  step := by
    intro c n o arg I q ha ho
    refine all_mono (all_and optStep_on (all_and optStep_frames (all_and optStep_locals optStep_effect))) ?_
    rintro c' ⟨⟨s1, _⟩, F, L, E⟩
    have hE : c'.entries = c.entries ++ [(n, arg)] := E.entries
    refine ⟨fun s => ?_, ?_, fun hh => ?_⟩
    · by_cases hs : s ∈ optGives o
      · exact .inr ⟨_, by rw [hE]; exact List.mem_append_right _ (.head _), gives_of (num_of ho) hs⟩
      · rcases q.set s with h | ⟨p, hp, h⟩
        · exact .inl (h.also (F s hs))
        · exact .inr ⟨p, by rw [hE]; exact List.mem_append_left _ hp, h⟩
    · rw [hE, has_append ho]
      by_cases h1 : o = .logging
      · exact .inr (.inr h1)
      · rw [L.log h1]
        exact q.log.imp id .inl
    · rw [hE, has_append ho]
      rcases s1 _ hh with h | h
      · exact .inl (q.profile h)
      · right
        revert h
        clear L E s1 F hh
        unfold optOn
        cases o <;> dsimp only <;> try split
        all_goals simp
  confs := fun c es q => ⟨q.set, q.log, q.profile⟩

/-- **C53**, no other values: when a command line is accepted, every setting of the jail is as in a new one, unless an option gives it a value or it is one of
the two that have a default. -/
theorem C53_values (env : CliEnv) (he : GoodCliEnv env) (opts : Options) (ht : ∀ p ∈ opts, TextArg p.2) (program : Option CStr) (c : Cli)
    (h : parseArgs env minijailNew opts program = .ok (.run c)) :
    ∃ all, Expanded env.readConf opts all ∧ ∀ s, Agree minijailNew c.j s ∨ DefaultSetting env all s ∨ ∃ p ∈ all, Gives p.1 s := by
  obtain ⟨c0, j1, c2, I, ⟨q, q'⟩, r1, a1, hk, hm, I1, hx, h2, h3, h4, h5⟩ := run_carry (carried_set.and carried_on) he inv_new
    ⟨⟨fun s => .inl (AgreeAll.refl _ s), .inl rfl, fun h => absurd h (by decide)⟩,
      ⟨fun f h => .inl h, fun f o hm _ => new_kept f o hm, fun ⟨a, h⟩ => by simp at h, fun h => absurd rfl h⟩⟩ ht h
  have L := I.loop
  have i0 := (reach_kept I.good.reach inv_new).1
  have i1 := (reach_kept r1 i0).1
  obtain ⟨j', e, he2, _, F⟩ := all_ok (settle_final (c := { c0 with j := j1 }) he I1.good.path i1) h2
  obtain ⟨w1, w2⟩ := all_ok (settle_rest (c := { c0 with j := j1 }) he I1.good.path i1) h2
  have hcj : c.j = j' := by rw [h4, he2]
  have hc2 : c2.j = j' := by rw [he2]
  rw [hc2] at w1 w2
  have hl : ∀ (o : Opt) (ch : Char) (ss : List Setting) (s : Setting), Has c0.entries o → (ch, ss) ∈ letterSets → o.num = ch.toNat → s ∈ ss → ∃ p ∈ c0.entries, Gives p.1 s :=
    fun o ch ss s ⟨a, ha⟩ h1 h2 h3 => ⟨_, ha, .inl ⟨ch, ss, h1, h2, h3⟩⟩
  have hg : ∀ (o : Opt) (name : String) (ss : List Setting) (s : Setting), Has c0.entries o → (name, ss) ∈ longSets → (name.toList, o.num) ∈ longOptions → s ∈ ss →
      ∃ p ∈ c0.entries, Gives p.1 s := fun o name ss s ⟨a, ha⟩ h1 h2 h3 => ⟨_, ha, .inr ⟨name, ss, h1, h2, h3⟩⟩
  have hkeep : ∀ f, On f j1 → On f c0.j := by
    have hs : (keepStderr env c0).All fun c1 => Switched [] [] c0.j c1.j := by
      unfold keepStderr
      split
      · exact on_libMust (fun _ h => h) (fun _ h => h) (.refl _ _ _) fun _ h => h
      · exact .refl _ _ _
    have s := all_ok hs hk
    exact fun f h => (s.1 f h).elim id fun h => absurd h List.not_mem_nil
  refine ⟨c0.entries, hx, fun s => ?_⟩
  rw [hcj]
  have from1 : Agree j1 j' s → Agree c0.j j1 s → Agree minijailNew j' s ∨ DefaultSetting env c0.entries s ∨ ∃ p ∈ c0.entries, Gives p.1 s := fun b a =>
    (q.set s).imp (fun h => (h.also a).also b) .inr
  have no_pres : s ≠ .preserved → Agree c0.j j1 s := a1 s
  by_cases hs : s ∈ [Setting.uidmap, .gidmap, .propagation, .groups, .filter, .tmpSize, .rules]
  · simp only [List.mem_cons, List.not_mem_nil, or_false] at hs
    rcases hs with rfl | rfl | rfl | rfl | rfl | rfl | rfl
    · by_cases hh : c0.set_uidmap = true
      · exact .inr (.inr (hl .m 'm' [.uidmap] _ (L.uidmap.1 hh) (by decide +kernel) (by decide +kernel) (.head _)))
      · exact from1 (F.no_uidmap (by simpa using hh)) (a1 _ (by decide))
    · by_cases hh : c0.set_gidmap = true
      · exact .inr (.inr (hl .M 'M' [.gidmap] _ (L.gidmap.1 hh) (by decide +kernel) (by decide +kernel) (.head _)))
      · exact from1 (F.no_gidmap (by simpa using hh)) (a1 _ (by decide))
    · by_cases hh : c0.change_remount = true
      · exact .inr (.inr (hl .K 'K' [.propagation] _ (L.remount.1 hh) (by decide +kernel) (by decide +kernel) (.head _)))
      · exact from1 (F.no_remount (by simpa using hh)) (a1 _ (by decide))
    · by_cases hh : c0.suppl_gids = []
      · exact from1 (F.no_groups hh) (a1 _ (by decide))
      · exact .inr (.inr (hg .addSupplGroup "add-suppl-group" [.groups] _ (L.suppl.1 hh) (by decide +kernel) (by decide +kernel) (.head _)))
    · rcases w1 with w | w
      · exact from1 w (a1 _ (by decide))
      · rcases w with w | w | ⟨u1, u2, u3, u4⟩
        · exact .inr (.inr (hl .S 'S' [.filter] _ (L.use_filter.1 w) (by decide +kernel) (by decide +kernel) (.head _)))
        · exact .inr (.inr (hg .seccompBpfBinary "seccomp-bpf-binary" [.filter] _ (L.use_binary.1 w) (by decide +kernel) (by decide +kernel) (.head _)))
        · refine .inr (.inl ⟨?_, ?_, ?_, u4⟩)
          · exact without_num (isOpt_letter (o := .S) (by decide +kernel)) fun q => by rw [← L.use_filter] at q; simp_all
          · exact without_num (isOpt_long (o := .seccompBpfBinary) (by decide +kernel) (by decide +kernel)) fun q => by rw [← L.use_binary] at q; simp_all
          · exact without_num (isOpt_long (o := .noDefaultRuntime) (by decide +kernel) (by decide +kernel)) fun q2 => q'.refused q2 (hkeep _ u3)
    · by_cases hh : c0.tmp_size = 0#64
      · exact from1 (F.no_tmp hh) (a1 _ (by decide))
      · rcases q'.tmp hh with h | h
        · exact .inr (.inr (hl .t 't' [.tmpSize] _ h (by decide +kernel) (by decide +kernel) (.head _)))
        · exact .inr (.inr (hg .profile "profile" [.mounts, .root, .tmpSize, .rules] _ h (by decide +kernel) (by decide +kernel) (by decide)))
    · rcases w2 with w | w
      · exact from1 w (a1 _ (by decide))
      · exact .inr (.inr (hg .profile "profile" [.mounts, .root, .tmpSize, .rules] _ (q.profile (hkeep _ w)) (by decide +kernel) (by decide +kernel) (by decide)))
  · by_cases hp : s = .preserved
    · subst hp
      rcases q.log with hlog | hlog
      · by_cases htty : env.tty = true
        · exact .inr (.inl htty)
        · refine from1 (F.same _ hs) ?_
          unfold keepStderr at hk
          rw [hlog, Option.getD_none, if_neg htty] at hk
          have : c0.j = j1 := by
            injection hk with hk
            exact congrArg Cli.j hk
          rw [this]
          exact AgreeAll.refl _ _
      · exact .inr (.inr (hg .logging "logging" [.preserved] _ hlog (by decide +kernel) (by decide +kernel) (.head _)))
    · exact from1 (F.same _ hs) (a1 _ hp)

/-- A command line: init of a pid namespace, a new root, no signals. Eight features are on of what a new jail does not do, and all of them are asked for or default. -/
example : ∃ c, parseArgs {} minijailNew [('I'.toNat, none), ('P'.toNat, some "/r".toList), ('z'.toNat, none), ('u'.toNat, some "1000".toList)] (some "/bin/true".toList) = .ok (.run c) ∧
    On .run_as_init c.j ∧ On .pids c.j ∧ On .vfs c.j ∧ On .pivot_root c.j ∧ On .uid c.j ∧ On .no_new_privs c.j ∧ On .enable_new_sessions c.j ∧ ¬ On .forward_signals c.j ∧
    ¬ On .net c.j ∧ ¬ On .userns c.j := by
  have : (match parseArgs {} minijailNew [('I'.toNat, none), ('P'.toNat, some "/r".toList), ('z'.toNat, none), ('u'.toNat, some "1000".toList)] (some "/bin/true".toList) with
    | .ok (.run c) => decide (On .run_as_init c.j ∧ On .pids c.j ∧ On .vfs c.j ∧ On .pivot_root c.j ∧ On .uid c.j ∧ On .no_new_privs c.j ∧ On .enable_new_sessions c.j ∧
        ¬ On .forward_signals c.j ∧ ¬ On .net c.j ∧ ¬ On .userns c.j)
    | _ => false) = true := by decide +kernel
  revert this
  split
  · next c h => exact fun e => ⟨c, h, of_decide_eq_true e⟩
  · simp

end Minijail
