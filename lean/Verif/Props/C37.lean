import Verif.Proof.CliSafe
import Verif.Model.Enter
/-! C37: the front end refuses contradictory options. -/
set_option linter.unusedSimpArgs false
set_option autoImplicit false
namespace Minijail
open Spec

private theorem has_given (opts : Options) (o : Opt) (ch : Char) (h : o.num = ch.toNat) : Given opts ch ↔ Has opts o := by
  unfold Given Has; rw [h]

private theorem has_long (opts : Options) (o : Opt) (name : String) (h : ∀ p ∈ longOptions, p.1 = name.toList → p.2 = o.num)
    (h' : (name.toList, o.num) ∈ longOptions) : GivenLong opts name ↔ Has opts o := by
  constructor
  · rintro ⟨n, a, hl, hm⟩
    have := h _ hl rfl
    dsimp only at this
    exact ⟨a, this ▸ hm⟩
  · rintro ⟨a, hm⟩
    exact ⟨_, a, h', hm⟩

/-- What an accepted command line went through. -/
private theorem run_parts {env : CliEnv} {j : Jail} {opts : Options} {program : Option CStr} {c : Cli} (he : GoodCliEnv env) (hj : Inv j)
    (ht : ∀ p ∈ opts, TextArg p.2) (h : parseArgs env j opts program = .ok (.run c)) :
    LoopInv c ∧ Expanded env.readConf opts c.entries ∧ Reach env j c.j ∧ Settled c ∧
      (c.suppl_gids ≠ [] → c.inherit_suppl_gids = false ∧ c.keep_suppl_gids = false) ∧
      ¬ (c.fs_path_flag_used = true ∧ c.fs_path_rules_enabled = false) ∧
      ∃ t, c.elftype = some t ∧ (c.caps = true → t = .static → c.use_ambient_caps = true) := by
  have key : (parseArgs env j opts program).All fun r => ∀ c, r = .run c →
      LoopInv c ∧ Expanded env.readConf opts c.entries ∧ Reach env j c.j ∧ Settled c ∧
      (c.suppl_gids ≠ [] → c.inherit_suppl_gids = false ∧ c.keep_suppl_gids = false) ∧
      ¬ (c.fs_path_flag_used = true ∧ c.fs_path_rules_enabled = false) ∧
      ∃ t, c.elftype = some t ∧ (c.caps = true → t = .static → c.use_ambient_caps = true) := by
    clear h c
    unfold parseArgs
    refine all_bind (all_mono (optLoop_inv he hj opts _ (cliInv_start env j) rfl ht) ?_)
    rintro c0 ⟨I, all, hx, ha⟩
    refine all_bind (all_mono (moved_keep (j := c0.j) (Reach.refl _ _)) ?_)
    rintro _ ⟨j1, rfl, r1⟩
    have hi := (reach_kept I.good.reach hj).1
    have kf := (reach_kept r1 hi).2
    have I1 : CliInv env j { c0 with j := j1 } :=
      ⟨{ I.loop with }, { I.good with reach := I.good.reach.trans r1 }, fun q => kf.inherit_suppl_gids (I.inherit q), fun q => kf.keep_suppl_gids (I.keep q)⟩
    refine all_bind (all_refuse fun hfs => ?_)
    split
    · refine all_bind (all_refuse fun _ => all_bind (all_refuse fun _ => all_pure ?_))
      rintro c e
      cases e
    · refine all_bind (all_mono (settle_ok he hj I1) ?_)
      rintro _ ⟨⟨j2, e2, rfl, r2⟩, S, hg⟩
      unfold checkProgram
      split
      · trivial
      · refine all_bind' (all_bind (all_of fun t _ => all_bind (all_refuse fun hs => all_pure (all_pure ?_))))
        rintro c e
        cases e
        refine ⟨{ I.loop with }, ?_, r2, { S with }, hg, ?_, t, rfl, ?_⟩
        · simp only [List.nil_append] at ha
          dsimp only
          rw [ha]; exact hx
        · rintro ⟨q1, q2⟩
          dsimp only at hfs q1 q2
          simp [q1, q2] at hfs
        · intro q1 q2
          dsimp only at hs q1
          subst q2
          cases hq : c0.use_ambient_caps
          · simp [q1, hq] at hs
          · rfl
  exact all_ok key h c rfl

/-- **C37**: the options of an accepted command line, with those of its configuration files, may be combined. Not part of it: option -G goes without a user
name (see `C37_violated`). -/
theorem C37_compatible_partial (env : CliEnv) (he : GoodCliEnv env) (opts : Options) (ht : ∀ p ∈ opts, TextArg p.2) (program : Option CStr) (c : Cli)
    (h : parseArgs env minijailNew opts program = .ok (.run c)) :
    ∃ all, Expanded env.readConf opts all ∧ Compatible all (c.elftype = some .static) := by
  obtain ⟨L, hx, _, S, hg, hf, t, het, hst⟩ := run_parts he inv_new ht h
  refine ⟨c.entries, hx, ?_⟩
  have gu : ∀ (o : Opt) (ch : Char), o.num = ch.toNat → times c.entries ch = count c.entries o := fun o ch e => by unfold times count; rw [e]
  have hp := has_long c.entries .profile "profile" (by decide +kernel) (by decide +kernel)
  have hs := has_long c.entries .addSupplGroup "add-suppl-group" (by decide +kernel) (by decide +kernel)
  have hb := has_long c.entries .seccompBpfBinary "seccomp-bpf-binary" (by decide +kernel) (by decide +kernel)
  have ha := has_long c.entries .ambient "ambient" (by decide +kernel) (by decide +kernel)
  have hC := has_given c.entries .C 'C' (by decide +kernel)
  have hP := has_given c.entries .P 'P' (by decide +kernel)
  have hG := has_given c.entries .G 'G' (by decide +kernel)
  have hy := has_given c.entries .y 'y' (by decide +kernel)
  have h_s := has_given c.entries .s 's' (by decide +kernel)
  have hS := has_given c.entries .S 'S' (by decide +kernel)
  have hL := has_given c.entries .L 'L' (by decide +kernel)
  have hc := has_given c.entries .c 'c' (by decide +kernel)
  have h_b := has_given c.entries .b 'b' (by decide +kernel)
  have hv := has_given c.entries .v 'v' (by decide +kernel)
  have hK := has_given c.entries .K 'K' (by decide +kernel)
  constructor
  · rw [gu .u 'u' (by decide +kernel), L.use_uid]; split <;> omega
  · rw [gu .g 'g' (by decide +kernel), L.use_gid]; split <;> omega
  · rw [hC, hP, hp, ← L.chroot, ← L.pivot_root]; exact L.one_root
  · rw [hG, hy, ← L.inherit, ← L.keep]; exact L.one_groups
  · rw [hs, hG, hy, ← L.inherit, ← L.keep, ← L.suppl]
    intro q
    have := hg q
    simp [this]
  · rw [h_s, hS]
    rintro ⟨q1, q2⟩
    have := L.strict q1
    rw [L.filter q2] at this
    cases this
  · rw [h_s, hb, L.binary]
    rintro ⟨q1, q2⟩
    rw [L.strict q1] at q2
    cases q2
  · rw [hS, hb, L.binary]
    rintro ⟨q1, q2⟩
    rw [L.filter q1] at q2
    cases q2
  · rw [hL, hb, L.binary, ← L.log]
    exact fun q => L.log_binary q.1 q.2
  · rw [ha, hc, ← L.ambient, ← L.caps]; exact S.ambient
  · rw [ha, hc, ← L.ambient, ← L.caps]
    intro q1 q2
    rw [het] at q2
    exact hst q1 (by simpa using q2)
  · rw [h_b, hC, hP, hp, hv, ← L.binds, ← L.chroot, ← L.mount_ns]
    intro q
    rcases S.binds q with r | r | r
    · exact .inl r
    · rcases L.pivot_root.1 r with r | r
      · exact .inr (.inl r)
      · exact .inr (.inr (.inl r))
    · exact .inr (.inr (.inr r))
  · rw [hK, hv, ← L.remount, ← L.mount_ns]; exact S.remount
  · rw [has_long c.entries .noFsRestrictions "no-fs-restrictions" (by decide +kernel) (by decide +kernel),
      has_long c.entries .fsDefaultPaths "fs-default-paths" (by decide +kernel) (by decide +kernel),
      has_long c.entries .fsPathRx "fs-path-rx" (by decide +kernel) (by decide +kernel),
      has_long c.entries .fsPathRo "fs-path-ro" (by decide +kernel) (by decide +kernel),
      has_long c.entries .fsPathRw "fs-path-rw" (by decide +kernel) (by decide +kernel),
      has_long c.entries .fsPathAdvancedRw "fs-path-advanced-rw" (by decide +kernel) (by decide +kernel)]
    intro q
    have h1 : c.fs_path_rules_enabled = false := by
      cases e : c.fs_path_rules_enabled
      · rfl
      · exact absurd q (L.fs_enabled.1 e)
    have h2 : ¬ (c.fs_path_flag_used = true) := fun q' => hf ⟨q', h1⟩
    rw [L.fs_used] at h2
    simpa only [not_or] using h2

/-- An accepted command line leads to a jail that calls of the library configure, so everything that holds of such a jail holds of it. -/
theorem C37_calls (env : CliEnv) (he : GoodCliEnv env) (opts : Options) (ht : ∀ p ∈ opts, TextArg p.2) (program : Option CStr) (c : Cli)
    (h : parseArgs env minijailNew opts program = .ok (.run c)) :
    Consistent c.j ∧ ∃ ks : List Call, (∀ k ∈ ks, GoodCall env.api k) ∧ calls minijailNew (ks.map fun k => (env.api, k)) = some c.j := by
  obtain ⟨_, _, r, _⟩ := run_parts he inv_new ht h
  exact ⟨(reach_kept r inv_new).1.2, r⟩

/-- When all options, also those of configuration files, have the arguments they need and there are at most 64 capabilities, the behaviour is defined. -/
theorem C37_safe (env : CliEnv) (hl : env.lastCap < 64) (hf : ∀ p text, env.readConf p = some text → CompleteEntries (parseConfigFile text).2) (j : Jail)
    (opts : Options) (ho : ∀ o ∈ opts, Complete1 o) (program : Option CStr) : parseArgs env j opts program ≠ .ub := by
  unfold parseArgs
  refine cs_bind (cs_loop hl hf opts _ rfl ho) fun c _ => cs_bind cs_stderr fun c _ => cs_bind cs_refuse fun _ _ => ?_
  split
  · exact cs_bind cs_refuse fun _ _ => cs_bind cs_refuse fun _ _ => cs_pure
  · exact cs_bind cs_settle fun c _ => cs_bind cs_program fun c _ => cs_pure

/-- The manual says that -G needs a user name given with -u; the front end accepts -G alone. -/
theorem C37_violated : ∃ c, parseArgs {} minijailNew [('G'.toNat, none)] (some "/bin/true".toList) = .ok (.run c) ∧
    c.j.flags.inherit_suppl_gids = true ∧ c.j.user = none := by
  refine ⟨_, rfl, ?_, ?_⟩ <;> decide +kernel

/-- Entering such a jail kills the process before anything is changed: the only request is the one for the last capability. -/
theorem C37_groups (env : EnterEnv) (j : Jail) (k : Kernel) (hg : j.flags.inherit_suppl_gids = true) (hu : j.user = none) :
    (minijailEnter env j k []).1 = .die ∧ ∀ e ∈ (minijailEnter env j k []).2, e.1 = .lastCap := by
  unfold minijailEnter getLastCap ifM
  by_cases h1 : (j.flags.capbset_drop || j.flags.use_caps) = true <;> by_cases h2 : j.flags.pids = true <;>
    by_cases h3 : k [] .lastCap < 0 ∨ k [] .lastCap > 64 <;> simp [bind, sys, dieIf, dieNow, pure, hg, hu, h1, h2, h3]

/-- A line of a configuration file that lacks its argument makes the front end use a null pointer. -/
theorem C37_violated_argument : parseArgs { readConf := fun _ => some "% minijail-config-file v0\nu\n".toList } minijailNew
    [(optVal "CONFIG", some "conf".toList)] (some "/bin/true".toList) = .ub := by
  have : (match parseArgs { readConf := fun _ => some "% minijail-config-file v0\nu\n".toList } minijailNew
    [(optVal "CONFIG", some "conf".toList)] (some "/bin/true".toList) with
    | .ub => true
    | _ => false) = true := by decide +kernel
  revert this
  split <;> simp_all

/-- The hypotheses are met by a command line with a configuration file: -u 1000 -G is refused with -y, and so on; this one is accepted. -/
example : ∃ c, parseArgs { readConf := fun _ => some "% minijail-config-file v0\nc = 0\nambient\n".toList } minijailNew
    [('v'.toNat, none), (optVal "CONFIG", some "conf".toList), ('b'.toNat, some "/a,/b,1".toList), (optVal "ADD_SUPPL_GROUP", some "7".toList)]
    (some "/bin/true".toList) = .ok (.run c) ∧
    c.entries = [('v'.toNat, none), (optVal "CONFIG", some "conf".toList), ('c'.toNat, some "0".toList), (optVal "AMBIENT", none),
      ('b'.toNat, some "/a,/b,1".toList), (optVal "ADD_SUPPL_GROUP", some "7".toList)] := by
  have : (match parseArgs { readConf := fun _ => some "% minijail-config-file v0\nc = 0\nambient\n".toList } minijailNew
      [('v'.toNat, none), (optVal "CONFIG", some "conf".toList), ('b'.toNat, some "/a,/b,1".toList), (optVal "ADD_SUPPL_GROUP", some "7".toList)]
      (some "/bin/true".toList) with
    | .ok (.run c) => c.entries == [('v'.toNat, none), (optVal "CONFIG", some "conf".toList), ('c'.toNat, some "0".toList), (optVal "AMBIENT", none),
      ('b'.toNat, some "/a,/b,1".toList), (optVal "ADD_SUPPL_GROUP", some "7".toList)]
    | _ => false) = true := by decide +kernel
  revert this
  split
  · next c h => exact fun e => ⟨c, h, by simpa using e⟩
  · simp

/-- The environment of that case is proper. -/
example : GoodCliEnv { readConf := fun _ => some "% minijail-config-file v0\nc = 0\nambient\n".toList, api := { userDb := fun _ => .error 2, groupDb := fun _ => .error 2 } } :=
  ⟨by intro s rc h; cases h; decide, by intro s rc h; cases h; decide, by simp, by intro p t h; cases h; unfold IsText; decide +kernel, by decide⟩

/-- Refused: -C with -P; bind mounts without a new root or mount namespace; -K without -v. -/
example : parseArgs {} minijailNew [('C'.toNat, some "/a".toList), ('P'.toNat, some "/b".toList)] (some "/bin/true".toList) = .exit 1 ∧
    parseArgs {} minijailNew [('b'.toNat, some "/a".toList)] (some "/bin/true".toList) = .exit 1 ∧
    parseArgs {} minijailNew [('K'.toNat, none)] (some "/bin/true".toList) = .exit 1 := ⟨rfl, rfl, rfl⟩

end Minijail
