import Verif.Proof.CliFinal
import Verif.Proof.CliLocals
/-! C50: every option of an accepted command line takes effect. -/
set_option linter.unusedSimpArgs false
set_option autoImplicit false
namespace Minijail
open Spec

/-- The options given so far are done. -/
private def AllDone (soft : Bool) (c : Cli) : Prop := c.parse_mode = false → ∀ o a, (o.num, a) ∈ c.entries → Done soft o a c.j

private theorem carried_done {env : CliEnv} {j : Jail} (he : GoodCliEnv env) (hj : Inv j) : Carried env j (AllDone env.api.softfail) where
  step := by
    intro c n o arg I q ha ho
    have hi := (reach_kept I.good.reach hj).1
    have hg : (optStep env { c with entries := c.entries ++ [(n, arg)] } o arg).All (CliGood env c.j) :=
      optStep_good he ⟨Reach.refl _ _, I.good.path, I.good.confs⟩ ha
    by_cases hm : c.parse_mode = false
    · refine all_mono (all_and (optStep_done (c := { c with entries := c.entries ++ [(n, arg)] }) (o := o) (arg := arg) hi hm)
        (all_and hg optStep_effect)) ?_
      rintro c' ⟨d, g, E⟩ hm' o' a' h'
      rw [E.entries] at h'
      rcases List.mem_append.1 h' with h' | h'
      · exact done_kept (reach_keeps g.reach hi) (q hm o' a' h')
      · simp only [List.mem_singleton, Prod.mk.injEq] at h'
        obtain ⟨h1, rfl⟩ := h'
        have : o' = o := num_inj _ _ (h1.trans (num_of ho))
        subst this
        exact d
    · refine all_mono optStep_effect ?_
      intro c' E hm'
      rw [E.parse_mode] at hm'
      simp only [Bool.or_eq_false_iff] at hm'
      exact absurd hm'.1 hm
  confs := fun c es q => q

/-- A size that is not zero is set once /tmp is asked for. -/
private def TmpSet (c : Cli) : Prop :=
  (∀ a, (Opt.t.num, some a) ∈ c.entries → parseSize a ≠ .ok 0#64) → Has c.entries .t ∨ Has c.entries .profile → c.tmp_size ≠ 0#64

private theorem carried_tmp {env : CliEnv} {j : Jail} : Carried env j TmpSet where
  step := by
    intro c n o arg I q ha ho
    refine all_mono (all_and optStep_locals optStep_effect) ?_
    rintro c' ⟨L, E⟩ hz hh
    rw [E.entries] at hz hh
    dsimp only at hz hh
    rw [has_append ho, has_append ho] at hh
    have hd : (if c.tmp_size = 0#64 then DEFAULT_TMP_SIZE else c.tmp_size) ≠ 0#64 := by
      split
      · decide
      · assumption
    by_cases h1 : o = .t
    · cases harg : arg with
      | none => rw [L.tmp_none h1 harg]; exact hd
      | some a =>
        have := L.tmp_some a h1 harg
        have hz := hz a (List.mem_append_right _ (by rw [num_of ho, h1, harg]; exact List.mem_singleton.2 rfl))
        rw [this] at hz
        exact fun e => hz (by rw [e])
    · by_cases h2 : o = .profile
      · rw [L.tmp_profile h2]; exact hd
      · rw [L.tmp h1 h2]
        refine q (fun a h => hz a (List.mem_append_left _ h)) ?_
        rcases hh with (h | h) | (h | h)
        · exact .inl h
        · exact absurd h h1
        · exact .inr h
        · exact absurd h h2
  confs := fun c es q => q

private theorem gave_num {opts : Options} {ch : Char} {t : Option CStr} (o : Opt) (h : o.num = ch.toNat) (g : Gave opts ch t) : (o.num, t) ∈ opts := by
  rw [h]; exact g

private theorem gave_long {opts : Options} {t : Option CStr} (o : Opt) (name : String) (h : ∀ p ∈ longOptions, p.1 = name.toList → p.2 = o.num)
    (g : GaveLong opts name t) : (o.num, t) ∈ opts := by
  obtain ⟨n, hl, hm⟩ := g
  have := h _ hl rfl
  dsimp only at this
  exact this ▸ hm

/-- **C50**: in an accepted command line every option takes effect, also those from configuration files, whatever comes before or after. Not part of it:
what the manual says of -t and the profile: that they mount /tmp (see `C50_tmp_partial`); a second host name and a negative file descriptor to preserve, which
are dropped silently. -/
theorem C50_partial (env : CliEnv) (he : GoodCliEnv env) (opts : Options) (ht : ∀ p ∈ opts, TextArg p.2) (program : Option CStr) (c : Cli)
    (h : parseArgs env minijailNew opts program = .ok (.run c)) :
    ∃ all, Expanded env.readConf opts all ∧ TakesEffect env.api.softfail all c.j := by
  obtain ⟨c0, j1, c2, I, q, r1, a1, _, hm, I1, hx, h2, h3, h4, h5⟩ := run_carry (carried_done he inv_new) he inv_new (fun _ o a h => by simp at h) ht h
  refine ⟨c0.entries, hx, ?_⟩
  have i0 := (reach_kept I.good.reach inv_new).1
  have i1 := (reach_kept r1 i0).1
  obtain ⟨j', e, he2, _, F⟩ := all_ok (settle_final (c := { c0 with j := j1 }) he I1.good.path i1) h2
  have hcj : c.j = j' := by rw [h4, he2]
  rw [hcj]
  have L := I.loop
  have d : ∀ o a, (o.num, a) ∈ c0.entries → Done env.api.softfail o a j' := fun o a h =>
    done_kept (reach_keeps F.reach i1) (done_kept (reach_keeps r1 i0) (q hm o a h))
  have g : ∀ {ch : Char} {t : Option CStr} (o : Opt), o.num = ch.toNat → Gave c0.entries ch t → Done env.api.softfail o t j' := fun o h1 h2 =>
    d o _ (gave_num o h1 h2)
  have gl : ∀ {t : Option CStr} (o : Opt) (name : String), (∀ p ∈ longOptions, p.1 = name.toList → p.2 = o.num) → GaveLong c0.entries name t →
      Done env.api.softfail o t j' := fun o name h1 h2 => d o _ (gave_long o name h1 h2)
  constructor
  case a => exact fun t h => g .a (by decide +kernel) h
  case b => exact fun t h => g .b (by decide +kernel) h
  case c => exact fun t h => g .c (by decide +kernel) h
  case C =>
    intro t h
    have := g .C (by decide +kernel) h
    exact ⟨this.1, this.2 t rfl⟩
  case d => exact fun t h => g .d (by decide +kernel) h
  case e_new =>
    intro h
    have := g .e (by decide +kernel) h
    simpa [Done] using this
  case e_enter =>
    intro p h
    have := g .e (by decide +kernel) h
    simpa [Done] using this
  case f => exact fun t h => g .f (by decide +kernel) h
  case g => exact fun t h => g .g (by decide +kernel) h
  case G => exact fun t h => g .G (by decide +kernel) h
  case I => exact fun t h => g .I (by decide +kernel) h
  case k => exact fun t h => g .k (by decide +kernel) h
  case l => exact fun t h => g .l (by decide +kernel) h
  case m =>
    intro t h
    have := F.uidmap (L.uidmap.2 ⟨t, gave_num .m (by decide +kernel) h⟩)
    exact ⟨this.2.1, this.2.2, by simp [this.1]⟩
  case M =>
    intro t h
    have := F.gidmap (L.gidmap.2 ⟨t, gave_num .M (by decide +kernel) h⟩)
    exact ⟨this.2.1, this.2.2.1, by simp [this.1]⟩
  case n => exact fun t h => g .n (by decide +kernel) h
  case N => exact fun t h => g .N (by decide +kernel) h
  case p => exact fun t h => g .p (by decide +kernel) h
  case P =>
    intro t h
    have := g .P (by decide +kernel) h
    exact ⟨this.1, this.2.1 t rfl, this.2.2⟩
  case r => exact fun t h => g .r (by decide +kernel) h
  case R =>
    intro t h h0
    have : j'.rlimits.take j'.rlimit_count ≠ [] := g .R (by decide +kernel) h
    rw [h0] at this
    exact this rfl
  case s => exact fun t h => g .s (by decide +kernel) h
  case S => exact fun t h => g .S (by decide +kernel) h
  case t => exact fun t h => g .t (by decide +kernel) h
  case u => exact fun t h => g .u (by decide +kernel) h
  case U => exact fun t h => g .U (by decide +kernel) h
  case v => exact fun t h => g .v (by decide +kernel) h
  case V => exact fun t h => g .V (by decide +kernel) h
  case w => exact fun t h => g .w (by decide +kernel) h
  case y => exact fun t h => g .y (by decide +kernel) h
  case Y => exact fun t h => g .Y (by decide +kernel) h
  case z =>
    intro h
    refine F.signals (L.signals.2 ?_)
    rintro ⟨t, ht⟩
    exact h t ht
  case ambient => exact fun t h => gl .ambient "ambient" (by decide +kernel) h
  case uts => exact fun t h => gl .uts "uts" (by decide +kernel) h
  case profile => exact fun t h => gl .profile "profile" (by decide +kernel) h
  case binary => exact fun t h => gl .seccompBpfBinary "seccomp-bpf-binary" (by decide +kernel) h
  case groups =>
    intro t h
    exact (F.groups (L.suppl.2 ⟨t, gave_long .addSupplGroup "add-suppl-group" (by decide +kernel) h⟩)).1

/-- -t and the profile mount /tmp, unless some -t asks for the size 0. -/
theorem C50_tmp_partial (env : CliEnv) (he : GoodCliEnv env) (opts : Options) (ht : ∀ p ∈ opts, TextArg p.2) (program : Option CStr) (c : Cli)
    (h : parseArgs env minijailNew opts program = .ok (.run c)) :
    ∃ all, Expanded env.readConf opts all ∧ ((∀ a, Gave all 't' (some a) → parseSize a ≠ .ok 0#64) → (∃ a, Gave all 't' a ∨ GaveLong all "profile" a) →
      c.j.flags.mount_tmp = true ∧ c.j.tmpfs_size ≠ 0#64) := by
  obtain ⟨c0, j1, c2, I, q, r1, a1, _, hm, I1, hx, h2, h3, h4, h5⟩ :=
    run_carry carried_tmp he inv_new (fun _ h => by rcases h with ⟨_, h⟩ | ⟨_, h⟩ <;> simp at h) ht h
  refine ⟨c0.entries, hx, fun hz hg => ?_⟩
  have i0 := (reach_kept I.good.reach inv_new).1
  have i1 := (reach_kept r1 i0).1
  obtain ⟨j', e, he2, _, F⟩ := all_ok (settle_final (c := { c0 with j := j1 }) he I1.good.path i1) h2
  have hcj : c.j = j' := by rw [h4, he2]
  rw [hcj]
  have hn : c0.tmp_size ≠ 0#64 := by
    refine q (fun a h => hz a h) ?_
    obtain ⟨a, hg | hg⟩ := hg
    · exact .inl ⟨a, hg⟩
    · exact .inr ⟨a, gave_long .profile "profile" (by decide +kernel) hg⟩
  have := F.tmp hn
  exact ⟨this.1, by rw [this.2]; exact hn⟩

/-- `-t 0` is accepted and mounts nothing on /tmp. -/
theorem C50_violated_tmp : ∃ c, parseArgs {} minijailNew [('t'.toNat, some "0".toList)] (some "/bin/true".toList) = .ok (.run c) ∧
    c.j.flags.mount_tmp = false := by
  refine ⟨_, rfl, ?_⟩
  decide +kernel

/-- The second host name is dropped, although the options are accepted. -/
theorem C50_violated_uts : ∃ c, parseArgs {} minijailNew [(optVal "UTS", some "a".toList), (optVal "UTS", some "b".toList)] (some "/bin/true".toList) = .ok (.run c) ∧
    c.j.hostname = some (bstr "a") := by
  refine ⟨_, rfl, ?_⟩
  decide +kernel

/-- A negative file descriptor to preserve is dropped, although the options are accepted. -/
theorem C50_violated_preserve : ∃ c, parseArgs {} minijailNew [(optVal "PRESERVE_FD", some "-1".toList)] (some "/bin/true".toList) = .ok (.run c) ∧
    c.j.preserved_fd_count = 0 := by
  refine ⟨_, rfl, ?_⟩
  decide +kernel

/-- A command line that meets the hypotheses. -/
example : ∃ c, parseArgs {} minijailNew [('I'.toNat, none), ('b'.toNat, some "/a".toList), ('P'.toNat, some "/r".toList), ('m'.toNat, none), ('t'.toNat, none),
    ('c'.toNat, some "3".toList), ('R'.toNat, some "7,1,2".toList)] (some "/bin/true".toList) = .ok (.run c) ∧ c.j.flags.run_as_init = true ∧ c.j.flags.userns = true ∧
    c.j.flags.mount_tmp = true ∧ c.j.rlimit_count = 1 := by
  have : (match parseArgs {} minijailNew [('I'.toNat, none), ('b'.toNat, some "/a".toList), ('P'.toNat, some "/r".toList), ('m'.toNat, none), ('t'.toNat, none),
    ('c'.toNat, some "3".toList), ('R'.toNat, some "7,1,2".toList)] (some "/bin/true".toList) with
    | .ok (.run c) => c.j.flags.run_as_init && c.j.flags.userns && c.j.flags.mount_tmp && c.j.rlimit_count == 1
    | _ => false) = true := by decide +kernel
  revert this
  split
  · next c h => exact fun e => ⟨c, h, by simp_all⟩
  · simp

end Minijail
