import Verif.Proof.CliSettle
import Verif.Props.C49
/-! Invariants of the loop over the options. -/
set_option autoImplicit false
namespace Minijail
open Spec

/-- What every option keeps. -/
structure Carried (env : CliEnv) (j : Jail) (Q : Cli → Prop) : Prop where
  step : ∀ (c : Cli) (n : Nat) (o : Opt) (arg : Option CStr), CliInv env j c → Q c → TextArg arg → optOfNat n = some o →
    (optStep env { c with entries := c.entries ++ [(n, arg)] } o arg).All Q
  confs : ∀ (c : Cli) (es : Option (List ConfigEntry)), Q c → Q { c with confs := es }

theorem cliStep_carry {env : CliEnv} {j : Jail} {Q : Cli → Prop} (K : Carried env j Q) {c : Cli} {n : Nat} {arg : Option CStr} (I : CliInv env j c)
    (q : Q c) (ha : TextArg arg) : (cliStep env c n arg).All Q := by
  unfold cliStep
  dsimp only
  split
  · next o ho => exact K.step c n o arg I q ha ho
  · trivial

theorem confLoop_carry {env : CliEnv} {j : Jail} {Q : Cli → Prop} (K : Carried env j Q) (he : GoodCliEnv env) (hj : Inv j) :
    ∀ (es : List ConfigEntry) (c : Cli), CliInv env j c → Q c → TextEntries es → (confLoop env c es).All fun c' => CliInv env j c' ∧ Q c' ∧ c'.confs = none := by
  intro es
  induction es with
  | nil =>
    intro c I q _
    exact ⟨I.withConfs none (by simp), K.confs c none q, rfl⟩
  | cons e es ih =>
    intro c I q ht
    have hts : TextEntries es := fun x hx => ht x (by simp [hx])
    have I' := I.withConfs (some es) (by simpa using hts)
    simp only [confLoop]
    split
    · trivial
    · next o ho =>
      refine all_bind' (all_mono (all_and (cliStep_inv he hj I' (ht e (by simp))) (cliStep_carry K I' (K.confs c _ q) (ht e (by simp)))) ?_)
      rintro c1 ⟨⟨I1, _⟩, q1⟩
      exact ih c1 I1 q1 hts

theorem optLoop_carry {env : CliEnv} {j : Jail} {Q : Cli → Prop} (K : Carried env j Q) (he : GoodCliEnv env) (hj : Inv j) :
    ∀ (opts : Options) (c : Cli), CliInv env j c → Q c → (∀ p ∈ opts, TextArg p.2) → (optLoop env c opts).All Q := by
  intro opts
  induction opts with
  | nil => intro c I q _; exact q
  | cons p opts ih =>
    intro c I q ht
    obtain ⟨o, arg⟩ := p
    simp only [optLoop]
    refine all_bind' (all_mono (all_and (cliStep_inv he hj I (ht (o, arg) (by simp))) (cliStep_carry K I q (ht (o, arg) (by simp)))) ?_)
    rintro c1 ⟨⟨I1, _⟩, q1⟩
    refine all_bind' ?_
    split
    · next es hes =>
      refine all_mono (confLoop_carry K he hj es c1 I1 q1 (I1.good.confs es hes)) ?_
      rintro c2 ⟨I2, q2, _⟩
      exact ih c2 I2 q2 fun p hp => ht p (by simp [hp])
    · exact ih c1 I1 q1 fun p hp => ht p (by simp [hp])

/-- What holds of the local variables when the options are read and they are about to be settled. -/
theorem run_carry {env : CliEnv} {j : Jail} {Q : Cli → Prop} (K : Carried env j Q) (he : GoodCliEnv env) (hj : Inv j) (q0 : Q { j := j })
    {opts : Options} {program : Option CStr} {c : Cli} (ht : ∀ p ∈ opts, TextArg p.2) (h : parseArgs env j opts program = .ok (.run c)) :
    ∃ c0 j1 c2, CliInv env j c0 ∧ Q c0 ∧ Reach env c0.j j1 ∧ (∀ s, s ≠ .preserved → Agree c0.j j1 s) ∧ keepStderr env c0 = .ok { c0 with j := j1 } ∧ c0.parse_mode = false ∧ CliInv env j { c0 with j := j1 } ∧
      Expanded env.readConf opts c0.entries ∧ settle env { c0 with j := j1 } = .ok c2 ∧ c.entries = c0.entries ∧ c.j = c2.j ∧ c.envp = c2.envp ∧
      c.exit_immediately = c2.exit_immediately ∧ c.preload_path = c2.preload_path ∧
      ∃ p t, program = some p ∧ programType env c2 p = .ok t ∧ c.elftype = some t := by
  have key : (parseArgs env j opts program).All fun r => ∀ c, r = .run c →
      ∃ c0 j1 c2, CliInv env j c0 ∧ Q c0 ∧ Reach env c0.j j1 ∧ (∀ s, s ≠ .preserved → Agree c0.j j1 s) ∧ keepStderr env c0 = .ok { c0 with j := j1 } ∧ c0.parse_mode = false ∧ CliInv env j { c0 with j := j1 } ∧
      Expanded env.readConf opts c0.entries ∧ settle env { c0 with j := j1 } = .ok c2 ∧ c.entries = c2.entries ∧ c.j = c2.j ∧ c.envp = c2.envp ∧
      c.exit_immediately = c2.exit_immediately ∧ c.preload_path = c2.preload_path ∧
      ∃ p t, program = some p ∧ programType env c2 p = .ok t ∧ c.elftype = some t := by
    clear h c
    unfold parseArgs
    refine all_bind (all_mono (all_and (optLoop_inv he hj opts _ (cliInv_start env j) rfl ht) (optLoop_carry K he hj opts _ (cliInv_start env j) q0 ht)) ?_)
    rintro c0 ⟨⟨I, all, hx, ha⟩, q⟩
    have hk : (keepStderr env c0).All fun c1 => ∃ j1, c1 = { c0 with j := j1 } ∧ Reach env c0.j j1 ∧ (∀ s, s ≠ .preserved → Agree c0.j j1 s) := by
      unfold keepStderr
      split
      · refine all_libMust fun j1 e => ⟨j1, rfl, ?_, fun s hs => ?_⟩
        · exact (Reach.refl _ _).call (k := .preserveFd 2#32 2#32) trivial e
        · refine C49_frame env.api c0.j j1 (Call.preserveFd 2#32 2#32) 0 ?_ s ?_
          · exact e
          · exact fun h => hs (List.mem_singleton.1 h)
      · exact ⟨c0.j, rfl, Reach.refl _ _, fun s _ => AgreeAll.refl _ s⟩
    refine all_bind (all_mono (all_and hk (all_of fun _ h => h)) ?_)
    rintro _ ⟨⟨j1, rfl, r1, a1⟩, hkeep⟩
    have hi := (reach_kept I.good.reach hj).1
    have kf := (reach_kept r1 hi).2
    have I1 : CliInv env j { c0 with j := j1 } :=
      ⟨{ I.loop with }, { I.good with reach := I.good.reach.trans r1 }, fun q => kf.inherit_suppl_gids (I.inherit q), fun q => kf.keep_suppl_gids (I.keep q)⟩
    refine all_bind (all_refuse fun _ => ?_)
    split
    · refine all_bind (all_refuse fun _ => all_bind (all_refuse fun _ => all_pure ?_))
      rintro c e
      cases e
    · next hm =>
      refine all_bind (all_of fun c2 h2 => ?_)
      unfold checkProgram
      split
      · trivial
      · refine all_bind' (all_bind (all_of fun t ht => all_bind (all_refuse fun hs => all_pure (all_pure ?_))))
        rintro c e
        cases e
        refine ⟨c0, j1, c2, I, q, r1, a1, hkeep, by simpa using hm, I1, ?_, h2, rfl, rfl, rfl, rfl, rfl, _, t, rfl, ht, rfl⟩
        simp only [List.nil_append] at ha
        rw [ha]; exact hx
  obtain ⟨c0, j1, c2, I, q, r1, a1, hkeep, hm, I1, hx, h2, h3, h4⟩ := all_ok key h c rfl
  refine ⟨c0, j1, c2, I, q, r1, a1, hkeep, hm, I1, hx, h2, ?_, h4⟩
  obtain ⟨⟨_, _, rfl, _⟩, _⟩ := all_ok (settle_ok he hj I1) h2
  exact h3

end Minijail
