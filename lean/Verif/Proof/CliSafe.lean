import Verif.Proof.CliSettle
/-! The front end does not run into undefined behaviour when the options have the arguments they need. -/
set_option linter.unusedSimpArgs false
set_option autoImplicit false
namespace Minijail
open Spec

/-- The behaviour is defined. -/
def CliOut.Safe {α : Type} (x : CliOut α) : Prop := x ≠ .ub

theorem cs_bind {α β : Type} {x : CliOut α} {f : α → CliOut β} (h : x.Safe) (h' : ∀ a, x = .ok a → (f a).Safe) : (x >>= f).Safe := by
  cases x with
  | ok a => exact h' a rfl
  | exit n => intro e; cases e
  | die => intro e; cases e
  | ub => exact absurd rfl h

theorem cs_bind' {α β : Type} {x : CliOut α} {f : α → CliOut β} (h : x.Safe) (h' : ∀ a, x = .ok a → (f a).Safe) : (x.bind f).Safe := cs_bind h h'

theorem cs_pure {α : Type} {a : α} : (pure a : CliOut α).Safe := fun e => by cases e
theorem cs_ok {α : Type} {a : α} : (CliOut.ok a).Safe := fun e => by cases e
theorem cs_exit {α : Type} {n : Nat} : (CliOut.exit n : CliOut α).Safe := fun e => by cases e
theorem cs_die {α : Type} : (CliOut.die : CliOut α).Safe := fun e => by cases e

theorem cs_lib {env : CliEnv} {c : Cli} {k : Call} : (lib env c k).Safe := by
  unfold lib; split <;> intro e <;> cases e

theorem cs_libMust {env : CliEnv} {c : Cli} {k : Call} : (libMust env c k).Safe := by
  unfold libMust; (repeat' split) <;> intro e <;> cases e

theorem cs_refuse {b : Bool} : (refuseIf b).Safe := by
  unfold refuseIf; split <;> intro e <;> cases e

theorem cs_need {a : CStr} : (need (some a)).Safe := cs_ok

/-- Goes through a part. -/
macro "safe_step" : tactic => `(tactic| repeat' (first
  | exact cs_pure | exact cs_ok | exact cs_exit | exact cs_die | exact cs_lib | exact cs_libMust | exact cs_refuse | exact cs_need
  | (with_reducible refine cs_bind ?_ (fun _ _ => ?_)) | split))

theorem cs_caps {env : CliEnv} {c : Cli} {a : CStr} (hl : env.lastCap < 64) : (useCapsArg env c a).Safe := by
  unfold useCapsArg capsOf capMask
  have : ¬ (env.lastCap ≥ 64) := by omega
  refine cs_bind ?_ fun _ _ => cs_lib
  split
  · rw [if_neg (fun h => this h.1)]; exact cs_ok
  · safe_step

theorem cs_profile {env : CliEnv} {c : Cli} {a : CStr} : (useProfile env c a).Safe := by
  unfold useProfile profileDev usePivotRoot
  safe_step

/-- The labels that dereference their argument. -/
def Opt.derefs : Opt → Bool
  | .u | .g | .S | .B | .c | .C | .P | .f | .a | .T | .logging | .profile | .fsPathRx | .fsPathRo | .fsPathRw | .fsPathAdvancedRw
  | .preserveFd | .seccompBpfBinary | .addSupplGroup | .config | .genConfig | .envAdd => true
  | _ => false

theorem derefs_need {n : Nat} {o : Opt} {a : Option CStr} (h : optOfNat n = some o) (hc : Complete1 (n, a)) (hd : o.derefs = true) : a.isSome := by
  cases a with
  | some a => rfl
  | none =>
    exfalso
    have := num_of h
    subst this
    have := hc rfl
    dsimp only at this
    have key : ∀ p ∈ optNumbers, p.1.derefs = true → ¬ ((∀ ch ∈ needArgument, p.1.num ≠ ch.toNat) ∧
        ∀ name ∈ needArgumentLong, (name.toList, p.1.num) ∉ longOptions) := by decide +kernel
    obtain ⟨m, hm⟩ := opt_listed o
    exact key _ hm hd this

theorem cs_opt {env : CliEnv} {c : Cli} {o : Opt} {arg : Option CStr} (hl : env.lastCap < 64) (ha : o.derefs = true → arg.isSome) :
    (optStep env c o arg).Safe := by
  cases arg with
  | some a =>
    cases o <;> simp only [optStep]
    case c => exact cs_bind cs_need fun _ _ => cs_caps hl
    case profile => exact cs_bind cs_need fun _ _ => cs_profile
    all_goals
      try unfold setUser
      try unfold setGroup
      try unfold useChroot
      try unfold usePivotRoot
      try unfold supplGroupAdd
      try unfold setChildEnv
      try unfold addBinding addBindingOf
      try unfold addRlimitArg
      try unfold addMountArg
      try dsimp only
      safe_step
  | none =>
    cases o <;> first
      | exact absurd (ha rfl) (by simp)
      | (simp only [optStep]
         try unfold addBinding addBindingOf
         try unfold addRlimitArg
         try unfold addMountArg
         try dsimp only
         safe_step)

theorem cs_cliStep {env : CliEnv} {c : Cli} {n : Nat} {arg : Option CStr} (hl : env.lastCap < 64) (hc : Complete1 (n, arg)) : (cliStep env c n arg).Safe := by
  unfold cliStep
  dsimp only
  split
  · next h => exact cs_opt hl fun hd => derefs_need h hc hd
  · exact cs_exit

theorem cs_conf {env : CliEnv} (hl : env.lastCap < 64) : ∀ (es : List ConfigEntry) (c : Cli), CompleteEntries es → (confLoop env c es).Safe := by
  intro es
  induction es with
  | nil => intro c _; exact cs_ok
  | cons e es ih =>
    intro c h
    simp only [confLoop]
    split
    · exact cs_exit
    · next o ho => exact cs_bind' (cs_cliStep hl (h e (by simp) o ho)) fun c1 _ => ih c1 fun x hx => h x (by simp [hx])

/-- A configuration file was read from somewhere. -/
theorem confs_from {env : CliEnv} {c : Cli} {n : Nat} {arg : Option CStr} : (cliStep env c n arg).All fun c' => c.confs = none → ∀ es, c'.confs = some es →
    ∃ p text, env.readConf p = some text ∧ es = (parseConfigFile text).2 := by
  unfold cliStep
  dsimp only
  split
  · next o ho =>
    by_cases h : o = .config
    · subst h
      simp only [optStep]
      refine all_bind (all_refuse fun _ => all_bind (all_need fun a e => ?_))
      split
      · trivial
      · next text ht =>
        split
        · trivial
        · exact all_pure fun _ es he => ⟨a, text, ht, by cases he; rfl⟩
    · refine all_mono optStep_effect fun c' E h0 es he => ?_
      rw [E.confs h] at he
      simp [h0] at he
  · trivial

theorem conf_none {env : CliEnv} : ∀ (es : List ConfigEntry) (c : Cli), (confLoop env c es).All fun c' => c'.confs = none := by
  intro es
  induction es with
  | nil => intro c; exact rfl
  | cons e es ih =>
    intro c
    simp only [confLoop]
    split
    · trivial
    · exact all_bind' (all_of fun c1 _ => ih c1)

theorem cs_loop {env : CliEnv} (hl : env.lastCap < 64) (hf : ∀ p text, env.readConf p = some text → CompleteEntries (parseConfigFile text).2) :
    ∀ (opts : Options) (c : Cli), c.confs = none → (∀ o ∈ opts, Complete1 o) → (optLoop env c opts).Safe := by
  intro opts
  induction opts with
  | nil => intro c _ _; exact cs_ok
  | cons p opts ih =>
    intro c h0 h
    obtain ⟨o, arg⟩ := p
    simp only [optLoop]
    refine cs_bind' (cs_cliStep hl (h _ (by simp))) fun c1 e1 => ?_
    have hx := all_ok confs_from e1 h0
    have hr : ∀ c2 : Cli, c2.confs = none → (optLoop env c2 opts).Safe := fun c2 h2 => ih c2 h2 fun x hx => h x (by simp [hx])
    split
    · next es he =>
      obtain ⟨p, text, ht, rfl⟩ := hx es he
      exact cs_bind' (cs_conf hl _ _ (hf p text ht)) fun c2 e2 => hr c2 (all_ok (P := fun c : Cli => c.confs = none) (conf_none _ _) e2)
    · next he => exact cs_bind' cs_ok fun c2 e2 => hr c2 (by cases e2; exact he)

theorem cs_settle {env : CliEnv} {c : Cli} : (settle env c).Safe := by
  unfold settle setUidMapping setGidMapping settleSignals settleRemount settleGroups settleSeccomp settleTmp maybeDisableSetgroups setRemountMode
    setSeccompFile defaultSeccomp setSeccompFile
  safe_step

theorem cs_program {env : CliEnv} {c : Cli} {p : Option CStr} : (checkProgram env c p).Safe := by
  unfold checkProgram programType
  safe_step

theorem cs_stderr {env : CliEnv} {c : Cli} : (keepStderr env c).Safe := by
  unfold keepStderr
  safe_step

end Minijail
