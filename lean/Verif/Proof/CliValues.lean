import Verif.Proof.CliArgs
import Verif.Proof.CliFrame
import Verif.Proof.CliLocals
import Verif.Props.C12
/-! The values that options leave, followed through the loop. -/
set_option linter.unusedSimpArgs false
set_option autoImplicit false
namespace Minijail
open Spec

/-- The predicate picks this option. -/
def IsOpt (opt : Nat → Prop) (o : Opt) : Prop := ∀ n, opt n ↔ n = o.num

theorem isOpt_letter {ch : Char} {o : Opt} (h : o.num = ch.toNat) : IsOpt (letter ch) o := fun n => by rw [letter, h]

theorem isOpt_long {name : String} {o : Opt} (h : ∀ p ∈ longOptions, p.1 = name.toList → p.2 = o.num) (hm : (name.toList, o.num) ∈ longOptions) :
    IsOpt (long name) o := fun n => ⟨fun q => h _ q rfl, fun q => by rw [q]; exact hm⟩

theorem isOpt_iff {opt : Nat → Prop} {o o' : Opt} {n : Nat} (h : IsOpt opt o) (hn : optOfNat n = some o') : opt n ↔ o' = o := by
  rw [h n, num_of hn]
  exact ⟨num_inj _ _, fun q => by rw [q]⟩

theorem append_last {α : Type} {l before after : List α} {x y : α} (h : l ++ [x] = before ++ y :: after) :
    (after = [] ∧ l = before ∧ x = y) ∨ ∃ after', after = after' ++ [x] ∧ l = before ++ y :: after' := by
  rcases List.eq_nil_or_concat after with rfl | ⟨after', z, rfl⟩
  · left
    have := List.append_inj' h rfl
    exact ⟨rfl, this.1, by simpa using this.2⟩
  · right
    rw [List.concat_eq_append, ← List.cons_append, ← List.append_assoc] at h
    have := List.append_inj' h rfl
    refine ⟨after', ?_, this.1⟩
    rw [List.concat_eq_append]
    have h2 := this.2
    simp only [List.cons.injEq, and_true] at h2
    rw [h2]

theorem lastArg_append {opts : Options} {opt : Nat → Prop} {n : Nat} {arg : Option CStr} {a : CStr} (h : LastArg (opts ++ [(n, arg)]) opt a) :
    (opt n ∧ arg = some a) ∨ ((opt n → arg = none) ∧ LastArg opts opt a) := by
  obtain ⟨before, m, after, e, ho, hl⟩ := h
  rcases append_last e with ⟨rfl, _, e⟩ | ⟨after', rfl, e'⟩
  · cases e
    exact .inl ⟨ho, rfl⟩
  · exact .inr ⟨hl (n, arg) (by simp), before, m, after', e', ho, fun p hp => hl p (by simp [hp])⟩

theorem last_append {opts : Options} {opt : Nat → Prop} {n : Nat} {arg a : Option CStr} (h : Last (opts ++ [(n, arg)]) opt a) :
    (opt n ∧ arg = a) ∨ (¬ opt n ∧ Last opts opt a) := by
  obtain ⟨before, m, after, e, ho, hl⟩ := h
  rcases append_last e with ⟨rfl, _, e⟩ | ⟨after', rfl, e'⟩
  · cases e
    exact .inl ⟨ho, rfl⟩
  · exact .inr ⟨hl (n, arg) (by simp), before, m, after', e', ho, fun p hp => hl p (by simp [hp])⟩

theorem firstArg_append {opts : Options} {opt : Nat → Prop} {n : Nat} {arg : Option CStr} {a : CStr} (h : FirstArg (opts ++ [(n, arg)]) opt a) :
    FirstArg opts opt a ∨ (opt n ∧ arg = some a ∧ ∀ p ∈ opts, opt p.1 → p.2 = none) := by
  obtain ⟨before, m, after, e, ho, hl⟩ := h
  rcases append_last e with ⟨rfl, hb, e⟩ | ⟨after', rfl, e'⟩
  · cases e
    rw [hb]; exact .inr ⟨ho, rfl, hl⟩
  · exact .inl ⟨before, m, after', e', ho, hl⟩

theorem args_append {opt : Nat → Prop} {l l' : Options} {as as' : List CStr} (h : Args opt l as) (h' : Args opt l' as') : Args opt (l ++ l') (as ++ as') := by
  induction h with
  | nil => exact h'
  | given h _ ih => exact .given h ih
  | bare h _ ih => exact .bare h ih
  | other h _ ih => exact .other h ih

theorem args_unique {opt : Nat → Prop} {l : Options} {as as' : List CStr} (h : Args opt l as) (h' : Args opt l as') : as = as' := by
  induction h generalizing as' with
  | nil => cases h'; rfl
  | given h _ ih =>
    cases h' with
    | given _ r => rw [ih r]
    | other q _ => exact absurd h q
  | bare h _ ih =>
    cases h' with
    | bare _ r => exact ih r
    | other q _ => exact absurd h q
  | other h _ ih =>
    cases h' with
    | given q _ => exact absurd q h
    | bare q _ => exact absurd q h
    | other _ r => exact ih r

theorem Carried.and {env : CliEnv} {j : Jail} {P Q : Cli → Prop} (h : Carried env j P) (h' : Carried env j Q) : Carried env j fun c => P c ∧ Q c where
  step := fun c n o arg I q ha ho => all_and (h.step c n o arg I q.1 ha ho) (h'.step c n o arg I q.2 ha ho)
  confs := fun c es q => ⟨h.confs c es q.1, h'.confs c es q.2⟩

theorem Carried.imp {env : CliEnv} {j : Jail} {p : Prop} {Q : Cli → Prop} (h : p → Carried env j Q) : Carried env j fun c => p → Q c where
  step := fun c n o arg I q ha ho => by
    by_cases hp : p
    · exact all_mono ((h hp).step c n o arg I (q hp) ha ho) fun c' x _ => x
    · exact all_of fun c' _ x => absurd x hp
  confs := fun c es q hp => (h hp).confs c es (q hp)

theorem not_parsing {o : Opt} {c c' : Cli} (E : Effect o c c') (h : c'.parse_mode = false) : c.parse_mode = false := by
  rw [E.parse_mode] at h
  simp only [Bool.or_eq_false_iff] at h
  exact h.1

/-- The last argument of an option decides a setting. -/
theorem carried_last {env : CliEnv} {j0 : Jail} {opt : Nat → Prop} {o : Opt} (ho : IsOpt opt o) (s : Setting) (V : CStr → Jail → Prop)
    (keep : ∀ a j j', Agree j j' s → V a j → V a j') (frame : ∀ o', o' ≠ o → s ∉ optGives o')
    (own : ∀ c a, c.parse_mode = false → (optStep env c o (some a)).All fun c' => V a c'.j)
    (bare : ∀ c, c.parse_mode = false → (optStep env c o none).All fun c' => Agree c.j c'.j s) :
    Carried env j0 fun c => c.parse_mode = false → ∀ a, LastArg c.entries opt a → V a c.j where
  step := by
    intro c n o' arg I q _ hn
    have hE : (optStep env { c with entries := c.entries ++ [(n, arg)] } o' arg).All (Effect o' { c with entries := c.entries ++ [(n, arg)] }) := optStep_effect
    by_cases hm : c.parse_mode = false
    · by_cases h : o' = o
      · subst h
        have hopt : opt n := (isOpt_iff ho hn).2 rfl
        cases arg with
        | some a0 =>
          refine all_mono (all_and hE (own _ a0 hm)) ?_
          rintro c' ⟨E, v⟩ _ a hl
          rw [E.entries] at hl
          rcases lastArg_append hl with ⟨_, e⟩ | ⟨e, _⟩
          · cases e; exact v
          · exact absurd (e hopt) (by simp)
        | none =>
          refine all_mono (all_and hE (bare _ hm)) ?_
          rintro c' ⟨E, v⟩ _ a hl
          rw [E.entries] at hl
          rcases lastArg_append hl with ⟨_, e⟩ | ⟨_, e⟩
          · cases e
          · exact keep a _ _ v (q hm a e)
      · refine all_mono (all_and hE optStep_frames) ?_
        rintro c' ⟨E, v⟩ _ a hl
        rw [E.entries] at hl
        rcases lastArg_append hl with ⟨e, _⟩ | ⟨_, e⟩
        · exact absurd ((isOpt_iff ho hn).1 e) h
        · exact keep a _ _ (v s (frame o' h)) (q hm a e)
    · refine all_mono hE ?_
      intro c' E hm'
      exact absurd (not_parsing E hm') hm
  confs := fun c es q => q

theorem gives_only {s : Setting} {o : Opt} (h : ∀ p ∈ optNumbers, p.1 ≠ o → s ∉ optGives p.1) : ∀ o', o' ≠ o → s ∉ optGives o' := by
  intro o' q
  obtain ⟨n, hn⟩ := opt_listed o'
  exact h _ hn q

theorem carried_caps {env : CliEnv} {j0 : Jail} :
    Carried env j0 fun c => c.parse_mode = false → ∀ a, LastArg c.entries (letter 'c') a → CapsOf env.capText env.lastCap a c.j.caps := by
  refine carried_last (isOpt_letter (o := .c) (by decide +kernel)) .caps (fun a j => CapsOf env.capText env.lastCap a j.caps) ?_ (gives_only (by decide +kernel)) ?_ ?_
  · intro a j j' h v; rw [show j'.caps = j.caps from h]; exact v
  · intro c a hm
    show (useCapsArg env _ a).All _
    unfold useCapsArg
    refine all_bind (all_of fun m e => all_lib fun rc j h => ?_)
    simp only [call, useCaps, ApiRes.ok, ApiRes.ret.injEq] at h
    rw [← h.2]
    exact capsOf_spec e
  · intro c _; exact trivial

theorem carried_securebits {env : CliEnv} {j0 : Jail} :
    Carried env j0 fun c => c.parse_mode = false → ∀ a, LastArg c.entries (letter 'B') a → MaskOf a c.j.securebits_skip_mask := by
  refine carried_last (isOpt_letter (o := .B) (by decide +kernel)) .skipMask (fun a j => MaskOf a j.securebits_skip_mask) ?_ (gives_only (by decide +kernel)) ?_ ?_
  · intro a j j' h v; rw [show j'.securebits_skip_mask = j.securebits_skip_mask from h]; exact v
  · intro c a hm
    simp only [optStep]
    refine all_bind (all_need fun a' ha => ?_)
    cases ha
    split
    · trivial
    · next m e =>
      refine all_lib fun rc j h => ?_
      simp only [call, ApiRes.ok, ApiRes.ret.injEq] at h
      rw [← h.2]
      exact hexMask_mask e
  · intro c _; exact trivial

theorem carried_pid_file {env : CliEnv} {j0 : Jail} :
    Carried env j0 fun c => c.parse_mode = false → ∀ a, LastArg c.entries (letter 'f') a → c.j.pid_file_path = some (bytesOf a) := by
  refine carried_last (isOpt_letter (o := .f) (by decide +kernel)) .pidFile (fun a j => j.pid_file_path = some (bytesOf a)) ?_ (gives_only (by decide +kernel)) ?_ ?_
  · intro a j j' h v; rw [show j'.pid_file_path = j.pid_file_path from h]; exact v
  · intro c a hm
    simp only [optStep, hm, Bool.false_eq_true, if_false]
    refine all_bind (all_need fun a' ha => all_libMust fun j h => ?_)
    cases ha
    simp only [call, writePidFile, ApiRes.ok] at h
    split at h
    · simp [ENOMEM] at h
    · simp only [ApiRes.ret.injEq, true_and] at h
      rw [← h]
  · intro c hm
    simp only [optStep, hm, Bool.false_eq_true, if_false]
    exact trivial

theorem carried_table {env : CliEnv} {j0 : Jail} :
    Carried env j0 fun c => c.parse_mode = false → ∀ a, LastArg c.entries (letter 'a') a → c.j.alt_syscall_table = some (bytesOf a) := by
  refine carried_last (isOpt_letter (o := .a) (by decide +kernel)) .table (fun a j => j.alt_syscall_table = some (bytesOf a)) ?_ (gives_only (by decide +kernel)) ?_ ?_
  · intro a j j' h v; rw [show j'.alt_syscall_table = j.alt_syscall_table from h]; exact v
  · intro c a hm
    simp only [optStep]
    refine all_bind (all_need fun a' ha => all_libMust fun j h => ?_)
    cases ha
    simp only [call, useAltSyscall, ApiRes.ok] at h
    split at h
    · simp [ENOMEM] at h
    · simp only [ApiRes.ret.injEq, true_and] at h
      rw [← h]
  · intro c _; exact trivial

theorem carried_mount_ns {env : CliEnv} {j0 : Jail} :
    Carried env j0 fun c => c.parse_mode = false → ∀ a, LastArg c.entries (letter 'V') a → env.api.openNs (bytesOf a) = some c.j.mountns_fd := by
  refine carried_last (isOpt_letter (o := .V) (by decide +kernel)) .mountNs (fun a j => env.api.openNs (bytesOf a) = some j.mountns_fd) ?_
    (gives_only (by decide +kernel)) ?_ ?_
  · intro a j j' h v; rw [show j'.mountns_fd = j.mountns_fd from h]; exact v
  · intro c a hm
    simp only [optStep, hm, Bool.false_eq_true, if_false]
    refine all_lib fun rc j h => ?_
    simp only [call, namespaceEnterVfs, ApiRes.ok] at h
    split at h
    · simp at h
    · next e =>
      simp only [ApiRes.ret.injEq] at h
      rw [← h.2]
      exact e
  · intro c hm
    simp only [optStep, hm, Bool.false_eq_true, if_false]
    exact trivial

theorem carried_net_ns {env : CliEnv} {j0 : Jail} :
    Carried env j0 fun c => c.parse_mode = false → ∀ a, LastArg c.entries (letter 'e') a → env.api.openNs (bytesOf a) = some c.j.netns_fd := by
  refine carried_last (isOpt_letter (o := .e) (by decide +kernel)) .netNs (fun a j => env.api.openNs (bytesOf a) = some j.netns_fd) ?_
    (gives_only (by decide +kernel)) ?_ ?_
  · intro a j j' h v; rw [show j'.netns_fd = j.netns_fd from h]; exact v
  · intro c a hm
    simp only [optStep, hm, Bool.false_eq_true, if_false]
    refine all_lib fun rc j h => ?_
    simp only [call, namespaceEnterNet, ApiRes.ok] at h
    split at h
    · simp at h
    · next e =>
      simp only [ApiRes.ret.injEq] at h
      rw [← h.2]
      exact e
  · intro c hm
    simp only [optStep, hm, Bool.false_eq_true, if_false]
    refine all_lib fun rc j h => ?_
    simp only [call, setFlags, ApiRes.ok, ApiRes.ret.injEq] at h
    rw [← h.2]
    exact rfl

/-- The arguments of an option add up to a list. -/
theorem carried_args {env : CliEnv} {j0 : Jail} {opt : Nat → Prop} {o : Opt} (ho : IsOpt opt o) {α : Type} (R : CStr → α → Prop) (list : Cli → List α)
    (hc : ∀ c es, list { c with confs := es } = list c) (hn : ∀ c es, list { c with entries := es } = list c)
    (other : ∀ c o' arg, CliInv env j0 c → o' ≠ o → (optStep env { c with entries := c.entries ++ [(o'.num, arg)] } o' arg).All fun c' => list c' = list c)
    (own : ∀ c arg, CliInv env j0 c → c.parse_mode = false → (optStep env { c with entries := c.entries ++ [(o.num, arg)] } o arg).All fun c' =>
      ∃ a x, arg = some a ∧ R a x ∧ list c' = list c ++ [x]) :
    Carried env j0 fun c => c.parse_mode = false → ∃ as, Args opt c.entries as ∧ List.Forall₂ R as (list c) where
  step := by
    intro c n o' arg I q _ hopt
    have hE : (optStep env { c with entries := c.entries ++ [(n, arg)] } o' arg).All (Effect o' { c with entries := c.entries ++ [(n, arg)] }) := optStep_effect
    by_cases hm : c.parse_mode = false
    · obtain ⟨as, h1, h2⟩ := q hm
      by_cases h : o' = o
      · subst h
        have hn' := num_of hopt
        subst hn'
        refine all_mono (all_and hE (own c arg I hm)) ?_
        rintro c' ⟨E, a, x, rfl, r, e⟩ _
        refine ⟨as ++ [a], ?_, ?_⟩
        · rw [E.entries]
          exact args_append h1 (.given ((isOpt_iff ho hopt).2 rfl) .nil)
        · rw [e]
          exact List.rel_append h2 (.cons r .nil)
      · have hn' := num_of hopt
        subst hn'
        refine all_mono (all_and hE (other c o' arg I h)) ?_
        rintro c' ⟨E, e⟩ _
        refine ⟨as, ?_, ?_⟩
        · rw [E.entries]
          have := args_append h1 (.other (opt := opt) (p := (o'.num, arg)) (fun q => h ((isOpt_iff ho hopt).1 q)) .nil)
          rw [List.append_nil] at this
          exact this
        · rw [e]; exact h2
    · refine all_mono hE ?_
      intro c' E hm'
      exact absurd (not_parsing E hm') hm
  confs := fun c es q hm => by
    obtain ⟨as, h1, h2⟩ := q hm
    exact ⟨as, h1, by rw [hc]; exact h2⟩

theorem carried_limits {env : CliEnv} {j0 : Jail} (hj : Inv j0) : Carried env j0 fun c => c.parse_mode = false → ∃ as, Args (letter 'R') c.entries as ∧
    List.Forall₂ (RlimitOf env.consts.named) as (c.j.rlimits.take c.j.rlimit_count) := by
  refine carried_args (isOpt_letter (o := .R) (by decide +kernel)) (RlimitOf env.consts.named) (fun c => c.j.rlimits.take c.j.rlimit_count)
    (fun _ _ => rfl) (fun _ _ => rfl) ?_ ?_
  · intro c o' arg I h
    refine all_mono optStep_frames fun c' v => ?_
    have := v .limits (gives_only (o := .R) (by decide +kernel) o' h)
    rw [show c'.j.rlimits = c.j.rlimits from this.1, show c'.j.rlimit_count = c.j.rlimit_count from this.2]
  · intro c arg I hm
    exact rlimit_spec (c := { c with entries := c.entries ++ [(Opt.R.num, arg)] }) (reach_kept I.good.reach hj).1

theorem carried_groups {env : CliEnv} {j0 : Jail} : Carried env j0 fun c => c.parse_mode = false → ∃ as, Args (long "add-suppl-group") c.entries as ∧
    List.Forall₂ (IdOf (lookupGroup env)) as c.suppl_gids := by
  refine carried_args (isOpt_long (o := .addSupplGroup) (by decide +kernel) (by decide +kernel)) (IdOf (lookupGroup env)) (fun c => c.suppl_gids)
    (fun _ _ => rfl) (fun _ _ => rfl) ?_ ?_
  · intro c o' arg I h
    exact all_mono optStep_locals fun c' L => L.suppl h
  · intro c arg I hm
    simp only [optStep]
    refine all_bind (all_need fun a ha => ?_)
    unfold supplGroupAdd
    split
    · next g e => exact ⟨a, g, ha, idOf_num e, rfl⟩
    · next e =>
      split
      · trivial
      · next g hg => exact ⟨a, g, ha, idOf_name e (by simp only [lookupGroup, hg]; rfl), rfl⟩

theorem profile_mounts {env : CliEnv} {c : Cli} {p : CStr} : (useProfile env c p).All fun c' => ∃ ms, ProfileMounts p ms ∧ c'.j.mounts = c.j.mounts ++ ms := by
  have hf : ∀ {c : Cli} {k : Call} {P : Cli → Prop}, gives k = [] → (∀ j', j'.mounts = c.j.mounts → P { c with j := j' }) → (lib env c k).All P := by
    intro c k P hg n
    exact all_lib fun rc j e => n j (C49_frame _ _ _ _ _ e .mounts (by rw [hg]; exact List.not_mem_nil))
  have hb : ∀ {c : Cli} {s d : BStr} {P : Cli → Prop}, (∀ j', j'.mounts = c.j.mounts ++ [bindMount s d false] → P { c with j := j' }) → (libMust env c (.bind s d false)).All P := by
    intro c s d P n
    exact all_libMust fun j e => n j (bind_ok e)
  have hd : ∀ c1, (profileDev env c1 p).All fun c' => c'.j.mounts = c1.j.mounts ++ if p = "minimalistic-mountns".toList then [bindMount (bstr "/dev/log") (bstr "/dev/log") false] else [] := by
    intro c1
    unfold profileDev
    split
    · exact all_bind (hb fun j1 e1 => hf rfl fun j2 e2 => e2.trans e1)
    · simp [CliOut.All, pure]
  have hv : ∀ c1, (usePivotRoot env c1 env.pivotRoot).All fun c' => c'.j.mounts = c1.j.mounts := by
    intro c1
    refine all_mono (frames_pivot (G := [.root]) (j := c1.j) (by decide) (.refl _ _)) fun c' v => ?_
    exact v .mounts (by decide)
  unfold useProfile
  refine all_bind (all_refuse fun hp => all_bind (hf rfl fun j1 e1 => all_bind (hb fun j2 e2 => all_bind (hb fun j3 e3 => all_bind (all_mono (hd _) fun c4 e4 =>
    all_bind (hf rfl fun j5 e5 => all_bind (hf rfl fun j6 e6 => all_mono (hv _) fun c7 e7 => ?_)))))))
  dsimp only at *
  rw [e7, e6, e5, show (defaultTmp c4).j = c4.j from rfl, e4, e3, e2, e1]
  by_cases h : p = "minimalistic-mountns".toList
  · rw [if_pos h]
    exact ⟨_, .inl ⟨h, rfl⟩, by simp⟩
  · rw [if_neg h]
    refine ⟨_, .inr ⟨?_, rfl⟩, by simp⟩
    by_cases h2 : p = "minimalistic-mountns-nodev".toList
    · exact h2
    · rw [decide_eq_true h, decide_eq_true h2] at hp
      cases hp

/-- The options add up to the mounts. -/
theorem carried_mounts {env : CliEnv} {j0 : Jail} : Carried env j0 fun c => c.parse_mode = false → ∃ parts, List.Forall₂ (MountsOf env.consts.named) c.entries parts ∧
    c.j.mounts = j0.mounts ++ parts.flatten where
  step := by
    intro c n o arg I q _ hopt
    have hE : (optStep env { c with entries := c.entries ++ [(n, arg)] } o arg).All (Effect o { c with entries := c.entries ++ [(n, arg)] }) := optStep_effect
    by_cases hm : c.parse_mode = false
    · obtain ⟨parts, h1, h2⟩ := q hm
      have hb := isOpt_iff (isOpt_letter (o := .b) (ch := 'b') (by decide +kernel)) hopt
      have hk := isOpt_iff (isOpt_letter (o := .k) (ch := 'k') (by decide +kernel)) hopt
      have hp := isOpt_iff (isOpt_long (o := .profile) (name := "profile") (by decide +kernel) (by decide +kernel)) hopt
      have hs : (optStep env { c with entries := c.entries ++ [(n, arg)] } o arg).All fun c' =>
          ∃ ms, MountsOf env.consts.named (n, arg) ms ∧ c'.j.mounts = c.j.mounts ++ ms := by
        by_cases q1 : o = .b
        · subst q1
          simp only [optStep, hm, Bool.false_eq_true, if_false]
          refine all_mono binding_spec ?_
          rintro c' ⟨a, m, ha, hb', e⟩
          refine ⟨[m], ⟨fun _ => ⟨a, m, ha, hb', rfl⟩, fun h => ?_, fun h => ?_, fun h => absurd (hb.2 rfl) h⟩, e⟩
          · exact absurd (hk.1 h) (by decide)
          · exact absurd (hp.1 h) (by decide)
        · by_cases q2 : o = .k
          · subst q2
            simp only [optStep, hm, Bool.false_eq_true, if_false]
            refine all_mono mount_spec ?_
            rintro c' ⟨a, m, ha, hb', e⟩
            refine ⟨[m], ⟨fun h => ?_, fun _ => ⟨a, m, ha, hb', rfl⟩, fun h => ?_, fun _ h => absurd (hk.2 rfl) h⟩, e⟩
            · exact absurd (hb.1 h) (by decide)
            · exact absurd (hp.1 h) (by decide)
          · by_cases q3 : o = .profile
            · subst q3
              simp only [optStep]
              refine all_bind (all_need fun a ha => all_mono profile_mounts ?_)
              rintro c' ⟨ms, hp', e⟩
              refine ⟨ms, ⟨fun h => ?_, fun h => ?_, fun _ => ⟨a, ha, hp'⟩, fun _ _ h => absurd (hp.2 rfl) h⟩, e⟩
              · exact absurd (hb.1 h) (by decide)
              · exact absurd (hk.1 h) (by decide)
            · refine all_mono optStep_frames fun c' v => ⟨[], ⟨fun h => absurd (hb.1 h) q1, fun h => absurd (hk.1 h) q2, fun h => absurd (hp.1 h) q3, fun _ _ _ => rfl⟩, ?_⟩
              have := v .mounts (by
                intro h
                revert q1 q2 q3 h
                have : ∀ p ∈ optNumbers, p.1 ≠ .b → p.1 ≠ .k → p.1 ≠ .profile → Setting.mounts ∉ optGives p.1 := by decide +kernel
                obtain ⟨n, hn⟩ := opt_listed o
                exact fun q1 q2 q3 h => this _ hn q1 q2 q3 h)
              rw [List.append_nil]
              exact this
      refine all_mono (all_and hE hs) ?_
      rintro c' ⟨E, ms, hms, e⟩ _
      refine ⟨parts ++ [ms], ?_, ?_⟩
      · rw [E.entries]
        exact List.rel_append h1 (.cons hms .nil)
      · rw [e, h2]
        simp
    · refine all_mono hE ?_
      intro c' E hm'
      exact absurd (not_parsing E hm') hm
  confs := fun c es q => q

theorem strtol_num {a : CStr} {n : Nat} (h : Decimal a n) (hn : n < 2 ^ 31) : ∃ r, strtol 64 10 a = some r ∧ r.rest = [] ∧ r.val = n := by
  obtain ⟨neg, m, h1, h2⟩ := (signed_decimal_iff a n).1 h
  unfold strtol
  rw [h1]
  cases neg
  · simp only [Bool.false_eq_true, if_false] at h2
    dsimp only
    rw [if_pos (by omega)]
    exact ⟨_, rfl, rfl, h2.symm⟩
  · simp only [if_true] at h2
    dsimp only
    rw [if_pos (by omega)]
    exact ⟨_, rfl, rfl, h2.symm⟩

theorem preserve_ok {j j' : Jail} {p q : BitVec 32} {rc : Int} (hj : Inv j) (h : preserveFd j p q = .ret rc j') (h1 : 0 ≤ p.toInt) (h2 : 0 ≤ q.toInt)
    (h3 : j.preserved_fd_count < 128) :
    j'.preserved_fds.take j'.preserved_fd_count = j.preserved_fds.take j.preserved_fd_count ++ [⟨p, q⟩] := by
  have hl := hj.1.preserved
  unfold preserveFd at h
  rw [if_neg (by omega), if_neg (by unfold MAX_PRESERVED_FDS; omega)] at h
  simp only [ApiRes.ok, ApiRes.ret.injEq] at h
  rw [← h.2]
  have hlt : j.preserved_fd_count < j.preserved_fds.length := by omega
  dsimp only
  rw [List.take_add_one, List.take_set_of_le (by omega)]
  simp [hlt]

/-- A file descriptor that is preserved under its number. -/
def FdOf (a : CStr) (p : PreservedFd) : Prop := ∀ n : Nat, Decimal a n → p.parent_fd.toNat = n ∧ p.child_fd.toNat = n

/-- Numbers that are file descriptors. -/
def AreFds (as : List CStr) : Prop := ∀ a ∈ as, ∃ n : Nat, Decimal a n ∧ n < 2 ^ 31

theorem count_taken {j : Jail} {α : Type} {R : α → PreservedFd → Prop} {as : List α} (hj : Inv j)
    (h : List.Forall₂ R as (j.preserved_fds.take j.preserved_fd_count)) : j.preserved_fd_count = as.length := by
  have h1 := h.length_eq
  have hl := hj.1.preserved
  have hc := hj.2.preserved.1
  rw [List.length_take] at h1
  omega

theorem carried_fds {env : CliEnv} {j0 : Jail} (hj : Inv j0) : Carried env j0 fun c => c.parse_mode = false → ∃ as, Args (long "preserve-fd") c.entries as ∧
    (as.length ≤ 128 → AreFds as → List.Forall₂ FdOf as (c.j.preserved_fds.take c.j.preserved_fd_count)) where
  step := by
    intro c n o arg I q _ hopt
    have ho : IsOpt (long "preserve-fd") .preserveFd := isOpt_long (by decide +kernel) (by decide +kernel)
    have hE : (optStep env { c with entries := c.entries ++ [(n, arg)] } o arg).All (Effect o { c with entries := c.entries ++ [(n, arg)] }) := optStep_effect
    have hi := (reach_kept I.good.reach hj).1
    by_cases hm : c.parse_mode = false
    · obtain ⟨as, h1, h2⟩ := q hm
      by_cases h : o = .preserveFd
      · subst h
        cases arg with
        | none => exact trivial
        | some a =>
          have hs : (optStep env { c with entries := c.entries ++ [(n, some a)] } .preserveFd (some a)).All fun c' => (as ++ [a]).length ≤ 128 → AreFds (as ++ [a]) →
              List.Forall₂ FdOf (as ++ [a]) (c'.j.preserved_fds.take c'.j.preserved_fd_count) := by
            by_cases hf : (as ++ [a]).length ≤ 128 ∧ AreFds (as ++ [a])
            · obtain ⟨hl, hf⟩ := hf
              rw [List.length_append, List.length_singleton] at hl
              have h2 := h2 (by omega) fun x hx => hf x (by simp [hx])
              have hc := count_taken hi h2
              obtain ⟨m, hd, hm⟩ := hf a (by simp)
              obtain ⟨r, e1, e2, e3⟩ := strtol_num hd hm
              simp only [optStep]
              refine all_bind (all_need fun a' ha => ?_)
              cases ha
              rw [e1]
              dsimp only
              rw [if_neg (by simp [e2])]
              refine all_lib fun rc j' e => fun _ _ => ?_
              have hv : (BitVec.ofInt 32 r.val).toNat = m := by
                rw [e3, BitVec.ofInt_natCast, BitVec.toNat_ofNat]
                omega
              have hp : 0 ≤ (BitVec.ofInt 32 r.val).toInt := by
                rw [BitVec.toInt_eq_toNat_cond, hv]
                split <;> omega
              simp only [call] at e
              dsimp only
              rw [preserve_ok hi e hp hp (by omega)]
              refine List.rel_append h2 (.cons ?_ .nil)
              intro k hk
              have : m = k := by
                obtain ⟨r', e1', _, e3'⟩ := strtol_num hd hm
                obtain ⟨neg, x, y1, y2⟩ := (signed_decimal_iff a m).1 hd
                obtain ⟨neg', x', y1', y2'⟩ := (signed_decimal_iff a k).1 hk
                rw [y1] at y1'
                cases y1'
                rw [← y2'] at y2
                exact_mod_cast y2
              subst this
              exact ⟨hv, hv⟩
            · exact all_of fun c' _ x y => absurd ⟨x, y⟩ hf
          refine all_mono (all_and hE hs) ?_
          rintro c' ⟨E, e⟩ _
          refine ⟨as ++ [a], ?_, e⟩
          rw [E.entries]
          exact args_append h1 (.given ((isOpt_iff ho hopt).2 rfl) .nil)
      · refine all_mono (all_and hE optStep_frames) ?_
        rintro c' ⟨E, v⟩ _
        have := v .preserved (gives_only (o := .preserveFd) (by decide +kernel) o h)
        refine ⟨as, ?_, ?_⟩
        · rw [E.entries]
          have := args_append h1 (.other (opt := long "preserve-fd") (p := (n, arg)) (fun q => h ((isOpt_iff ho hopt).1 q)) .nil)
          rw [List.append_nil] at this
          exact this
        · rw [show c'.j.preserved_fds = c.j.preserved_fds from this.1, show c'.j.preserved_fd_count = c.j.preserved_fd_count from this.2]
          exact h2
    · refine all_mono hE ?_
      intro c' E hm'
      exact absurd (not_parsing E hm') hm
  confs := fun c es q => q

theorem count_zero {opts : Options} {o : Opt} (h : count opts o = 0) (a : Option CStr) : (o.num, a) ∉ opts := by
  intro q
  unfold count at h
  have := List.eq_nil_of_length_eq_zero h
  rw [List.filter_eq_nil_iff] at this
  exact this _ q (by simp)

/-- The one argument of an option that is given at most once decides settings. -/
theorem carried_once {env : CliEnv} {j0 : Jail} {o : Opt} (S : List Setting) (V : CStr → Jail → Prop) (used : Cli → Bool)
    (keep : ∀ a j j', (∀ s ∈ S, Agree j j' s) → V a j → V a j') (frame : ∀ o', o' ≠ o → ∀ s ∈ S, s ∉ optGives o')
    (inv : ∀ c, LoopInv c → count c.entries o = if used c then 1 else 0) (once : ∀ c c', Effect o c c' → used c = false) (same : ∀ c es, used { c with entries := es } = used c)
    (own : ∀ c a, c.parse_mode = false → (optStep env c o (some a)).All fun c' => V a c'.j) :
    Carried env j0 fun c => c.parse_mode = false → ∀ a, (o.num, some a) ∈ c.entries → V a c.j where
  step := by
    intro c n o' arg I q _ hn
    have hE : (optStep env { c with entries := c.entries ++ [(n, arg)] } o' arg).All (Effect o' { c with entries := c.entries ++ [(n, arg)] }) := optStep_effect
    by_cases hm : c.parse_mode = false
    · have hn' := num_of hn
      subst hn'
      by_cases h : o' = o
      · subst h
        have ho : (optStep env { c with entries := c.entries ++ [(o'.num, arg)] } o' arg).All fun c' => ∀ a, arg = some a → V a c'.j := by
          cases arg with
          | none => exact all_of fun _ _ a h => by cases h
          | some a0 => exact all_mono (own { c with entries := c.entries ++ [(o'.num, some a0)] } a0 hm) fun c' v a h => by cases h; exact v
        refine all_mono (all_and hE ho) ?_
        rintro c' ⟨E, v⟩ _ a hl
        rw [E.entries] at hl
        rcases List.mem_append.1 hl with hl | hl
        · have h0 := once _ _ E
          rw [same] at h0
          have hc := inv c I.loop
          rw [h0] at hc
          exact absurd hl (count_zero (by simpa using hc) _)
        · simp only [List.mem_singleton, Prod.mk.injEq, true_and] at hl
          exact v a hl.symm
      · refine all_mono (all_and hE optStep_frames) ?_
        rintro c' ⟨E, v⟩ _ a hl
        rw [E.entries] at hl
        rcases List.mem_append.1 hl with hl | hl
        · exact keep a _ _ (fun s hs => v s (frame o' h s hs)) (q hm a hl)
        · simp only [List.mem_singleton, Prod.mk.injEq] at hl
          exact absurd (num_inj _ _ hl.1).symm h
    · refine all_mono hE ?_
      intro c' E hm'
      exact absurd (not_parsing E hm') hm
  confs := fun c es q => q

/-- What -u leaves in the jail. -/
def UserOf (env : CliEnv) (a : CStr) (j : Jail) : Prop :=
  IdOf (fun n => (env.api.userDb n).toOption.map (·.1)) a j.uid ∧
    ((∀ i, ¬ Decimal a i) → j.user = some (bytesOf a) ∧ env.api.userDb (bytesOf a) = .ok (j.uid, j.usergid))

theorem carried_user {env : CliEnv} {j0 : Jail} : Carried env j0 fun c => c.parse_mode = false → ∀ a, (Opt.u.num, some a) ∈ c.entries → UserOf env a c.j := by
  refine carried_once [.uid, .user] (UserOf env) (fun c => c.use_uid) ?_ ?_ (fun c L => L.use_uid) (fun c c' E => E.u_once rfl) (fun _ _ => rfl) ?_
  · intro a j j' h v
    have h1 : j'.uid = j.uid := h .uid (by simp)
    have h2 : j'.user = j.user ∧ j'.usergid = j.usergid := h .user (by simp)
    unfold UserOf
    rw [h1, h2.1, h2.2]; exact v
  · intro o' h s hs
    simp only [List.mem_cons, List.not_mem_nil, or_false] at hs
    rcases hs with rfl | rfl
    · exact gives_only (o := .u) (by decide +kernel) o' h
    · exact gives_only (o := .u) (by decide +kernel) o' h
  · intro c a hm
    simp only [optStep, hm, Bool.false_eq_true, if_false]
    refine all_bind (all_refuse fun _ => all_bind (all_need fun a' ha => ?_))
    cases ha
    unfold setUser
    split
    · next id e =>
      refine all_lib fun rc j h => ?_
      simp only [call, changeUid] at h
      split at h
      · simp at h
      · simp only [ApiRes.ok, ApiRes.ret.injEq] at h
        rw [← h.2]
        exact ⟨idOf_num e, fun q => by obtain ⟨i, hi⟩ := decimalId_some e; exact absurd hi (q i)⟩
    · next e =>
      split
      · trivial
      · next uid gid hu =>
        refine all_libMust fun j h => ?_
        simp only [call, changeUser, hu, changeUid] at h
        by_cases h0 : uid = 0#32
        · rw [if_pos h0] at h; simp at h
        · rw [if_neg h0] at h
          simp only [ApiRes.ok] at h
          split at h
          · simp [ENOMEM] at h
          · simp only [ApiRes.ret.injEq, true_and] at h
            rw [← h]
            exact ⟨idOf_name e (by rw [hu]; rfl), fun _ => ⟨rfl, hu⟩⟩

theorem carried_group {env : CliEnv} {j0 : Jail} : Carried env j0 fun c => c.parse_mode = false → ∀ a, (Opt.g.num, some a) ∈ c.entries →
    IdOf (lookupGroup env) a c.j.gid := by
  refine carried_once [.gid] (fun a j => IdOf (lookupGroup env) a j.gid) (fun c => c.use_gid) ?_ ?_ (fun c L => L.use_gid) (fun c c' E => E.g_once rfl) (fun _ _ => rfl) ?_
  · intro a j j' h v
    have h1 : j'.gid = j.gid := h .gid (by simp)
    rw [h1]; exact v
  · intro o' h s hs
    rw [List.mem_singleton.1 hs]
    exact gives_only (o := .g) (by decide +kernel) o' h
  · intro c a hm
    simp only [optStep, hm, Bool.false_eq_true, if_false]
    refine all_bind (all_refuse fun _ => all_bind (all_need fun a' ha => ?_))
    cases ha
    have key : ∀ c g, IdOf (lookupGroup env) a g → (lib env c (.changeGid g)).All fun c' => IdOf (lookupGroup env) a c'.j.gid := by
      intro c g hg
      refine all_lib fun rc j h => ?_
      simp only [call, changeGid] at h
      split at h
      · simp at h
      · simp only [ApiRes.ok, ApiRes.ret.injEq] at h
        rw [← h.2]
        exact hg
    unfold setGroup
    split
    · next id e => exact key _ _ (idOf_num e)
    · next e =>
      split
      · trivial
      · next gid hu => exact key _ _ (idOf_name e (by simp only [lookupGroup, hu]; rfl))

theorem carried_mode {env : CliEnv} {j0 : Jail} : Carried env j0 fun c =>
    (Has c.entries .v → c.j.remount_mode = MS_SLAVE) ∧ (¬ Has c.entries .v → c.j.remount_mode = j0.remount_mode) where
  step := by
    intro c n o arg I q _ hopt
    have hE : (optStep env { c with entries := c.entries ++ [(n, arg)] } o arg).All (Effect o { c with entries := c.entries ++ [(n, arg)] }) := optStep_effect
    by_cases h : o = .v
    · subst h
      have hs : (optStep env { c with entries := c.entries ++ [(n, arg)] } .v arg).All fun c' => c'.j.remount_mode = MS_SLAVE := by
        simp only [optStep]
        refine all_bind (all_lib fun _ j1 _ => all_bind (all_lib fun _ j2 e => all_pure ?_))
        simp only [call, ApiRes.ok, ApiRes.ret.injEq] at e
        rw [← e.2]
      refine all_mono (all_and hE hs) ?_
      rintro c' ⟨E, e⟩
      rw [E.entries]
      dsimp only
      rw [has_append hopt]
      exact ⟨fun _ => e, fun q => absurd (.inr rfl) q⟩
    · refine all_mono (all_and hE optStep_frames) ?_
      rintro c' ⟨E, v⟩
      rw [E.entries]
      dsimp only
      rw [has_append hopt]
      have := v .propagation (gives_only (o := .v) (by decide +kernel) o h)
      rw [show c'.j.remount_mode = c.j.remount_mode from this]
      exact ⟨fun x => q.1 (x.resolve_right h), fun x => q.2 fun y => x (.inl y)⟩
  confs := fun c es q => q

/-- A local variable follows the last time an option is given. -/
theorem carried_propagation {env : CliEnv} {j0 : Jail} : Carried env j0 fun c => ∀ a, Last c.entries (letter 'K') a → c.remount_mode = a where
  step := by
    intro c n o arg I q _ hopt
    have ho : IsOpt (letter 'K') .K := isOpt_letter (by decide +kernel)
    refine all_mono (all_and optStep_effect optStep_locals) ?_
    rintro c' ⟨E, L⟩ a hl
    rw [E.entries] at hl
    rw [L.remount_mode]
    rcases last_append hl with ⟨h, rfl⟩ | ⟨h, hl⟩
    · rw [if_pos ((isOpt_iff ho hopt).1 h)]
    · rw [if_neg fun x => h ((isOpt_iff ho hopt).2 x)]
      exact q a hl
  confs := fun c es q => q

theorem carried_filter {env : CliEnv} {j0 : Jail} : Carried env j0 fun c =>
    (∀ a, LastArg c.entries (letter 'S') a → c.filter_path = a) ∧ (∀ a, LastArg c.entries (long "seccomp-bpf-binary") a → c.filter_path = a) where
  step := by
    intro c n o arg I q _ hopt
    have h1 : IsOpt (letter 'S') .S := isOpt_letter (by decide +kernel)
    have h2 : IsOpt (long "seccomp-bpf-binary") .seccompBpfBinary := isOpt_long (by decide +kernel) (by decide +kernel)
    have has : ∀ {opt : Nat → Prop} {o : Opt} {l : Options} {a : CStr}, IsOpt opt o → LastArg l opt a → Has l o := by
      rintro opt o l a hi ⟨b, m, af, rfl, hm, _⟩
      exact ⟨some a, by rw [(hi m).1 hm]; simp⟩
    refine all_mono (all_and optStep_effect optStep_locals) ?_
    rintro c' ⟨E, L⟩
    rw [E.entries]
    dsimp only
    constructor
    · intro a hl
      rcases lastArg_append hl with ⟨h, rfl⟩ | ⟨h, hl⟩
      · have := L.filter (.inl ((isOpt_iff h1 hopt).1 h))
        injection this with this
        exact this.symm
      · have hn : o ≠ .S := fun e => by
          subst e
          have := L.filter (.inl rfl)
          rw [h ((isOpt_iff h1 hopt).2 rfl)] at this
          cases this
        have hn2 : o ≠ .seccompBpfBinary := fun e => by
          have := E.seccomp_b e
          have hs := I.loop.filter (has h1 hl)
          dsimp only at this
          rw [hs] at this
          rcases this.1 with h | h <;> cases h
        rw [L.filter_path hn hn2]
        exact q.1 a hl
    · intro a hl
      rcases lastArg_append hl with ⟨h, rfl⟩ | ⟨h, hl⟩
      · have := L.filter (.inr ((isOpt_iff h2 hopt).1 h))
        injection this with this
        exact this.symm
      · have hn2 : o ≠ .seccompBpfBinary := fun e => by
          subst e
          have := L.filter (.inr rfl)
          rw [h ((isOpt_iff h2 hopt).2 rfl)] at this
          cases this
        have hn : o ≠ .S := fun e => by
          have := E.seccomp_S e
          have hs := I.loop.binary.1 (has h2 hl)
          dsimp only at this
          rw [hs] at this
          rcases this.1 with h | h <;> cases h
        rw [L.filter_path hn hn2]
        exact q.2 a hl
  confs := fun c es q => q

theorem carried_size {env : CliEnv} {j0 : Jail} : Carried env j0 fun c =>
    (∀ a, LastArg c.entries (letter 't') a → ∃ n, SizeText a n ∧ n < 2 ^ 64 ∧ (n ≠ 0 → c.tmp_size = BitVec.ofNat 64 n)) ∧
    ((∀ a, (Opt.t.num, some a) ∉ c.entries) → (c.tmp_size = 0#64 ∨ c.tmp_size = DEFAULT_TMP_SIZE) ∧
      ((Opt.t.num, none) ∈ c.entries ∨ Has c.entries .profile → c.tmp_size = DEFAULT_TMP_SIZE)) where
  step := by
    intro c n o arg I q _ hopt
    have ho : IsOpt (letter 't') .t := isOpt_letter (by decide +kernel)
    have hn := num_of hopt
    refine all_mono (all_and optStep_effect optStep_locals) ?_
    rintro c' ⟨E, L⟩
    rw [E.entries]
    dsimp only
    have hd : ∀ x : BitVec 64, x ≠ 0#64 → (if x = 0#64 then DEFAULT_TMP_SIZE else x) = x := fun x h => if_neg h
    have hnz : ∀ n : Nat, n < 2 ^ 64 → n ≠ 0 → BitVec.ofNat 64 n ≠ 0#64 := by
      intro n h h' e
      have := congrArg BitVec.toNat e
      simp at this
      omega
    constructor
    · intro a hl
      rcases lastArg_append hl with ⟨h, rfl⟩ | ⟨h, hl⟩
      · have := L.tmp_some a ((isOpt_iff ho hopt).1 h) rfl
        obtain ⟨n, h1, h2, h3⟩ := (C12_exact a _).1 this
        exact ⟨n, h1, h2, fun _ => h3⟩
      · obtain ⟨m, h1, h2, h3⟩ := q.1 a hl
        refine ⟨m, h1, h2, fun hm => ?_⟩
        have h3 := h3 hm
        by_cases o1 : o = .t
        · rw [L.tmp_none o1 (h ((isOpt_iff ho hopt).2 o1))]
          dsimp only
          rw [h3, hd _ (hnz m h2 hm)]
        · by_cases o2 : o = .profile
          · rw [L.tmp_profile o2]
            dsimp only
            rw [h3, hd _ (hnz m h2 hm)]
          · rw [L.tmp o1 o2]; exact h3
    · intro hno
      have q2 := q.2 fun a h => hno a (List.mem_append_left _ h)
      have hdef : (if c.tmp_size = 0#64 then DEFAULT_TMP_SIZE else c.tmp_size) = DEFAULT_TMP_SIZE := by
        split
        · rfl
        · next h => exact q2.1.resolve_left h
      by_cases o1 : o = .t
      · have harg : arg = none := by
          cases arg with
          | none => rfl
          | some a => exact absurd (List.mem_append_right _ (by rw [hn, o1]; exact List.mem_singleton.2 rfl)) (hno a)
        have := L.tmp_none o1 harg
        dsimp only at this
        rw [this, hdef]
        exact ⟨.inr rfl, fun _ => rfl⟩
      · by_cases o2 : o = .profile
        · have := L.tmp_profile o2
          dsimp only at this
          rw [this, hdef]
          exact ⟨.inr rfl, fun _ => rfl⟩
        · rw [L.tmp o1 o2]
          refine ⟨q2.1, fun h => q2.2 ?_⟩
          rw [has_append hopt] at h
          rcases h with h | h
          · rcases List.mem_append.1 h with h | h
            · exact .inl h
            · simp only [List.mem_singleton, Prod.mk.injEq] at h
              exact absurd (num_inj _ _ (h.1.trans hn)).symm o1
          · exact .inr (h.resolve_right o2)
  confs := fun c es q => q

theorem uts_name {env : CliEnv} {c : Cli} {arg : Option CStr} (hoom : env.api.oom = false) : (optStep env c .uts arg).All fun c' =>
    (∀ a, arg = some a → c'.j.hostname = some (c.j.hostname.getD (bytesOf a))) ∧ (arg = none → c'.j.hostname = c.j.hostname) := by
  simp only [optStep]
  refine all_bind (all_lib fun _ j1 h1 => ?_)
  have e1 : j1.hostname = c.j.hostname := C49_frame _ _ _ _ _ h1 .hostname List.not_mem_nil
  clear h1
  split
  · next a =>
    refine all_lib fun _ j2 e2 => ⟨fun a' ha => ?_, fun h => by cases h⟩
    cases ha
    simp only [call, namespaceSetHostname, hoom, Bool.false_eq_true, if_false, ApiRes.ok] at e2
    split at e2
    · next hh =>
      simp only [ApiRes.ret.injEq] at e2
      rw [← e2.2]
      dsimp only
      rw [e1] at hh ⊢
      obtain ⟨x, hx⟩ := Option.isSome_iff_exists.1 hh
      rw [hx]; rfl
    · next hh =>
      simp only [ApiRes.ret.injEq] at e2
      rw [← e2.2]
      rw [e1] at hh
      cases hx : c.j.hostname with
      | none => rfl
      | some x => rw [hx] at hh; simp at hh
  · exact ⟨fun a ha => (by cases ha), fun _ => e1⟩

theorem carried_hostname {env : CliEnv} {j0 : Jail} (hoom : env.api.oom = false) : Carried env j0 fun c =>
    (∀ a, FirstArg c.entries (long "uts") a → c.j.hostname = some (bytesOf a)) ∧ ((∀ p ∈ c.entries, long "uts" p.1 → p.2 = none) → c.j.hostname = none) where
  step := by
    intro c n o arg I q _ hopt
    have ho : IsOpt (long "uts") .uts := isOpt_long (by decide +kernel) (by decide +kernel)
    have hE : (optStep env { c with entries := c.entries ++ [(n, arg)] } o arg).All (Effect o { c with entries := c.entries ++ [(n, arg)] }) := optStep_effect
    have hs : (optStep env { c with entries := c.entries ++ [(n, arg)] } o arg).All fun c' =>
        (∀ a, o = .uts → arg = some a → c'.j.hostname = some (c.j.hostname.getD (bytesOf a))) ∧ ((o = .uts → arg = none) → c'.j.hostname = c.j.hostname) := by
      by_cases h : o = .uts
      · refine all_mono (h ▸ uts_name hoom) fun c' v => ⟨fun a _ ha => v.1 a ha, fun q => v.2 (q h)⟩
      · exact all_mono optStep_frames fun c' v => ⟨fun _ q => absurd q h, fun _ => v .hostname (gives_only (o := .uts) (by decide +kernel) o h)⟩
    refine all_mono (all_and hE hs) ?_
    rintro c' ⟨E, v1, v2⟩
    rw [E.entries]
    dsimp only
    constructor
    · intro a hl
      rcases firstArg_append hl with hl | ⟨h, rfl, hb⟩
      · have q1 := q.1 a hl
        cases arg with
        | none => rw [v2 fun _ => rfl]; exact q1
        | some b =>
          by_cases h : o = .uts
          · rw [v1 b h rfl, q1]; rfl
          · rw [v2 fun x => absurd x h]; exact q1
      · rw [v1 a ((isOpt_iff ho hopt).1 h) rfl, q.2 hb]; rfl
    · intro hb
      rw [v2 fun h => hb (n, arg) (by simp) ((isOpt_iff ho hopt).2 h)]
      exact q.2 fun p hp => hb p (by simp [hp])
  confs := fun c es q => q

end Minijail
