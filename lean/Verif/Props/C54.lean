import Verif.Model.Main
import Verif.Spec.Main
import Verif.Proof.CliCarry
import Verif.Proof.CliValues
import Verif.Proof.CliFrame
import Verif.Props.C16
import Verif.Props.C31
import Verif.Props.C32
import Verif.Props.C40
import Mathlib.Tactic.ByContra
/-! C54: the front end starts the program as the command line says. -/
set_option linter.unusedSimpArgs false
set_option autoImplicit false
namespace Minijail
open Spec

private theorem isReset : IsOpt (long "env-reset") .envReset := isOpt_long (by decide +kernel) (by decide +kernel)
private theorem isAdd : IsOpt (long "env-add") .envAdd := isOpt_long (by decide +kernel) (by decide +kernel)
private theorem isLibrary : IsOpt (long "preload-library") .preloadLibrary := isOpt_long (by decide +kernel) (by decide +kernel)
private theorem isType : IsOpt (letter 'T') .T := isOpt_letter (by decide +kernel)
private theorem isExit : IsOpt (letter 'i') .i := isOpt_letter (by decide +kernel)

private theorem first_equals {arg name value : CStr} (h : strstr "=".toList arg = some (name, value)) : arg = name ++ '=' :: value ∧ '=' ∉ name := by
  induction arg generalizing name with
  | nil => simp [strstr] at h
  | cons c s ih =>
    rw [strstr] at h
    by_cases hc : c = '='
    · subst hc
      simp at h
      obtain ⟨rfl, rfl⟩ := h
      simp
    · have : ("=".toList.isPrefixOf (c :: s)) = false := by simp [List.isPrefixOf, Ne.symm hc]
      simp only [this, Bool.false_eq_true, if_false, Option.map_eq_some_iff, Prod.exists, Prod.mk.injEq] at h
      obtain ⟨a, b, h, rfl, rfl⟩ := h
      obtain ⟨rfl, hn⟩ := ih h
      exact ⟨rfl, by simp [hn, Ne.symm hc]⟩

private theorem editVar_of {x : CStr} {v : Option CStr} {n : Nat} {o : Opt} {arg : Option CStr} (ho : optOfNat n = some o) :
    editVar x v (n, arg) = if o = .envReset then none else if o = .envAdd then addVar x v arg else v := by
  have h1 : ("env-reset".toList, n) ∈ longOptions ↔ _ := isOpt_iff isReset ho
  have h2 : ("env-add".toList, n) ∈ longOptions ↔ _ := isOpt_iff isAdd ho
  unfold editVar
  by_cases e1 : o = .envReset
  · rw [if_pos (h1.2 e1), if_pos e1]
  · rw [if_neg (fun h => e1 (h1.1 h)), if_neg e1]
    by_cases e2 : o = .envAdd
    · rw [if_pos (h2.2 e2), if_pos e2]
    · rw [if_neg (fun h => e2 (h2.1 h)), if_neg e2]

private theorem add_env {env : CliEnv} {c c' : Cli} {a : CStr} (h : setChildEnv env c a = .ok c') :
    ∃ name value, a = name ++ '=' :: value ∧ ValidName name ∧
      envValue (c'.envp.getD env.environ) = (EnvOp.set name value true).onMap (envValue (c.envp.getD env.environ)) ∧
      (EnvDistinct (c.envp.getD env.environ) → EnvDistinct (c'.envp.getD env.environ)) := by
  unfold setChildEnv at h
  split at h
  · cases h
  · next name value hs =>
    obtain ⟨ha, hn⟩ := first_equals hs
    have hne : name ≠ [] := by
      rintro rfl
      simp [minijailSetenv] at h
    obtain ⟨e', h1, h2⟩ := C16_set (c.envp.getD env.environ) name value true ⟨hne, hn⟩
    rw [show minijailCopyEnv (some env.environ) = env.environ from rfl, h1] at h
    cases h
    exact ⟨name, value, ha, ⟨hne, hn⟩, h2, fun hd => C16_set_distinct _ _ _ _ _ ⟨hne, hn⟩ hd h1⟩

/-- What the local variables hold after the options so far. -/
private structure SoFar (env : CliEnv) (c : Cli) : Prop where
  value : ∀ x, envValue (c.envp.getD env.environ) x = wantedVar env.environ c.entries x
  distinct : EnvDistinct env.environ → EnvDistinct (c.envp.getD env.environ)
  library : ∀ a, Last c.entries (long "preload-library") a → c.preload_path = some a
  no_library : Without c.entries (long "preload-library") → c.preload_path = none
  static : Last c.entries (letter 'T') (some "static".toList) → c.elftype = some .static
  dynamic : Last c.entries (letter 'T') (some "dynamic".toList) → c.elftype = some .dynamic
  said : ¬ Without c.entries (letter 'T') → c.elftype = some .static ∨ c.elftype = some .dynamic
  unsaid : Without c.entries (letter 'T') → c.elftype = none
  preload : c.j.preload_path = none

private theorem without_append {opts : Options} {opt : Nat → Prop} {p : Nat × Option CStr} : Without (opts ++ [p]) opt ↔ Without opts opt ∧ ¬ opt p.1 := by
  unfold Without
  constructor
  · exact fun h => ⟨fun q hq => h q (List.mem_append_left _ hq), h p (List.mem_append_right _ (.head _))⟩
  · rintro ⟨h1, h2⟩ q hq
    rcases List.mem_append.1 hq with hq | hq
    · exact h1 q hq
    · rw [List.mem_singleton.1 hq]; exact h2

private theorem no_last' {opt : Nat → Prop} {a : Option CStr} : ¬ Last ([] : Options) opt a := by
  rintro ⟨before, n, after, e, _⟩
  cases before <;> simp at e

private theorem preload_kept (o : Opt) : Setting.preload ∉ optGives o := by cases o <;> decide

private theorem carried_main {env : CliEnv} {j : Jail} : Carried env j (SoFar env) where
  step := by
    intro c n o arg I q ha ho
    have hr : (optStep env { c with entries := c.entries ++ [(n, arg)] } o arg).All fun _ => o = .envAdd → ∃ a, arg = some a := by
      by_cases h : o = .envAdd
      · subst h
        simp only [optStep]
        exact all_bind (all_need fun a ha => all_of fun _ _ _ => ⟨a, ha⟩)
      · exact all_of fun _ _ h' => absurd h' h
    refine all_mono (all_and hr (all_and optStep_frames (all_and optStep_locals optStep_effect))) ?_
    rintro c' ⟨hr, F, L, E⟩
    have hE : c'.entries = c.entries ++ [(n, arg)] := E.entries
    have hv : (∀ x, envValue (c'.envp.getD env.environ) x = editVar x (envValue (c.envp.getD env.environ) x) (n, arg)) ∧
        (EnvDistinct (c.envp.getD env.environ) → EnvDistinct (c'.envp.getD env.environ)) := by
      simp only [editVar_of ho]
      by_cases h1 : o = .envReset
      · rw [L.env_reset h1]
        simp only [h1, if_true]
        exact ⟨fun x => rfl, fun _ => by simp [EnvDistinct, envVars]⟩
      · by_cases h2 : o = .envAdd
        · obtain ⟨a, rfl⟩ := hr h2
          obtain ⟨name, value, rfl, hn, h3, h4⟩ := add_env (L.env_add a h2 rfl)
          simp only [h1, h2, if_false, if_true]
          refine ⟨fun x => ?_, h4⟩
          rw [h3]
          simp only [addVar, Option.bind_some, envEntry_of name value hn.2, EnvOp.onMap]
          by_cases hx : x = name
          · simp [hx]
          · simp [hx, Ne.symm hx]
        · have := L.envp h2 h1
          simp only [h1, h2, if_false, this]
          exact ⟨fun _ => trivial, id⟩
    have hlib := isOpt_iff isLibrary ho
    have hty := isOpt_iff isType ho
    have two : ("static".toList : CStr) ≠ "dynamic".toList := by decide
    refine ⟨fun x => ?_, fun hd => hv.2 (q.distinct hd), fun a hl => ?_, fun hw => ?_, fun hl => ?_, fun hl => ?_, fun hw => ?_, fun hw => ?_, ?_⟩
    · rw [hv.1, hE, wantedVar, List.foldl_append, q.value]; rfl
    · rw [hE] at hl
      rw [L.preload]
      rcases last_append hl with ⟨h1, rfl⟩ | ⟨h1, hl⟩
      · rw [if_pos (hlib.1 h1)]
      · rw [if_neg (fun h => h1 (hlib.2 h))]; exact q.library a hl
    · rw [hE, without_append] at hw
      rw [L.preload, if_neg (fun h => hw.2 (hlib.2 h))]
      exact q.no_library hw.1
    · rw [hE] at hl
      rcases last_append hl with ⟨h1, rfl⟩ | ⟨h1, hl⟩
      · rcases L.elf_T (hty.1 h1) with ⟨_, h⟩ | ⟨h, _⟩
        · exact h
        · exact absurd (Option.some.inj h) two
      · rw [L.elf (fun h => h1 (hty.2 h))]; exact q.static hl
    · rw [hE] at hl
      rcases last_append hl with ⟨h1, rfl⟩ | ⟨h1, hl⟩
      · rcases L.elf_T (hty.1 h1) with ⟨h, _⟩ | ⟨_, h⟩
        · exact absurd (Option.some.inj h).symm two
        · exact h
      · rw [L.elf (fun h => h1 (hty.2 h))]; exact q.dynamic hl
    · by_cases h : o = .T
      · rcases L.elf_T h with ⟨_, h⟩ | ⟨_, h⟩
        · exact .inl h
        · exact .inr h
      · rw [hE, without_append] at hw
        rw [L.elf h]
        exact q.said fun h' => hw ⟨h', fun h'' => h (hty.1 h'')⟩
    · rw [hE, without_append] at hw
      rw [L.elf fun h => hw.2 (hty.2 h)]
      exact q.unsaid hw.1
    · have : c'.j.preload_path = c.j.preload_path := F .preload (preload_kept o)
      rw [this]; exact q.preload
  confs := fun c es q => ⟨q.value, q.distinct, q.library, q.no_library, q.static, q.dynamic, q.said, q.unsaid, q.preload⟩

/-- What `parse_args` leaves for `main`. -/
private structure Ready (env : CliEnv) (all : Options) (program : Option CStr) (c : Cli) : Prop where
  value : ∀ x, envValue (c.envp.getD env.environ) x = wantedVar env.environ all x
  distinct : EnvDistinct env.environ → EnvDistinct (c.envp.getD env.environ)
  library : ∀ a, Last all (long "preload-library") a → c.preload_path = some a
  no_library : Without all (long "preload-library") → c.preload_path = none
  preload : c.j.preload_path = none
  linkage : ∃ p t, program = some p ∧ c.elftype = some t ∧ LinkageOf all (env.linkage (getOriginalPath c.j (bytesOf p))) t
  exits : c.exit_immediately = true ↔ ¬ Without all (letter 'i')

private theorem ready {env : CliEnv} (he : GoodCliEnv env) {opts : Options} (ht : ∀ p ∈ opts, TextArg p.2) {program : Option CStr} {c : Cli}
    (h : parseArgs env minijailNew opts program = .ok (.run c)) : ∃ all, Expanded env.readConf opts all ∧ Ready env all program c := by
  obtain ⟨c0, j1, c2, I, q, r1, a1, hk, hm, I1, hx, h2, h3, h4, h5, h6, h7, p, t, rfl, hp, h8⟩ := run_carry carried_main he inv_new
    ⟨fun x => rfl, id, fun a h => absurd h no_last', fun _ => rfl, fun h => absurd h no_last', fun h => absurd h no_last',
      fun h => absurd (fun p hp => by cases hp) h, fun _ => rfl, rfl⟩ ht h
  have i0 := (reach_kept I.good.reach inv_new).1
  have i1 := (reach_kept r1 i0).1
  obtain ⟨j', e, he2, ee, F⟩ := all_ok (settle_final (c := { c0 with j := j1 }) he I1.good.path i1) h2
  subst he2
  refine ⟨c0.entries, hx, ?_, ?_, ?_, ?_, ?_, ?_, ?_⟩
  · rw [h5, ee]; exact q.value
  · rw [h5, ee]; exact q.distinct
  · rw [h7]; exact q.library
  · rw [h7]; exact q.no_library
  · have e1 : j1.preload_path = c0.j.preload_path := a1 .preload (by decide)
    have e2 : j'.preload_path = j1.preload_path := F.same .preload (by decide)
    rw [h4]
    show j'.preload_path = none
    rw [e2, e1]; exact q.preload
  · refine ⟨p, t, rfl, h8, ?_⟩
    rw [h4]
    unfold programType at hp
    have hs : ∀ t0, c0.elftype = some t0 → t = t0 := fun t0 h => by
      simp only [h] at hp
      exact (CliOut.ok.inj hp).symm
    refine ⟨fun h => hs _ (q.static h), fun h => hs _ (q.dynamic h), fun h => (q.said h).imp (hs _) (hs _), fun h => ?_⟩
    simp only [q.unsaid h] at hp
    split at hp
    · exact (CliOut.ok.inj hp).symm
    · cases hp
  · rw [h6]
    show c0.exit_immediately = true ↔ _
    rw [I.loop.exits]
    constructor
    · rintro ⟨a, ha⟩ hw
      exact hw _ ha ((isExit _).2 rfl)
    · intro hw
      by_contra hn
      exact hw fun p hp q => hn ⟨p.2, by rw [← (isExit p.1).1 q]; exact hp⟩

/-- What `main` starts comes from what `parse_args` leaves. -/
private theorem started {env : MainEnv} (he : GoodCliEnv env.cli) {opts : Options} (ht : ∀ p ∈ opts, TextArg p.2) {args : List CStr} {s : Start}
    (h : mainStart env opts args = .start s) : ∃ c all, Expanded env.cli.readConf opts all ∧ Ready env.cli all args.head? c ∧
      mainRun env c args = .start s := by
  unfold mainStart at h
  split at h
  · next c hc =>
    obtain ⟨all, hx, R⟩ := ready he ht hc
    exact ⟨c, all, hx, R, h⟩
  all_goals cases h

/-- What `main` makes of it. -/
private structure Made (env : MainEnv) (c : Cli) (args : List CStr) (s : Start) : Prop where
  program : args.head? = some s.filename
  argv : s.argv = args
  wait : s.wait = !c.exit_immediately
  way : (c.elftype = some .static ∧ s.usePreload = false ∧ s.envp = none ∧ s.jail = c.j) ∨
    (c.elftype = some .dynamic ∧ s.usePreload = true ∧ s.envp = c.envp ∧ ∃ path rc, c.preload_path.getD (some env.preloadPath) = some path ∧ env.loads path = true ∧
      call env.cli.api c.j (.setPreloadPath (bytesOf path)) = .ret rc s.jail)

private theorem made {env : MainEnv} {c : Cli} {args : List CStr} {s : Start} (h : mainRun env c args = .start s) : Made env c args s := by
  unfold mainRun at h
  split at h
  · cases h
  · split at h
    · cases h
    · next p rest =>
      split at h
      · next e =>
        cases h
        exact ⟨rfl, rfl, rfl, .inl ⟨e, rfl, rfl, rfl⟩⟩
      · next e =>
        split at h
        · cases h
        · next path hp =>
          split at h
          · cases h
          · next hl =>
            split at h
            · cases h
            · next rc j hc =>
              cases h
              exact ⟨rfl, rfl, rfl, .inr ⟨e, rfl, rfl, path, rc, hp, by simpa using hl, hc⟩⟩
      · cases h

private theorem jail_other {env : ApiEnv} {j j' : Jail} {path : BStr} {rc : Int} (h : call env j (.setPreloadPath path) = .ret rc j') :
    j'.mounts = j.mounts ∧ j'.chrootdir = j.chrootdir ∧ (j.preload_path = none → env.oom = false → j'.preload_path = some path) := by
  simp only [call, setPreloadPath] at h
  split at h
  · next hs =>
    cases h
    exact ⟨rfl, rfl, fun hn => by simp [hn] at hs⟩
  · split at h
    · next ho =>
      cases h
      exact ⟨rfl, rfl, fun _ h => by simp [h] at ho⟩
    · cases h
      exact ⟨rfl, rfl, fun _ _ => rfl⟩

/-- **C54**, environment: the program that is started sees the caller's environment as edited by the options, in their order. For a dynamically linked program
this needs a library without a space in its name, an LD_PRELOAD that is not set to nothing, and a caller's environment without repeated variables or without the
variable for the pipe (C40). For a statically linked one it holds only without such options (`C54_violated_static`). -/
theorem C54_environment_partial (env : MainEnv) (he : GoodCliEnv env.cli) (opts : Options) (ht : ∀ p ∈ opts, TextArg p.2) (args : List CStr) (s : Start)
    (h : mainStart env opts args = .start s) : ∃ all, Expanded env.cli.readConf opts all ∧ ∀ fd x,
      (s.usePreload = true → ' ' ∉ usedLibrary env s → wantedVar env.cli.environ all preloadVar ≠ some [] →
        EnvDistinct env.cli.environ ∨ wantedVar env.cli.environ all fdVar = none →
        envValue (startEnv env s fd) x = seenVar (wantedVar env.cli.environ all) (s.jail.seccomp_policy_path.map textOf) true x) ∧
      (s.usePreload = false → Without all (long "env-add") → Without all (long "env-reset") →
        envValue (startEnv env s fd) x = seenVar (wantedVar env.cli.environ all) (s.jail.seccomp_policy_path.map textOf) false x) := by
  obtain ⟨c, all, hx, R, hm⟩ := started he ht h
  have M := made hm
  refine ⟨all, hx, fun fd x => ⟨fun hu hl hp hd => ?_, fun hu h1 h2 => ?_⟩⟩
  · rcases M.way with ⟨_, hu', _⟩ | ⟨_, _, hep, _⟩
    · rw [hu] at hu'; cases hu'
    · have hw : wantedVar env.cli.environ all = envValue (s.envp.getD env.cli.environ) := by rw [hep]; exact (funext R.value).symm
      unfold startEnv
      rw [if_pos hu, hw]
      rw [hw] at hp hd
      rcases hd with hd | hd
      · exact C40_restored_partial (hep ▸ R.distinct hd) hl hp x
      · rw [C40_same_partial hl hd hp, C40_direct]
        unfold intended seenVar
        by_cases hxf : x = fdVar
        · subst hxf
          simp only [Bool.false_eq_true, false_and, if_false, true_and, if_true]
          rw [if_neg (by intro h; exact absurd h.1 (by decide)), hd]
        · simp [hxf]
  · rcases M.way with ⟨_, _, hep, _⟩ | ⟨_, hu', _⟩
    · have hw : wantedVar env.cli.environ all x = envValue env.cli.environ x := by
        have key : ∀ (l : Options) (v : Option CStr), (∀ p ∈ l, ¬ long "env-add" p.1 ∧ ¬ long "env-reset" p.1) → l.foldl (editVar x) v = v := by
          intro l
          induction l with
          | nil => intro v _; rfl
          | cons p l ih =>
            intro v hl
            obtain ⟨n1, n2⟩ := hl p (by simp)
            rw [List.foldl_cons, show editVar x v p = v from by
              unfold long at n1 n2
              unfold editVar; rw [if_neg n2, if_neg n1]]
            exact ih v fun q hq => hl q (by simp [hq])
        exact key all _ fun p hp => ⟨h1 p hp, h2 p hp⟩
      unfold startEnv
      rw [if_neg (by simp [hu]), hep, C40_direct]
      unfold intended seenVar
      rw [hw]; rfl
    · rw [hu] at hu'; cases hu'

/-- **C54**, program and linkage: the program is the one named, with its arguments. It is run with the library exactly if it is dynamically linked: the last -T
says so, or else the file that the path leads to inside the jail. -/
theorem C54_linkage (env : MainEnv) (he : GoodCliEnv env.cli) (opts : Options) (ht : ∀ p ∈ opts, TextArg p.2) (args : List CStr) (s : Start)
    (h : mainStart env opts args = .start s) : args.head? = some s.filename ∧ s.argv = args ∧ ∃ all t, Expanded env.cli.readConf opts all ∧
      LinkageOf all (env.cli.linkage (getOriginalPath s.jail (bytesOf s.filename))) t ∧
      ((t = .dynamic ∧ s.usePreload = true) ∨ (t = .static ∧ s.usePreload = false)) := by
  obtain ⟨c, all, hx, R, hm⟩ := started he ht h
  have M := made hm
  obtain ⟨p, t, hp, he, hl⟩ := R.linkage
  rw [M.program] at hp
  cases hp
  refine ⟨M.program, M.argv, all, t, hx, ?_⟩
  rcases M.way with ⟨h1, h2, _, h4⟩ | ⟨h1, h2, _, path, rc, _, _, h4⟩
  · rw [he] at h1; cases h1
    exact ⟨h4 ▸ hl, .inr ⟨rfl, h2⟩⟩
  · rw [he] at h1; cases h1
    refine ⟨?_, .inl ⟨rfl, h2⟩⟩
    obtain ⟨e1, e2, _⟩ := jail_other h4
    have e : getOriginalPath s.jail (bytesOf s.filename) = getOriginalPath c.j (bytesOf s.filename) := by unfold getOriginalPath; rw [e1, e2]
    rw [e]; exact hl

/-- **C54**, library: the one preloaded is the last one given, or else the built-in one; it can be loaded. (Memory does not run out; otherwise see
`C54_violated_library`.) -/
theorem C54_library_partial (env : MainEnv) (he : GoodCliEnv env.cli) (ho : env.cli.api.oom = false) (opts : Options) (ht : ∀ p ∈ opts, TextArg p.2)
    (args : List CStr) (s : Start) (h : mainStart env opts args = .start s) (hu : s.usePreload = true) :
    ∃ all path, Expanded env.cli.readConf opts all ∧ LibraryOf all env.preloadPath path ∧ env.loads path = true ∧ s.jail.preload_path = some (bytesOf path) := by
  obtain ⟨c, all, hx, R, hm⟩ := started he ht h
  have M := made hm
  rcases M.way with ⟨_, h2, _⟩ | ⟨h1, h2, _, path, rc, hp, hl, h4⟩
  · rw [hu] at h2; cases h2
  · refine ⟨all, path, hx, ⟨fun a ha => ?_, fun hw => ?_⟩, hl, (jail_other h4).2.2 R.preload ho⟩
    · rw [R.library a ha] at hp; exact hp
    · rw [R.no_library hw] at hp; exact (Option.some.inj hp).symm

/-- **C54**, status: with -i minijail0 returns 0 at once; otherwise it waits, and once it returns it is with the status that `minijail_wait` reports for the
process that was started. -/
theorem C54_status (env : MainEnv) (he : GoodCliEnv env.cli) (opts : Options) (ht : ∀ p ∈ opts, TextArg p.2) (args : List CStr) (s : Start)
    (h : mainStart env opts args = .start s) : ∃ all, Expanded env.cli.readConf opts all ∧
      (¬ Without all (letter 'i') → ∀ pid l, mainEnd s pid l = some 0) ∧
      (Without all (letter 'i') → ∀ (f : Fate) (pid : Int) (l : List WaitAns) (c' : Child) (r : Int), 0 < pid → Answers f .running l c' →
        mainEnd s pid l = some r → r = report f) := by
  obtain ⟨c, all, hx, R, hm⟩ := started he ht h
  have M := made hm
  refine ⟨all, hx, fun hi pid l => ?_, fun hi f pid l c' r hp ha hr => ?_⟩
  · unfold mainEnd
    rw [M.wait, R.exits.2 hi]; rfl
  · unfold mainEnd at hr
    have : c.exit_immediately = false := by
      cases e : c.exit_immediately with
      | false => rfl
      | true => exact absurd hi (R.exits.1 e)
    rw [M.wait, this] at hr
    simp only [Bool.not_false, Bool.not_true, Bool.false_eq_true, if_false, Option.map_eq_some_iff] at hr
    obtain ⟨⟨r', rest⟩, hw, rfl⟩ := hr
    exact (C31_wait hp ha (by simp) hw).1

/-- With an `init` in between, the status is the exit code of the program, or 254 if a signal killed it; in the cases of `C32_report_partial`. -/
theorem C54_status_init_partial (env : MainEnv) (he : GoodCliEnv env.cli) (opts : Options) (ht : ∀ p ∈ opts, TextArg p.2) (args : List CStr) (s : Start)
    (h : mainStart env opts args = .start s) : ∃ all, Expanded env.cli.readConf opts all ∧
      (Without all (letter 'i') → ∀ (root : Int) (f : Fate) (l1 l2 : List (Int × Fate)) (arg pid r : Int) (l : List WaitAns) (c' : Child), 0 < root →
        (∀ x ∈ l1, 0 < x.1) → (∀ x ∈ l2, 0 < x.1 ∧ x.1 ≠ root) → minijailInit root (deaths (l1 ++ (root, f) :: l2)) = some arg → 0 < pid →
        Answers (exitFate arg) .running l c' → mainEnd s pid l = some r → r = initReport f) := by
  obtain ⟨c, all, hx, R, hm⟩ := started he ht h
  have M := made hm
  refine ⟨all, hx, fun hi root f l1 l2 arg pid r l c' hr h1 h2 ha hp hl he => ?_⟩
  unfold mainEnd at he
  have : c.exit_immediately = false := by
    cases e : c.exit_immediately with
    | false => rfl
    | true => exact absurd hi (R.exits.1 e)
  rw [M.wait, this] at he
  simp only [Bool.not_false, Bool.not_true, Bool.false_eq_true, if_false, Option.map_eq_some_iff] at he
  obtain ⟨⟨r', rest⟩, hw, rfl⟩ := he
  exact C32_wait_partial hr h1 h2 ha hp hl hw

/-- For a statically linked program the options for the environment are accepted and have no effect. -/
theorem C54_violated_static : ∃ s, mainStart {} [('T'.toNat, some "static".toList), (optVal "ENV_ADD", some "A=1".toList)] ["/bin/true".toList] = .start s ∧
    wantedVar [] [('T'.toNat, some "static".toList), (optVal "ENV_ADD", some "A=1".toList)] "A".toList = some "1".toList ∧
    envValue (startEnv {} s 3) "A".toList = none := by
  refine ⟨_, rfl, ?_, ?_⟩ <;> decide +kernel

/-- If memory runs out on the way, another library than the one given is preloaded. -/
theorem C54_violated_library : ∃ s, mainStart { cli := { api := { oom := true } } } [(optVal "PRELOAD_LIBRARY", some "/x.so".toList)] ["/bin/true".toList] = .start s ∧
    s.usePreload = true ∧ usedLibrary { cli := { api := { oom := true } } } s = "/lib/libminijailpreload.so".toList := by
  refine ⟨_, rfl, ?_, ?_⟩ <;> decide +kernel

/-- With -i the status is 0 even if no program was started. -/
theorem C54_violated_status : ∃ s, mainStart {} [('i'.toNat, none)] ["/bin/true".toList] = .start s ∧ mainEnd s 0 [] = some 0 := by
  refine ⟨_, rfl, ?_⟩; decide +kernel

/-- A command line that meets the hypotheses, with what the program is started with and what it sees: of two -T and two libraries the last one counts, and the
environment is emptied before it is added to. -/
example : ∃ s, mainStart { cli := { environ := ["A=0".toList, "B=2".toList] } } [('T'.toNat, some "static".toList), (optVal "PRELOAD_LIBRARY", some "/x.so".toList),
      (optVal "ENV_RESET", none), ('T'.toNat, some "dynamic".toList), (optVal "ENV_ADD", some "A=1=1".toList), (optVal "PRELOAD_LIBRARY", some "/y.so".toList)]
      ["/bin/true".toList, "x".toList] = .start s ∧
    s.usePreload = true ∧ s.wait = true ∧ s.filename = "/bin/true".toList ∧ s.argv = ["/bin/true".toList, "x".toList] ∧
    usedLibrary {} s = "/y.so".toList ∧ startEnv { cli := { environ := ["A=0".toList, "B=2".toList] } } s 3 = ["A=1=1".toList] := by
  refine ⟨_, rfl, ?_, ?_, ?_, ?_, ?_, ?_⟩ <;> decide +kernel

/-- The status of a program that is killed. -/
example : ∃ s, mainStart {} [] ["/bin/true".toList] = .start s ∧ mainEnd s 7 [.err 4, .status (word (.killed 9 false (by decide)))] = some 137 := by
  refine ⟨_, rfl, ?_⟩; decide +kernel

end Minijail
