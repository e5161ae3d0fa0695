import Verif.Props.C56
import Verif.Proof.PathRules
/-! C71: the paths named on the command line decide what landlock lets the program do. -/
set_option linter.unusedSimpArgs false
set_option autoImplicit false
namespace Minijail
open Spec PathRules

/-- **C71**: when a program is started from a command line, the options name paths and rights. If there are none, or --no-fs-restrictions is given, or the kernel has
no landlock, nothing is restricted. Else the program (`j` is the jail in the child, or in the library) has the rights that landlock(7) counts up to 12, and 13 if the
kernel knows it, on exactly the files that are at or below a path for which an option allows them; on a path that is not a directory an option allows only to execute,
write and read; a path that cannot be opened allows nothing. Rights that are newer are not restricted. (Missing: the case that memory runs out.) -/
theorem C71_partial (env : MainEnv) (he : GoodCliEnv env.cli) (ho : env.cli.api.oom = false) (opts : Options) (htx : ∀ p ∈ opts, TextArg p.2) (args : List CStr) (s : Start)
    (h : mainStart env opts args = .start s) (kl kr : LandlockKernel) (hk : kl.abi = env.cli.api.landlock.abi) (j : Jail)
    (hj : j = setupFsRulesFd kl s.jail ∨ j = received kr (setupFsRulesFd kl s.jail)) (stat : BStr → Option Bool) (available enforced : Bool)
    (hav : 0 ≤ kl.ruleset.toInt → available = true) (r : Restriction) (hr : applyLandlock stat (handledAccess kl s.jail) available enforced j = some r) :
    ∃ all rules, Expanded env.cli.readConf opts all ∧ AskedPaths env.cli (decide (2 ≤ kl.abi.toInt)) all rules ∧
      (r = .none ↔ rules = [] ∨ GivenLong all "no-fs-restrictions" ∨ kl.ruleset.toInt < 0) ∧
      (r ≠ .none → ∀ above i, allows above i r ↔ 13 < i ∨ (i = 13 ∧ kl.abi.toInt < 2) ∨
        ∃ path bits, (path, bits) ∈ rules ∧ above path ∧ i ∈ bits ∧ (stat path = some true ∨ stat path = some false ∧ i ∈ [0, 1, 2])) := by
  obtain ⟨c, p, hc, hs⟩ := start_jail h
  obtain ⟨all, rules, hx, hask, hsays, habi, hno⟩ := jail_paths he ho htx hc
  have hrefer : refers env.cli.api.landlock = decide (2 ≤ kl.abi.toInt) := by rw [refers, ← hk]
  rw [hrefer] at hask
  have habi' : AbiOk kl s.jail := by
    rw [hs]
    unfold AbiOk at habi ⊢
    rw [hk]
    exact habi
  have hhand : handledAccess kl s.jail = if decide (2 ≤ kl.abi.toInt) then HANDLED_ACCESS_TYPES ||| LL_REFER else HANDLED_ACCESS_TYPES := by
    unfold handledAccess
    rw [(refer_is habi').1, refers]
  have hset : ∀ i : Jail, (setupFsRulesFd kl i).fs_rules = i.fs_rules ∧ (setupFsRulesFd kl i).flags = i.flags ∧ (setupFsRulesFd kl i).fs_rules_fd = kl.ruleset := by
    intro i
    unfold setupFsRulesFd fsReferSupported
    dsimp only
    split <;> exact ⟨rfl, rfl, rfl⟩
  have hjf : j.fs_rules = c.j.fs_rules ∧ j.flags = c.j.flags ∧ j.fs_rules_fd = kl.ruleset := by
    obtain ⟨q1, q2, q3⟩ := hset s.jail
    have e1 : s.jail.fs_rules = c.j.fs_rules := by rw [hs]
    have e2 : s.jail.flags = c.j.flags := by rw [hs]
    rcases hj with rfl | rfl
    · exact ⟨q1.trans e1, q2.trans e2, q3⟩
    · exact ⟨q1.trans e1, q2.trans e2, q3⟩
  obtain ⟨j1, j2, j3⟩ := hjf
  refine ⟨all, rules, hx, hask, ?_⟩
  have hempty : c.j.fs_rules = [] ↔ rules = [] := by
    constructor
    · intro e; rw [e] at hsays; exact List.forall₂_nil_left_iff.1 hsays
    · intro e; rw [e] at hsays; exact List.forall₂_nil_right_iff.1 hsays
  unfold applyLandlock at hr
  rw [j1, j2, j3] at hr
  by_cases h1 : rules = [] ∨ GivenLong all "no-fs-restrictions"
  · have : (!c.j.flags.enable_fs_restrictions || c.j.fs_rules.isEmpty) = true := by
      rcases h1 with h1 | h1
      · rw [hempty.2 h1]; simp
      · rw [hno.2 h1]; rfl
    rw [if_pos this] at hr
    cases hr
    exact ⟨⟨fun _ => h1.elim .inl fun h => .inr (.inl h), fun _ => rfl⟩, fun h => absurd rfl h⟩
  · have : ¬ (!c.j.flags.enable_fs_restrictions || c.j.fs_rules.isEmpty) = true := by
      rw [Bool.or_eq_true, Bool.not_eq_true', List.isEmpty_iff, hno, hempty]
      exact fun h => h1 h.symm
    rw [if_neg this] at hr
    dsimp only at hr
    by_cases h2 : kl.ruleset.toInt ≥ 0
    · rw [if_pos h2, hav h2] at hr
      cases enforced
      · cases hr
      cases hr
      refine ⟨⟨fun h => (by cases h), fun h => ?_⟩, fun _ above i => ?_⟩
      · exfalso
        rcases h with h | h | h
        · exact h1 (.inl h)
        · exact h1 (.inr h)
        · omega
      · have hbits : ∀ i, (handledAccess kl s.jail).getLsbD i = true ↔ i ≤ 12 ∨ i = 13 ∧ decide (2 ≤ kl.abi.toInt) = true := by
          intro i
          rw [hhand]
          have g1 : Grants HANDLED_ACCESS_TYPES [0, 1, 2, 3, 4, 5, 6, 7, 8, 9, 10, 11, 12] := grants_of_decide _ _ (by decide +kernel) (by decide)
          have g2 : Grants (HANDLED_ACCESS_TYPES ||| LL_REFER) [0, 1, 2, 3, 4, 5, 6, 7, 8, 9, 10, 11, 12, 13] := grants_of_decide _ _ (by decide +kernel) (by decide)
          cases decide (2 ≤ kl.abi.toInt)
          · rw [if_neg (by simp), g1 i]
            simp only [List.mem_cons, List.not_mem_nil, or_false]
            constructor
            · intro h; left; omega
            · rintro (h | ⟨-, h⟩)
              · omega
              · cases h
          · rw [if_pos rfl, g2 i]
            simp only [List.mem_cons, List.not_mem_nil, or_false, and_true]
            constructor
            · intro h; omega
            · intro h; omega
        have hwithin : ∀ x ∈ c.j.fs_rules, Within x.landlock_flags (handledAccess kl s.jail) := by
          intro x hxm i hi
          rw [hbits]
          obtain ⟨y, hy, hxy⟩ := pair_left hsays hxm
          exact asked_known hask y hy i ((hxy.2 i).1 hi)
        have hiff := populate_rights stat (handledAccess kl s.jail) c.j.fs_rules hwithin above i
        show (handledAccess kl s.jail).getLsbD i = false ∨ (∃ k ∈ c.j.fs_rules.foldl (populateRuleset stat (handledAccess kl s.jail)) [], above k.path ∧ k.allowed.getLsbD i = true) ↔ _
        rw [hiff]
        have hfalse : (handledAccess kl s.jail).getLsbD i = false ↔ 13 < i ∨ (i = 13 ∧ kl.abi.toInt < 2) := by
          rw [← Bool.not_eq_true, hbits i, decide_eq_true_eq]
          omega
        rw [hfalse, or_assoc]
        refine or_congr_right (or_congr_right ?_)
        constructor
        · rintro ⟨x, hxm, ha, hb, hst⟩
          obtain ⟨y, hy, e, hg⟩ := pair_left hsays hxm
          rw [e] at ha hst
          exact ⟨y.1, y.2, hy, ha, (hg i).1 hb, hst⟩
        · rintro ⟨path, bits, hm, ha, hb, hst⟩
          obtain ⟨x, hxm, e, hg⟩ := pair_right hsays hm
          exact ⟨x, hxm, by rw [e]; exact ha, (hg i).2 hb, by rw [e]; exact hst⟩
    · rw [if_neg h2] at hr
      cases hr
      exact ⟨⟨fun _ => .inr (.inr (by omega)), fun _ => rfl⟩, fun h => absurd rfl h⟩

/-- A command line: --fs-path-ro /etc/passwd --fs-path-advanced-rw /data --fs-path-rx /gone -T static. -/
private def pathOpts : Options :=
  [(Opt.fsPathRo.num, some "/etc/passwd".toList), (Opt.fsPathAdvancedRw.num, some "/data".toList), (Opt.fsPathRx.num, some "/gone".toList), ('T'.toNat, some "static".toList)]

private def pathMain (oom : Bool) : MainEnv := { cli := { api := { landlock := ⟨3#32, 5#32⟩, oom := oom } } }

private def pathStart (oom : Bool) (opts : Options) : Start := match mainStart (pathMain oom) opts ["/bin/true".toList] with
  | .start s => s
  | _ => ⟨minijailNew, false, [], [], none, false⟩

private theorem started (oom : Bool) (opts : Options)
    (h : (match mainStart (pathMain oom) opts ["/bin/true".toList] with | .start _ => true | _ => false) = true) :
    mainStart (pathMain oom) opts ["/bin/true".toList] = .start (pathStart oom opts) := by
  unfold pathStart
  generalize mainStart (pathMain oom) opts ["/bin/true".toList] = o at h ⊢
  cases o <;> simp_all

private def pathStat (p : BStr) : Option Bool := if p = bstr "/data" then some true else if p = bstr "/gone" then none else some false

private theorem pathGood (oom : Bool) : GoodCliEnv (pathMain oom).cli :=
  ⟨fun _ _ h => by cases h; decide, fun _ _ h => by cases h; decide, fun _ p h => (by cases h), fun _ _ h => (by cases h), by cases oom <;> decide⟩

private theorem pathText : ∀ p ∈ pathOpts, TextArg p.2 := by
  intro p hp s hs
  revert hs
  simp only [pathOpts, List.mem_cons, List.not_mem_nil, or_false] at hp
  rcases hp with rfl | rfl | rfl | rfl <;> intro hs <;> cases hs <;> (unfold IsText; decide +kernel)

/-- A case: it is started, and these rules are in the kernel; the hypotheses hold in the child and in the library. -/
example : GoodCliEnv (pathMain false).cli ∧ (∀ p ∈ pathOpts, TextArg p.2) ∧ mainStart (pathMain false) pathOpts ["/bin/true".toList] = .start (pathStart false pathOpts) ∧
    applyLandlock pathStat (handledAccess ⟨3#32, 7#32⟩ (pathStart false pathOpts).jail) true true (setupFsRulesFd ⟨3#32, 7#32⟩ (pathStart false pathOpts).jail) =
      some (.rules 0x3fff#64 [⟨bstr "/etc/passwd", 4#64⟩, ⟨bstr "/data", 0x3ffe#64⟩]) ∧
    applyLandlock pathStat (handledAccess ⟨3#32, 7#32⟩ (pathStart false pathOpts).jail) true true (received ⟨3#32, 7#32⟩ (setupFsRulesFd ⟨3#32, 7#32⟩ (pathStart false pathOpts).jail)) =
      some (.rules 0x3fff#64 [⟨bstr "/etc/passwd", 4#64⟩, ⟨bstr "/data", 0x3ffe#64⟩]) :=
  ⟨pathGood _, pathText, started _ _ (by decide +kernel), by decide +kernel, by decide +kernel⟩

/-- A case with the profile: rules for the mounts, for common programs and for /dev, /proc and /tmp. -/
example : ((pathStart false [(Opt.profile.num, some "minimalistic-mountns-nodev".toList), ('T'.toNat, some "static".toList)]).jail.fs_rules.map fun r => r.path) =
    ["/", "/proc", "/lib", "/lib64", "/usr/lib", "/usr/lib64", "/bin", "/sbin", "/usr/sbin", "/usr/bin", "/etc/group", "/etc/passwd", "/dev", "/proc", "/tmp"].map bstr := by
  decide +kernel

/-- **C71 does not hold** when memory runs out while a path is noted: nobody looks at the result, and the program is started without any restriction although the
options ask for one and the kernel has landlock. -/
theorem C71_violated : ∃ (env : MainEnv) (opts : Options) (args : List CStr) (s : Start), GoodCliEnv env.cli ∧ (∀ p ∈ opts, TextArg p.2) ∧
    GivenLong opts "fs-path-ro" ∧ ¬ GivenLong opts "no-fs-restrictions" ∧ mainStart env opts args = .start s ∧
    ∀ kl stat, applyLandlock stat (handledAccess kl s.jail) true true (setupFsRulesFd kl s.jail) = some .none := by
  refine ⟨pathMain true, pathOpts, ["/bin/true".toList], pathStart true pathOpts, pathGood _, pathText, ⟨Opt.fsPathRo.num, some "/etc/passwd".toList, by decide +kernel, .head _⟩, ?_,
    started _ _ (by decide +kernel), ?_⟩
  · rintro ⟨n, a, h1, h2⟩
    have : n = Opt.noFsRestrictions.num := (isOpt_long (o := .noFsRestrictions) (name := "no-fs-restrictions") (by decide +kernel) (by decide +kernel) n).1 h1
    subst this
    simp only [pathOpts, List.mem_cons, List.not_mem_nil, or_false, Prod.mk.injEq] at h2
    revert h2
    have : Opt.noFsRestrictions.num ∉ pathOpts.map Prod.fst := by decide +kernel
    simp only [pathOpts, List.map_cons, List.map_nil, List.mem_cons, List.not_mem_nil, or_false, not_or] at this
    rintro (h | h | h | h)
    · exact this.1 h.1
    · exact this.2.1 h.1
    · exact this.2.2.1 h.1
    · exact this.2.2.2 h.1
  · intro kl stat
    have e : (pathStart true pathOpts).jail.fs_rules = [] := by decide +kernel
    unfold applyLandlock
    have : (setupFsRulesFd kl (pathStart true pathOpts).jail).fs_rules = [] := by
      unfold setupFsRulesFd fsReferSupported
      dsimp only
      split <;> exact e
    rw [this]
    simp

end Minijail
