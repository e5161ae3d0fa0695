import Verif.Spec.Landlock
import Verif.Props.C48
/-! C34: path rules grant exactly the documented rights. -/
set_option autoImplicit false
set_option linter.unusedSimpArgs false
namespace Minijail
open Spec

theorem grants_of_decide (m : BitVec 64) (bits : List Nat) (h1 : ∀ i < 64, (m.getLsbD i = true ↔ i ∈ bits))
    (h2 : ∀ i ∈ bits, i < 64) : Grants m bits := by
  intro i
  by_cases hi : i < 64
  · exact h1 i hi
  · constructor
    · intro h; rw [BitVec.getLsbD_of_ge _ _ (by omega)] at h; simp at h
    · intro h; exact absurd (h2 i h) hi

theorem path_append (k : LandlockKernel) (j : Jail) (p : BStr) (f : BitVec 64) :
    (addFsRestrictionPath k j p f).fs_rules = j.fs_rules ++ [⟨p, f⟩] := by
  unfold addFsRestrictionPath setupFsRulesFd fsReferSupported
  dsimp only
  split_ifs <;> rfl

theorem rule_append (env : ApiEnv) (j j' : Jail) (p : BStr) (f : BitVec 64) (h : addRule env j p f = .ret 1 j') :
    j'.fs_rules = j.fs_rules ++ [⟨p, f⟩] := by
  unfold addRule at h
  split_ifs at h
  · simp at h
  · simp only [ApiRes.ret.injEq, true_and] at h
    subst h
    exact path_append _ _ _ _

theorem refer_rules (k : LandlockKernel) (j : Jail) : (fsReferSupported k j).2.fs_rules = j.fs_rules := by
  unfold fsReferSupported
  dsimp only
  split_ifs <;> rfl

/-- **C34**, rights: a call that adds a rule records one more rule, for this path, that grants exactly the documented
rights. Read-only and read-execute rules change or create nothing, edit rules create nothing. -/
theorem C34_rights (env : ApiEnv) (j j' : Jail) (c : Call) (p : BStr) (bits : List Nat)
    (hd : documented (fsReferSupported env.landlock j).1 c = some (p, bits)) (h : call env j c = .ret 1 j') :
    ∃ mask, j'.fs_rules = j.fs_rules ++ [⟨p, mask⟩] ∧ Grants mask bits := by
  cases c
  case addFsRestrictionRo q =>
    cases hd
    exact ⟨_, rule_append env j j' _ _ h, grants_of_decide _ _ (by decide +kernel) (by decide)⟩
  case addFsRestrictionRx q =>
    cases hd
    exact ⟨_, rule_append env j j' _ _ h, grants_of_decide _ _ (by decide +kernel) (by decide)⟩
  case addFsRestrictionRw q =>
    cases hd
    exact ⟨_, rule_append env j j' _ _ h, grants_of_decide _ _ (by decide +kernel) (by decide)⟩
  case addFsRestrictionEdit q =>
    cases hd
    exact ⟨_, rule_append env j j' _ _ h, grants_of_decide _ _ (by decide +kernel) (by decide)⟩
  case addFsRestrictionAdvancedRw q =>
    have h' : addRule env (fsReferSupported env.landlock j).2 q (if (fsReferSupported env.landlock j).1 then
      ACCESS_READ ||| ACCESS_FULL_WRITE ||| LL_REFER else ACCESS_READ ||| ACCESS_FULL_WRITE) = .ret 1 j' := h
    have ha := rule_append env _ j' _ _ h'
    rw [refer_rules] at ha
    cases hr : (fsReferSupported env.landlock j).1 <;> rw [hr] at hd ha <;> cases hd
    · exact ⟨_, ha, grants_of_decide _ _ (by decide +kernel) (by decide)⟩
    · exact ⟨_, ha, grants_of_decide _ _ (by decide +kernel) (by decide)⟩
  all_goals cases hd

/-- What the documented rights of read-only, read-execute and edit rules leave out. -/
theorem C34_excluded (refer : Bool) (p : BStr) (bits : List Nat) :
    (documented refer (.addFsRestrictionRo p) = some (p, bits) → ∀ i ∈ bits, i ∉ changeBits ++ createBits ++ [0, 13]) ∧
    (documented refer (.addFsRestrictionRx p) = some (p, bits) → ∀ i ∈ bits, i ∉ changeBits ++ createBits ++ [13]) ∧
    (documented refer (.addFsRestrictionEdit p) = some (p, bits) → ∀ i ∈ bits, i ∉ createBits ++ [0, 13]) := by
  refine ⟨fun h => ?_, fun h => ?_, fun h => ?_⟩ <;> (cases h; decide)

/-- A rule with an explicit mask is recorded with exactly this mask. -/
theorem C34_mask (env : ApiEnv) (j j' : Jail) (p : BStr) (m : BitVec 16)
    (h : call env j (.addFsRestrictionAccessRights p m) = .ret 1 j') :
    ∃ mask, j'.fs_rules = j.fs_rules ++ [⟨p, mask⟩] ∧ ∀ i : Nat, mask.getLsbD i = m.getLsbD i := by
  refine ⟨_, rule_append env j j' _ _ h, fun i => ?_⟩
  show (m.setWidth 64).getLsbD i = m.getLsbD i
  rw [BitVec.getLsbD_setWidth]
  by_cases hi : i < 64
  · simp [hi]
  · simp [hi, BitVec.getLsbD_of_ge m i (by omega)]

/-! ### The handled rights -/

/-- Rights that every kernel with landlock handles, plus right 13 if the recorded version is at least 2. -/
def RulesHandled (j : Jail) : Prop :=
  ∀ r ∈ j.fs_rules, Within r.landlock_flags
    (if j.fs_rules_landlock_abi.toInt ≥ 2 then HANDLED_ACCESS_TYPES ||| LL_REFER else HANDLED_ACCESS_TYPES)

theorem within_of_and {a b : BitVec 64} (h : a &&& ~~~b = 0#64) : Within a b := by
  intro i hi
  by_cases h64 : i < 64
  · have : (a &&& ~~~b).getLsbD i = false := by rw [h]; simp
    simp only [BitVec.getLsbD_and, BitVec.getLsbD_not, hi, h64, decide_true, Bool.true_and, Bool.not_eq_false'] at this
    exact this
  · rw [BitVec.getLsbD_of_ge _ _ (by omega)] at hi; simp at hi

theorem within_refer : Within HANDLED_ACCESS_TYPES (HANDLED_ACCESS_TYPES ||| LL_REFER) := within_of_and (by decide)

theorem handled_within (b : Prop) [Decidable b] {m : BitVec 64} (h : Within m HANDLED_ACCESS_TYPES) :
    Within m (if b then HANDLED_ACCESS_TYPES ||| LL_REFER else HANDLED_ACCESS_TYPES) := by
  split_ifs
  · exact fun i hi => within_refer i (h i hi)
  · exact h

theorem rulesHandled_abi {j j' : Jail} (h : RulesHandled j) (hr : j'.fs_rules = j.fs_rules)
    (ha : j.fs_rules_landlock_abi.toInt ≥ 0 → j'.fs_rules_landlock_abi = j.fs_rules_landlock_abi) : RulesHandled j' := by
  intro r hm
  rw [hr] at hm
  have := h r hm
  by_cases hj : j.fs_rules_landlock_abi.toInt ≥ 2
  · rw [ha (by omega)]; exact this
  · rw [if_neg hj] at this; exact handled_within _ this

theorem refer_abi (k : LandlockKernel) (j : Jail) :
    (j.fs_rules_landlock_abi.toInt ≥ 0 → (fsReferSupported k j).2.fs_rules_landlock_abi = j.fs_rules_landlock_abi) ∧
    (fsReferSupported k j).1 = decide ((fsReferSupported k j).2.fs_rules_landlock_abi.toInt ≥ 2) := by
  constructor
  · intro h
    unfold fsReferSupported
    dsimp only
    rw [if_neg (by omega)]
  · rfl

theorem rulesHandled_refer {j : Jail} (h : RulesHandled j) (k : LandlockKernel) : RulesHandled (fsReferSupported k j).2 :=
  rulesHandled_abi h (refer_rules k j) (refer_abi k j).1

theorem path_abi (k : LandlockKernel) (j : Jail) (p : BStr) (f : BitVec 64) (h : j.fs_rules_landlock_abi.toInt ≥ 0) :
    (addFsRestrictionPath k j p f).fs_rules_landlock_abi = j.fs_rules_landlock_abi := by
  unfold addFsRestrictionPath setupFsRulesFd
  dsimp only
  split_ifs
  · exact (refer_abi k { j with fs_rules := j.fs_rules ++ [⟨p, f⟩] }).1 h
  · rfl

theorem rulesHandled_path {j : Jail} (h : RulesHandled j) (k : LandlockKernel) (p : BStr) (f : BitVec 64)
    (hf : Within f HANDLED_ACCESS_TYPES ∨
      j.fs_rules_landlock_abi.toInt ≥ 2 ∧ Within f (HANDLED_ACCESS_TYPES ||| LL_REFER)) :
    RulesHandled (addFsRestrictionPath k j p f) := by
  intro r hr
  rw [path_append] at hr
  rcases List.mem_append.1 hr with hr | hr
  · have := h r hr
    by_cases hj : j.fs_rules_landlock_abi.toInt ≥ 2
    · rw [path_abi k j p f (by omega)]; exact this
    · rw [if_neg hj] at this; exact handled_within _ this
  · rw [List.mem_singleton.1 hr]
    rcases hf with hf | ⟨h2, hf⟩
    · exact handled_within _ hf
    · rw [path_abi k j p f (by omega), if_pos h2]; exact hf

theorem rulesHandled_ignoring {j : Jail} (h : RulesHandled j) (env : ApiEnv) (p : BStr) (f : BitVec 64)
    (hf : Within f HANDLED_ACCESS_TYPES) : RulesHandled (ruleIgnoring env j p f) := by
  unfold ruleIgnoring
  split_ifs
  · exact h
  · exact rulesHandled_path h _ p f (Or.inl hf)

theorem rulesHandled_advanced {j : Jail} (h : RulesHandled j) (k : LandlockKernel) (p : BStr) :
    RulesHandled (addFsRestrictionPath k (fsReferSupported k j).2 p (if (fsReferSupported k j).1 then
      ACCESS_READ ||| ACCESS_FULL_WRITE ||| LL_REFER else ACCESS_READ ||| ACCESS_FULL_WRITE)) := by
  refine rulesHandled_path (rulesHandled_refer h k) k p _ ?_
  cases hr : (fsReferSupported k j).1
  · exact Or.inl (within_of_and (by decide))
  · rw [(refer_abi k j).2] at hr
    exact Or.inr ⟨of_decide_eq_true hr, within_of_and (by decide)⟩

theorem rulesHandled_defaults {j : Jail} (h : RulesHandled j) (env : ApiEnv) :
    RulesHandled (enableDefaultFsRestrictions env j) := by
  unfold enableDefaultFsRestrictions
  dsimp only
  repeat refine rulesHandled_ignoring ?_ env _ _ (within_of_and (by decide))
  exact h

theorem rulesHandled_mount {j : Jail} (h : RulesHandled j) (env : ApiEnv) (m : Mountpoint) :
    RulesHandled (rulesForMount env j m) := by
  have h1 := rulesHandled_ignoring h env m.dest ACCESS_READ_EXECUTE (within_of_and (by decide))
  unfold rulesForMount
  dsimp only
  split
  · generalize ruleIgnoring env j m.dest ACCESS_READ_EXECUTE = i at h1
    by_cases ho : env.oom = true
    · simp only [ruleIgnoring, ho, if_true]; exact rulesHandled_refer h1 _
    · simp only [ruleIgnoring, ho, if_false]; exact rulesHandled_advanced h1 _ _
  · exact h1

theorem rulesHandled_mounts (env : ApiEnv) (ms : List Mountpoint) : ∀ j : Jail, RulesHandled j →
    RulesHandled (ms.foldl (rulesForMount env) j) := by
  induction ms with
  | nil => intro j h; exact h
  | cons m ms ih => intro j h; exact ih _ (rulesHandled_mount h env m)

theorem rulesHandled_minimalistic {j : Jail} (h : RulesHandled j) (env : ApiEnv) :
    RulesHandled (addMinimalisticMountnsFsRules env j) := by
  have h1 : RulesHandled (j.mounts.foldl (rulesForMount env) j) := rulesHandled_mounts env j.mounts j h
  have h2 := rulesHandled_ignoring (rulesHandled_ignoring (rulesHandled_defaults h1 env) env (bstr "/dev")
    (ACCESS_READ ||| ACCESS_EDIT) (within_of_and (by decide))) env (bstr "/proc") ACCESS_READ (within_of_and (by decide))
  unfold addMinimalisticMountnsFsRules
  dsimp only
  split
  · exact h
  · split
    · exact h1
    · split
      · exact rulesHandled_ignoring h2 env _ _ (within_of_and (by decide))
      · exact h2

theorem rulesHandled_rule {j : Jail} (h : RulesHandled j) (env : ApiEnv) (p : BStr) (f : BitVec 64)
    (hf : Within f HANDLED_ACCESS_TYPES) : (addRule env j p f).Sat fun _ => RulesHandled := by
  unfold addRule
  split_ifs
  · exact h
  · exact rulesHandled_path h _ p f (Or.inl hf)

/-- The rules and the recorded landlock version are untouched. -/
def SameRules (j j' : Jail) : Prop := j'.fs_rules = j.fs_rules ∧ j'.fs_rules_landlock_abi = j.fs_rules_landlock_abi

theorem sameRules_should (j : Jail) (env : ApiEnv) : SameRules j (shouldUseFilters env j).2 := by
  unfold shouldUseFilters
  split_ifs <;> exact ⟨rfl, rfl⟩

theorem sameRules_mount (j : Jail) (env : ApiEnv) (s d t : BStr) (f : BitVec 64) (x : Option BStr) :
    (mountCall env j s d t f x).Sat fun _ => SameRules j := by
  unfold mountCall
  split
  · exact ⟨rfl, rfl⟩
  · rename_i j' hj
    split_ifs
    · exact ⟨rfl, rfl⟩
    · unfold mountWithData at hj
      dsimp only at hj
      split at hj
      · simp at hj
      injection hj with hj
      subst hj
      split_ifs <;> exact ⟨rfl, rfl⟩

set_option maxHeartbeats 1000000 in
theorem sameRules_call (env : ApiEnv) (j : Jail) (c : Call) (hc : addsRule c = false)
    (h1 : c ≠ .addMinimalisticMountnsFsRules) (h2 : c ≠ .enableDefaultFsRestrictions) :
    (call env j c).Sat fun _ => SameRules j := by
  cases c
  case mountWithData => exact sameRules_mount j env _ _ _ _ _
  case mount => exact sameRules_mount j env _ _ _ _ _
  case bind =>
    unfold call bindCall
    dsimp only
    split
    · exact ⟨rfl, rfl⟩
    · exact sameRules_mount j env _ _ _ _ _
  case addMinimalisticMountnsFsRules => exact absurd rfl h1
  case enableDefaultFsRestrictions => exact absurd rfl h2
  case parseSeccompFilters =>
    have := sameRules_should j env
    unfold call parseSeccompFilters
    dsimp only
    split
    · exact this
    · split
      · trivial
      · exact this
  case parseSeccompFiltersFromFd =>
    have := sameRules_should j env
    unfold call parseSeccompFilters
    dsimp only
    split
    · exact this
    · split
      · trivial
      · exact this
  case setSeccompFilters =>
    have := sameRules_should j env
    unfold call setSeccompFilters
    dsimp only
    split
    · exact this
    · split_ifs <;> first | trivial | exact this
  case changeUser =>
    unfold call changeUser changeUid
    dsimp only
    split
    · exact ⟨rfl, rfl⟩
    · split
      · trivial
      · rename_i heq
        split_ifs at heq
        cases heq
        split_ifs <;> exact ⟨rfl, rfl⟩
  case changeGroup =>
    unfold call changeGroup changeGid
    dsimp only
    split
    · exact ⟨rfl, rfl⟩
    · split_ifs <;> first | trivial | exact ⟨rfl, rfl⟩
  case namespaceEnterVfs =>
    unfold call namespaceEnterVfs
    dsimp only
    split <;> first | trivial | exact ⟨rfl, rfl⟩
  case namespaceEnterNet =>
    unfold call namespaceEnterNet
    dsimp only
    split <;> first | trivial | exact ⟨rfl, rfl⟩
  all_goals first
    | (cases hc; done)
    | exact ⟨rfl, rfl⟩
    | (simp only [call, changeUid, changeGid, setSupplementaryGids, setSeccompFilterTsync, setSeccompFilterAllowSpeculation,
        logSeccompFilterFailures, useCaps, capbsetDrop, namespaceSetHostname, setUidmap, setGidmap, enterChrootCall,
        enterPivotRootCall, writePidFile, addToCgroup, setRlimit, addRemount, addHook, preserveFd, setPreloadPath, useAltSyscall,
        setFlags]
       (repeat' split) <;> first | trivial | exact ⟨rfl, rfl⟩)

theorem rulesHandled_call {j : Jail} (h : RulesHandled j) (env : ApiEnv) (c : Call)
    (hc : ∀ p m, c ≠ .addFsRestrictionAccessRights p m) : (call env j c).Sat fun _ => RulesHandled := by
  by_cases ha : addsRule c = true
  · cases c
    case addFsRestrictionRo => exact rulesHandled_rule h env _ _ (within_of_and (by decide))
    case addFsRestrictionRx => exact rulesHandled_rule h env _ _ (within_of_and (by decide))
    case addFsRestrictionRw => exact rulesHandled_rule h env _ _ (within_of_and (by decide))
    case addFsRestrictionEdit => exact rulesHandled_rule h env _ _ (within_of_and (by decide))
    case addFsRestrictionAdvancedRw p =>
      show ApiRes.Sat _ (addRuleAdvancedRw env j p)
      unfold addRuleAdvancedRw addRule
      dsimp only
      by_cases ho : env.oom = true
      · rw [if_pos ho]; exact rulesHandled_refer h _
      · rw [if_neg ho]; exact rulesHandled_advanced h _ _
    case addFsRestrictionAccessRights p m => exact absurd rfl (hc p m)
    all_goals cases ha
  · by_cases h1 : c = .addMinimalisticMountnsFsRules
    · subst h1; exact rulesHandled_minimalistic h env
    · by_cases h2 : c = .enableDefaultFsRestrictions
      · subst h2; exact rulesHandled_defaults h env
      · have := sameRules_call env j c (by simpa using ha) h1 h2
        revert this
        cases call env j c with
        | die => intro _; trivial
        | ret rc j' => intro q; exact rulesHandled_abi h q.1 fun _ => q.2

theorem rulesHandled_calls (cs : List (ApiEnv × Call)) : ∀ j j' : Jail, RulesHandled j →
    (∀ e ∈ cs, ∀ p m, e.2 ≠ .addFsRestrictionAccessRights p m) → calls j cs = some j' → RulesHandled j' := by
  induction cs with
  | nil => intro j j' h _ e; simp only [calls, Option.some.injEq] at e; exact e ▸ h
  | cons p cs ih =>
    intro j j' h hg e
    obtain ⟨env, c⟩ := p
    have h1 := rulesHandled_call h env c (hg (env, c) (by simp))
    simp only [calls] at e
    revert h1 e
    cases call env j c with
    | die => intro e _; simp at e
    | ret rc j1 => intro e h1; exact ih j1 j' h1 (fun p hp => hg p (by simp [hp])) e

/-- What holds of **C34**, handled rights: after any sequence of calls without explicit masks, every rule asks only for
rights that the ruleset created for the jail handles. -/
theorem C34_handled_partial (cs : List (ApiEnv × Call)) (k : LandlockKernel) (j : Jail)
    (hc : ∀ e ∈ cs, ∀ p m, e.2 ≠ .addFsRestrictionAccessRights p m) (h : calls minijailNew cs = some j) :
    ∀ r ∈ j.fs_rules, Within r.landlock_flags (handledAccess k j) := by
  have h1 : RulesHandled j := rulesHandled_calls cs _ _ (by intro r hr; simp [minijailNew] at hr) hc h
  have h2 := rulesHandled_refer h1 k
  intro r hr
  have h3 := h2 r (by rw [refer_rules]; exact hr)
  have e : handledAccess k j = if (fsReferSupported k j).2.fs_rules_landlock_abi.toInt ≥ 2 then
      HANDLED_ACCESS_TYPES ||| LL_REFER else HANDLED_ACCESS_TYPES := by
    unfold handledAccess
    rw [(refer_abi k j).2]
    simp only [decide_eq_true_eq]
  rw [e]
  exact h3

/-- **C34 does not hold** for explicit masks: the call succeeds and records rights the ruleset does not handle. -/
theorem C34_violated : ∃ (k : LandlockKernel) (j : Jail),
    calls minijailNew [({ landlock := k }, .addFsRestrictionAccessRights (bstr "/srv") 0x200c#16)] = some j ∧
    ∃ r ∈ j.fs_rules, ¬ Within r.landlock_flags (handledAccess k j) := by
  refine ⟨⟨1#32, 5#32⟩, _, rfl, ⟨bstr "/srv", 0x200c#64⟩, by decide +kernel, ?_⟩
  intro h
  exact absurd (h 13 (by decide)) (by decide +kernel)

/-! ### In the kernel -/

theorem populate_cases (stat : BStr → Option Bool) (handled : BitVec 64) (rules : List KernelRule) (r : FsRule) :
    populateRuleset stat handled rules r = rules ∨ ∃ d, stat r.path = some d ∧
      populateRuleset stat handled rules r =
        rules ++ [⟨r.path, if d then r.landlock_flags else r.landlock_flags &&& ACCESS_FILE⟩] := by
  unfold populateRuleset landlockAddRule
  cases h : stat r.path with
  | none => exact Or.inl rfl
  | some d =>
    dsimp only
    cases d <;> split_ifs <;> first | exact Or.inl rfl | exact Or.inr ⟨_, rfl, rfl⟩ | simp_all

theorem populate_sound (stat : BStr → Option Bool) (handled : BitVec 64) (rs : List FsRule) :
    ∀ acc : List KernelRule, ∀ k ∈ rs.foldl (populateRuleset stat handled) acc, k ∈ acc ∨ ∃ r ∈ rs, r.path = k.path ∧
      ∃ d, stat r.path = some d ∧ k.allowed = if d then r.landlock_flags else r.landlock_flags &&& ACCESS_FILE := by
  induction rs with
  | nil => intro acc k hk; exact Or.inl hk
  | cons r rs ih =>
    intro acc k hk
    rcases ih _ k hk with h | ⟨q, hq, e⟩
    · rcases populate_cases stat handled acc r with e | ⟨d, hd, e⟩ <;> rw [e] at h
      · exact Or.inl h
      · rcases List.mem_append.1 h with h | h
        · exact Or.inl h
        · rw [List.mem_singleton.1 h]
          exact Or.inr ⟨r, by simp, rfl, d, hd, rfl⟩
    · exact Or.inr ⟨q, by simp [hq], e⟩

theorem populate_mono (stat : BStr → Option Bool) (handled : BitVec 64) (rs : List FsRule) :
    ∀ acc : List KernelRule, ∀ k ∈ acc, k ∈ rs.foldl (populateRuleset stat handled) acc := by
  induction rs with
  | nil => intro acc k hk; exact hk
  | cons r rs ih =>
    intro acc k hk
    refine ih _ k ?_
    rcases populate_cases stat handled acc r with e | ⟨d, hd, e⟩ <;> rw [e]
    · exact hk
    · simp [hk]

/-- Once the jail is entered, the kernel grants only rights that a rule of the configuration asks for at that path, and on
anything but a directory only to execute, write and read it. -/
theorem C34_confined (stat : BStr → Option Bool) (handled h' : BitVec 64) (available enforced : Bool) (j : Jail)
    (rs : List KernelRule) (h : applyLandlock stat handled available enforced j = some (.rules h' rs)) :
    h' = handled ∧ ∀ k ∈ rs, (∃ r ∈ j.fs_rules, r.path = k.path ∧ Within k.allowed r.landlock_flags) ∧
      (stat k.path = some false → ∀ i : Nat, k.allowed.getLsbD i = true → i ∈ [0, 1, 2]) := by
  unfold applyLandlock at h
  split at h
  · cases h
  · dsimp only at h
    split at h
    · split at h
      · cases h
        refine ⟨rfl, fun k hk => ?_⟩
        split_ifs at hk
        · rcases populate_sound stat handled j.fs_rules [] k hk with q | ⟨r, hr, hp, d, hd, ha⟩
          · simp at q
          · refine ⟨⟨r, hr, hp, ?_⟩, fun hs i hi => ?_⟩
            · rw [ha]
              intro i hi
              cases d
              · simp only [Bool.false_eq_true, if_false, BitVec.getLsbD_and, Bool.and_eq_true] at hi; exact hi.1
              · exact hi
            · rw [← hp, hd] at hs
              cases hs
              rw [ha] at hi
              simp only [Bool.false_eq_true, if_false, BitVec.getLsbD_and, Bool.and_eq_true] at hi
              have g : Grants ACCESS_FILE [0, 1, 2] := grants_of_decide _ _ (by decide +kernel) (by decide)
              exact (g i).1 hi.2
        · simp at hk
      · cases h
    · cases h

/-- A rule whose path can be opened and that asks for handled rights is in force, with all its rights on a directory. -/
theorem C34_granted (stat : BStr → Option Bool) (handled h' : BitVec 64) (enforced : Bool) (j : Jail) (rs : List KernelRule)
    (h : applyLandlock stat handled true enforced j = some (.rules h' rs)) (r : FsRule) (hr : r ∈ j.fs_rules)
    (hw : Within r.landlock_flags handled) (hn : r.landlock_flags ≠ 0#64) (hd : stat r.path = some true) :
    ⟨r.path, r.landlock_flags⟩ ∈ rs := by
  have hand : r.landlock_flags &&& ~~~handled = 0#64 := by
    apply BitVec.eq_of_getLsbD_eq
    intro i hi
    simp only [BitVec.getLsbD_and, BitVec.getLsbD_not, BitVec.getLsbD_zero, hi, decide_true, Bool.true_and]
    cases hb : r.landlock_flags.getLsbD i
    · rfl
    · rw [hw i hb]; rfl
  have key : ∀ rules, populateRuleset stat handled rules r = rules ++ [⟨r.path, r.landlock_flags⟩] := by
    intro rules
    unfold populateRuleset landlockAddRule
    rw [hd]
    dsimp only
    rw [if_pos rfl, if_neg (by simpa using hand), if_neg hn]
    rfl
  unfold applyLandlock at h
  split at h
  · cases h
  · dsimp only at h
    split at h
    · split at h
      · cases h
        obtain ⟨a, b, e⟩ := List.append_of_mem hr
        rw [if_pos rfl, e, List.foldl_append, List.foldl_cons, key]
        exact populate_mono _ _ _ _ _ (by simp)
      · cases h
    · cases h

/-- Path rules are enforced whenever they are configured, not disabled and the kernel gave a ruleset; if the kernel then
refuses, the process dies. -/
theorem C34_enforced (stat : BStr → Option Bool) (handled : BitVec 64) (available enforced : Bool) (j : Jail)
    (hd : j.flags.enable_fs_restrictions = true) (hr : j.fs_rules ≠ []) (hf : 0 ≤ j.fs_rules_fd.toInt) :
    (enforced = false → applyLandlock stat handled available enforced j = none) ∧
    (enforced = true → ∃ rs, applyLandlock stat handled available enforced j = some (.rules handled rs)) := by
  have h1 : j.fs_rules.isEmpty = false := by simpa using hr
  unfold applyLandlock
  rw [hd, h1]
  simp only [Bool.not_true, Bool.or_self, Bool.false_eq_true, if_false, ge_iff_le, hf, if_true]
  constructor
  · intro h; rw [h]; rfl
  · intro h; rw [h]; exact ⟨_, rfl⟩

/-- After `minijail_disable_fs_restrictions` no path rule is enforced, whatever was or is configured. -/
theorem C34_disabled (env : ApiEnv) (i i' : Jail) (rc : Int) (h : call env i .disableFsRestrictions = .ret rc i')
    (stat : BStr → Option Bool) (handled : BitVec 64) (available enforced : Bool) :
    applyLandlock stat handled available enforced i' = some .none := by
  cases h
  rfl

/-- A jail with three rules, for the examples. -/
def exampleRules : List (ApiEnv × Call) :=
  [({ landlock := ⟨3#32, 5#32⟩ }, .addFsRestrictionRo (bstr "/etc/passwd")),
   ({ landlock := ⟨3#32, 5#32⟩ }, .addFsRestrictionAdvancedRw (bstr "/tmp")),
   ({ landlock := ⟨3#32, 5#32⟩ }, .addFsRestrictionEdit (bstr "/gone"))]

/-- The hypotheses of `C34_rights` and `C34_handled_partial` are met. -/
example : documented true (.addFsRestrictionEdit (bstr "/a")) = some (bstr "/a", [2, 3, 1, 4, 5]) ∧
    (∃ j', call { landlock := ⟨3#32, 5#32⟩ } minijailNew (.addFsRestrictionEdit (bstr "/a")) = .ret 1 j') ∧
    (∀ e ∈ exampleRules, ∀ p m, e.2 ≠ .addFsRestrictionAccessRights p m) ∧
    (calls minijailNew exampleRules).isSome = true := by
  refine ⟨rfl, ⟨_, rfl⟩, ?_, by decide +kernel⟩
  simp [exampleRules]

/-- The hypotheses of `C34_confined` and `C34_granted` are met: a file, a directory and a path that is missing. -/
example : ((calls minijailNew exampleRules).bind (applyLandlock (fun p => if p = bstr "/tmp" then some true else
    if p = bstr "/gone" then none else some false) (HANDLED_ACCESS_TYPES ||| LL_REFER) true true)) =
    some (.rules (HANDLED_ACCESS_TYPES ||| LL_REFER) [⟨bstr "/etc/passwd", 4#64⟩, ⟨bstr "/tmp", 0x3ffe#64⟩]) := by decide +kernel

end Minijail
