import Verif.Model.Enter
import Mathlib.Tactic.SplitIfs
/-! Traces of `minijail_enter`. -/
set_option autoImplicit false
set_option linter.unusedSimpArgs false
namespace Minijail

/-- The program ends with value `a`; the history grows from `h` to `h'`. -/
def Runs {α : Type} (p : EnterM α) (k : Kernel) (h : List Ev) (a : α) (h' : List Ev) : Prop := p k h = (.ok a, h')

/-- Requests that were all answered with 0. -/
def done (cs : List Sys) : List Ev := cs.map fun c => (c, 0)

theorem done_append (a b : List Sys) : done (a ++ b) = done a ++ done b := by simp [done]
theorem done_nil : done [] = [] := rfl

variable {α β : Type} {k : Kernel} {h h' : List Ev}

theorem runs_pure {a b : α} : Runs (pure a : EnterM α) k h b h' ↔ b = a ∧ h' = h := by
  show ((Out.ok a, h) = (Out.ok b, h')) ↔ _
  simp only [Prod.mk.injEq, Out.ok.injEq]
  constructor
  · rintro ⟨rfl, rfl⟩; exact ⟨rfl, rfl⟩
  · rintro ⟨rfl, rfl⟩; exact ⟨rfl, rfl⟩

theorem runs_bind {p : EnterM α} {f : α → EnterM β} {b : β} :
    Runs (p >>= f) k h b h' ↔ ∃ a h1, Runs p k h a h1 ∧ Runs (f a) k h1 b h' := by
  unfold Runs
  show (match p k h with
    | (.ok a, h') => f a k h'
    | (.die, h') => (.die, h')
    | (.exit c, h') => (.exit c, h')) = _ ↔ _
  cases hp : p k h with
  | mk o h1 =>
    cases o with
    | ok a =>
      constructor
      · intro e; exact ⟨a, h1, rfl, e⟩
      · rintro ⟨a', h2, e, e2⟩
        simp only [Prod.mk.injEq, Out.ok.injEq] at e
        rw [e.1, e.2]; exact e2
    | die => simp
    | exit c => simp

theorem runs_sys {c : Sys} {r : Int} : Runs (sys c) k h r h' ↔ r = k h c ∧ h' = h ++ [(c, r)] := by
  unfold Runs sys
  simp only [Prod.mk.injEq, Out.ok.injEq]
  constructor
  · rintro ⟨rfl, rfl⟩; exact ⟨rfl, rfl⟩
  · rintro ⟨rfl, rfl⟩; exact ⟨rfl, rfl⟩

theorem runs_die {a : α} : ¬ Runs (dieNow : EnterM α) k h a h' := by
  unfold Runs dieNow; simp

theorem runs_exit {a : α} {c : Nat} : ¬ Runs (exitNow c : EnterM α) k h a h' := by
  unfold Runs exitNow; simp

theorem runs_dieIf {p : Prop} [Decidable p] {a : Unit} :
    Runs (dieIf p) k h a h' ↔ ¬ p ∧ h' = h := by
  unfold dieIf
  by_cases hp : p
  · simp [hp, runs_die]
  · simp [hp, runs_pure]

theorem runs_ifM {p : Prop} [Decidable p] {a b : EnterM α} {x : α} :
    Runs (ifM p a b) k h x h' ↔ (p ∧ Runs a k h x h') ∨ (¬ p ∧ Runs b k h x h') := by
  unfold ifM
  by_cases hp : p <;> simp [hp]

theorem runs_must {c : Sys} {u : Unit} : Runs (must c) k h u h' ↔ k h c = 0 ∧ h' = h ++ done [c] := by
  unfold must
  rw [runs_bind]
  constructor
  · rintro ⟨r, h1, hs, hd⟩
    rw [runs_sys] at hs
    rw [runs_dieIf] at hd
    obtain ⟨rfl, rfl⟩ := hs
    have h0 : k h c = 0 := by simpa using hd.1
    refine ⟨h0, ?_⟩
    rw [hd.2, h0]
    rfl
  · rintro ⟨h0, rfl⟩
    refine ⟨0, _, runs_sys.2 ⟨h0.symm, rfl⟩, runs_dieIf.2 ⟨by simp, rfl⟩⟩

theorem runs_when {b : Bool} {p : EnterM Unit} {u : Unit} :
    Runs (whenM b p) k h u h' ↔ (b = true ∧ Runs p k h u h') ∨ (b = false ∧ h' = h) := by
  unfold whenM
  cases b
  · simp [runs_pure]
  · simp

/-- `p` makes exactly the requests `t`, all answered with 0, if it gets through. -/
def Makes (p : EnterM Unit) (t : List Sys) : Prop := ∀ k h h', Runs p k h () h' → h' = h ++ done t

theorem makes_must (c : Sys) : Makes (must c) [c] := fun _ _ _ r => (runs_must.1 r).2

theorem makes_pure : Makes (pure ()) [] := fun _ _ _ r => by simp [(runs_pure.1 r).2, done]

theorem makes_bind {p q : EnterM Unit} {s t : List Sys} (hp : Makes p s) (hq : Makes q t) : Makes (do p; q) (s ++ t) := by
  intro k h h' r
  obtain ⟨_, h1, r1, r2⟩ := runs_bind.1 r
  rw [hq k h1 h' r2, hp k h h1 r1, done_append, List.append_assoc]

theorem makes_when {p : EnterM Unit} {t : List Sys} (b : Bool) (hp : Makes p t) : Makes (whenM b p) (if b then t else []) := by
  intro k h h' r
  rcases runs_when.1 r with ⟨hb, r⟩ | ⟨hb, e⟩
  · rw [hb]; exact hp k h h' r
  · rw [hb, e]; simp [done]

theorem makes_for {α : Type} (f : α → EnterM Unit) (g : α → List Sys) (l : List α) (hf : ∀ x ∈ l, Makes (f x) (g x)) :
    Makes (forM' f l) (l.flatMap g) := by
  induction l with
  | nil => exact makes_pure
  | cons x xs ih =>
    rw [List.flatMap_cons]
    exact makes_bind (hf x (by simp)) (ih fun y hy => hf y (by simp [hy]))

theorem makes_if {p : Prop} [Decidable p] {a b : EnterM Unit} {s t : List Sys} (ha : Makes a s) (hb : Makes b t) :
    Makes (ifM p a b) (if p then s else t) := by
  intro k h h' r
  by_cases hp : p
  · rw [if_pos hp]
    unfold ifM at r
    rw [if_pos hp] at r
    exact ha k h h' r
  · rw [if_neg hp]
    unfold ifM at r
    rw [if_neg hp] at r
    exact hb k h h' r

theorem makes_die {p : Prop} [Decidable p] : Makes (dieIf p) [] := by
  intro k h h' r
  rw [runs_dieIf] at r
  rw [r.2]; simp [done]

/-- The requests of the hooks for an event. -/
def hookPlan (j : Jail) (event : Nat) : List Sys :=
  (j.hooks.filter fun h => h.event == event).flatMap fun h => [.hook h.hook h.payload]

theorem makes_hooks (j : Jail) (event : Nat) : Makes (runHooks j event) (hookPlan j event) :=
  makes_for _ _ _ fun h _ => makes_must _

/-- The requests of `dropCapbset`. -/
def boundPlan (keep : BitVec 64) (last : Nat) : List Sys :=
  ((validCaps last).filter fun i => !keep.getLsbD i).flatMap fun i => [.dropBound i]

theorem makes_bound (keep : BitVec 64) (last : Nat) : Makes (dropCapbset keep last) (boundPlan keep last) :=
  makes_for _ _ _ fun h _ => makes_must _

/-- The requests about groups. -/
def groupPlan (j : Jail) : List Sys :=
  if j.flags.inherit_suppl_gids then [.initgroups j.user j.usergid]
  else if j.flags.set_suppl_gids then [.setgroups ((j.suppl_gid_list.getD []).take j.suppl_gid_count)]
  else if !j.flags.keep_suppl_gids && !j.flags.disable_setgroups && (j.flags.uid || j.flags.gid) then [.setgroups []]
  else []

/-- The requests of `dropUgid`. -/
def idPlan (j : Jail) : List Sys :=
  groupPlan j ++ ((if j.flags.gid then [.setresgid j.gid] else []) ++ (if j.flags.uid then [.setresuid j.uid] else []))

theorem makes_ids (j : Jail) : Makes (dropUgid j) (idPlan j) := by
  unfold dropUgid
  have := makes_bind (makes_die (p := countTrue [j.flags.inherit_suppl_gids, j.flags.keep_suppl_gids, j.flags.set_suppl_gids] > 1))
    (makes_bind (makes_if (p := j.flags.inherit_suppl_gids = true) (makes_must (.initgroups j.user j.usergid)) (makes_if (p := j.flags.set_suppl_gids = true)
      (makes_must (.setgroups ((j.suppl_gid_list.getD []).take j.suppl_gid_count)))
      (makes_when (!j.flags.keep_suppl_gids && !j.flags.disable_setgroups && (j.flags.uid || j.flags.gid)) (makes_must (.setgroups [])))))
    (makes_bind (makes_when j.flags.gid (makes_must (.setresgid j.gid))) (makes_when j.flags.uid (makes_must (.setresuid j.uid)))))
  exact this

theorem ids_one (j : Jail) {k : Kernel} {h h' : List Ev} {u : Unit} (r : Runs (dropUgid j) k h u h') :
    countTrue [j.flags.inherit_suppl_gids, j.flags.keep_suppl_gids, j.flags.set_suppl_gids] ≤ 1 := by
  unfold dropUgid at r
  obtain ⟨_, h1, r1, r2⟩ := runs_bind.1 r
  have := (runs_dieIf.1 r1).1
  omega

/-- The first capability set. -/
def keptCaps (j : Jail) (last : Nat) : BitVec 64 := capSet ((validCaps last).filter fun i => i == CAP_SETPCAP || j.caps.getLsbD i)

/-- The final capability set. -/
def finalCaps (j : Jail) (last : Nat) : BitVec 64 :=
  if j.caps.getLsbD CAP_SETPCAP then keptCaps j last else keptCaps j last &&& ~~~BitVec.twoPow 64 CAP_SETPCAP

/-- The requests about ambient capabilities after the query. -/
def ambientPlan (j : Jail) (last : Nat) : List Sys :=
  .ambientClear :: ((validCaps last).filter fun i => j.caps.getLsbD i).flatMap fun i => [.ambientRaise i]

theorem runs_caps (j : Jail) (last : Nat) {k : Kernel} {h h' : List Ev} {u : Unit} (r : Runs (dropCaps j last) k h u h') :
    ∃ q : Int, 0 ≤ q ∧ h' = h ++ (if j.flags.use_caps then
      done ([.capget, .capset (keptCaps j last) (keptCaps j last) (keptCaps j last)] ++
        ((if noroot (~~~j.securebits_skip_mask) then boundPlan j.caps last else []) ++
        [.capset (finalCaps j last) (finalCaps j last) (finalCaps j last)])) ++
        (if j.flags.set_ambient_caps then (.ambientSupported, q) :: done (ambientPlan j last) else []) else []) := by
  unfold dropCaps at r
  rcases runs_when.1 r with ⟨hb, r⟩ | ⟨hb, e⟩
  · rw [hb]
    obtain ⟨_, h2, r2, r⟩ := runs_bind.1 r
    obtain ⟨_, h3, r3, r⟩ := runs_bind.1 r
    obtain ⟨_, h4, r4, r⟩ := runs_bind.1 r
    obtain ⟨_, h5, r5, r⟩ := runs_bind.1 r
    have e2 := makes_must _ _ _ _ r2
    have e3 := makes_must _ _ _ _ r3
    have e4 := makes_when _ (makes_bound _ _) _ _ _ r4
    have e5 := makes_must _ _ _ _ r5
    rcases runs_when.1 r with ⟨ha, r⟩ | ⟨ha, e⟩
    · obtain ⟨q, h6, r6, r⟩ := runs_bind.1 r
      obtain ⟨_, h7, r7, r⟩ := runs_bind.1 r
      rw [runs_sys] at r6
      rw [runs_dieIf] at r7
      have e8 := makes_bind (makes_must _) (makes_for _ (fun i => [Sys.ambientRaise i]) _ fun i _ => makes_must _) _ _ _ r
      refine ⟨q, by omega, ?_⟩
      rw [e8, r7.2, r6.2, e5, e4, e3, e2, ha]
      simp [done, keptCaps, finalCaps, ambientPlan]
    · refine ⟨0, Int.le_refl 0, ?_⟩
      rw [e, e5, e4, e3, e2, ha]
      simp [done, keptCaps, finalCaps]
  · exact ⟨0, Int.le_refl 0, by rw [hb, e]; simp⟩

/-- The bits `lockSecurebits` first asks for. -/
def lockBits (env : EnterEnv) (skip : BitVec 64) (dropKeep : Bool) : BitVec 64 :=
  let bits := env.secureAllBits ||| env.secureAllBits <<< 1
  (if dropKeep then bits &&& ~~~0x10#64 else bits) &&& ~~~0xc0#64 &&& ~~~skip

theorem runs_secure (env : EnterEnv) (skip : BitVec 64) (req : Bool) {k : Kernel} {h h' : List Ev} {u : Unit}
    (r : Runs (lockSecurebits env skip req) k h u h') :
    ∃ (cur : Int) (drop : Bool), (req = true → drop = false) ∧
      (req = false → 0 ≤ cur ∧ drop = ((BitVec.ofInt 64 cur).getLsbD 5 && !(BitVec.ofInt 64 cur).getLsbD 4)) ∧
      ∃ t, h' = h ++ (if req then [] else [(.getSecurebits, cur)]) ++ t ∧
      ((lockBits env skip drop = 0#64 ∧ t = []) ∨
       (lockBits env skip drop ≠ 0#64 ∧ ∃ q : Int, 0 ≤ q ∧
        (t = [(.setSecurebits (lockBits env skip drop), q)] ∨
         (lockBits env skip drop &&& 0xf00#64 ≠ 0#64 ∧
          t = [(.setSecurebits (lockBits env skip drop), -1), (.setSecurebits (lockBits env skip drop &&& ~~~0xf00#64), q)])))) := by
  unfold lockSecurebits at r
  dsimp only at r
  obtain ⟨bits, h1, r1, r⟩ := runs_bind.1 r
  have tail : ∃ t, h' = h1 ++ t ∧ ((bits &&& ~~~0xc0#64 &&& ~~~skip = 0#64 ∧ t = []) ∨
       (bits &&& ~~~0xc0#64 &&& ~~~skip ≠ 0#64 ∧ ∃ q : Int, 0 ≤ q ∧
        (t = [(.setSecurebits (bits &&& ~~~0xc0#64 &&& ~~~skip), q)] ∨
         (bits &&& ~~~0xc0#64 &&& ~~~skip &&& 0xf00#64 ≠ 0#64 ∧
          t = [(.setSecurebits (bits &&& ~~~0xc0#64 &&& ~~~skip), -1),
            (.setSecurebits (bits &&& ~~~0xc0#64 &&& ~~~skip &&& ~~~0xf00#64), q)])))) := by
    generalize bits &&& ~~~0xc0#64 &&& ~~~skip = b at r ⊢
    rcases runs_ifM.1 r with ⟨hb, r⟩ | ⟨hb, r⟩
    · rw [runs_pure] at r
      exact ⟨[], by simp [r.2], Or.inl ⟨hb, rfl⟩⟩
    · obtain ⟨x, h2, r1, r⟩ := runs_bind.1 r
      obtain ⟨y, h3, r2, r⟩ := runs_bind.1 r
      rw [runs_sys] at r1
      rw [runs_dieIf] at r
      rcases runs_ifM.1 r2 with ⟨hx, r2⟩ | ⟨hx, r2⟩
      · rw [runs_sys] at r2
        refine ⟨[(.setSecurebits b, -1), (.setSecurebits (b &&& ~~~0xf00#64), y)], ?_, Or.inr ⟨hb, y, by omega, Or.inr ⟨hx.2.2, rfl⟩⟩⟩
        rw [r.2, r2.2, r1.2, hx.2.1]; simp
      · rw [runs_pure] at r2
        refine ⟨[(.setSecurebits b, x)], ?_, Or.inr ⟨hb, x, ?_, Or.inl rfl⟩⟩
        · rw [r.2, r2.2, r1.2]
        · have := r.1; rw [r2.1] at this; omega
  obtain ⟨t, e, ht⟩ := tail
  rcases runs_ifM.1 r1 with ⟨hq, r1⟩ | ⟨hq, r1⟩
  · rw [runs_pure] at r1
    refine ⟨0, false, by simp, by simp [hq], t, ?_, ?_⟩
    · rw [e, r1.2, hq]; simp
    · rw [r1.1] at ht; exact ht
  · obtain ⟨cur, h2, r2, r1⟩ := runs_bind.1 r1
    obtain ⟨_, h3, r3, r1⟩ := runs_bind.1 r1
    rw [runs_sys] at r2
    rw [runs_dieIf] at r3
    rw [runs_pure] at r1
    have hq : req = false := by simpa using hq
    refine ⟨cur, _, by simp [hq], fun _ => ⟨by omega, rfl⟩, t, ?_, ?_⟩
    · rw [e, r1.2, r3.2, r2.2, hq]; simp
    · rw [r1.1] at ht; exact ht

theorem runs_rules (l : List FsRule) {k : Kernel} : ∀ {h h' : List Ev} {u : Unit},
    Runs (forM' (fun r => do let _ ← sys (.landlockRule r.path r.landlock_flags); pure ()) l) k h u h' →
    ∃ t, h' = h ++ t ∧ t.map (·.1) = l.map fun r => .landlockRule r.path r.landlock_flags := by
  induction l with
  | nil => intro h h' u r; exact ⟨[], by simp [(runs_pure.1 r).2], rfl⟩
  | cons x xs ih =>
    intro h h' u r
    obtain ⟨_, h1, r1, r⟩ := runs_bind.1 r
    obtain ⟨y, h2, r2, r1⟩ := runs_bind.1 r1
    rw [runs_sys] at r2
    rw [runs_pure] at r1
    obtain ⟨t, e, ht⟩ := ih r
    exact ⟨(.landlockRule x.path x.landlock_flags, y) :: t, by rw [e, r1.2, r2.2]; simp, by simp [ht]⟩

/-- Path rules are configured and not disabled. -/
def usesRules (j : Jail) : Bool := j.flags.enable_fs_restrictions && !j.fs_rules.isEmpty

theorem runs_landlock (j : Jail) {k : Kernel} {h h' : List Ev} {u : Unit} (r : Runs (landlock j) k h u h') :
    ∃ (a : Int) (t : List Ev), (t.map (·.1) = if a ≠ 0 then j.fs_rules.map fun r => Sys.landlockRule r.path r.landlock_flags else []) ∧
      h' = h ++ (if usesRules j then (.landlockAvailable, a) :: t ++
        (if decide (j.fs_rules_fd.toInt ≥ 0) then done [.landlockRestrict j.fs_rules_fd] else []) else []) := by
  unfold landlock at r
  rcases runs_ifM.1 r with ⟨hc, r⟩ | ⟨hc, r⟩
  · rw [runs_pure] at r
    refine ⟨0, [], rfl, ?_⟩
    have : usesRules j = false := by
      unfold usesRules
      revert hc
      cases j.flags.enable_fs_restrictions <;> cases j.fs_rules.isEmpty <;> simp
    rw [this, r.2]; simp
  · have hu : usesRules j = true := by
      unfold usesRules
      revert hc
      cases j.flags.enable_fs_restrictions <;> cases j.fs_rules.isEmpty <;> simp
    obtain ⟨a, h1, r1, r⟩ := runs_bind.1 r
    obtain ⟨_, h2, r2, r⟩ := runs_bind.1 r
    rw [runs_sys] at r1
    have e3 := makes_when _ (makes_must _) _ _ _ r
    rw [hu]
    rcases runs_when.1 r2 with ⟨ha, r2⟩ | ⟨ha, e⟩
    · obtain ⟨t, e, ht⟩ := runs_rules _ r2
      refine ⟨a, t, ?_, ?_⟩
      · rw [if_pos (by simpa using ha)]; exact ht
      · rw [e3, e, r1.2]
        cases decide (j.fs_rules_fd.toInt ≥ 0) <;> simp [done]
    · refine ⟨a, [], ?_, ?_⟩
      · rw [if_neg (by simpa using ha)]; rfl
      · rw [e3, e, r1.2]
        cases decide (j.fs_rules_fd.toInt ≥ 0) <;> simp [done]

/-- The requests of `setSeccompFilter`. -/
def filterPlan (env : EnterEnv) (j : Jail) : List Sys :=
  if j.flags.seccomp_filter && !env.asan then
    (if env.defaultRetLog || j.flags.seccomp_filter_logging then if !env.retLogAvailable then [.sigsysHandler] else []
     else if j.flags.seccomp_filter_tsync then [.sigsysDefault] else []) ++
    [.seccompFilter j.flags.seccomp_filter_tsync j.flags.seccomp_filter_allow_speculation j.filter_prog]
  else []

theorem makes_filter (env : EnterEnv) (j : Jail) : Makes (setSeccompFilter env j) (filterPlan env j) := by
  unfold setSeccompFilter filterPlan
  exact makes_when _ (makes_bind (makes_if (makes_when _ (makes_must _)) (makes_when _ (makes_must _))) (makes_must _))

end Minijail
