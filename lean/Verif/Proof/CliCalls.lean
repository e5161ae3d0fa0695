import Verif.Proof.CliLoop
import Verif.Proof.ApiMono
import Verif.Proof.Const
/-! The front end changes the jail only through calls of the library. -/
set_option linter.unusedSimpArgs false
set_option autoImplicit false
namespace Minijail
open Spec

theorem text_bytes {s : CStr} (h : IsText s) : CString (bytesOf s) := by
  intro hm
  obtain ⟨ch, hc, e⟩ := List.mem_map.1 hm
  apply h ch hc
  have := congrArg BitVec.toNat e
  simpa using this

theorem text_sub {s t : CStr} (h : IsText s) (hs : ∀ ch ∈ t, ch ∈ s) : IsText t := fun ch hc => h ch (hs ch hc)

theorem text_nil : IsText [] := fun _ h => by simp at h

theorem text_tokenize {s a : CStr} {r : Option CStr} {d : Char} (h : IsText s) (e : tokenize (some s) [d] = some (a, r)) :
    IsText a ∧ ∀ t, r = some t → IsText t := by
  simp only [tokenize] at e
  rw [if_neg (by simp)] at e
  split at e
  · simp only [Option.some.injEq, Prod.mk.injEq] at e
    obtain ⟨rfl, rfl⟩ := e
    exact ⟨h, fun _ q => by simp at q⟩
  · next x y hx =>
    simp only [Option.some.injEq, Prod.mk.injEq] at e
    obtain ⟨rfl, rfl⟩ := e
    have := (strstr1_some.1 hx).1
    subst this
    refine ⟨text_sub h (by simp +contextual), fun t q => ?_⟩
    cases q
    exact text_sub h (by simp +contextual)

theorem text_tokenize' {s r : Option CStr} {a : CStr} {d : Char} (h : ∀ t, s = some t → IsText t) (e : tokenize s [d] = some (a, r)) :
    IsText a ∧ ∀ t, r = some t → IsText t := by
  cases s with
  | none => simp [tokenize] at e
  | some s => exact text_tokenize (h s rfl) e

theorem text_strip {s : CStr} (h : IsText s) : IsText (strip s) := by
  refine text_sub h fun ch hc => ?_
  unfold strip at hc
  have h1 := (List.dropWhile_sublist _).mem (List.mem_reverse.1 hc)
  exact (List.dropWhile_sublist _).mem (List.mem_reverse.1 h1)

theorem text_getline : ∀ {s l rest : CStr}, IsText s → getline s = some (l, rest) → IsText l ∧ IsText rest := by
  intro s
  induction s with
  | nil => intro l rest _ h; simp [getline] at h
  | cons c s ih =>
    intro l rest ht h
    have hc : c.toNat % 256 ≠ 0 := ht c (by simp)
    have hs : IsText s := text_sub ht (by simp +contextual)
    simp only [getline] at h
    split at h
    · simp at h; obtain ⟨rfl, rfl⟩ := h
      exact ⟨by simpa [IsText] using hc, hs⟩
    · split at h
      · simp at h; obtain ⟨rfl, rfl⟩ := h
        exact ⟨by simpa [IsText] using hc, text_nil⟩
      · next l' r' h1 =>
        simp at h; obtain ⟨rfl, rfl⟩ := h
        have := ih hs h1
        exact ⟨by simpa [IsText, hc] using this.1, this.2⟩

theorem text_multiline (n : Nat) : ∀ {s l rest : CStr}, s.length ≤ n → IsText s → getmultiline s = some (l, rest) → IsText l ∧ IsText rest := by
  induction n with
  | zero =>
    intro s l rest hn _ h
    have : s = [] := List.eq_nil_of_length_eq_zero (by omega)
    subst this
    rw [getmultiline] at h; simp [getline] at h
  | succ n ih =>
    intro s l rest hn ht h
    rw [getmultiline] at h
    split at h
    · simp at h
    · next l0 rest0 hg =>
      have hl := getline_length hg
      have hx := text_getline ht hg
      have he : IsText (eatNewline l0) := by
        unfold eatNewline
        split
        · exact text_sub hx.1 fun ch hc => List.mem_of_mem_dropLast hc
        · exact hx.1
      simp only at h
      split at h
      · split at h
        · simp at h
        · next next rest' hm =>
          simp only [Option.some.injEq, Prod.mk.injEq] at h
          obtain ⟨rfl, rfl⟩ := h
          have := ih (by omega) hx.2 hm
          refine ⟨?_, this.2⟩
          intro ch hc
          rcases List.mem_append.1 hc with q | q
          · exact he ch (List.mem_of_mem_dropLast q)
          · rcases List.mem_cons.1 q with rfl | q
            · decide
            · exact this.1 ch q
      · simp only [Option.some.injEq, Prod.mk.injEq] at h
        obtain ⟨rfl, rfl⟩ := h
        exact ⟨he, hx.2⟩

theorem text_lines (n : Nat) : ∀ {s : CStr}, s.length ≤ n → IsText s → ∀ l ∈ readLines s, IsText l := by
  induction n with
  | zero =>
    intro s hn _ l hl
    have : s = [] := List.eq_nil_of_length_eq_zero (by omega)
    subst this
    rw [readLines] at hl
    split at hl
    · simp at hl
    · next h => rw [getmultiline] at h; simp [getline] at h
  | succ n ih =>
    intro s hn ht l hl
    rw [readLines] at hl
    split at hl
    · simp at hl
    · next l0 rest h =>
      have h1 := getmultiline_length s.length (Nat.le_refl _) h
      have h2 := text_multiline s.length (Nat.le_refl _) ht h
      rcases List.mem_cons.1 hl with rfl | hl
      · exact h2.1
      · exact ih (by omega) h2.2 l hl

/-- The values of the entries are text. -/
def TextEntries (es : List ConfigEntry) : Prop := ∀ e ∈ es, ∀ v, e.value = some v → IsText v

theorem text_configLines : ∀ {ls : List CStr}, (∀ l ∈ ls, IsText l) → TextEntries (parseConfigLines ls).2 := by
  intro ls
  induction ls with
  | nil => intro _ e he; simp [parseConfigLines] at he
  | cons l ls ih =>
    intro h
    have ih := ih fun x hx => h x (by simp [hx])
    simp only [parseConfigLines]
    split
    · exact ih
    · split
      · intro e he; simp at he
      · next e0 he0 =>
        intro e he v hv
        rcases List.mem_cons.1 he with rfl | he
        · unfold parseConfigLine at he0
          split at he0
          · simp at he0
          · next key value ht =>
            have := text_tokenize (text_strip (h l (by simp))) ht
            dsimp only at he0
            split at he0
            · simp at he0
            · simp only [Option.some.injEq] at he0
              subst he0
              cases value with
              | none => simp at hv
              | some w =>
                simp only [Option.map_some, Option.some.injEq] at hv
                subst hv
                exact text_strip (this.2 w rfl)
        · exact ih e he v hv

theorem text_config {text : CStr} (h : IsText text) : TextEntries (parseConfigFile text).2 := by
  unfold parseConfigFile
  split
  · intro e he; simp at he
  · next line rest hg =>
    split
    · intro e he; simp at he
    · exact text_configLines (text_lines _ (Nat.le_refl _) (text_getline h hg).2)

/-- The jail comes from the other by calls of the library with proper arguments. -/
def Reach (env : CliEnv) (j j' : Jail) : Prop :=
  ∃ ks : List Call, (∀ k ∈ ks, GoodCall env.api k) ∧ calls j (ks.map fun k => (env.api, k)) = some j'

theorem Reach.refl (env : CliEnv) (j : Jail) : Reach env j j := ⟨[], by simp, rfl⟩

theorem cli_calls_append (xs ys : List (ApiEnv × Call)) : ∀ j, calls j (xs ++ ys) = (calls j xs).bind fun k => calls k ys := by
  induction xs with
  | nil => intro j; rfl
  | cons x xs ih =>
    intro j
    obtain ⟨e, k⟩ := x
    simp only [List.cons_append, calls]
    cases call e j k with
    | die => rfl
    | ret rc j' => exact ih j'

theorem Reach.trans {env : CliEnv} {a b c : Jail} (h : Reach env a b) (h' : Reach env b c) : Reach env a c := by
  obtain ⟨ks, hk, e⟩ := h
  obtain ⟨ls, hl, e'⟩ := h'
  refine ⟨ks ++ ls, fun k hm => (List.mem_append.1 hm).elim (hk k) (hl k), ?_⟩
  rw [List.map_append, cli_calls_append, e]
  exact e'

theorem Reach.call {env : CliEnv} {a b c : Jail} {k : Call} {rc : Int} (h : Reach env a b) (hk : GoodCall env.api k) (e : call env.api b k = .ret rc c) :
    Reach env a c := by
  refine h.trans ⟨[k], by simpa using hk, ?_⟩
  simp [calls, e]

theorem reach_lib {env : CliEnv} {j : Jail} {c : Cli} {k : Call} {P : Cli → Prop} (h : Reach env j c.j) (hk : GoodCall env.api k)
    (n : ∀ j', Reach env j j' → P { c with j := j' }) : (lib env c k).All P :=
  all_lib fun _ _ e => n _ (h.call hk e)

theorem reach_libMust {env : CliEnv} {j : Jail} {c : Cli} {k : Call} {P : Cli → Prop} (h : Reach env j c.j) (hk : GoodCall env.api k)
    (n : ∀ j', Reach env j j' → P { c with j := j' }) : (libMust env c k).All P :=
  all_libMust fun _ e => n _ (h.call hk e)

/-- The jail was reached; the strings that are kept are text. -/
structure CliGood (env : CliEnv) (j : Jail) (c : Cli) : Prop where
  reach : Reach env j c.j
  path : IsText c.filter_path
  confs : ∀ es, c.confs = some es → TextEntries es

theorem good_bindingOf {env : CliEnv} {j : Jail} {c : Cli} {src : CStr} {dest flags : Option CStr} {more : Bool} (g : CliGood env j c) (hs : IsText src)
    (hd : TextArg dest) : (addBindingOf env c src dest flags more).All (CliGood env j) := by
  have ht : IsText (if dest.getD [] = [] then src else dest.getD []) := by
    split
    · exact hs
    · cases dest with
      | none => exact text_nil
      | some d => exact hd d rfl
  unfold addBindingOf
  dsimp only
  (repeat' split) <;> first
    | trivial
    | exact reach_libMust g.reach ⟨text_bytes hs, text_bytes (by first | assumption | (rw [if_pos (by assumption)] at ht; exact ht) | (rw [if_neg (by assumption)] at ht; exact ht))⟩ fun _ r => { g with reach := r }

theorem good_binding {env : CliEnv} {j : Jail} {c : Cli} {arg : Option CStr} (g : CliGood env j c) (ha : TextArg arg) :
    (addBinding env c arg).All (CliGood env j) := by
  unfold addBinding
  dsimp only
  split
  · trivial
  · next src a1 h1 =>
    have t1 := text_tokenize' ha h1
    refine good_bindingOf g t1.1 ?_
    rintro d hd
    cases h2 : tokenize a1 ",".toList with
    | none => rw [h2] at hd; cases hd
    | some x =>
      obtain ⟨y, r⟩ := x
      rw [h2] at hd; cases hd
      exact (text_tokenize' t1.2 h2).1

theorem good_rlimit {env : CliEnv} {j : Jail} {c : Cli} {arg : Option CStr} (g : CliGood env j c) : (addRlimitArg env c arg).All (CliGood env j) := by
  unfold addRlimitArg
  dsimp only
  (repeat' split) <;> first
    | trivial
    | exact reach_libMust g.reach trivial fun _ r => { g with reach := r }

theorem text_bind {t : Option (CStr × Option CStr)} (h : ∀ a r, t = some (a, r) → IsText a ∧ ∀ x, r = some x → IsText x) :
    TextArg (t.bind (·.2)) := by
  intro s e
  cases t with
  | none => simp at e
  | some p => exact (h p.1 p.2 rfl).2 s e

theorem good_mount {env : CliEnv} {j : Jail} {c : Cli} {arg : Option CStr} (g : CliGood env j c) (ha : TextArg arg) :
    (addMountArg env c arg).All (CliGood env j) := by
  unfold addMountArg
  dsimp only
  have k1 : ∀ a r, tokenize arg ",".toList = some (a, r) → IsText a ∧ ∀ x, r = some x → IsText x := fun a r h => text_tokenize' ha h
  revert k1
  generalize tokenize arg ",".toList = t1
  intro k1
  have k2 : ∀ a r, tokenize (t1.bind (·.2)) ",".toList = some (a, r) → IsText a ∧ ∀ x, r = some x → IsText x :=
    fun a r h => text_tokenize' (text_bind k1) h
  revert k2
  generalize tokenize (t1.bind (·.2)) ",".toList = t2
  intro k2
  have k3 : ∀ a r, tokenize (t2.bind (·.2)) ",".toList = some (a, r) → IsText a ∧ ∀ x, r = some x → IsText x :=
    fun a r h => text_tokenize' (text_bind k2) h
  revert k3
  generalize tokenize (t2.bind (·.2)) ",".toList = t3
  intro k3
  have k4 : ∀ a r, tokenize (t3.bind (·.2)) ",".toList = some (a, r) → IsText a ∧ ∀ x, r = some x → IsText x :=
    fun a r h => text_tokenize' (text_bind k3) h
  revert k4
  generalize tokenize (t3.bind (·.2)) ",".toList = t4
  intro k4
  have k5 : ∀ a r, tokenize (t4.bind (·.2)) ",".toList = some (a, r) → IsText a ∧ ∀ x, r = some x → IsText x :=
    fun a r h => text_tokenize' (text_bind k4) h
  revert k5
  generalize tokenize (t4.bind (·.2)) ",".toList = t5
  intro k5
  split
  · next src a1 dest a2 type a3 =>
    split
    · trivial
    · split
      · trivial
      · refine reach_libMust g.reach ⟨text_bytes (k1 _ _ rfl).1, text_bytes (k2 _ _ rfl).1, text_bytes (k3 _ _ rfl).1, ?_⟩ fun _ r => { g with reach := r }
        intro t ht
        obtain ⟨d, hd, rfl⟩ := Option.map_eq_some_iff.1 (Option.mem_def.1 ht)
        apply text_bytes
        split at hd
        · simp only [Option.some.injEq] at hd
          subst hd
          have := k5 _ _ rfl
          intro ch hc
          rcases List.mem_append.1 hc with q | q
          · exact this.1 ch q
          · rcases List.mem_cons.1 q with rfl | q
            · decide
            · exact this.2 _ rfl ch q
        · simp only [Option.some.injEq] at hd
          subst hd
          exact (k5 _ _ rfl).1
        · simp at hd
  · trivial

theorem good_caps {env : CliEnv} {j : Jail} {c : Cli} {arg : CStr} (g : CliGood env j c) : (useCapsArg env c arg).All (CliGood env j) := by
  unfold useCapsArg
  exact all_bind (all_of fun _ _ => reach_lib g.reach trivial fun _ r => { g with reach := r })

theorem good_user {env : CliEnv} {j : Jail} {c : Cli} {arg : CStr} (he : GoodCliEnv env) (g : CliGood env j c) (ha : IsText arg) :
    (setUser env c arg).All (CliGood env j) := by
  unfold setUser
  split
  · exact reach_lib g.reach trivial fun _ r => { g with reach := r }
  · split
    · trivial
    · exact reach_libMust g.reach ⟨text_bytes ha, he.user _⟩ fun _ r => { g with reach := r }

theorem good_group {env : CliEnv} {j : Jail} {c : Cli} {arg : CStr} (g : CliGood env j c) : (setGroup env c arg).All (CliGood env j) := by
  unfold setGroup
  split
  · exact reach_lib g.reach trivial fun _ r => { g with reach := r }
  · split
    · trivial
    · exact reach_lib g.reach trivial fun _ r => { g with reach := r }

theorem good_chroot {env : CliEnv} {j : Jail} {c : Cli} {p : BStr} (g : CliGood env j c) (hp : CString p) : (useChroot env c p).All (CliGood env j) := by
  unfold useChroot
  exact all_bind (all_refuse fun _ => all_bind (reach_libMust g.reach hp fun _ r => all_pure { g with reach := r }))

theorem good_pivot {env : CliEnv} {j : Jail} {c : Cli} {p : BStr} (g : CliGood env j c) (hp : CString p) : (usePivotRoot env c p).All (CliGood env j) := by
  unfold usePivotRoot
  exact all_bind (all_refuse fun _ => all_bind (reach_libMust g.reach hp fun _ r => all_bind (reach_lib r trivial fun _ r => all_pure { g with reach := r })))

theorem good_dev {env : CliEnv} {j : Jail} {c : Cli} {p : CStr} (g : CliGood env j c) : (profileDev env c p).All (CliGood env j) := by
  unfold profileDev
  split
  · exact all_bind (reach_libMust g.reach ⟨by decide, by decide⟩ fun _ r => reach_lib r trivial fun _ r => { g with reach := r })
  · exact g

theorem good_profile {env : CliEnv} {j : Jail} {c : Cli} {p : CStr} (he : GoodCliEnv env) (g : CliGood env j c) : (useProfile env c p).All (CliGood env j) := by
  unfold useProfile
  refine all_bind (all_refuse fun _ => all_bind (reach_lib g.reach trivial fun _ r => all_bind (reach_libMust r ⟨by decide, by decide⟩ fun _ r =>
    all_bind (reach_libMust r ⟨by decide, by decide⟩ fun _ r => all_bind (all_mono (good_dev { g with reach := r }) fun c1 g1 => ?_)))))
  exact all_bind (reach_lib (c := defaultTmp c1) g1.reach trivial fun _ r => all_bind (reach_lib r trivial fun _ r =>
    good_pivot { reach := r, path := g1.path, confs := g1.confs } he.pivot))

/-- Goes through an option and collects the calls. -/
macro "good_step" : tactic => `(tactic| repeat' (first
  | with_reducible apply all_bind | with_reducible apply all_pure | (with_reducible apply all_refuse; intro _) | (with_reducible apply all_need; intro _ _)
  | (with_reducible refine reach_lib (by assumption) ?_ ?_; rotate_left; intro _ _)
  | (with_reducible refine reach_libMust (by assumption) ?_ ?_; rotate_left; intro _ _) | split | trivial))

theorem optStep_good {env : CliEnv} {j : Jail} {c : Cli} {o : Opt} {arg : Option CStr} (he : GoodCliEnv env) (g : CliGood env j c) (ha : TextArg arg) :
    (optStep env c o arg).All (CliGood env j) := by
  have gr := g.reach
  have gp := g.path
  have gc := g.confs
  cases o <;> simp only [optStep]
  case u =>
    good_step
    · exact { g with }
    · exact good_user he { g with } (ha _ (by assumption))
  case g =>
    good_step
    · exact { g with }
    · exact good_group { g with }
  case c => good_step; exact good_caps { g with }
  case b =>
    good_step
    · exact { g with }
    · exact good_binding { g with } ha
  case R => exact good_rlimit g
  case k =>
    good_step
    exact good_mount g ha
  case C => good_step; exact good_chroot g (text_bytes (ha _ (by assumption)))
  case P => good_step; exact good_pivot g (text_bytes (ha _ (by assumption)))
  case profile => good_step; exact good_profile he g
  case addSupplGroup =>
    good_step
    refine all_mono suppl_locals ?_
    rintro _ ⟨_, rfl⟩
    exact { g with }
  case envAdd =>
    good_step
    refine all_mono childenv_locals ?_
    rintro _ ⟨_, rfl⟩
    exact { g with }
  case config =>
    good_step
    exact { g with confs := fun es e => by cases e; exact text_config (he.conf _ _ (by assumption)) }
  all_goals
    good_step
    all_goals first
      | exact g
      | exact { g with }
      | exact { g with reach := by assumption }
      | exact { g with reach := by assumption, path := ha _ (by assumption) }
      | exact text_bytes (ha _ rfl)
      | exact text_bytes (ha _ (by assumption))

/-- What holds of the local variables and the jail between two options. -/
structure CliInv (env : CliEnv) (j : Jail) (c : Cli) : Prop where
  loop : LoopInv c
  good : CliGood env j c
  inherit : c.inherit_suppl_gids = true → c.j.flags.inherit_suppl_gids = true
  keep : c.keep_suppl_gids = true → c.j.flags.keep_suppl_gids = true

theorem loopInv_start (j : Jail) : LoopInv { j := j } := by
  constructor <;> simp [Has, count]

theorem cliInv_start (env : CliEnv) (j : Jail) : CliInv env j { j := j } :=
  ⟨loopInv_start j, ⟨Reach.refl _ _, text_nil, by simp⟩, by simp, by simp⟩

theorem reach_kept {env : CliEnv} {j j' : Jail} (h : Reach env j j') (hj : Inv j) : Inv j' ∧ FlagsKept j.flags j'.flags := by
  obtain ⟨ks, hk, e⟩ := h
  have hg : ∀ p ∈ ks.map fun k => (env.api, k), GoodCall p.1 p.2 := by
    intro p hp
    obtain ⟨k, hm, rfl⟩ := List.mem_map.1 hp
    exact hk k hm
  exact ⟨inv_calls _ _ _ hj hg e, (kept_calls true _ _ _ hj hg (by simp) e).flags⟩

theorem optStep_groups {env : CliEnv} {c : Cli} {o : Opt} {arg : Option CStr} :
    (optStep env c o arg).All fun c' => (o = .G → c'.j.flags.inherit_suppl_gids = true) ∧ (o = .y → c'.j.flags.keep_suppl_gids = true) := by
  by_cases h1 : o = .G
  · subst h1
    simp only [optStep]
    refine all_bind (all_refuse fun _ => all_bind (all_lib fun rc j e => all_pure ⟨fun _ => ?_, by simp⟩))
    simp only [call, setFlags, ApiRes.ok, ApiRes.ret.injEq] at e
    rw [← e.2]
  · by_cases h2 : o = .y
    · subst h2
      simp only [optStep]
      refine all_bind (all_refuse fun _ => all_bind (all_lib fun rc j e => all_pure ⟨by simp, fun _ => ?_⟩))
      simp only [call, setFlags, ApiRes.ok, ApiRes.ret.injEq] at e
      rw [← e.2]
    · exact all_of fun _ _ => ⟨fun h => absurd h h1, fun h => absurd h h2⟩

theorem all_and {α : Type} {P Q : α → Prop} {x : CliOut α} (h : x.All P) (h' : x.All Q) : x.All fun a => P a ∧ Q a := by
  cases x <;> first | exact ⟨h, h'⟩ | trivial

theorem cliStep_inv {env : CliEnv} {j : Jail} {c : Cli} {n : Nat} {arg : Option CStr} (he : GoodCliEnv env) (hj : Inv j) (I : CliInv env j c)
    (ha : TextArg arg) : (cliStep env c n arg).All fun c' => CliInv env j c' ∧ c'.entries = c.entries ++ [(n, arg)] ∧
      (optOfNat n ≠ some .config → c'.confs = c.confs) ∧ (optOfNat n = some .config → c.confs = none ∧ ∃ path text es, arg = some path ∧
        env.readConf path = some text ∧ parseConfigFile text = (true, es) ∧ c'.confs = some es) := by
  unfold cliStep
  dsimp only
  split
  · next o ho =>
    have g0 : CliGood env j { c with entries := c.entries ++ [(n, arg)] } := { I.good with }
    have hc := (reach_kept I.good.reach hj).1
    have hgo : (optStep env { c with entries := c.entries ++ [(n, arg)] } o arg).All (CliGood env c.j) :=
      optStep_good he ⟨Reach.refl _ _, I.good.path, I.good.confs⟩ ha
    have hcf : (optStep env { c with entries := c.entries ++ [(n, arg)] } o arg).All fun c' => o = .config → ∃ path text es, arg = some path ∧
        env.readConf path = some text ∧ parseConfigFile text = (true, es) ∧ c'.confs = some es := by
      by_cases h : o = .config
      · subst h
        simp only [optStep]
        refine all_bind (all_refuse fun _ => all_bind (all_need fun a e => ?_))
        split
        · trivial
        · next text ht =>
          split
          · trivial
          · next hp =>
            refine all_pure fun _ => ⟨a, text, (parseConfigFile text).2, e, ht, ?_, rfl⟩
            have : (parseConfigFile text).1 = true := by simpa using hp
            rw [← this]
      · exact all_of fun _ _ q => absurd q h
    refine all_mono (all_and optStep_effect (all_and hgo (all_and optStep_groups (all_and (optStep_good he g0 ha) hcf)))) ?_
    rintro c' ⟨E, G, S, G', F⟩
    have kf := (reach_kept G.reach hc).2
    refine ⟨⟨loopInv_step I.loop ho E, G', ?_, ?_⟩, E.entries, ?_, ?_⟩
    · rw [E.inherit]
      dsimp only
      intro q
      simp only [Bool.or_eq_true, decide_eq_true_eq] at q
      rcases q with q | q
      · exact kf.inherit_suppl_gids (I.inherit q)
      · exact S.1 q
    · rw [E.keep]
      dsimp only
      intro q
      simp only [Bool.or_eq_true, decide_eq_true_eq] at q
      rcases q with q | q
      · exact kf.keep_suppl_gids (I.keep q)
      · exact S.2 q
    · intro q
      exact E.confs fun h => q (h ▸ ho)
    · intro q
      rw [ho] at q
      cases q
      exact ⟨(E.no_confs rfl).1, F rfl⟩
  · trivial

/-- `confs` is of no interest to the invariant beyond its text. -/
theorem CliInv.withConfs {env : CliEnv} {j : Jail} {c : Cli} (I : CliInv env j c) (es : Option (List ConfigEntry)) (h : ∀ x, es = some x → TextEntries x) :
    CliInv env j { c with confs := es } :=
  ⟨{ I.loop with }, { I.good with confs := h }, I.inherit, I.keep⟩

theorem confLoop_inv {env : CliEnv} {j : Jail} (he : GoodCliEnv env) (hj : Inv j) : ∀ (es : List ConfigEntry) (c : Cli), CliInv env j c → TextEntries es →
    (confLoop env c es).All fun c' => CliInv env j c' ∧ c'.confs = none ∧ ∃ inner, optsFromConf es = some inner ∧ (∀ p ∈ inner, optOfNat p.1 ≠ some .config) ∧
      c'.entries = c.entries ++ inner := by
  intro es
  induction es with
  | nil =>
    intro c I _
    exact ⟨I.withConfs none (by simp), rfl, [], rfl, by simp, by simp⟩
  | cons e es ih =>
    intro c I ht
    have hts : TextEntries es := fun x hx => ht x (by simp [hx])
    simp only [confLoop]
    split
    · trivial
    · next o ho =>
      refine all_bind' (all_mono (cliStep_inv he hj (I.withConfs (some es) (by simpa using hts)) (ht e (by simp))) ?_)
      rintro c1 ⟨I1, e1, _, hc⟩
      refine all_mono (ih c1 I1 hts) ?_
      rintro c2 ⟨I2, n2, inner, hi, hn, e2⟩
      refine ⟨I2, n2, (o, e.value) :: inner, ?_, ?_, ?_⟩
      · simp [optsFromConf, ho, hi]
      · intro p hp
        rcases List.mem_cons.1 hp with rfl | hp
        · intro q
          have := (hc q).1
          simp at this
        · exact hn p hp
      · rw [e2, e1]; simp

theorem config_long {n : Nat} : ("config".toList, n) ∈ longOptions ↔ optOfNat n = some .config := by
  constructor
  · intro h
    have key : ∀ p ∈ longOptions, p.1 = "config".toList → optOfNat p.2 = some .config := by decide +kernel
    exact key _ h rfl
  · intro h
    have := num_of h
    subst this
    decide +kernel

theorem optLoop_inv {env : CliEnv} {j : Jail} (he : GoodCliEnv env) (hj : Inv j) : ∀ (opts : Options) (c : Cli), CliInv env j c → c.confs = none →
    (∀ p ∈ opts, TextArg p.2) →
    (optLoop env c opts).All fun c' => CliInv env j c' ∧ ∃ all, Expanded env.readConf opts all ∧ c'.entries = c.entries ++ all := by
  intro opts
  induction opts with
  | nil => intro c I _ _; exact ⟨I, [], .nil, by simp⟩
  | cons p opts ih =>
    intro c I h0 ht
    obtain ⟨o, arg⟩ := p
    simp only [optLoop]
    refine all_bind' (all_mono (cliStep_inv he hj I (ht (o, arg) (by simp))) ?_)
    rintro c1 ⟨I1, e1, n1, f1⟩
    by_cases hc : optOfNat o = some .config
    · obtain ⟨_, path, text, es, rfl, hr, hp, hes⟩ := f1 hc
      rw [hes]
      dsimp only
      refine all_bind' (all_mono (confLoop_inv he hj es c1 I1 (I1.good.confs es hes)) ?_)
      rintro c2 ⟨I2, n2, inner, hi, hn, e2⟩
      refine all_mono (ih c2 I2 n2 fun p hp => ht p (by simp [hp])) ?_
      rintro c3 ⟨I3, all, hx, e3⟩
      refine ⟨I3, _, .file (config_long.2 hc) hr ⟨es, hp, hi⟩ ?_ hx, ?_⟩
      · rintro ⟨n, a, hl, hm⟩
        exact hn _ hm (config_long.1 hl)
      · rw [e3, e2, e1]; simp
    · have hn := n1 hc
      rw [h0] at hn
      rw [hn]
      dsimp only [CliOut.bind]
      refine all_mono (ih c1 I1 hn fun p hp => ht p (by simp [hp])) ?_
      rintro c2 ⟨I2, all, hx, e2⟩
      refine ⟨I2, _, .plain (fun h => hc (config_long.1 h)) hx, ?_⟩
      rw [e2, e1]; simp

end Minijail
