import Verif.Model.RustLog
/-! The invariant of the descriptor for messages. -/
set_option autoImplicit false
set_option linter.unusedSimpArgs false
namespace Minijail.RustLog

/-- What holds of the process and of what is expected; `se` is the file of standard error. -/
structure Inv (se : Nat) (p : Proc) (e : Expect) : Prop where
  own : ∀ j n pr, p.jails j = some (some (n, pr)) → ∃ f, e.files j = some (f, pr) ∧ p.table n = some f
  bare : ∀ j, (∀ n pr, p.jails j ≠ some (some (n, pr))) → e.files j = none
  apart : ∀ i j n pr pr', p.jails i = some (some (n, pr)) → p.jails j = some (some (n, pr')) → i = j
  two : p.table 2 = some se
  nottwo : ∀ j n pr, p.jails j = some (some (n, pr)) → n ≠ 2
  once : p.once = e.asked
  told : match e.told with
    | .syslog => p.config = none
    | .stderr => p.config = some (2, 6)
    | .jail j f pr => e.files j = some (f, pr) ∧ ∃ n, p.jails j = some (some (n, pr)) ∧ p.config = some (n, pr)
    | .gone => True

theorem inv_start {table : Nat → Option Nat} {se : Nat} (h : table 2 = some se) : Inv se (Proc.start table) Expect.start where
  own := fun j n pr q => by cases q
  bare := fun j _ => rfl
  apart := fun i j n pr pr' q => by cases q
  two := h
  nottwo := fun j n pr q => by cases q
  once := rfl
  told := rfl

/-- Only descriptors change that no jail owns, and not standard error. -/
theorem inv_table {se : Nat} {p : Proc} {e : Expect} (i : Inv se p e) (table : Nat → Option Nat) (h2 : table 2 = p.table 2)
    (h : ∀ j n pr, p.jails j = some (some (n, pr)) → table n = p.table n) : Inv se { p with table := table } e where
  own := fun j n pr q => by
    obtain ⟨f, h1, h3⟩ := i.own j n pr q
    exact ⟨f, h1, by rw [← h3]; exact h j n pr q⟩
  bare := i.bare
  apart := i.apart
  two := h2.trans i.two
  nottwo := i.nottwo
  once := i.once
  told := i.told

/-- A jail gets a descriptor, and messages go there. -/
theorem inv_gets {se : Nat} {p : Proc} {e : Expect} (i : Inv se p e) {j n f : Nat} {pr : Int} (hn : p.table n = none)
    (table : Nat → Option Nat) (ht : ∀ m, table m = if m = n then some f else closed p.table ((p.jails j).getD none) m) :
    Inv se { p with table := table, config := some (n, pr), jails := fun k => if k = j then some (some (n, pr)) else p.jails k }
      { e with files := fun k => if k = j then some (f, pr) else e.files k, told := .jail j f pr } := by
  have n2 : n ≠ 2 := fun q => by rw [q, i.two] at hn; cases hn
  have free : ∀ k m q, p.jails k = some (some (m, q)) → m ≠ n := fun k m q h hm => by
    obtain ⟨g, _, h2⟩ := i.own k m q h
    rw [hm, hn] at h2; cases h2
  have other : ∀ k m q, k ≠ j → p.jails k = some (some (m, q)) → closed p.table ((p.jails j).getD none) m = p.table m := by
    intro k m q hk h
    cases hj : p.jails j with
    | none => rfl
    | some o =>
      cases o with
      | none => rfl
      | some x =>
        obtain ⟨n', pr'⟩ := x
        have : m ≠ n' := fun hm => hk (i.apart k j m q pr' h (by rw [hj, hm]))
        simp [closed, this]
  refine ⟨?_, ?_, ?_, ?_, ?_, i.once, ?_⟩
  · intro k m q h
    by_cases hk : k = j
    · subst hk
      simp only [if_true, Option.some.injEq, Prod.mk.injEq] at h
      obtain ⟨rfl, rfl⟩ := h
      exact ⟨f, by simp, by simp [ht]⟩
    · simp only [hk, if_false] at h
      obtain ⟨g, h1, h2⟩ := i.own k m q h
      refine ⟨g, by simp [hk, h1], ?_⟩
      simp only [ht, free k m q h, if_false]
      rw [other k m q hk h, h2]
  · intro k h
    by_cases hk : k = j
    · subst hk
      exact absurd (by simp) (h n pr)
    · simp only [hk, if_false] at h ⊢
      exact i.bare k h
  · intro a b m q q' ha hb
    by_cases h1 : a = j <;> by_cases h2 : b = j
    · rw [h1, h2]
    · simp only [h1, h2, if_true, if_false, Option.some.injEq, Prod.mk.injEq] at ha hb
      exact absurd ha.1.symm (free b m q' hb)
    · simp only [h1, h2, if_true, if_false, Option.some.injEq, Prod.mk.injEq] at ha hb
      exact absurd hb.1.symm (free a m q ha)
    · simp only [h1, h2, if_false] at ha hb
      exact i.apart a b m q q' ha hb
  · simp only [ht, n2.symm, if_false]
    cases hj : p.jails j with
    | none => exact i.two
    | some o =>
      cases o with
      | none => exact i.two
      | some x =>
        obtain ⟨n', pr'⟩ := x
        have := i.nottwo j n' pr' hj
        simp [closed, this.symm, i.two]
  · intro k m q h
    by_cases hk : k = j
    · simp only [hk, if_true, Option.some.injEq, Prod.mk.injEq] at h
      rw [← h.1]; exact n2
    · simp only [hk, if_false] at h
      exact i.nottwo k m q h
  · exact ⟨by simp, n, by simp, rfl⟩

/-- A jail without a descriptor is made. -/
theorem inv_new {se : Nat} {p : Proc} {e : Expect} (i : Inv se p e) {j : Nat} (hj : p.jails j = none) :
    Inv se { p with jails := fun k => if k = j then some none else p.jails k } e where
  own := fun k m q h => by
    by_cases hk : k = j
    · simp [hk] at h
    · simp only [hk, if_false] at h
      exact i.own k m q h
  bare := fun k h => by
    by_cases hk : k = j
    · exact i.bare k fun m q hx => by rw [hk, hj] at hx; cases hx
    · simp only [hk, if_false] at h
      exact i.bare k h
  apart := fun a b m q q' ha hb => by
    by_cases h1 : a = j
    · simp [h1] at ha
    · by_cases h2 : b = j
      · simp [h2] at hb
      · simp only [h1, h2, if_false] at ha hb
        exact i.apart a b m q q' ha hb
  two := i.two
  nottwo := fun k m q h => by
    by_cases hk : k = j
    · simp [hk] at h
    · simp only [hk, if_false] at h
      exact i.nottwo k m q h
  once := i.once
  told := by
    have := i.told
    cases ht : e.told with
    | syslog => rw [ht] at this; exact this
    | stderr => rw [ht] at this; exact this
    | gone => trivial
    | jail k f pr =>
      rw [ht] at this
      obtain ⟨h1, n, h2, h3⟩ := this
      refine ⟨h1, n, ?_, h3⟩
      have : k ≠ j := fun hk => by rw [hk, hj] at h2; cases h2
      simp [this, h2]

theorem inv_drop {se : Nat} {p : Proc} {e : Expect} (i : Inv se p e) (j : Nat) : Inv se (act p (.drop j)) (expect e (.drop j)) := by
  have other : ∀ k m q, k ≠ j → p.jails k = some (some (m, q)) → closed p.table ((p.jails j).getD none) m = p.table m := by
    intro k m q hk h
    cases hj : p.jails j with
    | none => rfl
    | some o =>
      cases o with
      | none => rfl
      | some x =>
        obtain ⟨n', pr'⟩ := x
        have : m ≠ n' := fun hm => hk (i.apart k j m q pr' h (by rw [hj, hm]))
        simp [closed, this]
  refine ⟨?_, ?_, ?_, ?_, ?_, i.once, ?_⟩
  · intro k m q h
    by_cases hk : k = j
    · simp [act, hk] at h
    · simp only [act, hk, if_false] at h
      obtain ⟨f, h1, h2⟩ := i.own k m q h
      exact ⟨f, by simp [expect, hk, h1], by simp only [act]; rw [other k m q hk h, h2]⟩
  · intro k h
    by_cases hk : k = j
    · simp [expect, hk]
    · simp only [act, expect, hk, if_false] at h ⊢
      exact i.bare k h
  · intro a b m q q' ha hb
    by_cases h1 : a = j
    · simp [act, h1] at ha
    · by_cases h2 : b = j
      · simp [act, h2] at hb
      · simp only [act, h1, h2, if_false] at ha hb
        exact i.apart a b m q q' ha hb
  · simp only [act]
    cases hj : p.jails j with
    | none => exact i.two
    | some o =>
      cases o with
      | none => exact i.two
      | some x =>
        obtain ⟨n', pr'⟩ := x
        have := i.nottwo j n' pr' hj
        simp [closed, this.symm, i.two]
  · intro k m q h
    by_cases hk : k = j
    · simp [act, hk] at h
    · simp only [act, hk, if_false] at h
      exact i.nottwo k m q h
  · have := i.told
    cases ht : e.told with
    | syslog => rw [ht] at this; simp only [expect, ht]; exact this
    | stderr => rw [ht] at this; simp only [expect, ht]; exact this
    | gone => simp only [expect, ht]
    | jail k f pr =>
      rw [ht] at this
      obtain ⟨h1, n, h2, h3⟩ := this
      by_cases hk : k = j
      · simp only [expect, ht, hk, if_true]
      · simp only [expect, ht, hk, if_false]
        exact ⟨h1, n, by simp only [act, hk, if_false]; exact h2, h3⟩

theorem inv_act {se : Nat} {p : Proc} {e : Expect} (i : Inv se p e) {a : Act} (ha : Possible p a) : Inv se (act p a) (expect e a) := by
  cases a with
  | new j => exact inv_new i ha
  | logToFd j n f pr =>
    refine inv_gets i ha.2 _ fun m => ?_
    cases hj : p.jails j with
    | none => simp [closed]
    | some o =>
      cases o with
      | none => simp [closed]
      | some x =>
        obtain ⟨n', pr'⟩ := x
        obtain ⟨g, _, hg⟩ := i.own j n' pr' hj
        have hne : n' ≠ n := fun q => by rw [q, ha.2] at hg; cases hg
        by_cases hm : m = n
        · subst hm
          simp [closed, hne.symm]
        · by_cases hm' : m = n' <;> simp [closed, hm, hm', hne]
  | clone j k n =>
    obtain ⟨h1, h2, h3⟩ := ha
    cases hj : p.jails j with
    | none => exact absurd hj h1
    | some o =>
      cases o with
      | none =>
        have hf : e.files j = none := i.bare j fun m q hx => by rw [hj] at hx; cases hx
        have e1 : act p (.clone j k n) = { p with jails := fun t => if t = k then some none else p.jails t } := by simp [act, hj]
        have e2 : expect e (.clone j k n) = e := by simp [expect, hf]
        rw [e1, e2]
        exact inv_new i h2
      | some x =>
        obtain ⟨m, pr⟩ := x
        obtain ⟨f, hf, hm⟩ := i.own j m pr hj
        have e1 : act p (.clone j k n) = { p with table := fun t => if t = n then p.table m else p.table t, config := some (n, pr), jails := fun t => if t = k then some (some (n, pr)) else p.jails t } := by simp [act, hj]
        have e2 : expect e (.clone j k n) = { e with files := fun t => if t = k then some (f, pr) else e.files t, told := .jail k f pr } := by simp [expect, hf]
        rw [e1, e2]
        exact inv_gets i h3 _ fun t => by rw [hm, h2]; rfl
  | drop j => exact inv_drop i j
  | initDefault =>
    cases ho : p.once with
    | true =>
      have hs : e.asked = true := i.once.symm.trans ho
      simp only [act, expect, ho, hs, if_true]
      exact i
    | false =>
      have hs : e.asked = false := i.once.symm.trans ho
      simp only [act, expect, ho, hs, Bool.false_eq_true, if_false]
      exact ⟨i.own, i.bare, i.apart, i.two, i.nottwo, rfl, rfl⟩
  | opens n f =>
    have ha : p.table n = none := ha
    refine inv_table i _ ?_ fun j m pr h => ?_
    · have : 2 ≠ n := fun q => by rw [← q, i.two] at ha; cases ha
      simp [this]
    · obtain ⟨g, _, hg⟩ := i.own j m pr h
      have : m ≠ n := fun q => by rw [q, ha] at hg; cases hg
      simp [this]
  | closes n =>
    refine inv_table i _ ?_ fun j m pr h => ?_
    · simp [Ne.symm ha.1]
    · have : m ≠ n := fun q => ha.2 j pr (by rw [← q]; exact h)
      simp [this]
  | message pr m =>
    have e2 : expect e (.message pr m) = e := rfl
    rw [e2]
    simp only [act]
    cases doLog p pr with
    | none => exact i
    | some w => exact ⟨i.own, i.bare, i.apart, i.two, i.nottwo, i.once, i.told⟩

theorem inv_does {se : Nat} {p q : Proc} {l : List Act} (h : Does p l q) {e : Expect} (i : Inv se p e) : Inv se q (l.foldl expect e) := by
  induction h with
  | nil => exact i
  | snoc a _ ha ih =>
    rw [List.foldl_append]
    exact inv_act ih ha

/-- A living jail owns the number. -/
def Owned (p : Proc) (n : Nat) : Prop := ∃ j pr, p.jails j = some (some (n, pr))

/-- What is open is the program's own or a jail's, and never both. -/
structure Split (p : Proc) (mine : Nat → Option Nat) : Prop where
  jails : ∀ n, Owned p n → mine n = none
  rest : ∀ n, ¬ Owned p n → p.table n = mine n

theorem split_start (table : Nat → Option Nat) : Split (Proc.start table) table where
  jails := fun n ⟨_, _, h⟩ => by cases h
  rest := fun _ _ => rfl

theorem free_owned {se : Nat} {p : Proc} {e : Expect} (i : Inv se p e) {n : Nat} (hn : p.table n = none) : ¬ Owned p n := fun ⟨j, pr, h⟩ => by
  obtain ⟨g, _, hg⟩ := i.own j n pr h
  rw [hn] at hg; cases hg

theorem closed_split {p : Proc} {mine : Nat → Option Nat} (s : Split p mine) (j m : Nat) (h : ∀ k pr, k ≠ j → p.jails k ≠ some (some (m, pr))) :
    closed p.table ((p.jails j).getD none) m = mine m := by
  by_cases ho : ∃ pr, p.jails j = some (some (m, pr))
  · obtain ⟨pr, ho⟩ := ho
    rw [s.jails m ⟨j, pr, ho⟩, ho]
    simp [closed]
  · have hno : ¬ Owned p m := fun ⟨k, pr, hk⟩ => by
      by_cases e : k = j
      · exact ho ⟨pr, by rw [← e]; exact hk⟩
      · exact h k pr e hk
    rw [← s.rest m hno]
    cases hj : p.jails j with
    | none => rfl
    | some o =>
      cases o with
      | none => rfl
      | some x =>
        obtain ⟨n', pr'⟩ := x
        have : m ≠ n' := fun hm => ho ⟨pr', by rw [hj, hm]⟩
        simp [closed, this]

theorem split_gets {se : Nat} {p : Proc} {e : Expect} (i : Inv se p e) {mine : Nat → Option Nat} (s : Split p mine) {j n f : Nat} {pr : Int} (hn : p.table n = none)
    (table : Nat → Option Nat) (ht : ∀ m, table m = if m = n then some f else closed p.table ((p.jails j).getD none) m) (config : Option (Nat × Int)) :
    Split { p with table := table, config := config, jails := fun k => if k = j then some (some (n, pr)) else p.jails k } mine := by
  refine ⟨fun m ⟨k, q, hk⟩ => ?_, fun m hm => ?_⟩
  · by_cases e : k = j
    · simp only [e, if_true, Option.some.injEq, Prod.mk.injEq] at hk
      rw [← hk.1, ← s.rest n (free_owned i hn), hn]
    · simp only [e, if_false] at hk
      exact s.jails m ⟨k, q, hk⟩
  · have hne : m ≠ n := fun e => hm ⟨j, pr, by simp [e]⟩
    simp only [ht, hne, if_false]
    exact closed_split s j m fun k q hk hx => hm ⟨k, q, by simp [hk, hx]⟩

theorem split_new {p : Proc} {mine : Nat → Option Nat} (s : Split p mine) {j : Nat} (hj : p.jails j = none) :
    Split { p with jails := fun k => if k = j then some none else p.jails k } mine := by
  have same : ∀ n, Owned { p with jails := fun k => if k = j then some none else p.jails k } n ↔ Owned p n := fun n => by
    constructor
    · rintro ⟨k, q, hk⟩
      by_cases e : k = j
      · simp [e] at hk
      · simp only [e, if_false] at hk; exact ⟨k, q, hk⟩
    · rintro ⟨k, q, hk⟩
      have e : k ≠ j := fun e => by rw [e, hj] at hk; cases hk
      exact ⟨k, q, by simp [e, hk]⟩
  exact ⟨fun n h => s.jails n ((same n).mp h), fun n h => s.rest n fun x => h ((same n).mpr x)⟩

theorem split_act {se : Nat} {p : Proc} {e : Expect} (i : Inv se p e) {mine : Nat → Option Nat} (s : Split p mine) {a : Act} (ha : Possible p a) : Split (act p a) (without mine a) := by
  cases a with
  | new j => exact split_new s ha
  | logToFd j n f pr =>
    refine split_gets (f := f) i s ha.2 _ (fun m => ?_) _
    cases hj : p.jails j with
    | none => simp [closed]
    | some o =>
      cases o with
      | none => simp [closed]
      | some x =>
        obtain ⟨n', pr'⟩ := x
        obtain ⟨g, _, hg⟩ := i.own j n' pr' hj
        have hne : n' ≠ n := fun q => by rw [q, ha.2] at hg; cases hg
        by_cases hm : m = n
        · subst hm
          simp [closed, hne.symm]
        · by_cases hm' : m = n' <;> simp [closed, hm, hm', hne]
  | clone j k n =>
    obtain ⟨h1, h2, h3⟩ := ha
    cases hj : p.jails j with
    | none => exact absurd hj h1
    | some o =>
      cases o with
      | none =>
        have e1 : act p (.clone j k n) = { p with jails := fun t => if t = k then some none else p.jails t } := by simp [act, hj]
        rw [e1]
        exact split_new s h2
      | some x =>
        obtain ⟨m, pr⟩ := x
        obtain ⟨f, hf, hm⟩ := i.own j m pr hj
        have e1 : act p (.clone j k n) = { p with table := fun t => if t = n then p.table m else p.table t, config := some (n, pr), jails := fun t => if t = k then some (some (n, pr)) else p.jails t } := by simp [act, hj]
        rw [e1]
        exact split_gets i s h3 _ (fun t => by rw [hm, h2]; rfl) _
  | drop j =>
    refine ⟨fun m ⟨k, q, hk⟩ => ?_, fun m hm => ?_⟩
    · by_cases e : k = j
      · simp [act, e] at hk
      · simp only [act, e, if_false] at hk
        exact s.jails m ⟨k, q, hk⟩
    · exact closed_split s j m fun k q hk hx => hm ⟨k, q, by simp [act, hk, hx]⟩
  | initDefault =>
    simp only [act]
    split
    · exact s
    · exact ⟨s.jails, s.rest⟩
  | opens n f =>
    have hno := free_owned i (n := n) ha
    refine ⟨fun m h => ?_, fun m h => ?_⟩
    · have : m ≠ n := fun q => hno (by rw [← q]; exact h)
      simp only [without, this, if_false]
      exact s.jails m h
    · by_cases hm : m = n
      · simp [act, without, hm]
      · simp only [act, without, hm, if_false]
        exact s.rest m h
  | closes n =>
    refine ⟨fun m h => ?_, fun m h => ?_⟩
    · by_cases hm : m = n
      · simp [without, hm]
      · simp only [without, hm, if_false]
        exact s.jails m h
    · by_cases hm : m = n
      · simp [act, without, hm]
      · simp only [act, without, hm, if_false]
        exact s.rest m h
  | message pr m =>
    simp only [act]
    cases doLog p pr with
    | none => exact s
    | some w => exact ⟨s.jails, s.rest⟩

theorem split_does {se : Nat} {p q : Proc} {l : List Act} (h : Does p l q) {e : Expect} (i : Inv se p e) {mine : Nat → Option Nat} (s : Split p mine) : Split q (l.foldl without mine) := by
  induction h with
  | nil => exact s
  | snoc a h ha ih =>
    rw [List.foldl_append]
    exact split_act (inv_does h i) ih ha

/-- When the jail that was asked for last is gone, `logging_config` has a number that no jail owns. -/
def Gone (p : Proc) (e : Expect) : Prop := e.told = .gone → ∃ n pr, p.config = some (n, pr) ∧ ¬ Owned p n

theorem gone_act {se : Nat} {p : Proc} {e : Expect} (i : Inv se p e) (g : Gone p e) {a : Act} (ha : Possible p a) : Gone (act p a) (expect e a) := by
  have fresh : ∀ k, p.jails k = none → Gone { p with jails := fun t => if t = k then some none else p.jails t } e := fun k hk ht => by
    obtain ⟨n, pr, h1, h2⟩ := g ht
    refine ⟨n, pr, h1, fun ⟨t, q, hq⟩ => ?_⟩
    by_cases e : t = k
    · simp [e] at hq
    · simp only [e, if_false] at hq
      exact h2 ⟨t, q, hq⟩
  cases a with
  | new j => exact fresh j ha
  | logToFd j n f pr => intro ht; simp [expect] at ht
  | clone j k n =>
    obtain ⟨h1, h2, h3⟩ := ha
    cases hj : p.jails j with
    | none => exact absurd hj h1
    | some o =>
      cases o with
      | none =>
        have hf : e.files j = none := i.bare j fun m q hx => by rw [hj] at hx; cases hx
        have e1 : act p (.clone j k n) = { p with jails := fun t => if t = k then some none else p.jails t } := by simp [act, hj]
        have e2 : expect e (.clone j k n) = e := by simp [expect, hf]
        rw [e1, e2]
        exact fresh k h2
      | some x =>
        obtain ⟨m, pr⟩ := x
        obtain ⟨f, hf, hm⟩ := i.own j m pr hj
        intro ht
        simp [expect, hf] at ht
  | drop j =>
    intro ht
    have sub : ∀ n, Owned (act p (.drop j)) n → ∃ k q, k ≠ j ∧ p.jails k = some (some (n, q)) := fun n ⟨k, q, hk⟩ => by
      by_cases e : k = j
      · simp [act, e] at hk
      · simp only [act, e, if_false] at hk
        exact ⟨k, q, e, hk⟩
    have hi := i.told
    cases h : e.told with
    | syslog => simp [expect, h] at ht
    | stderr => simp [expect, h] at ht
    | gone =>
      obtain ⟨n, pr, h1, h2⟩ := g h
      exact ⟨n, pr, h1, fun x => by
        obtain ⟨k, q, _, hk⟩ := sub n x
        exact h2 ⟨k, q, hk⟩⟩
    | jail k f pr =>
      rw [h] at hi
      obtain ⟨_, n, h2, h3⟩ := hi
      by_cases hk : k = j
      · refine ⟨n, pr, h3, fun x => ?_⟩
        obtain ⟨t, q, hne, ht⟩ := sub n x
        exact hne ((i.apart t k n q pr ht h2).trans hk)
      · simp [expect, h, hk] at ht
  | initDefault =>
    cases ho : p.once with
    | true =>
      have hs : e.asked = true := i.once.symm.trans ho
      simp only [act, expect, ho, hs, if_true]
      exact g
    | false =>
      have hs : e.asked = false := i.once.symm.trans ho
      intro ht
      simp [expect, hs] at ht
  | opens n f => exact g
  | closes n => exact g
  | message pr m =>
    have e2 : expect e (.message pr m) = e := rfl
    rw [e2]
    simp only [act]
    cases doLog p pr with
    | none => exact g
    | some w => exact g

theorem gone_does {se : Nat} {p q : Proc} {l : List Act} (h : Does p l q) {e : Expect} (i : Inv se p e) (g : Gone p e) : Gone q (l.foldl expect e) := by
  induction h with
  | nil => exact g
  | snoc a h ha ih =>
    rw [List.foldl_append]
    exact gone_act (inv_does h i) ih ha

end Minijail.RustLog
