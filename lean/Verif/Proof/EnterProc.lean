import Verif.Proof.EnterFacts
import Verif.Spec.Process
/-! The process after `minijail_enter`. -/
set_option autoImplicit false
set_option linter.unusedSimpArgs false
namespace Minijail
open Spec

variable {g : Option BStr → BitVec 32 → List (BitVec 32)}

theorem evolves_append {s t : List Ev} {p r : Proc} : Evolves g p (s ++ t) r ↔ ∃ q, Evolves g p s q ∧ Evolves g q t r := by
  induction s generalizing p with
  | nil =>
    constructor
    · intro h; exact ⟨p, .nil p, h⟩
    · rintro ⟨q, h1, h2⟩; cases h1; exact h2
  | cons e s ih =>
    constructor
    · intro h
      cases h with
      | cons h ht =>
        obtain ⟨q, h1, h2⟩ := ih.1 ht
        exact ⟨q, .cons h h1, h2⟩
    · rintro ⟨q, h1, h2⟩
      cases h1 with
      | cons h ht => exact .cons h (ih.2 ⟨q, ht, h2⟩)

/-- What a request is about. -/
def kind : Sys → Nat
  | .setresuid _ => 1 | .setresgid _ => 2 | .setgroups _ => 3 | .initgroups _ _ => 3 | .capset _ _ _ => 4 | .dropBound _ => 5
  | .ambientClear => 6 | .ambientRaise _ => 6 | .setSecurebits _ => 7 | .noNewPrivs => 8 | .seccompFilter _ _ _ => 9 | .hook _ _ => 10
  | _ => 0

@[simp] theorem kind_setresuid (u : BitVec 32) : kind (.setresuid u) = 1 := rfl
@[simp] theorem kind_setresgid (u : BitVec 32) : kind (.setresgid u) = 2 := rfl
@[simp] theorem kind_setgroups (l : List (BitVec 32)) : kind (.setgroups l) = 3 := rfl
@[simp] theorem kind_initgroups (u : Option BStr) (v : BitVec 32) : kind (.initgroups u v) = 3 := rfl
@[simp] theorem kind_capset (a b c : BitVec 64) : kind (.capset a b c) = 4 := rfl
@[simp] theorem kind_ambientClear : kind (.ambientClear) = 6 := rfl
@[simp] theorem kind_ambientRaise (i : Nat) : kind (.ambientRaise i) = 6 := rfl
@[simp] theorem kind_setSecurebits (b : BitVec 64) : kind (.setSecurebits b) = 7 := rfl
@[simp] theorem kind_getSecurebits : kind (.getSecurebits) = 0 := rfl
@[simp] theorem kind_noNewPrivs : kind (.noNewPrivs) = 8 := rfl
@[simp] theorem kind_seccompFilter (a b : Bool) (c : Option (List Insn)) : kind (.seccompFilter a b c) = 9 := rfl
@[simp] theorem kind_sigsysHandler : kind (.sigsysHandler) = 0 := rfl
@[simp] theorem kind_sigsysDefault : kind (.sigsysDefault) = 0 := rfl
@[simp] theorem kind_capget : kind (.capget) = 0 := rfl
@[simp] theorem kind_ambientSupported : kind (.ambientSupported) = 0 := rfl

/-- A part of the process that only requests of some kinds change. -/
def Depends {α : Type} (f : Proc → α) (ks : List Nat) : Prop :=
  10 ∈ ks ∧ ∀ p c q, kind c ∉ ks → Granted g p c q → f q = f p

theorem depends_evolves {α : Type} {f : Proc → α} {ks : List Nat} (h : Depends (g := g) f ks) {t : List Ev}
    (ht : ∀ e ∈ t, kind e.1 ∉ ks) : ∀ {p q : Proc}, Evolves g p t q → f q = f p := by
  induction t with
  | nil => intro p q hq; cases hq; rfl
  | cons e t ih =>
    intro p q hq
    cases hq with
    | cons h1 h2 =>
      rw [ih (fun e he => ht e (by simp [he])) h2]
      have hk := ht e (by simp)
      rcases h1 with ⟨_, h1⟩ | ⟨_, h1 | ⟨a, b, h1⟩⟩
      · exact h.2 _ _ _ hk h1
      · rw [h1]
      · rw [h1] at hk; exact absurd h.1 hk

/-- Splits on the request; requests of a kind in the list contradict `hk`, the others leave the field alone. -/
local macro "by_kind" hk:ident hg:ident : tactic => `(tactic| first
  | exact absurd (List.Mem.head _) $hk
  | exact absurd (List.Mem.tail _ (List.Mem.head _)) $hk
  | exact absurd (List.Mem.tail _ (List.Mem.tail _ (List.Mem.head _))) $hk
  | exact absurd (List.Mem.tail _ (List.Mem.tail _ (List.Mem.tail _ (List.Mem.head _)))) $hk
  | (cases $hg:ident; rfl)
  | (obtain ⟨_, _, _, e⟩ := $hg:ident; cases e; rfl))

theorem depends_uid : Depends (g := g) (·.uid) [1, 10] := by
  refine ⟨by simp, fun p c q hk hg => ?_⟩
  cases c <;> by_kind hk hg
theorem depends_gid : Depends (g := g) (·.gid) [2, 10] := by
  refine ⟨by simp, fun p c q hk hg => ?_⟩
  cases c <;> by_kind hk hg
theorem depends_groups : Depends (g := g) (·.groups) [3, 10] := by
  refine ⟨by simp, fun p c q hk hg => ?_⟩
  cases c <;> by_kind hk hg
theorem depends_bound : Depends (g := g) (·.bound) [5, 10] := by
  refine ⟨by simp, fun p c q hk hg => ?_⟩
  cases c <;> by_kind hk hg
theorem depends_sec : Depends (g := g) (·.securebits) [7, 10] := by
  refine ⟨by simp, fun p c q hk hg => ?_⟩
  cases c <;> by_kind hk hg
theorem depends_nnp : Depends (g := g) (·.noNewPrivs) [8, 10] := by
  refine ⟨by simp, fun p c q hk hg => ?_⟩
  cases c <;> by_kind hk hg
theorem depends_filters : Depends (g := g) (·.filters) [9, 10] := by
  refine ⟨by simp, fun p c q hk hg => ?_⟩
  cases c <;> by_kind hk hg
theorem depends_caps : Depends (g := g) (fun p => (p.eff, p.perm, p.inh)) [1, 4, 10] := by
  refine ⟨by simp, fun p c q hk hg => ?_⟩
  cases c <;> by_kind hk hg
theorem depends_amb : Depends (g := g) (·.amb) [1, 4, 6, 10] := by
  refine ⟨by simp, fun p c q hk hg => ?_⟩
  cases c <;> by_kind hk hg

/-! ### Plans -/

theorem evolves_done_cons {c : Sys} {cs : List Sys} {p r : Proc} (h : Evolves g p (done (c :: cs)) r) :
    ∃ q, Granted g p c q ∧ Evolves g q (done cs) r := by
  cases h with
  | cons h1 h2 =>
    rcases h1 with ⟨_, h1⟩ | ⟨h0, _⟩
    · exact ⟨_, h1, h2⟩
    · exact absurd h0 (by simp)

theorem evolves_nil {p r : Proc} (h : Evolves g p [] r) : r = p := by cases h; rfl

theorem evolves_bounds (l : List Nat) : ∀ {p r : Proc}, Evolves g p (done (l.flatMap fun i => [Sys.dropBound i])) r →
    ∃ b, r = { p with bound := b } ∧ ∀ i, b.getLsbD i = (p.bound.getLsbD i && !l.contains i) := by
  induction l with
  | nil => intro p r h; exact ⟨p.bound, by rw [evolves_nil h], by simp⟩
  | cons x l ih =>
    intro p r h
    obtain ⟨q, h1', h2⟩ := evolves_done_cons h
    have h1 : q = _ := h1'
    obtain ⟨b, e, hb⟩ := ih h2
    refine ⟨b, by rw [e, h1], fun i => ?_⟩
    rw [hb, h1]
    simp only [BitVec.getLsbD_and, BitVec.getLsbD_not, BitVec.getLsbD_twoPow, List.contains_cons]
    by_cases hi : i < 64
    · by_cases hx : i = x
      · subst hx; simp [hi]
      · have hx' : ¬ x = i := fun e => hx e.symm
        simp [hi, hx, hx', (beq_eq_false_iff_ne.2 hx : (i == x) = false)]
    · simp [BitVec.getLsbD_of_ge p.bound i (by omega)]

theorem mem_validCaps {last i : Nat} : i ∈ validCaps last ↔ i < 64 ∧ i ≤ last := by simp [validCaps]

theorem evolves_boundPlan {keep : BitVec 64} {last : Nat} {p r : Proc} (h : Evolves g p (done (boundPlan keep last)) r) :
    ∃ b, r = { p with bound := b } ∧ ∀ i, b.getLsbD i = (p.bound.getLsbD i && (keep.getLsbD i || decide (last < i))) := by
  obtain ⟨b, e, hb⟩ := evolves_bounds _ h
  refine ⟨b, e, fun i => ?_⟩
  rw [hb]
  by_cases hi : i < 64
  · by_cases hl : i ≤ last
    · have : ¬ last < i := by omega
      cases hk : keep.getLsbD i <;> simp [List.contains_eq_mem, mem_validCaps, hi, hl, hk, this, -BitVec.getLsbD_eq_getElem]
    · have h2 : last < i := by omega
      simp [List.contains_eq_mem, mem_validCaps, hi, hl, h2]
  · simp [BitVec.getLsbD_of_ge p.bound i (by omega)]

theorem evolves_raises (l : List Nat) : ∀ {p r : Proc}, Evolves g p (done (l.flatMap fun i => [Sys.ambientRaise i])) r →
    ∃ b, r = { p with amb := b } ∧ ∀ i, i < 64 → b.getLsbD i = (p.amb.getLsbD i || l.contains i) := by
  induction l with
  | nil => intro p r h; exact ⟨p.amb, by rw [evolves_nil h], by simp⟩
  | cons x l ih =>
    intro p r h
    obtain ⟨q, h1', h2⟩ := evolves_done_cons h
    have h1 : q = _ := h1'
    obtain ⟨b, e, hb⟩ := ih h2
    refine ⟨b, by rw [e, h1], fun i hi => ?_⟩
    rw [hb i hi, h1]
    simp only [BitVec.getLsbD_or, BitVec.getLsbD_twoPow, List.contains_cons]
    by_cases hx : i = x
    · subst hx; simp [hi]
    · have hx' : ¬ x = i := fun e => hx e.symm
      simp [hi, hx, hx', (beq_eq_false_iff_ne.2 hx : (i == x) = false)]

theorem capSet_get (l : List Nat) : ∀ (s : BitVec 64) (i : Nat), i < 64 →
    (l.foldl (fun s i => s ||| BitVec.twoPow 64 i) s).getLsbD i = (s.getLsbD i || l.contains i) := by
  induction l with
  | nil => intro s i _; simp
  | cons x l ih =>
    intro s i hi
    rw [List.foldl_cons, ih _ _ hi]
    simp only [BitVec.getLsbD_or, BitVec.getLsbD_twoPow, List.contains_cons]
    by_cases hx : i = x
    · subst hx; simp [hi]
    · have hx' : ¬ x = i := fun e => hx e.symm
      simp [hi, hx, hx', (beq_eq_false_iff_ne.2 hx : (i == x) = false)]

theorem finalCaps_get (j : Jail) (last i : Nat) : (finalCaps j last).getLsbD i = (j.caps.getLsbD i && decide (i ≤ last)) := by
  by_cases hi : i < 64
  · have hk : (keptCaps j last).getLsbD i = ((i == CAP_SETPCAP || j.caps.getLsbD i) && decide (i ≤ last)) := by
      rw [keptCaps, capSet, capSet_get _ _ _ hi]
      by_cases hl : i ≤ last
      · simp [List.contains_eq_mem, mem_validCaps, hi, hl]; rfl
      · simp [List.contains_eq_mem, mem_validCaps, hi, hl]
    unfold finalCaps
    by_cases hx : i = CAP_SETPCAP
    · subst hx
      cases hs : j.caps.getLsbD CAP_SETPCAP
      · simp [hk, hs, CAP_SETPCAP, -BitVec.getLsbD_eq_getElem]
      · simp [hk, hs, -BitVec.getLsbD_eq_getElem]
    · have hb : (i == CAP_SETPCAP) = false := beq_eq_false_iff_ne.2 hx
      have hx' : ¬ CAP_SETPCAP = i := fun e => hx e.symm
      rw [hb, Bool.false_or] at hk
      cases hs : j.caps.getLsbD CAP_SETPCAP
      · simp [hk, hx', hi, -BitVec.getLsbD_eq_getElem]
      · simp only [if_true, hk]
  · rw [BitVec.getLsbD_of_ge _ i (by omega), BitVec.getLsbD_of_ge j.caps i (by omega)]; simp

/-- The capabilities after `dropCaps`. -/
theorem evolves_caps {j : Jail} {last : Nat} {x : Int} (hu : j.flags.use_caps = true) {p r : Proc} (h : Evolves g p (capsTrace j last x) r) :
    ∃ a b, r = { p with eff := finalCaps j last, perm := finalCaps j last, inh := finalCaps j last, amb := a, bound := b } ∧
      (if j.flags.set_ambient_caps then a = finalCaps j last else ∀ i, a.getLsbD i = true → (finalCaps j last).getLsbD i = true) ∧
      ∀ i, b.getLsbD i = (p.bound.getLsbD i && (!noroot (~~~j.securebits_skip_mask) || j.caps.getLsbD i || decide (last < i))) := by
  unfold capsTrace at h
  rw [if_pos hu] at h
  obtain ⟨q, h1, h2⟩ := evolves_append.1 h
  rw [done_append] at h1
  obtain ⟨q1, h3, h4⟩ := evolves_append.1 h1
  rw [done_append] at h4
  obtain ⟨q2, h5, h6⟩ := evolves_append.1 h4
  obtain ⟨p1, a1, a2⟩ := evolves_done_cons h3
  obtain ⟨p2, a3, a4⟩ := evolves_done_cons a2
  replace a1 : p1 = _ := a1
  replace a3 : p2 = _ := a3
  have e1 := evolves_nil a4
  obtain ⟨p3, a5, a6⟩ := evolves_done_cons h6
  replace a5 : p3 = _ := a5
  have e2 := evolves_nil a6
  have hb : ∃ b, q2 = { q1 with bound := b } ∧
      ∀ i, b.getLsbD i = (p.bound.getLsbD i && (!noroot (~~~j.securebits_skip_mask) || j.caps.getLsbD i || decide (last < i))) := by
    cases hn : noroot (~~~j.securebits_skip_mask)
    · rw [hn] at h5
      refine ⟨q1.bound, by rw [evolves_nil h5], fun i => ?_⟩
      rw [e1, a3, a1]; simp
    · rw [hn] at h5
      obtain ⟨b, e, hb⟩ := evolves_boundPlan h5
      refine ⟨b, e, fun i => ?_⟩
      rw [hb, e1, a3, a1]; simp
  obtain ⟨b, eb, hb⟩ := hb
  cases ha : j.flags.set_ambient_caps
  · rw [ha] at h2
    have e3 := evolves_nil h2
    refine ⟨q.amb, b, ?_, ?_, hb⟩
    · rw [e3, e2, a5, eb, e1, a3, a1]
    · simp only [Bool.false_eq_true, if_false]
      intro i hi
      rw [e2, a5] at hi
      simp only [BitVec.getLsbD_and, Bool.and_eq_true] at hi
      exact hi.2
  · rw [ha] at h2
    simp only [if_true] at h2
    cases h2 with
    | cons b1 b2 =>
      rename_i q3
      have e3 : q3 = q := by
        rcases b1 with ⟨_, b1⟩ | ⟨_, b1 | ⟨_, _, b1⟩⟩
        · exact b1
        · exact b1
        · simp at b1
      unfold ambientPlan at b2
      obtain ⟨p4, b3, b4⟩ := evolves_done_cons b2
      replace b3 : p4 = _ := b3
      obtain ⟨a, e4, hal⟩ := evolves_raises _ b4
      refine ⟨a, b, ?_, ?_, hb⟩
      · rw [e4, b3, e3, e2, a5, eb, e1, a3, a1]
      · simp only [if_true]
        apply BitVec.eq_of_getLsbD_eq
        intro i hi
        rw [hal i hi, finalCaps_get, b3]
        by_cases hl : i ≤ last
        · simp [List.contains_eq_mem, mem_validCaps, hi, hl]
        · simp [List.contains_eq_mem, mem_validCaps, hi, hl]

/-- The groups asked for, if any. -/
def wantedGroups (g : Option BStr → BitVec 32 → List (BitVec 32)) (j : Jail) (old : List (BitVec 32)) : List (BitVec 32) :=
  if j.flags.inherit_suppl_gids then g j.user j.usergid
  else if j.flags.set_suppl_gids then (j.suppl_gid_list.getD []).take j.suppl_gid_count
  else if !j.flags.keep_suppl_gids && !j.flags.disable_setgroups && (j.flags.uid || j.flags.gid) then []
  else old

theorem evolves_ids {j : Jail} {p r : Proc} (h : Evolves g p (done (idPlan j)) r) :
    r.groups = wantedGroups g j p.groups ∧ r.gid = (if j.flags.gid then changedId p.gid j.gid else p.gid) ∧
      r.uid = (if j.flags.uid then changedId p.uid j.uid else p.uid) := by
  unfold idPlan at h
  rw [done_append, done_append] at h
  obtain ⟨q1, h1, h⟩ := evolves_append.1 h
  obtain ⟨q2, h2, h3⟩ := evolves_append.1 h
  have e1 : q1 = { p with groups := wantedGroups g j p.groups } := by
    unfold groupPlan at h1
    unfold wantedGroups
    split at h1
    · next hc =>
      obtain ⟨q, a, b⟩ := evolves_done_cons h1
      rw [evolves_nil b, a, if_pos hc]
    · next hc =>
      rw [if_neg hc]
      split at h1
      · next hc =>
        obtain ⟨q, a, b⟩ := evolves_done_cons h1
        rw [evolves_nil b, a, if_pos hc]
      · next hc =>
        rw [if_neg hc]
        split at h1
        · next hc =>
          obtain ⟨q, a, b⟩ := evolves_done_cons h1
          rw [evolves_nil b, a, if_pos hc]
        · next hc => rw [evolves_nil h1, if_neg hc]
  have e2 : q2 = { q1 with gid := if j.flags.gid then changedId q1.gid j.gid else q1.gid } := by
    split at h2
    · next hc =>
      obtain ⟨q, a, b⟩ := evolves_done_cons h2
      rw [evolves_nil b, a, if_pos hc]
    · next hc => rw [evolves_nil h2, if_neg hc]
  have e3 : r.groups = q2.groups ∧ r.gid = q2.gid ∧ r.uid = if j.flags.uid then changedId q2.uid j.uid else q2.uid := by
    split at h3
    · next hc =>
      obtain ⟨q, ⟨_, _, _, a⟩, b⟩ := evolves_done_cons h3
      rw [evolves_nil b, a, if_pos hc]; exact ⟨rfl, rfl, rfl⟩
    · next hc => rw [evolves_nil h3, if_neg hc]; exact ⟨rfl, rfl, rfl⟩
  rw [e3.1, e3.2.1, e3.2.2, e2, e1]
  exact ⟨rfl, rfl, rfl⟩

/-! ### The whole trace -/

theorem done_kind {cs : List Sys} {ks : List Nat} (h : ∀ c ∈ cs, kind c ∈ ks) : ∀ e ∈ done cs, kind e.1 ∈ ks :=
  fun e he => h _ (done_ok he).2

theorem filter_kind (env : EnterEnv) (j : Jail) : ∀ c ∈ filterPlan env j, kind c ∈ [0, 9] := by
  intro c hc
  unfold filterPlan at hc
  split at hc
  · rcases List.mem_append.1 hc with hc | hc
    · split at hc <;> split at hc <;> simp at hc <;> subst hc <;> simp
    · simp at hc; subst hc; simp
  · simp at hc

theorem ll_kind {j : Jail} {t : List Ev} (h : LandlockTrace j t) : ∀ e ∈ t, kind e.1 = 0 := by
  obtain ⟨a, s, hs, rfl⟩ := h
  intro e he
  split at he
  · simp only [List.cons_append, List.mem_cons, List.mem_append] at he
    rcases he with rfl | he | he
    · rfl
    · have : e.1 ∈ s.map (·.1) := List.mem_map_of_mem he
      rw [hs] at this
      split at this
      · obtain ⟨r, _, hr⟩ := List.mem_map.1 this
        rw [← hr]; rfl
      · simp at this
    · split at he
      · have := (done_ok he).2
        simp at this; rw [this]; rfl
      · simp at he
  · simp at he

theorem st_kind {env : EnterEnv} {j : Jail} {t : List Ev} (E : EnterTrace env j t) : ∀ e ∈ E.st, kind e.1 ∈ [0, 7] := by
  intro e he
  have h := E.hst
  split at h
  · obtain ⟨cur, drop, _, _, s, hs, h⟩ := h
    rw [hs] at he
    rcases List.mem_append.1 he with he | he
    · split at he <;> simp at he; subst he; simp
    · rcases h with ⟨_, rfl⟩ | ⟨_, q, _, rfl | ⟨_, rfl⟩⟩
      · simp at he
      · simp at he; subst he; simp
      · simp at he; rcases he with rfl | rfl <;> simp
  · rw [h] at he; simp at he

/-- The trace in five parts. -/
theorem split_trace {env : EnterEnv} {j : Jail} {t : List Ev} (E : EnterTrace env j t) :
    ∃ P A B, t = P ++ (done (innerPlan env j E.last) ++ (E.st ++ (A ++ (done (idPlan j) ++ (capsTrace j E.last E.q ++ B))))) ∧
      (∀ e ∈ A, kind e.1 ∈ [0, 9]) ∧ (∀ e ∈ B, kind e.1 ∈ [0, 8, 9]) ∧
      P = E.lt ++ (nsTrace j E.lo E.kr ++ (E.mt ++ rootTrace j E.a E.b)) := by
  have hll := ll_kind E.hll
  have hf := done_kind (filter_kind env j)
  have halt : ∀ e ∈ E.alt, kind e.1 = 0 := by
    intro e he
    rw [E.halt] at he
    split at he
    · have := (done_ok he).2; simp at this; rw [this]; rfl
    · simp [done] at he
  have hstrict : ∀ e ∈ E.strict, kind e.1 = 0 := by
    intro e he
    obtain ⟨r, _, h⟩ := E.hstrict
    rw [h] at he
    split at he <;> simp at he; rw [he]; rfl
  have heq := E.eq
  cases hn : j.flags.no_new_privs with
  | true =>
    rw [hn, if_pos rfl] at heq
    refine ⟨_, [], done [.noNewPrivs] ++ (E.ll ++ (done (filterPlan env j) ++ (E.alt ++ E.strict))), ?_, ?_, ?_, rfl⟩
    · exact heq.trans (by simp only [List.append_assoc, List.nil_append])
    · simp
    · intro e he
      simp only [List.mem_append] at he
      rcases he with he | he | he | he | he
      · have := (done_ok he).2; simp at this; simp [this]
      · simp [hll e he]
      · have := hf e he; simp at this ⊢; omega
      · simp [halt e he]
      · simp [hstrict e he]
  | false =>
    rw [hn, if_neg (by simp)] at heq
    refine ⟨_, E.ll ++ done (filterPlan env j), E.alt ++ E.strict, ?_, ?_, ?_, rfl⟩
    · exact heq.trans (by simp only [List.append_assoc, List.nil_append])
    · intro e he
      rcases List.mem_append.1 he with he | he
      · simp [hll e he]
      · exact hf e he
    · intro e he
      rcases List.mem_append.1 he with he | he
      · simp [halt e he]
      · simp [hstrict e he]

theorem ids_kind (j : Jail) : ∀ e ∈ done (idPlan j), kind e.1 ∈ [1, 2, 3] := by
  refine done_kind fun c hc => ?_
  unfold idPlan groupPlan at hc
  simp only [List.mem_append] at hc
  rcases hc with hc | hc | hc
  · split at hc
    · simp at hc; subst hc; simp
    · split at hc
      · simp at hc; subst hc; simp
      · split at hc <;> simp at hc; subst hc; simp
  · split at hc <;> simp at hc; subst hc; simp
  · split at hc <;> simp at hc; subst hc; simp

theorem bound_kind (keep : BitVec 64) (last : Nat) : ∀ c ∈ boundPlan keep last, kind c = 5 := by
  intro c hc
  unfold boundPlan at hc
  obtain ⟨i, _, hi⟩ := List.mem_flatMap.1 hc
  simp at hi; rw [hi]; rfl

theorem caps_kind (j : Jail) (last : Nat) (q : Int) : ∀ e ∈ capsTrace j last q, kind e.1 ∈ [0, 4, 5, 6] := by
  intro e he
  unfold capsTrace at he
  split at he
  · rcases List.mem_append.1 he with he | he
    · have := (done_ok he).2
      simp only [List.mem_append, List.mem_cons, List.not_mem_nil, or_false] at this
      rcases this with (h | h) | h | h
      · simp [h]
      · simp [h]
      · split at h
        · simp [bound_kind _ _ _ h]
        · simp at h
      · simp [h]
    · split at he
      · rcases List.mem_cons.1 he with rfl | he
        · simp
        · have := (done_ok he).2
          unfold ambientPlan at this
          rcases List.mem_cons.1 this with h | h
          · simp [h]
          · obtain ⟨i, _, hi⟩ := List.mem_flatMap.1 h
            simp at hi; simp [hi]
      · simp at he
  · simp at he

/-- The process at the end, by the parts of the trace. -/
theorem evolves_split {env : EnterEnv} {j : Jail} {t : List Ev} (E : EnterTrace env j t) {p r : Proc} (h : Evolves g p t r) :
    ∃ p1 p2 p3 p4 p5 p6, Evolves g p (E.lt ++ (nsTrace j E.lo E.kr ++ (E.mt ++ rootTrace j E.a E.b))) p1 ∧
      Evolves g p1 (done (innerPlan env j E.last)) p2 ∧
      Evolves g p2 E.st p3 ∧ (∃ A, (∀ e ∈ A, kind e.1 ∈ [0, 9]) ∧ Evolves g p3 A p4) ∧ Evolves g p4 (done (idPlan j)) p5 ∧
      Evolves g p5 (capsTrace j E.last E.q) p6 ∧ ∃ B, (∀ e ∈ B, kind e.1 ∈ [0, 8, 9]) ∧ Evolves g p6 B r := by
  obtain ⟨P, A, B, e, hA, hB, hP⟩ := split_trace E
  rw [e] at h
  obtain ⟨p1, h1, h⟩ := evolves_append.1 h
  obtain ⟨p2, h2, h⟩ := evolves_append.1 h
  obtain ⟨p3, h3, h⟩ := evolves_append.1 h
  obtain ⟨p4, h4, h⟩ := evolves_append.1 h
  obtain ⟨p5, h5, h⟩ := evolves_append.1 h
  obtain ⟨p6, h6, h⟩ := evolves_append.1 h
  rw [hP] at h1
  exact ⟨p1, p2, p3, p4, p5, p6, h1, h2, h3, ⟨A, hA, h4⟩, h5, h6, B, hB, h⟩

end Minijail
