import Verif.Proof.EnterPre
import Verif.Proof.EnterOrder
import Mathlib.Tactic.SplitIfs
/-! Facts about the process after `minijail_enter`. -/
set_option autoImplicit false
set_option linter.unusedSimpArgs false
namespace Minijail
open Spec

variable {env : EnterEnv} {j : Jail} {k : Kernel} {t : List Ev} {g : Option BStr → BitVec 32 → List (BitVec 32)} {p q : Proc} {n : Nat}

theorem trace_of (h : Entered env j k t) : Nonempty (EnterTrace env j t) := by
  obtain ⟨t', e, E⟩ := runs_enter (u := ()) env j h
  rw [List.nil_append] at e
  subst e; exact E

theorem head_last (E : EnterTrace env j t) (hu : j.flags.use_caps = true ∨ j.flags.capbset_drop = true) : LastCap t E.last := by
  have he := E.eq
  have hl := E.hlt
  rw [if_pos (by rcases hu with h | h <;> simp [h])] at hl
  rw [hl] at he
  exact congrArg List.head? he

theorem last_of (h : Entered env j k t) (hu : j.flags.use_caps = true ∨ j.flags.capbset_drop = true) (hn : LastCap t n) :
    ∃ E : EnterTrace env j t, E.last = n := by
  obtain ⟨E⟩ := trace_of h
  refine ⟨E, ?_⟩
  have := head_last E hu
  unfold LastCap at this hn
  rw [this] at hn
  simp only [Option.some.injEq, Prod.mk.injEq, true_and] at hn
  omega

theorem noroot_iff (m : BitVec 64) : noroot (~~~m) = true ↔ m.getLsbD 0 = false ∧ m.getLsbD 1 = false := by
  unfold noroot
  have h3 : (3#64 : BitVec 64) = BitVec.twoPow 64 0 ||| BitVec.twoPow 64 1 := by decide
  rw [beq_iff_eq]
  constructor
  · intro h
    have h0 := congrArg (·.getLsbD 0) h
    have h1 := congrArg (·.getLsbD 1) h
    simp at h0 h1
    exact ⟨by simpa using h0, by simpa using h1⟩
  · rintro ⟨h0, h1⟩
    rw [h3]
    apply BitVec.eq_of_getLsbD_eq
    intro i hi
    simp only [BitVec.getLsbD_and, BitVec.getLsbD_not, BitVec.getLsbD_or, BitVec.getLsbD_twoPow, hi, decide_true, Bool.true_and]
    by_cases e0 : i = 0
    · subst e0; simp [h0, -BitVec.getLsbD_eq_getElem]
    · by_cases e1 : i = 1
      · subst e1; simp [h1, -BitVec.getLsbD_eq_getElem]
      · simp [Ne.symm e0, Ne.symm e1]

/-- After the capability step nothing touches capabilities. -/
theorem caps_final (E : EnterTrace env j t) (hp : Evolves g p t q) (hu : j.flags.use_caps = true) :
    q.eff = finalCaps j E.last ∧ q.perm = finalCaps j E.last ∧ q.inh = finalCaps j E.last ∧
    (if j.flags.set_ambient_caps then q.amb = finalCaps j E.last else ∀ i, q.amb.getLsbD i = true → (finalCaps j E.last).getLsbD i = true) ∧
    ∃ b, ∀ i, q.bound.getLsbD i = (BitVec.getLsbD (w := 64) b i && (!noroot (~~~j.securebits_skip_mask) || j.caps.getLsbD i || decide (E.last < i))) := by
  obtain ⟨p1, p2, p3, p4, p5, p6, h1, h2, h3, ⟨A, hA, h4⟩, h5, h6, B, hB, h7⟩ := evolves_split E hp
  obtain ⟨a, b, e, ha, hb⟩ := evolves_caps hu h6
  have ne : ∀ ks : List Nat, (∀ x ∈ [0, 8, 9], x ∉ ks) → ∀ e ∈ B, kind e.1 ∉ ks := fun ks h e he => h _ (hB e he)
  have c := depends_evolves depends_caps (ne _ (by simp)) h7
  have am := depends_evolves depends_amb (ne _ (by simp)) h7
  have bo := depends_evolves depends_bound (ne _ (by simp)) h7
  simp only [Prod.mk.injEq] at c
  rw [e] at c am bo
  refine ⟨c.1, c.2.1, c.2.2, ?_, p5.bound, fun i => ?_⟩
  · rw [am]; exact ha
  · rw [bo]; exact hb i

/-- The bounding set by the parts of the trace. -/
theorem bound_parts (E : EnterTrace env j t) (hp : Evolves g p t q) : ∃ b : BitVec 64, (j.hooks = [] → b = p.bound) ∧ ∀ i, q.bound.getLsbD i =
    (b.getLsbD i && (!j.flags.capbset_drop || j.cap_bset.getLsbD i || decide (E.last < i)) &&
      (!j.flags.use_caps || !noroot (~~~j.securebits_skip_mask) || j.caps.getLsbD i || decide (E.last < i))) := by
  obtain ⟨p1, p2, p3, p4, p5, p6, h1, h2, h3, ⟨A, hA, h4⟩, h5, h6, B, hB, h7⟩ := evolves_split E hp
  have bo := depends_evolves depends_bound (ks := [5, 10]) (fun e he hk => by have := hB e he; simp at this hk; omega) h7
  have i5 := depends_evolves depends_bound (ks := [5, 10]) (fun e he hk => by have := ids_kind j e he; simp at this hk; omega) h5
  have i4 := depends_evolves depends_bound (ks := [5, 10]) (fun e he hk => by have := hA e he; simp at this hk; omega) h4
  have i3 := depends_evolves depends_bound (ks := [5, 10]) (fun e he hk => by have := st_kind E e he; simp at this hk; omega) h3
  rw [innerPlan_eq, done_append] at h2
  obtain ⟨p1', h2a, h2b⟩ := evolves_append.1 h2
  refine ⟨p1'.bound, ?_, fun i => ?_⟩
  · intro hj
    have e1 := depends_evolves depends_bound (ks := [5, 10]) (fun e he hk => by
      have := mild_kind hj (pre_mild E e he); simp at hk; omega) h1
    have e2 := depends_evolves depends_bound (ks := [5, 10]) (fun e he hk => by
      have := mild_kind hj (innerPre_mild env j _ (done_ok he).2); simp at hk; omega) h2a
    rw [e2, e1]
  · have c6 : p6.bound.getLsbD i = (p5.bound.getLsbD i &&
        (!j.flags.use_caps || !noroot (~~~j.securebits_skip_mask) || j.caps.getLsbD i || decide (E.last < i))) := by
      cases hu : j.flags.use_caps
      · have : p6 = p5 := by
          unfold capsTrace at h6
          rw [hu] at h6
          exact evolves_nil h6
        simp [this]
      · obtain ⟨a, b, e, _, hb⟩ := evolves_caps hu h6
        rw [e]
        simpa using hb i
    have c2 : p2.bound.getLsbD i = (p1'.bound.getLsbD i && (!j.flags.capbset_drop || j.cap_bset.getLsbD i || decide (E.last < i))) := by
      cases hu : j.flags.capbset_drop
      · rw [hu] at h2b
        have : p2 = p1' := evolves_nil h2b
        simp [this]
      · rw [hu] at h2b
        obtain ⟨b, e, hb⟩ := evolves_boundPlan h2b
        rw [e]
        simpa using hb i
    rw [bo, c6, i5, i4, i3, c2]

theorem bound_requested (E : EnterTrace env j t) (hp : Evolves g p t q) (hd : j.flags.capbset_drop = true) (i : Nat) (hi : i ≤ E.last)
    (hc : j.cap_bset.getLsbD i = false) : q.bound.getLsbD i = false := by
  obtain ⟨b, _, hb⟩ := bound_parts E hp
  rw [hb, hd, hc, show decide (E.last < i) = false by simp; omega]
  simp

theorem bound_exact (E : EnterTrace env j t) (hp : Evolves g p t q) (hh : j.hooks = []) (i : Nat) :
    q.bound.getLsbD i = true ↔ p.bound.getLsbD i = true ∧
      ¬ (j.flags.capbset_drop = true ∧ i ≤ E.last ∧ j.cap_bset.getLsbD i = false) ∧
      ¬ (j.flags.use_caps = true ∧ j.securebits_skip_mask.getLsbD 0 = false ∧ j.securebits_skip_mask.getLsbD 1 = false ∧ i ≤ E.last ∧
         j.caps.getLsbD i = false) := by
  obtain ⟨b, h0, hb⟩ := bound_parts E hp
  rw [hb, h0 hh]
  have hn := noroot_iff j.securebits_skip_mask
  have hlt : decide (E.last < i) = !decide (i ≤ E.last) := by
    by_cases h : i ≤ E.last
    · have : ¬ E.last < i := by omega
      simp [h, this]
    · have : E.last < i := by omega
      simp [h, this]
  rw [hlt]
  by_cases hi : i ≤ E.last
  · cases hnr : noroot (~~~j.securebits_skip_mask)
    · have : ¬ (j.securebits_skip_mask.getLsbD 0 = false ∧ j.securebits_skip_mask.getLsbD 1 = false) := by rw [← hn, hnr]; simp
      cases j.flags.capbset_drop <;> cases j.cap_bset.getLsbD i <;> simp [hi, -BitVec.getLsbD_eq_getElem] <;>
        intros <;> simp_all [-BitVec.getLsbD_eq_getElem]
    · obtain ⟨a, b⟩ := hn.1 hnr
      rw [a, b]
      cases j.flags.capbset_drop <;> cases j.cap_bset.getLsbD i <;> cases j.flags.use_caps <;> cases j.caps.getLsbD i <;>
        simp [hi, -BitVec.getLsbD_eq_getElem]
  · simp [hi, -BitVec.getLsbD_eq_getElem]

/-! ### The privileges needed are still there -/

theorem keptCaps_get (j : Jail) (last i : Nat) (hi : i < 64) :
    (keptCaps j last).getLsbD i = ((i == CAP_SETPCAP || j.caps.getLsbD i) && decide (i ≤ last)) := by
  rw [keptCaps, capSet, capSet_get _ _ _ hi]
  by_cases hl : i ≤ last
  · rw [Bool.eq_iff_iff]
    simp [validCaps, hi, hl, -BitVec.getLsbD_eq_getElem]
  · rw [Bool.eq_iff_iff]
    simp [validCaps, hl, -BitVec.getLsbD_eq_getElem]

theorem cut_caps (E : EnterTrace env j t) (hu : j.flags.use_caps = true) : ∃ X Y, t = X ++ Y ∧
    (∀ e ∈ X, kind e.1 = 4 → e.1 = .capset (keptCaps j E.last) (keptCaps j E.last) (keptCaps j E.last)) ∧
    (∀ e ∈ Y, kind e.1 = 4 → e.1 = .capset (finalCaps j E.last) (finalCaps j E.last) (finalCaps j E.last)) ∧
    (∀ e ∈ X, kind e.1 ≠ 6) ∧ ∀ e ∈ Y, kind e.1 ≠ 5 ∧ (∀ i, e.1 = .ambientRaise i → j.caps.getLsbD i = true ∧ i ≤ E.last ∧ i < 64) := by
  obtain ⟨P, A, B, eq, hA, hB, hP⟩ := split_trace E
  have hcaps : capsTrace j E.last E.q = done ([.capget, .capset (keptCaps j E.last) (keptCaps j E.last) (keptCaps j E.last)] ++
      (if noroot (~~~j.securebits_skip_mask) then boundPlan j.caps E.last else [])) ++
      (done [.capset (finalCaps j E.last) (finalCaps j E.last) (finalCaps j E.last)] ++
      (if j.flags.set_ambient_caps then (.ambientSupported, E.q) :: done (ambientPlan j E.last) else [])) := by
    unfold capsTrace
    rw [if_pos hu]
    simp only [done_append, List.append_assoc]
  rw [hcaps] at eq
  have mildK : ∀ c, Mild j c → kind c = 0 ∨ kind c = 10 := by
    rintro c (h | ⟨h, _, rfl⟩)
    · exact Or.inl h
    · exact Or.inr rfl
  have hX : ∀ e ∈ P ++ (done (innerPlan env j E.last) ++ (E.st ++ (A ++ (done (idPlan j) ++
      done ([.capget, .capset (keptCaps j E.last) (keptCaps j E.last) (keptCaps j E.last)] ++
      (if noroot (~~~j.securebits_skip_mask) then boundPlan j.caps E.last else [])))))),
      e.1 = .capset (keptCaps j E.last) (keptCaps j E.last) (keptCaps j E.last) ∨ (kind e.1 ≠ 4 ∧ kind e.1 ≠ 6) := by
    intro e he
    simp only [List.mem_append] at he
    rcases he with he | he | he | he | he | he
    · rw [hP] at he
      have := mildK _ (pre_mild E e he); exact Or.inr (by omega)
    · have hc := (done_ok he).2
      rw [innerPlan_eq] at hc
      rcases List.mem_append.1 hc with hc | hc
      · have := mildK _ (innerPre_mild env j _ hc); exact Or.inr (by omega)
      · split at hc
        · have := bound_kind _ _ _ hc; exact Or.inr (by omega)
        · simp at hc
    · have := st_kind E e he; simp at this; exact Or.inr (by omega)
    · have := hA e he; simp at this; exact Or.inr (by omega)
    · have := ids_kind j e he; simp at this; exact Or.inr (by omega)
    · have hc := (done_ok he).2
      simp only [List.mem_append, List.mem_cons, List.not_mem_nil, or_false] at hc
      rcases hc with (hc | hc) | hc
      · rw [hc]; exact Or.inr (by decide)
      · exact Or.inl hc
      · split at hc
        · have := bound_kind _ _ _ hc; exact Or.inr (by omega)
        · simp at hc
  have hY : ∀ e ∈ done [.capset (finalCaps j E.last) (finalCaps j E.last) (finalCaps j E.last)] ++
      (if j.flags.set_ambient_caps then (.ambientSupported, E.q) :: done (ambientPlan j E.last) else []) ++ B,
      e.1 = .capset (finalCaps j E.last) (finalCaps j E.last) (finalCaps j E.last) ∨ (∃ i, e.1 = .ambientRaise i ∧ j.caps.getLsbD i = true ∧
        i ≤ E.last ∧ i < 64) ∨ (kind e.1 ≠ 4 ∧ kind e.1 ≠ 5 ∧ ∀ i, e.1 ≠ .ambientRaise i) := by
    intro e he
    simp only [List.mem_append] at he
    rcases he with (he | he) | he
    · have := (done_ok he).2; simp at this; exact Or.inl this
    · split at he
      · rcases List.mem_cons.1 he with rfl | he
        · exact Or.inr (Or.inr ⟨by simp, by simp, by simp⟩)
        · have hc := (done_ok he).2
          unfold ambientPlan at hc
          rcases List.mem_cons.1 hc with hc | hc
          · rw [hc]; exact Or.inr (Or.inr ⟨by decide, by decide, by simp⟩)
          · obtain ⟨i, hi, hi2⟩ := List.mem_flatMap.1 hc
            simp only [validCaps, List.mem_filter, List.mem_range, List.mem_singleton, decide_eq_true_eq] at hi hi2
            exact Or.inr (Or.inl ⟨i, hi2, hi.2, hi.1.2, hi.1.1⟩)
      · simp at he
    · have := hB e he
      simp at this
      exact Or.inr (Or.inr ⟨by omega, by omega, fun i hi => by rw [hi] at this; simp at this⟩)
  refine ⟨P ++ (done (innerPlan env j E.last) ++ (E.st ++ (A ++ (done (idPlan j) ++
      done ([.capget, .capset (keptCaps j E.last) (keptCaps j E.last) (keptCaps j E.last)] ++
      (if noroot (~~~j.securebits_skip_mask) then boundPlan j.caps E.last else [])))))), done [.capset (finalCaps j E.last) (finalCaps j E.last) (finalCaps j E.last)] ++
      (if j.flags.set_ambient_caps then (.ambientSupported, E.q) :: done (ambientPlan j E.last) else []) ++ B,
    eq.trans (by simp only [List.append_assoc]), fun e he hk => ?_, fun e he hk => ?_, fun e he hk => ?_, fun e he => ⟨fun hk => ?_, fun i hi => ?_⟩⟩
  · rcases hX e he with h | h
    · exact h
    · exact absurd hk h.1
  · rcases hY e he with h | ⟨i, h, _⟩ | h
    · exact h
    · rw [h] at hk; exact absurd hk (by simp)
    · exact absurd hk h.1
  · rcases hX e he with h | h
    · rw [h] at hk; exact absurd hk (by simp)
    · exact absurd hk h.2
  · rcases hY e he with h | ⟨i, h, _⟩ | h
    · rw [h] at hk; exact absurd hk (by simp)
    · rw [h] at hk; exact absurd hk (by simp)
    · exact absurd hk h.2.1
  · rcases hY e he with h | ⟨i', h, hr⟩ | h
    · rw [h] at hi; exact absurd hi (by simp)
    · rw [h, Sys.ambientRaise.injEq] at hi; rw [← hi]; exact hr
    · exact absurd hi (h.2.2 i)

/-! ### Ids -/

theorem pre_same {α : Type} {f : Proc → α} {ks : List Nat} (hf : Depends (g := g) f ks) (h0 : 0 ∉ ks) (h5 : 5 ∉ ks) (E : EnterTrace env j t)
    (hh : j.hooks = []) {p1 p2 : Proc} (h1 : Evolves g p (E.lt ++ (nsTrace j E.lo E.kr ++ (E.mt ++ rootTrace j E.a E.b))) p1)
    (h2 : Evolves g p1 (done (innerPlan env j E.last)) p2) : f p2 = f p := by
  rw [innerPlan_eq, done_append] at h2
  obtain ⟨p1', h2a, h2b⟩ := evolves_append.1 h2
  have e1 := depends_evolves hf (fun e he hk => h0 (mild_kind hh (pre_mild E e he) ▸ hk)) h1
  have e2 := depends_evolves hf (fun e he hk => h0 (mild_kind hh (innerPre_mild env j _ (done_ok he).2) ▸ hk)) h2a
  have e3 := depends_evolves hf (fun e he hk => by
    have hc := (done_ok he).2
    split at hc
    · exact h5 (bound_kind _ _ _ hc ▸ hk)
    · simp at hc) h2b
  rw [e3, e2, e1]

theorem ids_final (E : EnterTrace env j t) (hp : Evolves g p t q) : ∃ r : Proc,
    (j.hooks = [] → r.uid = p.uid ∧ r.gid = p.gid ∧ r.groups = p.groups) ∧
    q.uid = (if j.flags.uid then changedId r.uid j.uid else r.uid) ∧ q.gid = (if j.flags.gid then changedId r.gid j.gid else r.gid) ∧
    q.groups = wantedGroups g j r.groups := by
  obtain ⟨p1, p2, p3, p4, p5, p6, h1, h2, h3, ⟨A, hA, h4⟩, h5, h6, B, hB, h7⟩ := evolves_split E hp
  obtain ⟨e1, e2, e3⟩ := evolves_ids h5
  have key : ∀ {α : Type} {f : Proc → α} {ks : List Nat}, Depends (g := g) f ks → (∀ x ∈ [0, 4, 5, 6, 7, 8, 9], x ∉ ks) →
      f q = f p5 ∧ (j.hooks = [] → f p4 = f p) := by
    intro α f ks hf hk
    have b7 := depends_evolves hf (fun e he => hk _ (by have := hB e he; simp at this ⊢; omega)) h7
    have b6 := depends_evolves hf (fun e he => hk _ (by have := caps_kind j E.last E.q e he; simp at this ⊢; omega)) h6
    refine ⟨by rw [b7, b6], fun hh => ?_⟩
    have b4 := depends_evolves hf (fun e he => hk _ (by have := hA e he; simp at this ⊢; omega)) h4
    have b3 := depends_evolves hf (fun e he => hk _ (by have := st_kind E e he; simp at this ⊢; omega)) h3
    rw [b4, b3, pre_same hf (hk 0 (by simp)) (hk 5 (by simp)) E hh h1 h2]
  have ku := key depends_uid (by decide)
  have kg := key depends_gid (by decide)
  have kl := key depends_groups (by decide)
  exact ⟨p4, fun hh => ⟨ku.2 hh, kg.2 hh, kl.2 hh⟩, by rw [ku.1, e3], by rw [kg.1, e2], by rw [kl.1, e1]⟩

theorem mem_split (E : EnterTrace env j t) {e : Ev} (he : e ∈ t) : Mild j e.1 ∨ (kind e.1 = 5 ∧ e ∈ done (innerPlan env j E.last)) ∨ e ∈ E.st ∨
    e ∈ done (idPlan j) ∨ e ∈ capsTrace j E.last E.q ∨ kind e.1 = 8 ∨ kind e.1 = 9 := by
  obtain ⟨P, A, B, eq, hA, hB, hP⟩ := split_trace E
  rw [eq] at he
  simp only [List.mem_append] at he
  rcases he with he | he | he | he | he | he | he
  · rw [hP] at he; exact Or.inl (pre_mild E e he)
  · have hc := (done_ok he).2
    rw [innerPlan_eq] at hc
    rcases List.mem_append.1 hc with hc | hc
    · exact Or.inl (innerPre_mild env j _ hc)
    · refine Or.inr (Or.inl ⟨?_, he⟩)
      split at hc
      · exact bound_kind _ _ _ hc
      · simp at hc
  · exact Or.inr (Or.inr (Or.inl he))
  · have := hA e he
    simp at this
    rcases this with h | h
    · exact Or.inl (Or.inl h)
    · simp [h]
  · simp [he]
  · simp [he]
  · have := hB e he
    simp at this
    rcases this with h | h | h
    · exact Or.inl (Or.inl h)
    · simp [h]
    · simp [h]

theorem mild_not {c : Sys} (h : Mild j c) : kind c = 0 ∨ kind c = 10 := by
  rcases h with h | ⟨_, _, rfl⟩
  · exact Or.inl h
  · exact Or.inr rfl

theorem setresuid_event (E : EnterTrace env j t) {u : BitVec 32} {r : Int} (hm : (Sys.setresuid u, r) ∈ t) : r = 0 ∧ u = j.uid := by
  rcases mem_split E hm with h | h | h | h | h | h | h
  · have := mild_not h; simp at this
  · simp at h
  · have := st_kind E _ h; simp at this
  · obtain ⟨h0, hc⟩ := done_ok h
    refine ⟨h0, ?_⟩
    unfold idPlan at hc
    simp only [List.mem_append] at hc
    rcases hc with hc | hc | hc
    · unfold groupPlan at hc
      split_ifs at hc <;> simp at hc
    · split_ifs at hc <;> simp at hc
    · split_ifs at hc <;> simp at hc
      exact hc
  · have := caps_kind j _ _ _ h; simp at this
  · simp at h
  · simp at h

/-! ### Securebits -/

theorem c0_get (i : Nat) : (0xc0#64 : BitVec 64).getLsbD i = decide (i = 6 ∨ i = 7) := by
  by_cases hi : i < 64
  · have : ∀ i : Fin 64, (0xc0#64 : BitVec 64).getLsbD i.1 = decide (i.1 = 6 ∨ i.1 = 7) := by decide
    exact this ⟨i, hi⟩
  · rw [BitVec.getLsbD_of_ge _ _ (by omega), decide_eq_false]; omega

theorem ten_get (i : Nat) : (0x10#64 : BitVec 64).getLsbD i = decide (i = 4) := by
  by_cases hi : i < 64
  · have : ∀ i : Fin 64, (0x10#64 : BitVec 64).getLsbD i.1 = decide (i.1 = 4) := by decide
    exact this ⟨i, hi⟩
  · rw [BitVec.getLsbD_of_ge _ _ (by omega), decide_eq_false]; omega

theorem f00_get (i : Nat) : (0xf00#64 : BitVec 64).getLsbD i = decide (8 ≤ i ∧ i < 12) := by
  by_cases hi : i < 64
  · have : ∀ i : Fin 64, (0xf00#64 : BitVec 64).getLsbD i.1 = decide (8 ≤ i.1 ∧ i.1 < 12) := by decide
    exact this ⟨i, hi⟩
  · rw [BitVec.getLsbD_of_ge _ _ (by omega), decide_eq_false]; omega

theorem lockBits_get (env : EnterEnv) (skip : BitVec 64) (drop : Bool) (i : Nat) (hi : i < 64) :
    (lockBits env skip drop).getLsbD i = ((env.secureAllBits.getLsbD i || (decide (0 < i) && env.secureAllBits.getLsbD (i - 1))) &&
      !(drop && decide (i = 4)) && !decide (i = 6 ∨ i = 7) && !skip.getLsbD i) := by
  unfold lockBits
  dsimp only
  have hsh : (env.secureAllBits <<< 1).getLsbD i = (decide (0 < i) && env.secureAllBits.getLsbD (i - 1)) := by
    rw [BitVec.getLsbD_shiftLeft]
    by_cases h0 : 0 < i
    · have : ¬ i < 1 := by omega
      simp [hi, h0, this, -BitVec.getLsbD_eq_getElem]
    · have : i < 1 := by omega
      simp [h0, this, -BitVec.getLsbD_eq_getElem]
  rw [BitVec.getLsbD_and, BitVec.getLsbD_and, BitVec.getLsbD_not, BitVec.getLsbD_not, c0_get, decide_eq_true hi]
  cases drop
  · simp only [Bool.false_eq_true, if_false, BitVec.getLsbD_or, hsh]
    simp [-BitVec.getLsbD_eq_getElem]
  · simp only [if_true, BitVec.getLsbD_and, BitVec.getLsbD_not, BitVec.getLsbD_or, hsh, ten_get, decide_eq_true hi]
    simp [-BitVec.getLsbD_eq_getElem]

theorem mem_st (E : EnterTrace env j t) {e : Ev} (he : e ∈ E.st) : e ∈ t := by rw [E.eq]; simp [he]

theorem secure_event (E : EnterTrace env j t) {b : BitVec 64} {r : Int} (hm : (Sys.setSecurebits b, r) ∈ t) :
    ∃ drop, b = lockBits env j.securebits_skip_mask drop ∨ b = lockBits env j.securebits_skip_mask drop &&& ~~~0xf00#64 := by
  rcases mem_split E hm with h | h | h | h | h | h | h
  · have := mild_not h; simp at this
  · simp at h
  · have hs := E.hst
    split_ifs at hs
    · obtain ⟨cur, drop, _, _, s, e, h3⟩ := hs
      rw [e] at h
      rcases List.mem_append.1 h with h | h
      · split_ifs at h <;> simp at h
      · rcases h3 with ⟨_, rfl⟩ | ⟨_, q, _, rfl | ⟨_, rfl⟩⟩
        · simp at h
        · simp at h; exact ⟨drop, Or.inl h.1⟩
        · simp at h
          rcases h with h | h
          · exact ⟨drop, Or.inl h.1⟩
          · exact ⟨drop, Or.inr h.1⟩
    · rw [hs] at h; simp at h
  · have := ids_kind j _ h; simp at this
  · have := caps_kind j _ _ _ h; simp at this
  · simp at h
  · simp at h

theorem secure_final (E : EnterTrace env j t) (hp : Evolves g p t q) (hu : j.flags.use_caps = true) : ∃ (cur : Int) (drop : Bool) (r : BitVec 64),
    ((!j.flags.set_ambient_caps) = true → drop = false) ∧
    ((!j.flags.set_ambient_caps) = false → (Sys.getSecurebits, cur) ∈ t ∧ 0 ≤ cur ∧
      drop = ((BitVec.ofInt 64 cur).getLsbD 5 && !(BitVec.ofInt 64 cur).getLsbD 4)) ∧
    ((lockBits env j.securebits_skip_mask drop = 0#64 ∧ q.securebits = r ∧ (j.hooks = [] → r = p.securebits) ∧
        ∀ b x, (Sys.setSecurebits b, x) ∉ t) ∨
     ((∃ x : Int, 0 ≤ x ∧ (Sys.setSecurebits (lockBits env j.securebits_skip_mask drop), x) ∈ t) ∧
        q.securebits = lockBits env j.securebits_skip_mask drop) ∨
     ((Sys.setSecurebits (lockBits env j.securebits_skip_mask drop), -1) ∈ t ∧
        (∃ x : Int, 0 ≤ x ∧ (Sys.setSecurebits (lockBits env j.securebits_skip_mask drop &&& ~~~0xf00#64), x) ∈ t) ∧
        q.securebits = lockBits env j.securebits_skip_mask drop &&& ~~~0xf00#64)) := by
  obtain ⟨p1, p2, p3, p4, p5, p6, h1, h2, h3, ⟨A, hA, h4⟩, h5, h6, B, hB, h7⟩ := evolves_split E hp
  have b7 := depends_evolves depends_sec (ks := [7, 10]) (fun e he hk => by have := hB e he; simp at this hk; omega) h7
  have b6 := depends_evolves depends_sec (ks := [7, 10]) (fun e he hk => by have := caps_kind j _ _ e he; simp at this hk; omega) h6
  have b5 := depends_evolves depends_sec (ks := [7, 10]) (fun e he hk => by have := ids_kind j e he; simp at this hk; omega) h5
  have b4 := depends_evolves depends_sec (ks := [7, 10]) (fun e he hk => by have := hA e he; simp at this hk; omega) h4
  have hq : q.securebits = p3.securebits := by rw [b7, b6, b5, b4]
  have hst := E.hst
  rw [if_pos hu] at hst
  obtain ⟨cur, drop, d1, d2, s, e, hs⟩ := hst
  have hsub : ∀ x ∈ s, x ∈ t := fun x hx => mem_st E (by rw [e]; simp [hx])
  rw [e] at h3
  obtain ⟨p2', h3a, h3b⟩ := evolves_append.1 h3
  have a3 : p2'.securebits = p2.securebits := depends_evolves depends_sec (ks := [7, 10]) (fun e he hk => by
    split at he
    · simp at he
    · simp at he; rw [he] at hk; simp at hk) h3a
  have one : ∀ {b : BitVec 64} {x : Int} {a c : Proc}, 0 ≤ x → Evolves g a [(.setSecurebits b, x)] c → c.securebits = b := by
    intro b x a c hx h
    cases h with
    | cons h h' =>
      cases h'
      rcases h with ⟨_, h⟩ | ⟨h, _⟩
      · replace h : _ = _ := h
        rw [h]
      · exact absurd h (by simp; omega)
  refine ⟨cur, drop, p2.securebits, d1, fun h => ⟨mem_st E (by rw [e, h]; simp), d2 h⟩, ?_⟩
  rcases hs with ⟨h0, rfl⟩ | ⟨hne, x, hx, rfl | ⟨hf, rfl⟩⟩
  · refine Or.inl ⟨h0, by rw [hq, evolves_nil h3b, a3], fun hh => pre_same depends_sec (by decide) (by decide) E hh h1 h2, fun b x hm => ?_⟩
    rcases mem_split E hm with h | h | h | h | h | h | h
    · have := mild_not h; simp at this
    · simp at h
    · rw [e] at h
      simp only [List.append_nil] at h
      split_ifs at h <;> simp at h
    · have := ids_kind j _ h; simp at this
    · have := caps_kind j _ _ _ h; simp at this
    · simp at h
    · simp at h
  · exact Or.inr (Or.inl ⟨⟨x, hx, hsub _ (by simp)⟩, by rw [hq, one hx h3b]⟩)
  · refine Or.inr (Or.inr ⟨hsub _ (by simp), ⟨x, hx, hsub _ (by simp)⟩, ?_⟩)
    cases h3b with
    | cons h h' => rw [hq, one hx h']

theorem secure_word (E : EnterTrace env j t) (hp : Evolves g p t q) (hu : j.flags.use_caps = true) :
    (∃ b, ∃ r : Int, 0 ≤ r ∧ (Sys.setSecurebits b, r) ∈ t ∧ q.securebits = b) ∨
    ((∀ b r, (Sys.setSecurebits b, r) ∉ t) ∧ (j.hooks = [] → q.securebits = p.securebits) ∧
      ∀ i, i < 64 → (env.secureAllBits.getLsbD i = true ∨ (0 < i ∧ env.secureAllBits.getLsbD (i - 1) = true)) →
        j.securebits_skip_mask.getLsbD i = true ∨ i = 4 ∨ i = 6 ∨ i = 7) := by
  obtain ⟨cur, drop, r, h1, h2, hc⟩ := secure_final E hp hu
  rcases hc with ⟨h0, hq, hr, hn⟩ | ⟨⟨x, hx, hm⟩, hq⟩ | ⟨_, ⟨x, hx, hm⟩, hq⟩
  · refine Or.inr ⟨hn, fun hh => by rw [hq, hr hh], fun i hi hk => ?_⟩
    have hz := lockBits_get env j.securebits_skip_mask drop i hi
    rw [h0] at hz
    by_cases h : i = 4 ∨ i = 6 ∨ i = 7
    · exact Or.inr h
    · refine Or.inl ?_
      have hk' : (env.secureAllBits.getLsbD i || (decide (0 < i) && env.secureAllBits.getLsbD (i - 1))) = true := by
        rcases hk with hk | ⟨h0, hk⟩
        · rw [hk]; rfl
        · rw [hk]; simp [h0]
      have e4 : i ≠ 4 := fun e => h (Or.inl e)
      have e67 : ¬ (i = 6 ∨ i = 7) := fun e => h (Or.inr e)
      rw [hk', decide_eq_false e4, decide_eq_false e67] at hz
      simpa using hz
  · exact Or.inl ⟨_, x, hx, hm, hq⟩
  · exact Or.inl ⟨_, x, hx, hm, hq⟩

/-! ### Filter and `no_new_privs` -/

theorem depends_tail {α : Type} {f : Proc → α} {ks : List Nat} (hf : Depends (g := g) f ks) {s : List Ev} (h : ∀ e ∈ s, kind e.1 ∉ ks)
    {a b : Proc} (he : Evolves g a s b) : f b = f a := depends_evolves hf h he

theorem filterPlan_last (env : EnterEnv) (j : Jail) (hf : j.flags.seccomp_filter = true) (ha : env.asan = false) :
    ∃ cs, filterPlan env j = cs ++ [.seccompFilter j.flags.seccomp_filter_tsync j.flags.seccomp_filter_allow_speculation j.filter_prog] := by
  unfold filterPlan
  rw [if_pos (by simp [hf, ha])]
  exact ⟨_, rfl⟩

theorem filters_after {a b : Proc} (hf : j.flags.seccomp_filter = true) (ha : env.asan = false) (h : Evolves g a (done (filterPlan env j)) b) :
    b.filters.head? = some j.filter_prog := by
  obtain ⟨cs, e⟩ := filterPlan_last env j hf ha
  rw [e, done_append] at h
  obtain ⟨c, _, h2⟩ := evolves_append.1 h
  obtain ⟨d, hg, h3⟩ := evolves_done_cons h2
  have := evolves_nil h3
  replace hg : d = _ := hg
  rw [this, hg]
  rfl

theorem tail_kind (E : EnterTrace env j t) : ∀ e ∈ E.alt ++ E.strict, kind e.1 = 0 := by
  intro e he
  rcases List.mem_append.1 he with he | he
  · rw [E.halt] at he
    have hc := (done_ok he).2
    split_ifs at hc <;> simp at hc
    rw [hc]; rfl
  · obtain ⟨r, _, hs⟩ := E.hstrict
    rw [hs] at he
    split_ifs at he <;> simp at he
    rw [he]; rfl

theorem filters_final (E : EnterTrace env j t) (hp : Evolves g p t q) (hf : j.flags.seccomp_filter = true) (ha : env.asan = false) :
    q.filters.head? = some j.filter_prog := by
  have hall := trace_rest E
  unfold restTrace at hall
  have hp' := hp
  rw [hall] at hp'
  obtain ⟨a1, _, h⟩ := evolves_append.1 hp'
  obtain ⟨a2, _, h⟩ := evolves_append.1 h
  obtain ⟨a3, _, h⟩ := evolves_append.1 h
  obtain ⟨a4, _, h⟩ := evolves_append.1 h
  obtain ⟨a5, _, h⟩ := evolves_append.1 h
  obtain ⟨a6, _, h⟩ := evolves_append.1 h
  obtain ⟨a7, h1, h2⟩ := evolves_append.1 h
  have e2 := depends_evolves depends_filters (fun e he hk => by rw [tail_kind E e he] at hk; simp at hk) h2
  rw [e2]
  clear hp' h
  cases hn : j.flags.no_new_privs
  · rw [hn, if_neg (by simp)] at h1
    obtain ⟨b1, _, h1⟩ := evolves_append.1 h1
    obtain ⟨b2, hflt, h1⟩ := evolves_append.1 h1
    obtain ⟨b3, h3, h4⟩ := evolves_append.1 h1
    have e4 := depends_evolves depends_filters (fun e he hk => by have := caps_kind j _ _ e he; simp at this hk; omega) h4
    have e3 := depends_evolves depends_filters (fun e he hk => by have := ids_kind j e he; simp at this hk; omega) h3
    rw [e4, e3]
    exact filters_after hf ha hflt
  · rw [hn, if_pos rfl] at h1
    obtain ⟨b1, _, h1⟩ := evolves_append.1 h1
    obtain ⟨b2, _, h1⟩ := evolves_append.1 h1
    obtain ⟨b3, _, h1⟩ := evolves_append.1 h1
    obtain ⟨b4, _, h1⟩ := evolves_append.1 h1
    exact filters_after hf ha h1

theorem nnp_final (E : EnterTrace env j t) (hp : Evolves g p t q) (hn : j.flags.no_new_privs = true) : q.noNewPrivs = true := by
  have hall := trace_rest E
  unfold restTrace at hall
  have hp' := hp
  rw [hall] at hp'
  obtain ⟨a1, _, h⟩ := evolves_append.1 hp'
  obtain ⟨a2, _, h⟩ := evolves_append.1 h
  obtain ⟨a3, _, h⟩ := evolves_append.1 h
  obtain ⟨a4, _, h⟩ := evolves_append.1 h
  obtain ⟨a5, _, h⟩ := evolves_append.1 h
  obtain ⟨a6, _, h⟩ := evolves_append.1 h
  obtain ⟨a7, h1, h2⟩ := evolves_append.1 h
  have e2 := depends_evolves depends_nnp (fun e he hk => by rw [tail_kind E e he] at hk; simp at hk) h2
  rw [e2]
  clear hp' h
  rw [hn, if_pos rfl] at h1
  obtain ⟨b1, _, h1⟩ := evolves_append.1 h1
  obtain ⟨b2, _, h1⟩ := evolves_append.1 h1
  obtain ⟨b3, hnn, h1⟩ := evolves_append.1 h1
  obtain ⟨b4, h3, h4⟩ := evolves_append.1 h1
  have e4 := depends_evolves depends_nnp (fun e he hk => by have := done_kind (filter_kind env j) e he; simp at this hk; omega) h4
  have e3 := depends_evolves depends_nnp (fun e he hk => by rw [ll_kind E.hll e he] at hk; simp at hk) h3
  rw [e4, e3]
  obtain ⟨d, hg, h5⟩ := evolves_done_cons hnn
  have := evolves_nil h5
  replace hg : d = _ := hg
  rw [this, hg]

end Minijail
