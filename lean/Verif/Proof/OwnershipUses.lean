import Verif.Proof.OwnershipSteps
/-! Helper lemmas for C72: every use of a jail, any sequence of them, and the end of the jail. -/
set_option autoImplicit false
set_option linter.unusedSimpArgs false
namespace Minijail.Ownership

variable {sure : Prop} {m0 : Ram} {self : Nat}

/-- What a use does. -/
def Steps (sure : Prop) (m0 : Ram) (self : Nat) (u : Use) (p : Members) (lost : Owned) (r : Ends State) : Prop :=
  r = .died ∨ ∃ p' m' lost', r = .ok (p', m') ∧ Keeps sure m0 self p' m' lost'
    ∧ ((∀ σ, Spec.sets u = some σ → p.of σ = none) → (Spec.clearsFilter u → p.prog = none) → lost' = lost)
    ∧ (∀ σ, p'.of σ ≠ none → p.of σ ≠ none ∨ Spec.sets u = some σ) ∧ (p'.prog ≠ none → p.prog ≠ none ∨ Spec.setsFilter u)

theorem Fine.steps {u : Use} {p : Members} {lost : Owned} {r : Ends State} (h : Fine sure m0 self p lost r) : Steps sure m0 self u p lost r := by
  obtain ⟨p', m', e, hk, hn⟩ := h
  exact .inr ⟨p', m', lost, e, hk, fun _ _ => rfl, fun σ hσ => .inl (hn.1 σ hσ), fun hp => .inl (hn.2 hp)⟩

theorem steps_replace {u : Use} {p : Members} {m : Ram} {lost : Owned} (short : Nat → Bool) (f : Text) (σ : Spec.Setting) (hu : Spec.sets u = some σ)
    (hf : p.of σ = p.text f) (ho : ∀ v τ, τ ≠ σ → (p.set f v).of τ = p.of τ) (h : Keeps sure m0 self p m lost) :
    Steps sure m0 self u p lost (.ok (replaceText short f (p, m))) := by
  refine .inr ⟨_, _, _, rfl, h.alloc_text short f, ?_, ?_, ?_⟩
  · intro h1 _
    have := h1 σ hu
    rw [hf] at this
    rw [this]
    simp [own]
  · intro τ hτ
    by_cases e : τ = σ
    · right; rw [e]; exact hu
    · left; rw [ho _ τ e] at hτ; exact hτ
  · intro hp; exact .inl hp

theorem fine_setTextOnce {p : Members} {m : Ram} {lost : Owned} (short : Nat → Bool) (f : Text) (hf : ∀ v σ, (p.set f v).of σ = p.of σ)
    (h : Keeps sure m0 self p m lost) : Fine sure m0 self p lost (.ok (setTextOnce short f (p, m))) := by
  unfold setTextOnce
  by_cases e : p.text f = none
  · rw [if_neg (by simp [e])]
    refine ⟨_, _, rfl, (h.alloc_text short f).of_eq (by rw [e]; simp [own]), ?_, fun h => h⟩
    intro σ hσ
    rw [hf] at hσ
    exact hσ
  · rw [if_pos (by simpa using e)]
    exact h.fine

theorem steps_gids {p : Members} {m : Ram} {lost : Owned} (short : Nat → Bool) (empty : Bool) (h : Keeps sure m0 self p m lost) :
    Steps sure m0 self (.setSupplementaryGids empty) p lost (setSupplementaryGids short empty (p, m)) := by
  obtain ⟨ns, fl, h1, h2, h3, h4⟩ := h.has
  have hof : ∀ v τ, τ ≠ Spec.Setting.groups → ({ p with gids := v } : Members).of τ = p.of τ := by
    intro v τ hτ; cases τ <;> first | rfl | exact absurd rfl hτ
  unfold setSupplementaryGids
  by_cases he : empty = true
  · rw [if_pos he]
    refine .inr ⟨_, _, own p.gids .array + lost, rfl, ⟨ns, fl, h1, h2, h3, h4.of_eq ?_⟩, ?_, ?_, fun hp => .inl hp⟩
    · simp only [whole]; rw [show own none Block.array = 0 from rfl]; abel
    · intro hs _
      have := hs .groups rfl
      change p.gids = none at this
      rw [this]; simp [own]
    · intro τ hτ
      by_cases e : τ = .groups
      · right; rw [e]; rfl
      · left; rw [hof _ τ e] at hτ; exact hτ
  · rw [if_neg he]
    by_cases hn : (alloc short .array m).1 = none
    · simp only [hn, if_pos]; exact .inl rfl
    · simp only [hn, if_false]
      refine .inr ⟨_, _, own p.gids .array + lost, rfl, ⟨ns, fl, h1, h2, h3, (h4.alloc short .array).of_eq ?_⟩, ?_, ?_, fun hp => .inl hp⟩
      · simp only [whole]; abel
      · intro hs _
        have := hs .groups rfl
        change p.gids = none at this
        rw [this]; simp [own]
      · intro τ hτ
        by_cases e : τ = .groups
        · right; rw [e]; rfl
        · left; rw [hof _ τ e] at hτ; exact hτ

theorem fine_addToCgroup {p : Members} {m : Ram} {lost : Owned} (short : Nat → Bool) (h : Keeps sure m0 self p m lost) :
    Fine sure m0 self p lost (.ok (addToCgroup short (p, m))) := by
  unfold addToCgroup
  by_cases hl : p.cgroups.length ≥ 10
  · rw [if_pos hl]; exact h.fine
  · rw [if_neg hl]
    obtain ⟨ns, fl, h1, h2, h3, h4⟩ := h.has
    have ha := h4.alloc short .text
    cases hr : (alloc short .text m).1 with
    | none =>
      simp only [hr]
      rw [hr] at ha
      exact ⟨_, _, rfl, ⟨ns, fl, h1, h2, h3, ha.of_eq (by simp [own])⟩, NoNew.refl p⟩
    | some a =>
      simp only [hr]
      rw [hr] at ha
      refine ⟨_, _, rfl, ⟨ns, fl, h1, h2, h3, ha.of_eq ?_⟩, ⟨fun σ hσ => by cases σ <;> exact hσ, fun h => h⟩⟩
      simp only [whole, List.map_append, List.map_cons, List.map_nil, strings_append, strings, add_zero]
      abel

theorem fine_back {p : Members} {m : Ram} {lost : Owned} (hs : Spec.Sane m0) (src dest type : Option Nat) (a : Nat) (b : Block)
    (h : Keeps sure m0 self p m (own type .text + (own src .text + (own dest .text + (own (some a) b + lost))))) :
    Fine sure m0 self p lost ((freeAll [type, src, dest, some a] m).bind fun ram => .ok (p, ram)) := by
  obtain ⟨m1, e1, h1⟩ := h.free_lost hs
  obtain ⟨m2, e2, h2⟩ := h1.free_lost hs
  obtain ⟨m3, e3, h3⟩ := h2.free_lost hs
  obtain ⟨m4, e4, h4⟩ := h3.free_lost hs
  refine ⟨p, m4, ?_, h4, NoNew.refl p⟩
  simp only [freeAll, e1, e2, e3, e4, Ends.bind]

theorem fine_mount {p : Members} {m : Ram} {lost : Owned} (hs : Spec.Sane m0) (short : Nat → Bool) (data : Bool) (h : Keeps sure m0 self p m lost) :
    Fine sure m0 self p lost (mountWithData short data (p, m)) := by
  have k1 := h.alloc_lost short (.node .mount [none, none, none, none] none)
  unfold mountWithData
  generalize alloc short (.node .mount [none, none, none, none] none) m = r1 at k1
  obtain ⟨a1, m1⟩ := r1
  cases a1 with
  | none => exact (k1.of_eq (by simp [own])).fine
  | some a =>
    simp only [] at k1 ⊢
    have k2 := k1.alloc_lost short .text
    generalize alloc short .text m1 = r2 at k2
    obtain ⟨a2, m2⟩ := r2
    cases a2 with
    | none =>
      simp only [if_pos] at k2 ⊢
      exact fine_back hs none none none a (.node .mount [none, none, none, none] none) (k2.of_eq (by simp [own]))
    | some d =>
      simp only [reduceCtorEq, if_false] at k2 ⊢
      have k3 := k2.alloc_lost short .text
      generalize alloc short .text m2 = r3 at k3
      obtain ⟨a3, m3⟩ := r3
      cases a3 with
      | none =>
        simp only [if_pos] at k3 ⊢
        exact fine_back hs none (some d) none a (.node .mount [none, none, none, none] none) (k3.of_eq (by simp [own]))
      | some sr =>
        simp only [reduceCtorEq, if_false] at k3 ⊢
        have k4 := k3.alloc_lost short .text
        generalize alloc short .text m3 = r4 at k4
        obtain ⟨a4, m4⟩ := r4
        cases a4 with
        | none =>
          simp only [if_pos] at k4 ⊢
          exact fine_back hs (some sr) (some d) none a (.node .mount [none, none, none, none] none) (k4.of_eq (by simp [own]))
        | some t =>
          simp only [reduceCtorEq, if_false] at k4 ⊢
          cases data with
          | false =>
            simp only [Bool.false_eq_true, if_false]
            have k5 := (k4.of_eq (lost' := {(a, .node .mount [none, none, none, none] none)}
              + (strings [some sr, some d, some t, none] + lost)) (by simp only [own, strings]; abel)).put_lost (.node .mount [some sr, some d, some t, none] none)
            exact fine_link .mount a _ ⟨sr, d, t, none, rfl⟩ k5
          | true =>
            simp only [if_pos]
            have k5 := k4.alloc_lost short .text
            generalize alloc short .text m4 = r5 at k5
            obtain ⟨a5, m5⟩ := r5
            cases a5 with
            | none =>
              simp only [if_pos] at k5 ⊢
              exact fine_back hs (some sr) (some d) (some t) a (.node .mount [none, none, none, none] none) (k5.of_eq (by simp only [own]; abel))
            | some x =>
              simp only [reduceCtorEq, if_false] at k5 ⊢
              have k6 := (k5.of_eq (lost' := {(a, .node .mount [none, none, none, none] none)}
                + (strings [some sr, some d, some t, some x] + lost)) (by simp only [own, strings]; abel)).put_lost (.node .mount [some sr, some d, some t, some x] none)
              exact fine_link .mount a _ ⟨sr, d, t, some x, rfl⟩ k6

theorem fine_addRemount {p : Members} {m : Ram} {lost : Owned} (hs : Spec.Sane m0) (short : Nat → Bool) (h : Keeps sure m0 self p m lost) :
    Fine sure m0 self p lost (addRemount short (p, m)) := by
  have k1 := h.alloc_lost short (.node .remount [none] none)
  unfold addRemount
  generalize alloc short (.node .remount [none] none) m = r1 at k1
  obtain ⟨a1, m1⟩ := r1
  cases a1 with
  | none => exact (k1.of_eq (by simp [own])).fine
  | some a =>
    simp only [] at k1 ⊢
    have k2 := k1.alloc_lost short .text
    generalize alloc short .text m1 = r2 at k2
    obtain ⟨a2, m2⟩ := r2
    cases a2 with
    | none =>
      simp only [if_pos] at k2 ⊢
      obtain ⟨m', e, h'⟩ := (k2.of_eq (lost' := own (some a) (.node .remount [none] none) + lost) (by simp [own])).free_lost hs
      simp only [e, Ends.bind]
      exact h'.fine
    | some d =>
      simp only [reduceCtorEq, if_false] at k2 ⊢
      have k5 := (k2.of_eq (lost' := {(a, .node .remount [none] none)} + (strings [some d] + lost)) (by simp only [own, strings]; abel)).put_lost
        (.node .remount [some d] none)
      exact fine_link .remount a _ ⟨d, rfl⟩ k5

theorem fine_addHook {p : Members} {m : Ram} {lost : Owned} (short : Nat → Bool) (h : Keeps sure m0 self p m lost) :
    Fine sure m0 self p lost (addHook short (p, m)) := by
  have k1 := h.alloc_lost short (.node .hook [] none)
  unfold addHook
  generalize alloc short (.node .hook [] none) m = r1 at k1
  obtain ⟨a1, m1⟩ := r1
  cases a1 with
  | none => exact (k1.of_eq (by simp [own])).fine
  | some a => exact fine_link .hook a [] rfl (k1.of_eq (by simp [own, strings]))

theorem alloc_sure {short : Nat → Bool} (hs : ∀ n, short n = false) (b : Block) (m : Ram) : (alloc short b m).1 ≠ none := by
  unfold alloc
  rw [hs]
  simp

theorem fine_addRule {p : Members} {m : Ram} {lost : Owned} (short : Nat → Bool) (hsure : sure → ∀ n, short n = false) (h : Keeps sure m0 self p m lost) :
    Fine sure m0 self p lost (addFsRestrictionPath short (p, m)) := by
  have k1 := h.alloc_lost short (.node .rule [none] none)
  unfold addFsRestrictionPath
  generalize alloc short (.node .rule [none] none) m = r1 at k1
  obtain ⟨a1, m1⟩ := r1
  cases a1 with
  | none => exact (k1.of_eq (by simp [own])).fine
  | some a =>
    simp only [] at k1 ⊢
    have k2 := k1.alloc_lost short .text
    have hn : sure → (alloc short .text m1).1 ≠ none := fun hq => alloc_sure (hsure hq) _ _
    generalize alloc short .text m1 = r2 at k2 hn
    obtain ⟨a2, m2⟩ := r2
    have k5 := (k2.of_eq (lost' := {(a, .node .rule [none] none)} + (strings [a2] + lost)) (by simp only [own, strings]; abel)).put_lost (.node .rule [a2] none)
    exact fine_link .rule a _ ⟨a2, rfl, hn⟩ k5

theorem steps_clear {u : Use} {p : Members} {m : Ram} {lost : Owned} (hs : Spec.Sane m0) (hu : Spec.clearsFilter u) (h : Keeps sure m0 self p m lost) :
    Steps sure m0 self u p lost (clearSeccompOptions (p, m)) := by
  obtain ⟨m', e, h', _⟩ := h.drop_text hs .policy
  obtain ⟨fl, h2⟩ := h'.lose_prog
  refine .inr ⟨_, m', _, by simp only [clearSeccompOptions, e, Ends.bind], h2, ?_, ?_, ?_⟩
  · intro _ hc
    have : (p.set .policy none).prog = none := hc hu
    rw [this]; simp [filterOf]
  · intro σ hσ
    left
    cases σ <;> exact hσ
  · intro hp; exact absurd rfl hp

/-- A filter is set, and nothing else changes. -/
def Filtered (sure : Prop) (m0 : Ram) (self : Nat) (p : Members) (lost : Owned) (r : Ends State) : Prop :=
  r = .died ∨ ∃ p' m', r = .ok (p', m') ∧ Keeps sure m0 self p' m' lost ∧ (∀ σ, p'.of σ = p.of σ)

theorem Filtered.steps {u : Use} {p : Members} {lost : Owned} {r : Ends State} (hu : Spec.setsFilter u) (h : Filtered sure m0 self p lost r) :
    Steps sure m0 self u p lost r := by
  rcases h with h | ⟨p', m', e, hk, hn⟩
  · exact .inl h
  · exact .inr ⟨p', m', lost, e, hk, fun _ _ => rfl, fun σ hσ => .inl (by rw [← hn σ]; exact hσ), fun _ => .inr hu⟩

theorem filtered_parse {p : Members} {m : Ram} {lost : Owned} (hs : Spec.Sane m0) (short : Nat → Bool) (compiles : Bool) (h : Keeps sure m0 self p m lost) :
    Filtered sure m0 self p lost (parseSeccompFilters short compiles (p, m)) := by
  have k1 := h.alloc_lost short (.prog none)
  unfold parseSeccompFilters
  generalize alloc short (.prog none) m = r1 at k1
  obtain ⟨a1, m1⟩ := r1
  cases a1 with
  | none => exact .inl rfl
  | some a =>
    simp only [] at k1 ⊢
    cases compiles with
    | false => exact .inl rfl
    | true =>
      simp only [if_pos]
      have k2 := k1.alloc_lost short .array
      generalize alloc short .array m1 = r2 at k2
      obtain ⟨a2, m2⟩ := r2
      cases a2 with
      | none => exact .inl rfl
      | some f =>
        simp only [reduceCtorEq, if_false] at k2 ⊢
        have k3 := (k2.of_eq (lost' := {(a, .prog none)} + ({(f, .array)} + lost)) (by simp only [own]; abel)).put_lost (.prog (some f))
        obtain ⟨m', e, hk⟩ := inv_setFilterOwned hs (k3.of_eq (lost' := {(a, .prog (some f))} + {(f, .array)} + lost) (by abel))
        exact .inr ⟨_, m', e, hk, fun σ => by cases σ <;> rfl⟩

theorem filtered_set {p : Members} {m : Ram} {lost : Owned} (hs : Spec.Sane m0) (short : Nat → Bool) (h : Keeps sure m0 self p m lost) :
    Filtered sure m0 self p lost (setFilters short false false (p, m)) := by
  have := filtered_parse hs short true h
  unfold parseSeccompFilters at this
  unfold setFilters
  simpa using this

theorem Filtered.bind {p : Members} {lost lost' : Owned} {r : Ends State} {g : State → Ends State} (h : Filtered sure m0 self p lost r)
    (hg : ∀ p' m', Keeps sure m0 self p' m' lost → Filtered sure m0 self p' lost' (g (p', m'))) : Filtered sure m0 self p lost' (r.bind g) := by
  rcases h with rfl | ⟨p', m', e, hk, hn⟩
  · exact .inl rfl
  · rw [e]
    rcases hg p' m' hk with h | ⟨p2, m2, e2, hk2, hn2⟩
    · exact .inl h
    · exact .inr ⟨p2, m2, e2, hk2, fun σ => (hn2 σ).trans (hn σ)⟩

theorem of_set_policy (p : Members) (v : Option Nat) (σ : Spec.Setting) : (p.set .policy v).of σ = p.of σ := by cases σ <;> rfl

theorem steps_parseFilters {p : Members} {m : Ram} {lost : Owned} (hs : Spec.Sane m0) (short : Nat → Bool) (soft opens compiles : Bool)
    (h : Keeps sure m0 self p m lost) : Steps sure m0 self (.parseFilters soft opens compiles) p lost (parseFilters short soft opens compiles (p, m)) := by
  unfold parseFilters
  cases soft with
  | true => exact steps_clear hs trivial h
  | false =>
    cases opens with
    | false => exact .inl rfl
    | true =>
      refine Filtered.steps (u := .parseFilters false true compiles) trivial ?_
      refine (filtered_parse hs short compiles h).bind fun p m h => ?_
      obtain ⟨m', e, h', _⟩ := h.drop_text hs .policy
      have k := h'.alloc_text short .policy
      simp only [e, Ends.bind]
      refine .inr ⟨_, _, rfl, ?_, of_set_policy p _⟩
      have hset : (p.set .policy none).set .policy (alloc short .text m').1 = p.set .policy (alloc short .text m').1 := by
        simp only [Members.set, Members.mk.injEq, and_true]
        funext x
        by_cases hx : x = .policy
        · rw [if_pos hx, if_pos hx]
        · rw [if_neg hx, if_neg hx, if_neg hx]
      rw [hset] at k
      exact k.of_eq (by simp [Members.set, own])

theorem steps_parseFd {p : Members} {m : Ram} {lost : Owned} (hs : Spec.Sane m0) (short : Nat → Bool) (soft opens compiles : Bool)
    (h : Keeps sure m0 self p m lost) : Steps sure m0 self (.parseFiltersFromFd soft opens compiles) p lost (parseFiltersFromFd short soft opens compiles (p, m)) := by
  unfold parseFiltersFromFd
  cases soft with
  | true => exact steps_clear hs trivial h
  | false =>
    cases opens with
    | false => exact .inl rfl
    | true =>
      refine Filtered.steps (u := .parseFiltersFromFd false true compiles) trivial ?_
      simp only [Bool.false_eq_true, if_false, Bool.not_true]
      have k1 := h.alloc_lost short .text
      generalize alloc short .text m = r1 at k1
      obtain ⟨a1, m1⟩ := r1
      cases a1 with
      | none => exact .inl rfl
      | some d =>
        simp only [reduceCtorEq, if_false] at k1 ⊢
        have k2 := k1.alloc_lost short .text
        generalize alloc short .text m1 = r2 at k2
        obtain ⟨path, m2⟩ := r2
        simp only [] at k2 ⊢
        obtain ⟨m3, e3, k3⟩ := (k2.of_eq (lost' := own (some d) .text + (own path .text + lost)) (by abel)).free_lost hs
        rw [e3]
        refine (filtered_parse hs short compiles k3).bind fun p m h => ?_
        obtain ⟨m', e, h', _⟩ := h.drop_text hs .policy
        simp only [replacePolicyPath, e, Ends.bind]
        refine .inr ⟨_, _, rfl, ?_, of_set_policy p _⟩
        obtain ⟨ns, fl, h1, h2, h3, h4⟩ := h'.has
        refine ⟨ns, fl, h1, h2, h3, h4.of_eq ?_⟩
        simp only [whole, Members.set, texts]
        simp [own]
        abel

theorem look_ok {m : Ram} {L : Owned} {a : Nat} {b : Block} (h : Holds m0 m ({(a, b)} + L)) : look (some a) m = .ok () := by
  simp only [look]
  rw [if_neg (by rw [h.read]; simp)]

theorem lookIf_ok {m : Ram} {L : Owned} {q : Option Nat} {b : Block} (h : Holds m0 m (own q b + L)) : lookIf q m = .ok () := by
  cases q with
  | none => rfl
  | some a => exact look_ok h

theorem lookNode_ok {m : Ram} {L : Owned} {k : Kind} (hsure : sure) (ts : List (Option Nat)) (hf : Full sure k ts) (h : Holds m0 m (strings ts + L)) :
    lookNode k ts m = .ok () := by
  cases k with
  | mount =>
    obtain ⟨a, b, c, d, rfl⟩ := hf
    have ha := look_ok (h.of_eq (L' := {(a, .text)} + (own (some b) .text + own (some c) .text + own d .text + L)) (by simp only [strings, own]; abel))
    have hb := look_ok (h.of_eq (L' := {(b, .text)} + (own (some a) .text + own (some c) .text + own d .text + L)) (by simp only [strings, own]; abel))
    have hc := look_ok (h.of_eq (L' := {(c, .text)} + (own (some a) .text + own (some b) .text + own d .text + L)) (by simp only [strings, own]; abel))
    have hd := lookIf_ok (h.of_eq (L' := own d .text + (own (some a) .text + own (some b) .text + own (some c) .text + L)) (by simp only [strings]; abel))
    simp only [lookNode, List.take, List.drop, lookAll, ha, hb, hc, hd, Ends.bind]
  | remount =>
    obtain ⟨a, rfl⟩ := hf
    have ha := look_ok (h.of_eq (L' := {(a, .text)} + L) (by simp only [strings, own]; abel))
    simp only [lookNode, lookAll, ha, Ends.bind]
  | hook => cases hf; rfl
  | rule =>
    obtain ⟨q, rfl, hq⟩ := hf
    cases q with
    | none => exact absurd rfl (hq hsure)
    | some a =>
      have ha := look_ok (h.of_eq (L' := {(a, .text)} + L) (by simp only [strings, own]; abel))
      simp only [lookNode, lookAll, ha, Ends.bind]

theorem lookNodes_ok {m : Ram} (hsure : sure) (k : Kind) : ∀ (ns : Elems) (fuel : Nat) {L : Owned}, ns.length ≤ fuel → (∀ n ∈ ns, Full sure k n.2) →
    Holds m0 m (cells k ns + L) → lookNodes k m fuel (headOf ns) = .ok () := by
  intro ns
  induction ns with
  | nil => intro fuel L _ _ _; cases fuel <;> rfl
  | cons x ns ih =>
    intro fuel L hf hfull h
    obtain ⟨a, ts⟩ := x
    cases fuel with
    | zero => simp at hf
    | succ fuel =>
      have hk := h.of_eq (L' := {(a, .node k ts (headOf ns))} + (strings ts + cells k ns + L)) (by simp only [cells]; abel)
      have h1 := lookNode_ok hsure ts (hfull _ (List.mem_cons_self ..)) (hk.of_eq (L' := strings ts + ({(a, .node k ts (headOf ns))} + cells k ns + L)) (by abel))
      have h2 := ih fuel (by simpa using hf) (fun n hn => hfull n (List.mem_cons_of_mem _ hn))
        (hk.of_eq (L' := cells k ns + ({(a, .node k ts (headOf ns))} + strings ts + L)) (by abel))
      show lookNodes k m (fuel + 1) (some a) = _
      simp only [lookNodes, hk.read, if_pos, h1, Ends.bind, h2]

theorem lookStrings_ok {m : Ram} : ∀ (as : List Nat) {L : Owned}, Holds m0 m (strings (as.map some) + L) → lookAll look (as.map some) m = .ok () := by
  intro as
  induction as with
  | nil => intro L _; rfl
  | cons a as ih =>
    intro L h
    have h1 := look_ok (h.of_eq (L' := {(a, .text)} + (strings (as.map some) + L)) (by simp only [List.map_cons, strings, own]; abel))
    have h2 := ih (h.of_eq (L' := strings (as.map some) + ({(a, .text)} + L)) (by simp only [List.map_cons, strings, own]; abel))
    simp only [List.map_cons, lookAll, h1, Ends.bind, h2]

theorem marshal_ok {p : Members} {m : Ram} {lost : Owned} (hsure : sure) (filter : Bool) (h : Keeps sure m0 self p m lost) :
    marshalReads filter (p, m) = .ok () := by
  obtain ⟨ns, fl, h1, h2, h3, h4⟩ := h.has
  have ht : ∀ f, lookIf (p.text f) m = .ok () := by
    intro f
    have e := texts_set p.text f none
    rw [show own none Block.text = 0 from rfl, add_zero] at e
    refine lookIf_ok (b := .text) (h4.of_eq (L' := own (p.text f) .text + ({(self, .jail)} + texts (fun x => if x = f then none else p.text x) + own p.gids .array
      + filterOf p.prog fl + lists ns + strings (p.cgroups.map some) + lost)) ?_)
    simp only [whole]
    rw [← e]
    abel
  have hg : lookIf p.gids m = .ok () := lookIf_ok (b := .array) (h4.of_eq (L' := own p.gids .array + ({(self, .jail)} + texts p.text
      + filterOf p.prog fl + lists ns + strings (p.cgroups.map some) + lost)) (by simp only [whole]; abel))
  have hc : lookAll look (p.cgroups.map some) m = .ok () := lookStrings_ok p.cgroups (h4.of_eq (L' := strings (p.cgroups.map some) + ({(self, .jail)} + texts p.text
      + own p.gids .array + filterOf p.prog fl + lists ns + lost)) (by simp only [whole]; abel))
  have hp : lookProg p.prog m = .ok () := by
    cases hpp : p.prog with
    | none => rfl
    | some a =>
      have h5 := h4.of_eq (L' := {(a, .prog (some fl))} + ({(fl, .array)} + ({(self, .jail)} + texts p.text + own p.gids .array + lists ns + strings (p.cgroups.map some) + lost))) (by
        simp only [whole, hpp, filterOf]; abel)
      have h6 := look_ok (h5.of_eq (L' := {(fl, .array)} + ({(a, .prog (some fl))} + ({(self, .jail)} + texts p.text + own p.gids .array + lists ns + strings (p.cgroups.map some) + lost))) (by abel))
      simp only [lookProg, h5.read, h6]
  have hk : ∀ k, lookNodes k m m.asked (p.head k) = .ok () := by
    intro k
    have hl := lists_set ns k []
    simp only [cells, add_zero] at hl
    have h5 := h4.of_eq (L' := cells k (ns k) + ({(self, .jail)} + texts p.text + own p.gids .array + filterOf p.prog fl
        + lists (fun x => if x = k then [] else ns x) + strings (p.cgroups.map some) + lost)) (by
      simp only [whole]
      rw [← hl]
      abel)
    have hlen : (ns k).length ≤ m.asked := by
      have := h5.card_le
      rw [Multiset.card_add] at this
      have := length_le_card k (ns k)
      omega
    rw [h1 k]
    exact lookNodes_ok hsure k (ns k) m.asked hlen (h3 k) h5
  have hpf : (if filter = true then lookProg p.prog m else .ok ()) = .ok () := by
    cases filter
    · rfl
    · exact hp
  simp only [marshalReads, lookAll, ht, hg, hc, hpf, hk, Ends.bind]

/-- Every use. -/
theorem steps_use {p : Members} {m : Ram} {lost : Owned} (hs : Spec.Sane m0) (short : Nat → Bool) (hsure : sure → ∀ n, short n = false) (u : Use)
    (hsend : (∃ f, u = .send f) → sure) (h : Keeps sure m0 self p m lost) : Steps sure m0 self u p lost (use short u (p, m)) := by
  cases u with
  | changeUser found =>
    cases found with
    | false => exact h.fine.steps
    | true => exact steps_replace short .user .user rfl rfl (fun v τ hτ => by cases τ <;> first | rfl | exact absurd rfl hτ) h
  | setSupplementaryGids empty => exact steps_gids short empty h
  | setHostname => exact (fine_setTextOnce short .hostname (fun v σ => by cases σ <;> rfl) h).steps
  | uidmap => exact steps_replace short .uidmap .uidmap rfl rfl (fun v τ hτ => by cases τ <;> first | rfl | exact absurd rfl hτ) h
  | gidmap => exact steps_replace short .gidmap .gidmap rfl rfl (fun v τ hτ => by cases τ <;> first | rfl | exact absurd rfl hτ) h
  | enterChroot => exact (fine_setTextOnce short .chrootdir (fun v σ => by cases σ <;> rfl) h).steps
  | enterPivotRoot => exact (fine_setTextOnce short .chrootdir (fun v σ => by cases σ <;> rfl) h).steps
  | writePidFile => exact steps_replace short .pidFile .pidFile rfl rfl (fun v τ hτ => by cases τ <;> first | rfl | exact absurd rfl hτ) h
  | addToCgroup => exact (fine_addToCgroup short h).steps
  | addFsRestriction => exact (fine_addRule short hsure h).steps
  | mount valid data =>
    cases valid with
    | false => exact h.fine.steps
    | true => exact (fine_mount hs short data h).steps
  | addRemount valid =>
    cases valid with
    | false => exact h.fine.steps
    | true => exact (fine_addRemount hs short h).steps
  | addHook valid =>
    cases valid with
    | false => exact h.fine.steps
    | true => exact (fine_addHook short h).steps
  | setPreloadPath => exact (fine_setTextOnce short .preload (fun v σ => by cases σ <;> rfl) h).steps
  | parseFilters soft opens compiles => exact steps_parseFilters hs short soft opens compiles h
  | parseFiltersFromFd soft opens compiles => exact steps_parseFd hs short soft opens compiles h
  | setFilters soft logging =>
    cases soft with
    | true => exact steps_clear hs trivial h
    | false =>
      cases logging with
      | true => exact .inl rfl
      | false => exact (filtered_set hs short h).steps trivial
  | useAltSyscall => exact steps_replace short .altTable .altSyscall rfl rfl (fun v τ hτ => by cases τ <;> first | rfl | exact absurd rfl hτ) h
  | run filename =>
    cases filename with
    | false => exact h.fine.steps
    | true => exact steps_replace short .filename .program rfl rfl (fun v τ hτ => by cases τ <;> first | rfl | exact absurd rfl hτ) h
  | preenter => exact (fine_freeList hs .remount h).1.steps
  | preexec => exact (fine_preexec hs h).steps
  | send filter =>
    have := marshal_ok (hsend ⟨filter, rfl⟩) filter h
    simp only [use, this, Ends.bind]
    exact h.fine.steps

/-- Any sequence of uses. -/
theorem uses_keep (hs : Spec.Sane m0) (short : Nat → Bool) (hsure : sure → ∀ n, short n = false) : ∀ (us done : List Use) (p : Members) (m : Ram) (lost : Owned),
    (∀ f, Use.send f ∈ us → sure) → Keeps sure m0 self p m lost →
    (∀ σ, p.of σ ≠ none → ∃ d ∈ done, Spec.sets d = some σ) → (p.prog ≠ none → ∃ d ∈ done, Spec.setsFilter d) →
    uses short us (p, m) = .died ∨ ∃ p' m' lost', uses short us (p, m) = .ok (p', m') ∧ Keeps sure m0 self p' m' lost'
      ∧ (Spec.NothingDropped us → (∀ d ∈ done, ∀ u ∈ us, ¬ Spec.Drops d u) → lost' = lost) := by
  intro us
  induction us with
  | nil => intro done p m lost _ h _ _; exact .inr ⟨p, m, lost, rfl, h, fun _ _ => rfl⟩
  | cons u us ih =>
    intro done p m lost hsend h hset hfil
    have hu := steps_use hs short hsure u (fun ⟨f, e⟩ => hsend f (e ▸ List.mem_cons_self ..)) h
    rcases hu with hu | ⟨p', m', lost', e, hk, hl, hσ, hp⟩
    · left; simp only [uses, hu, Ends.bind]
    · simp only [uses, e, Ends.bind]
      have hset' : ∀ σ, p'.of σ ≠ none → ∃ d ∈ u :: done, Spec.sets d = some σ := by
        intro σ hn
        rcases hσ σ hn with hn | hn
        · obtain ⟨d, hd, hd'⟩ := hset σ hn
          exact ⟨d, List.mem_cons_of_mem _ hd, hd'⟩
        · exact ⟨u, List.mem_cons_self .., hn⟩
      have hfil' : p'.prog ≠ none → ∃ d ∈ u :: done, Spec.setsFilter d := by
        intro hn
        rcases hp hn with hn | hn
        · obtain ⟨d, hd, hd'⟩ := hfil hn
          exact ⟨d, List.mem_cons_of_mem _ hd, hd'⟩
        · exact ⟨u, List.mem_cons_self .., hn⟩
      rcases ih (u :: done) p' m' lost' (fun f hf => hsend f (List.mem_cons_of_mem _ hf)) hk hset' hfil' with hd | ⟨p2, m2, lost2, e2, hk2, hl2⟩
      · exact .inl hd
      · refine .inr ⟨p2, m2, lost2, e2, hk2, fun hnd hdone => ?_⟩
        have hnd' := List.pairwise_cons.1 hnd
        rw [hl2 hnd'.2 (fun d hd v hv => by
          rcases List.mem_cons.1 hd with rfl | hd
          · exact hnd'.1 v hv
          · exact hdone d hd v (List.mem_cons_of_mem _ hv))]
        refine hl (fun σ hs' => ?_) (fun hc => ?_)
        · by_contra hn
          obtain ⟨d, hd, hd'⟩ := hset σ hn
          exact hdone d hd u (List.mem_cons_self ..) (.inl ⟨by rw [hd']; simp, by rw [hd', hs']⟩)
        · by_contra hn
          obtain ⟨d, hd, hd'⟩ := hfil hn
          exact hdone d hd u (List.mem_cons_self ..) (.inr ⟨hd', hc⟩)

/-- Blocks. -/
def blocks : List (Option Nat × Block) → Owned
  | [] => 0
  | q :: qs => own q.1 q.2 + blocks qs

theorem Holds.freeBlocks (hs : Spec.Sane m0) : ∀ (qs : List (Option Nat × Block)) {m : Ram} {L : Owned}, Holds m0 m (blocks qs + L) →
    ∃ m', Ownership.freeAll (qs.map Prod.fst) m = .ok m' ∧ Holds m0 m' L := by
  intro qs
  induction qs with
  | nil => intro m L h; exact ⟨m, rfl, by simpa [blocks] using h⟩
  | cons q qs ih =>
    intro m L h
    obtain ⟨m1, e1, h1, _⟩ := Holds.free hs (h.of_eq (L' := own q.1 q.2 + (blocks qs + L)) (by simp only [blocks]; abel))
    obtain ⟨m2, e2, h2⟩ := ih h1
    refine ⟨m2, ?_, h2⟩
    simp only [List.map_cons, Ownership.freeAll, e1, Ends.bind, e2]

theorem blocks_append (a b : List (Option Nat × Block)) : blocks (a ++ b) = blocks a + blocks b := by
  induction a with
  | nil => simp [blocks]
  | cons x xs ih => simp only [List.cons_append, blocks, ih]; abel

theorem blocks_strings (as : List Nat) : blocks (as.map fun a => (some a, Block.text)) = strings (as.map some) := by
  induction as with
  | nil => rfl
  | cons a as ih => simp only [List.map_cons, blocks, strings, ih]

theorem headOf_none {ns : Elems} (h : headOf ns = none) : ns = [] := by
  cases ns with
  | nil => rfl
  | cons x xs => simp [headOf] at h

/-- The end. -/
theorem destroy_ok {p : Members} {m : Ram} {lost : Owned} (hs : Spec.Sane m0) (h : Keeps sure m0 self p m lost) :
    ∃ m', destroy self (p, m) = .ok m' ∧ Holds m0 m' lost := by
  obtain ⟨m1, e1, h1, _⟩ := h.free_prog hs
  obtain ⟨ns, fl, g1, g2, g3, g4⟩ := h1.has
  have hlen : ∀ k, (ns k).length ≤ m1.asked := by
    intro k
    have hl := lists_set ns k []
    simp only [cells, add_zero] at hl
    have h5 := g4.card_le
    simp only [whole] at h5
    rw [← hl] at h5
    simp only [Multiset.card_add] at h5
    have := length_le_card k (ns k)
    omega
  obtain ⟨m2, e2, k2, a2⟩ := Holds.freeNodes hs sure .mount (ns .mount) m1.asked (hlen _) (g3 _) (g4.of_eq (L' := cells .mount (ns .mount)
    + (cells .remount (ns .remount) + (cells .hook (ns .hook) + (cells .rule (ns .rule)
      + ({(self, .jail)} + texts p.text + own p.gids .array + strings (p.cgroups.map some) + lost))))) (by
    simp only [whole, filterOf, lists, add_zero]; abel))
  obtain ⟨m3, e3, k3, a3⟩ := Holds.freeNodes hs sure .remount (ns .remount) m2.asked (a2 ▸ hlen _) (g3 _) k2
  obtain ⟨m4, e4, k4, a4⟩ := Holds.freeNodes hs sure .hook (ns .hook) m3.asked (a3 ▸ a2 ▸ hlen _) (g3 _) k3
  obtain ⟨m5, e5, k5, a5⟩ := Holds.freeNodes hs sure .rule (ns .rule) m4.asked (a4 ▸ a3 ▸ a2 ▸ hlen _) (g3 _) k4
  have g5 := k5.of_eq (L' := blocks ([(p.text .user, .text), (p.gids, .array), (p.text .chrootdir, .text), (p.text .pidFile, .text), (p.text .uidmap, .text),
      (p.text .gidmap, .text), (p.text .hostname, .text), (p.text .preload, .text), (p.text .filename, .text), (p.text .altTable, .text)]
      ++ p.cgroups.map (fun a => (some a, Block.text)) ++ [(p.text .policy, .text), (some self, .jail)]) + lost) (by
    rw [blocks_append, blocks_append, blocks_strings]
    simp only [texts, blocks, add_zero]
    rw [show own (some self) Block.jail = {(self, Block.jail)} from rfl]
    abel)
  obtain ⟨m6, e6, g6⟩ := Holds.freeBlocks hs _ g5
  refine ⟨m6, ?_, g6⟩
  rw [← g1] at e2 e3 e4 e5
  simp only [List.map_append, List.map_cons, List.map_nil, List.map_map, Function.comp_def] at e6
  simp only [destroy, e1, Ends.bind, freeList, e2, e3, e4, e5, reduceCtorEq, if_false]
  exact e6

/-- From the beginning to the end. -/
theorem lifetime_ok (short : Nat → Bool) (us : List Use) (m : Ram) (hs : Spec.Sane m) (hsend : (∃ f, Use.send f ∈ us) → ∀ n, short n = false) :
    lifetime short us m = .died ∨ ∃ m' lost, lifetime short us m = .ok m' ∧ Holds m m' lost ∧ (Spec.NothingDropped us → lost = 0) := by
  have h0 : Holds m m 0 := ⟨by simp, by simp, by simp, by simp, fun _ _ => rfl, Nat.le_refl _⟩
  have h1 := h0.alloc short .jail
  unfold lifetime
  generalize alloc short .jail m = r at h1
  obtain ⟨q, m1⟩ := r
  cases q with
  | none => exact .inr ⟨m1, 0, rfl, by simpa [own] using h1, fun _ => rfl⟩
  | some self =>
    have hk : Keeps (∀ n, short n = false) m self {} m1 0 := ⟨fun _ => [], 0, fun _ => rfl, fun _ => rfl, by simp, h1.of_eq (by
      simp [whole, texts, own, filterOf, lists, cells, strings])⟩
    rcases uses_keep hs short (fun h => h) us [] {} m1 0 (fun f hf => hsend ⟨f, hf⟩) hk (fun σ hσ => absurd (by cases σ <;> rfl) hσ) (fun hp => absurd rfl hp)
      with hd | ⟨p', m', lost, e, hk', hl⟩
    · left; simp only [hd, Ends.bind]
    · obtain ⟨m'', e', hh⟩ := destroy_ok hs hk'
      refine .inr ⟨m'', lost, ?_, hh, fun hn => hl hn (by simp)⟩
      simp only [e, Ends.bind, e']

end Minijail.Ownership
