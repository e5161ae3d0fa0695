import Verif.Proof.Ownership
/-! Helper lemmas for C72: every use of a jail keeps its memory in order. -/
set_option autoImplicit false
set_option linter.unusedSimpArgs false
namespace Minijail.Ownership

variable {sure : Prop} {m0 : Ram} {self : Nat}

/-- Where a setting is kept. -/
def Members.of (p : Members) : Spec.Setting → Option Nat
  | .user => p.text .user
  | .groups => p.gids
  | .uidmap => p.text .uidmap
  | .gidmap => p.text .gidmap
  | .pidFile => p.text .pidFile
  | .altSyscall => p.text .altTable
  | .program => p.text .filename

/-- Nothing is set that was not set before. -/
def NoNew (p p' : Members) : Prop := (∀ σ, p'.of σ ≠ none → p.of σ ≠ none) ∧ (p'.prog ≠ none → p.prog ≠ none)

theorem NoNew.refl (p : Members) : NoNew p p := ⟨fun _ h => h, fun h => h⟩

theorem NoNew.trans {p q r : Members} (a : NoNew p q) (b : NoNew q r) : NoNew p r := ⟨fun σ h => a.1 σ (b.1 σ h), fun h => a.2 (b.2 h)⟩

/-- It works, nothing more is lost and nothing new is set. -/
def Fine (sure : Prop) (m0 : Ram) (self : Nat) (p : Members) (lost : Owned) (r : Ends State) : Prop :=
  ∃ p' m', r = .ok (p', m') ∧ Keeps sure m0 self p' m' lost ∧ NoNew p p'

theorem Keeps.alloc_text {p : Members} {m : Ram} {lost : Owned} (short : Nat → Bool) (f : Text) (h : Keeps sure m0 self p m lost) :
    Keeps sure m0 self (p.set f (alloc short .text m).1) (alloc short .text m).2 (own (p.text f) .text + lost) := by
  obtain ⟨ns, fl, h1, h2, h3, h4⟩ := h.has
  refine ⟨ns, fl, h1, h2, h3, ?_⟩
  have ha := h4.alloc short .text
  refine ha.of_eq ?_
  have e := texts_set p.text f (alloc short .text m).1
  simp only [whole, Members.set]
  calc _ = {(self, Block.jail)} + own p.gids .array + filterOf p.prog fl + lists ns + strings (p.cgroups.map some) + lost
        + (texts p.text + own (alloc short .text m).1 .text) := by abel
    _ = _ := by rw [← e]; abel

theorem Keeps.drop_text {p : Members} {m : Ram} {lost : Owned} (hs : Spec.Sane m0) (f : Text) (h : Keeps sure m0 self p m lost) :
    ∃ m', free (p.text f) m = .ok m' ∧ Keeps sure m0 self (p.set f none) m' lost ∧ m'.asked = m.asked := by
  obtain ⟨ns, fl, h1, h2, h3, h4⟩ := h.has
  have e := texts_set p.text f none
  obtain ⟨m', e1, h', a'⟩ := Holds.free hs (h4.of_eq (L' := own (p.text f) .text + (whole self (p.set f none) ns fl + lost)) (by
    rw [show own none Block.text = 0 from rfl, add_zero] at e
    simp only [whole, Members.set]
    rw [← e]
    abel))
  exact ⟨m', e1, ⟨ns, fl, h1, h2, h3, h'⟩, a'⟩

theorem noNew_set_none (p : Members) (f : Text) : NoNew p (p.set f none) := by
  refine ⟨fun σ => ?_, fun h => h⟩
  cases σ <;> cases f <;> simp [Members.of, Members.set]

theorem fine_dropText {p : Members} {m : Ram} {lost : Owned} (hs : Spec.Sane m0) (f : Text) (h : Keeps sure m0 self p m lost) :
    Fine sure m0 self p lost (dropText f (p, m)) := by
  obtain ⟨m', e, h', _⟩ := h.drop_text hs f
  refine ⟨p.set f none, m', ?_, h', noNew_set_none p f⟩
  simp only [dropText, e, Ends.bind]

theorem Keeps.lose_prog {p : Members} {m : Ram} {lost : Owned} (h : Keeps sure m0 self p m lost) :
    ∃ fl, Keeps sure m0 self { p with prog := none } m (filterOf p.prog fl + lost) := by
  obtain ⟨ns, fl, h1, h2, h3, h4⟩ := h.has
  refine ⟨fl, ns, fl, h1, h2, h3, h4.of_eq ?_⟩
  simp only [whole, filterOf, add_zero]
  abel

theorem Keeps.free_prog {p : Members} {m : Ram} {lost : Owned} (hs : Spec.Sane m0) (h : Keeps sure m0 self p m lost) :
    ∃ m', freeProg p.prog m = .ok m' ∧ Keeps sure m0 self { p with prog := none } m' lost ∧ m'.asked = m.asked := by
  obtain ⟨ns, fl, h1, h2, h3, h4⟩ := h.has
  cases hp : p.prog with
  | none =>
    refine ⟨m, rfl, ⟨ns, fl, h1, h2, h3, h4.of_eq ?_⟩, rfl⟩
    simp only [whole, hp]
  | some a =>
    have h5 := h4.of_eq (L' := {(a, .prog (some fl))} + (own (some fl) .array + (whole self { p with prog := none } ns fl + lost))) (by
      simp only [whole, hp, filterOf, own, add_zero]; abel)
    obtain ⟨m1, e1, g1, a1⟩ := Holds.free hs (h5.of_eq (L' := own (some fl) .array + (own (some a) (.prog (some fl)) + (whole self { p with prog := none } ns fl + lost))) (by
      simp only [own]; abel))
    obtain ⟨m2, e2, g2, a2⟩ := Holds.free hs g1
    refine ⟨m2, ?_, ⟨ns, fl, h1, h2, h3, g2⟩, a2.trans a1⟩
    simp only [freeProg, h5.read, e1, Ends.bind, e2]

/-- A new filter replaces the old one. -/
theorem inv_setFilterOwned {p : Members} {m : Ram} {lost : Owned} (hs : Spec.Sane m0) {a fl : Nat}
    (h : Keeps sure m0 self p m ({(a, .prog (some fl))} + {(fl, .array)} + lost)) :
    ∃ m', setFilterOwned a (p, m) = .ok ({ p with prog := some a }, m') ∧ Keeps sure m0 self { p with prog := some a } m' lost := by
  obtain ⟨m1, e1, h', _⟩ := h.free_prog hs
  obtain ⟨ns, fl', h1, h2, h3, h4⟩ := h'.has
  refine ⟨m1, ?_, ns, fl, h1, h2, h3, h4.of_eq ?_⟩
  · simp only [setFilterOwned, e1, Ends.bind]
  · simp only [whole, filterOf, add_zero]; abel

theorem Keeps.alloc_lost {p : Members} {m : Ram} {lost : Owned} (short : Nat → Bool) (b : Block) (h : Keeps sure m0 self p m lost) :
    Keeps sure m0 self p (alloc short b m).2 (own (alloc short b m).1 b + lost) := by
  obtain ⟨ns, fl, h1, h2, h3, h4⟩ := h.has
  exact ⟨ns, fl, h1, h2, h3, (h4.alloc short b).of_eq (by abel)⟩

theorem Keeps.free_lost {p : Members} {m : Ram} {lost : Owned} (hs : Spec.Sane m0) {q : Option Nat} {b : Block} (h : Keeps sure m0 self p m (own q b + lost)) :
    ∃ m', free q m = .ok m' ∧ Keeps sure m0 self p m' lost := by
  obtain ⟨ns, fl, h1, h2, h3, h4⟩ := h.has
  obtain ⟨m', e, h', _⟩ := Holds.free hs (h4.of_eq (L' := own q b + (whole self p ns fl + lost)) (by abel))
  exact ⟨m', e, ns, fl, h1, h2, h3, h'⟩

theorem Keeps.put_lost {p : Members} {m : Ram} {lost : Owned} {a : Nat} {b : Block} (b' : Block) (h : Keeps sure m0 self p m ({(a, b)} + lost)) :
    Keeps sure m0 self p (m.put a (some b')) ({(a, b')} + lost) := by
  obtain ⟨ns, fl, h1, h2, h3, h4⟩ := h.has
  have h5 := Holds.put b' (h4.of_eq (L' := {(a, b)} + (whole self p ns fl + lost)) (by abel))
  exact ⟨ns, fl, h1, h2, h3, h5.of_eq (by abel)⟩

theorem Keeps.of_eq {p : Members} {m : Ram} {lost lost' : Owned} (h : Keeps sure m0 self p m lost) (e : lost = lost') : Keeps sure m0 self p m lost' := e ▸ h

/-- An element that is complete is appended to its list. -/
theorem fine_link {p : Members} {m : Ram} {lost : Owned} (k : Kind) (a : Nat) (ts : List (Option Nat)) (hfull : Full sure k ts)
    (h : Keeps sure m0 self p m ({(a, .node k ts none)} + (strings ts + lost))) : Fine sure m0 self p lost (link k a (p, m)) := by
  obtain ⟨ns, fl, h1, h2, h3, h4⟩ := h.has
  have hfull' : ∀ k', ∀ n ∈ (if k' = k then ns k ++ [(a, ts)] else ns k'), Full sure k' n.2 := by
    intro k' n hn
    by_cases e : k' = k
    · rw [if_pos e] at hn
      rcases List.mem_append.1 hn with hn | hn
      · rw [e]; exact h3 k n hn
      · rw [List.mem_singleton.1 hn, e]; exact hfull
    · rw [if_neg e] at hn; exact h3 k' n hn
  have htail : ∀ k', (if k' = k then some a else p.tail k') = tailOf (if k' = k then ns k ++ [(a, ts)] else ns k') := by
    intro k'
    by_cases e : k' = k
    · rw [if_pos e, if_pos e]; simp [tailOf]
    · rw [if_neg e, if_neg e]; exact h2 k'
  have hlist := lists_set ns k (ns k ++ [(a, ts)])
  rcases List.eq_nil_or_concat (ns k) with hn | ⟨init, ⟨t, tt⟩, hn⟩
  · have ht : p.tail k = none := by rw [h2 k, hn]; rfl
    refine ⟨{ p with tail := fun x => if x = k then some a else p.tail x, head := fun x => if x = k then some a else p.head x }, m, ?_,
      ⟨fun x => if x = k then ns k ++ [(a, ts)] else ns x, fl, ?_, htail, hfull', h4.of_eq ?_⟩, ?_⟩
    · simp only [link, ht]
    · intro k'
      show (if k' = k then some a else p.head k') = headOf (if k' = k then ns k ++ [(a, ts)] else ns k')
      by_cases e : k' = k
      · rw [if_pos e, if_pos e, hn]; rfl
      · rw [if_neg e, if_neg e]; exact h1 k'
    · simp only [hn, cells, headOf, List.nil_append, List.head?_nil, Option.map_none, add_zero] at hlist
      simp only [whole, hn, List.nil_append]
      rw [hlist]
      abel
    · exact ⟨fun σ hσ => by cases σ <;> exact hσ, fun h => h⟩
  · rw [List.concat_eq_append] at hn
    have ht : p.tail k = some t := by rw [h2 k, hn]; simp [tailOf]
    obtain ⟨C, hC1, hC2⟩ := cells_snoc k t a tt ts init
    rw [hn, hC1, hC2] at hlist
    -- lists split off the last element of this list
    obtain ⟨R, hR1, hR2⟩ : ∃ R, lists ns = {(t, .node k tt none)} + R
        ∧ lists (fun x => if x = k then init ++ [(t, tt)] ++ [(a, ts)] else ns x) = {(t, .node k tt (some a))} + ({(a, .node k ts none)} + strings ts + R) := by
      have hin : cells k (ns k) ≤ lists ns := by
        cases k <;> simp only [lists]
        · exact Multiset.le_iff_exists_add.2 ⟨_, by rw [add_assoc, add_assoc]⟩
        · exact Multiset.le_iff_exists_add.2 ⟨cells .mount (ns .mount) + cells .hook (ns .hook) + cells .rule (ns .rule), by abel⟩
        · exact Multiset.le_iff_exists_add.2 ⟨cells .mount (ns .mount) + cells .remount (ns .remount) + cells .rule (ns .rule), by abel⟩
        · exact Multiset.le_iff_exists_add.2 ⟨cells .mount (ns .mount) + cells .remount (ns .remount) + cells .hook (ns .hook), by abel⟩
      obtain ⟨Q, hQ⟩ := Multiset.le_iff_exists_add.1 hin
      rw [hn, hC1] at hQ
      refine ⟨C + Q, by rw [hQ]; abel, ?_⟩
      rw [hQ] at hlist
      refine add_right_cancel (b := {(t, .node k tt none)} + C) (hlist.trans ?_)
      abel
    have h5 := h4.of_eq (L' := {(t, .node k tt none)} + ({(self, .jail)} + texts p.text + own p.gids .array + filterOf p.prog fl + R + strings (p.cgroups.map some)
      + ({(a, .node k ts none)} + (strings ts + lost)))) (by simp only [whole, hR1]; abel)
    refine ⟨{ p with tail := fun x => if x = k then some a else p.tail x }, m.put t (some (.node k tt (some a))), ?_, ⟨fun x => if x = k then ns k ++ [(a, ts)] else ns x, fl, ?_, htail, hfull', ?_⟩, ?_⟩
    · simp only [link, ht, h5.read, if_pos]
    · intro k'
      show p.head k' = headOf (if k' = k then ns k ++ [(a, ts)] else ns k')
      by_cases e : k' = k
      · rw [if_pos e, e, h1 k, hn]; cases init <;> simp [headOf]
      · rw [if_neg e]; exact h1 k'
    · refine (Holds.put (.node k tt (some a)) h5).of_eq ?_
      simp only [whole, hn]
      rw [hR2]
      abel
    · exact ⟨fun σ hσ => by cases σ <;> exact hσ, fun h => h⟩

theorem fine_freeList {p : Members} {m : Ram} {lost : Owned} (hs : Spec.Sane m0) (k : Kind) (h : Keeps sure m0 self p m lost) :
    Fine sure m0 self p lost (freeList k (p, m)) ∧ ∀ p' m', freeList k (p, m) = .ok (p', m') → (∀ f, p'.text f = p.text f) ∧ p'.gids = p.gids ∧ p'.prog = p.prog
      ∧ p'.cgroups = p.cgroups ∧ p'.head k = none ∧ (∀ k', p.head k' = none → p'.head k' = none) := by
  obtain ⟨ns, fl, h1, h2, h3, h4⟩ := h.has
  have hl := lists_set ns k []
  simp only [cells, add_zero] at hl
  have h5 := h4.of_eq (L' := cells k (ns k) + ({(self, .jail)} + texts p.text + own p.gids .array + filterOf p.prog fl
      + lists (fun x => if x = k then [] else ns x) + strings (p.cgroups.map some) + lost)) (by
    simp only [whole]
    rw [← hl]
    abel)
  have hlen : (ns k).length ≤ m.asked := by
    have := h5.card_le
    rw [Multiset.card_add] at this
    have := length_le_card k (ns k)
    omega
  obtain ⟨m', e, g, _⟩ := Holds.freeNodes hs sure k (ns k) m.asked hlen (h3 k) h5
  rw [← h1 k] at e
  refine ⟨⟨{ p with head := fun x => if x = k then none else p.head x, tail := fun x => if x = k then none else p.tail x }, m',
    by simp only [freeList, e, Ends.bind], ⟨fun x => if x = k then [] else ns x, fl, ?_, ?_, ?_, g.of_eq ?_⟩, ?_⟩, ?_⟩
  · intro k'
    show (if k' = k then none else p.head k') = headOf (if k' = k then [] else ns k')
    by_cases e : k' = k
    · rw [if_pos e, if_pos e]; rfl
    · rw [if_neg e, if_neg e]; exact h1 k'
  · intro k'
    show (if k' = k then none else p.tail k') = tailOf (if k' = k then [] else ns k')
    by_cases e : k' = k
    · rw [if_pos e, if_pos e]; rfl
    · rw [if_neg e, if_neg e]; exact h2 k'
  · intro k' n hn
    change n ∈ (if k' = k then [] else ns k') at hn
    by_cases e : k' = k
    · rw [if_pos e] at hn; cases hn
    · rw [if_neg e] at hn; exact h3 k' n hn
  · simp only [whole]
  · exact ⟨fun σ hσ => by cases σ <;> exact hσ, fun h => h⟩
  · intro p' m'' he
    simp only [freeList, e, Ends.bind, Ends.ok.injEq, Prod.mk.injEq] at he
    obtain ⟨rfl, _⟩ := he
    exact ⟨fun _ => rfl, rfl, rfl, rfl, by simp, fun k' hk' => by simp [hk']⟩

/-- One after another. -/
theorem Fine.bind {p : Members} {lost : Owned} {r : Ends State} {g : State → Ends State} (h : Fine sure m0 self p lost r)
    (hg : ∀ p' m', Keeps sure m0 self p' m' lost → Fine sure m0 self p' lost (g (p', m'))) : Fine sure m0 self p lost (r.bind g) := by
  obtain ⟨p', m', e, hi, hn⟩ := h
  obtain ⟨p2, m2, e2, hi2, hn2⟩ := hg p' m' hi
  exact ⟨p2, m2, by rw [e]; exact e2, hi2, hn.trans hn2⟩

theorem Keeps.fine {p : Members} {m : Ram} {lost : Owned} (h : Keeps sure m0 self p m lost) : Fine sure m0 self p lost (.ok (p, m)) := ⟨p, m, rfl, h, NoNew.refl p⟩

theorem fine_preexec {p : Members} {m : Ram} {lost : Owned} (hs : Spec.Sane m0) (h : Keeps sure m0 self p m lost) : Fine sure m0 self p lost (preexec (p, m)) := by
  refine (fine_dropText hs .user h).bind fun p m h => ?_
  obtain ⟨ns, fl, h1, h2, h3, h4⟩ := h.has
  obtain ⟨m', e, g, _⟩ := Holds.free hs (h4.of_eq (L' := own p.gids .array + (whole self { p with gids := none } ns fl + lost)) (by
    simp only [whole, own, add_zero]; abel))
  have hi : Keeps sure m0 self { p with gids := none } m' lost := ⟨ns, fl, h1, h2, h3, g⟩
  have hn : NoNew p { p with gids := none } := ⟨fun σ hσ => by cases σ <;> first | exact hσ | (exfalso; exact hσ rfl), fun h => h⟩
  have := (fine_dropText hs .preload hi).bind (g := fun s => (freeList .mount s).bind (freeList .rule))
    fun p m h => (fine_freeList hs .mount h).1.bind fun p m h => (fine_freeList hs .rule h).1
  obtain ⟨p2, m2, e2, hi2, hn2⟩ := this
  refine ⟨p2, m2, ?_, hi2, hn.trans hn2⟩
  simp only [e, Ends.bind]
  exact e2

end Minijail.Ownership
