import Verif.Spec.Ownership
import Mathlib.Data.Multiset.Basic
import Mathlib.Data.Finset.Card
import Mathlib.Data.Finset.Range
import Mathlib.Algebra.Order.Group.Multiset
import Mathlib.Tactic.Abel
/-! Helper lemmas for C72: what a jail owns. -/
set_option autoImplicit false
set_option linter.unusedSimpArgs false
namespace Minijail.Ownership

/-- Blocks with their addresses. -/
abbrev Owned := Multiset (Nat × Block)

/-- Memory is as in `m0`, and in addition `L` is allocated. -/
structure Holds (m0 m : Ram) (L : Owned) : Prop where
  nodup : (L.map Prod.fst).Nodup
  lo : ∀ x ∈ L, m0.asked ≤ x.1
  hi : ∀ x ∈ L, x.1 < m.asked
  here : ∀ x ∈ L, m.at_ x.1 = some x.2
  rest : ∀ a, (∀ x ∈ L, x.1 ≠ a) → m.at_ a = m0.at_ a
  le : m0.asked ≤ m.asked

def own (p : Option Nat) (b : Block) : Owned :=
  match p with
  | none => 0
  | some a => {(a, b)}

theorem Holds.of_eq {m0 m : Ram} {L L' : Owned} (h : Holds m0 m L) (e : L = L') : Holds m0 m L' := e ▸ h

theorem Holds.alloc {m0 m : Ram} {L : Owned} (short : Nat → Bool) (b : Block) (h : Holds m0 m L) :
    Holds m0 (alloc short b m).2 (own (alloc short b m).1 b + L) := by
  unfold Ownership.alloc
  by_cases hs : short m.asked = true
  · rw [if_pos hs]
    simp only [own, zero_add]
    exact ⟨h.nodup, h.lo, fun x hx => Nat.lt_succ_of_lt (h.hi x hx), h.here, h.rest, Nat.le_succ_of_le h.le⟩
  · rw [if_neg hs]
    simp only [own]
    refine ⟨?_, ?_, ?_, ?_, ?_, Nat.le_succ_of_le h.le⟩
    · rw [Multiset.map_add, Multiset.map_singleton, Multiset.singleton_add, Multiset.nodup_cons]
      refine ⟨?_, h.nodup⟩
      intro hm
      obtain ⟨x, hx, hxe⟩ := Multiset.mem_map.1 hm
      have := h.hi x hx
      omega
    · intro x hx
      rcases Multiset.mem_add.1 hx with hx | hx
      · rw [Multiset.mem_singleton.1 hx]; exact h.le
      · exact h.lo x hx
    · intro x hx
      rcases Multiset.mem_add.1 hx with hx | hx
      · rw [Multiset.mem_singleton.1 hx]; exact Nat.lt_succ_self _
      · exact Nat.lt_succ_of_lt (h.hi x hx)
    · intro x hx
      rcases Multiset.mem_add.1 hx with hx | hx
      · rw [Multiset.mem_singleton.1 hx]; simp
      · have := h.hi x hx
        show (if x.1 = m.asked then some b else m.at_ x.1) = _
        rw [if_neg (by omega)]
        exact h.here x hx
    · intro a ha
      show (if a = m.asked then some b else m.at_ a) = _
      rw [if_neg (fun e => ha (m.asked, b) (Multiset.mem_add.2 (.inl (Multiset.mem_singleton_self _))) e.symm)]
      exact h.rest a fun x hx => ha x (Multiset.mem_add.2 (.inr hx))

theorem Holds.read {m0 m : Ram} {L : Owned} {a : Nat} {b : Block} (h : Holds m0 m ({(a, b)} + L)) : m.at_ a = some b :=
  h.here (a, b) (Multiset.mem_add.2 (.inl (Multiset.mem_singleton_self _)))

theorem Holds.fresh {m0 m : Ram} {L : Owned} {a : Nat} {b : Block} (h : Holds m0 m ({(a, b)} + L)) : ∀ x ∈ L, x.1 ≠ a := by
  intro x hx e
  have hn := h.nodup
  rw [Multiset.map_add, Multiset.map_singleton, Multiset.singleton_add, Multiset.nodup_cons] at hn
  exact hn.1 (Multiset.mem_map.2 ⟨x, hx, e⟩)

theorem Holds.sub_nodup {m0 m : Ram} {L K : Owned} (h : Holds m0 m (K + L)) : (L.map Prod.fst).Nodup := by
  have hn := h.nodup
  rw [Multiset.map_add] at hn
  exact (Multiset.nodup_add.1 hn).2.1

theorem Holds.put {m0 m : Ram} {L : Owned} {a : Nat} {b : Block} (b' : Block) (h : Holds m0 m ({(a, b)} + L)) : Holds m0 (m.put a (some b')) ({(a, b')} + L) := by
  have hf := h.fresh
  refine ⟨?_, ?_, ?_, ?_, ?_, h.le⟩
  · have hn := h.nodup
    rw [Multiset.map_add, Multiset.map_singleton] at hn ⊢
    exact hn
  · intro x hx
    rcases Multiset.mem_add.1 hx with hx | hx
    · rw [Multiset.mem_singleton.1 hx]
      exact h.lo (a, b) (Multiset.mem_add.2 (.inl (Multiset.mem_singleton_self _)))
    · exact h.lo x (Multiset.mem_add.2 (.inr hx))
  · intro x hx
    rcases Multiset.mem_add.1 hx with hx | hx
    · rw [Multiset.mem_singleton.1 hx]
      exact h.hi (a, b) (Multiset.mem_add.2 (.inl (Multiset.mem_singleton_self _)))
    · exact h.hi x (Multiset.mem_add.2 (.inr hx))
  · intro x hx
    rcases Multiset.mem_add.1 hx with hx | hx
    · rw [Multiset.mem_singleton.1 hx]; simp [Ram.put]
    · show (if x.1 = a then some b' else m.at_ x.1) = _
      rw [if_neg (hf x hx)]
      exact h.here x (Multiset.mem_add.2 (.inr hx))
  · intro y hy
    have hya : y ≠ a := fun e => hy (a, b') (Multiset.mem_add.2 (.inl (Multiset.mem_singleton_self _))) e.symm
    show (if y = a then some b' else m.at_ y) = _
    rw [if_neg hya]
    refine h.rest y fun x hx => ?_
    rcases Multiset.mem_add.1 hx with hx | hx
    · rw [Multiset.mem_singleton.1 hx]; exact fun e => hya e.symm
    · exact hy x (Multiset.mem_add.2 (.inr hx))

/-- Freeing what is owned works. `m0` has nothing where it has asked for nothing. -/
theorem Holds.free {m0 m : Ram} {L : Owned} {p : Option Nat} {b : Block} (hs : Spec.Sane m0) (h : Holds m0 m (own p b + L)) :
    ∃ m', free p m = .ok m' ∧ Holds m0 m' L ∧ m'.asked = m.asked := by
  cases p with
  | none => exact ⟨m, rfl, by simpa [own] using h, rfl⟩
  | some a =>
    simp only [own] at h
    refine ⟨m.put a none, ?_, ?_, rfl⟩
    · unfold Ownership.free
      simp only []
      rw [if_neg (by rw [h.read]; simp)]
    · have hf := h.fresh
      refine ⟨h.sub_nodup, fun x hx => h.lo x (Multiset.mem_add.2 (.inr hx)), fun x hx => h.hi x (Multiset.mem_add.2 (.inr hx)), ?_, ?_, h.le⟩
      · intro x hx
        show (if x.1 = a then none else m.at_ x.1) = _
        rw [if_neg (hf x hx)]
        exact h.here x (Multiset.mem_add.2 (.inr hx))
      · intro y hy
        show (if y = a then none else m.at_ y) = _
        by_cases e : y = a
        · rw [if_pos e, e]
          exact (hs a (h.lo (a, b) (Multiset.mem_add.2 (.inl (Multiset.mem_singleton_self _))))).symm
        · rw [if_neg e]
          refine h.rest y fun x hx => ?_
          rcases Multiset.mem_add.1 hx with hx | hx
          · rw [Multiset.mem_singleton.1 hx]; exact fun e' => e e'.symm
          · exact hy x hx

theorem Holds.card_le {m0 m : Ram} {L : Owned} (h : Holds m0 m L) : Multiset.card L ≤ m.asked := by
  have h1 : (L.map Prod.fst).toFinset.card = Multiset.card (L.map Prod.fst) := Multiset.toFinset_card_of_nodup h.nodup
  have h2 : (L.map Prod.fst).toFinset ⊆ Finset.range m.asked := by
    intro a ha
    obtain ⟨x, hx, rfl⟩ := Multiset.mem_map.1 (Multiset.mem_toFinset.1 ha)
    exact Finset.mem_range.2 (h.hi x hx)
  have h3 := Finset.card_le_card h2
  rw [Finset.card_range, h1, Multiset.card_map] at h3
  exact h3

/-- Strings. -/
def strings : List (Option Nat) → Owned
  | [] => 0
  | p :: ps => own p .text + strings ps

theorem strings_append (a b : List (Option Nat)) : strings (a ++ b) = strings a + strings b := by
  induction a with
  | nil => simp [strings]
  | cons x xs ih => simp only [List.cons_append, strings, ih]; abel

theorem Holds.freeAll {m0 : Ram} (hs : Spec.Sane m0) : ∀ (ps : List (Option Nat)) {m : Ram} {L : Owned}, Holds m0 m (strings ps + L) →
    ∃ m', Ownership.freeAll ps m = .ok m' ∧ Holds m0 m' L ∧ m'.asked = m.asked := by
  intro ps
  induction ps with
  | nil => intro m L h; exact ⟨m, rfl, by simpa [strings] using h, rfl⟩
  | cons p ps ih =>
    intro m L h
    obtain ⟨m1, e1, h1, a1⟩ := Holds.free hs (h.of_eq (L' := own p .text + (strings ps + L)) (by simp only [strings]; abel))
    obtain ⟨m2, e2, h2, a2⟩ := ih h1
    refine ⟨m2, ?_, h2, a2.trans a1⟩
    simp only [Ownership.freeAll, e1, Ends.bind, e2]

/-- The elements of a list: address and strings. -/
abbrev Elems := List (Nat × List (Option Nat))

def headOf (ns : Elems) : Option Nat := ns.head?.map Prod.fst

def tailOf (ns : Elems) : Option Nat := ns.getLast?.map Prod.fst

/-- The blocks of a list. -/
def cells (k : Kind) : Elems → Owned
  | [] => 0
  | (a, ts) :: ns => {(a, .node k ts (headOf ns))} + (strings ts + cells k ns)

theorem length_le_card (k : Kind) (ns : Elems) : ns.length ≤ Multiset.card (cells k ns) := by
  induction ns with
  | nil => simp [cells]
  | cons x ns ih =>
    obtain ⟨a, ts⟩ := x
    simp only [cells, List.length_cons, Multiset.card_add, Multiset.card_singleton]
    omega

theorem cells_snoc (k : Kind) (t a : Nat) (tt ts : List (Option Nat)) (init : Elems) : ∃ C,
    cells k (init ++ [(t, tt)]) = {(t, .node k tt none)} + C
    ∧ cells k (init ++ [(t, tt)] ++ [(a, ts)]) = {(t, .node k tt (some a))} + ({(a, .node k ts none)} + strings ts + C) := by
  induction init with
  | nil =>
    refine ⟨strings tt, ?_, ?_⟩
    · simp [cells, headOf]
    · simp only [List.nil_append, List.cons_append, cells, headOf, List.head?_cons, List.head?_nil, Option.map_some, Option.map_none, add_zero]; abel
  | cons x init ih =>
    obtain ⟨b, bs⟩ := x
    obtain ⟨C, h1, h2⟩ := ih
    have hh : headOf (init ++ [(t, tt)] ++ [(a, ts)]) = headOf (init ++ [(t, tt)]) := by
      cases init <;> simp [headOf]
    refine ⟨{(b, .node k bs (headOf (init ++ [(t, tt)])))} + (strings bs + C), ?_, ?_⟩
    · simp only [List.cons_append, cells, h1]; abel
    · simp only [List.cons_append, cells]
      rw [hh, h2]; abel

/-- What the strings of an element are like. `sure`: memory is never short. -/
def Full (sure : Prop) (k : Kind) (ts : List (Option Nat)) : Prop :=
  match k with
  | .mount => ∃ a b c d, ts = [some a, some b, some c, d]
  | .remount => ∃ a, ts = [some a]
  | .hook => ts = []
  | .rule => ∃ p, ts = [p] ∧ (sure → p ≠ none)

theorem strings_freed (sure : Prop) (k : Kind) (ts : List (Option Nat)) (h : Full sure k ts) :
    strings ((freedMembers k).map fun i => (ts[i]?).getD none) = strings ts := by
  cases k with
  | mount => obtain ⟨a, b, c, d, rfl⟩ := h; simp [freedMembers, strings]; abel
  | remount => obtain ⟨a, rfl⟩ := h; simp [freedMembers, strings]
  | hook => cases h; simp [freedMembers, strings]
  | rule => obtain ⟨a, rfl, _⟩ := h; simp [freedMembers, strings]

theorem Holds.freeNodes {m0 : Ram} (hs : Spec.Sane m0) (sure : Prop) (k : Kind) : ∀ (ns : Elems) (fuel : Nat) {m : Ram} {L : Owned}, ns.length ≤ fuel →
    (∀ n ∈ ns, Full sure k n.2) → Holds m0 m (cells k ns + L) →
    ∃ m', Ownership.freeNodes k fuel (headOf ns) m = .ok m' ∧ Holds m0 m' L ∧ m'.asked = m.asked := by
  intro ns
  induction ns with
  | nil =>
    intro fuel m L _ _ h
    refine ⟨m, ?_, by simpa [cells] using h, rfl⟩
    cases fuel <;> rfl
  | cons x ns ih =>
    intro fuel m L hf hfull h
    obtain ⟨a, ts⟩ := x
    cases fuel with
    | zero => simp at hf
    | succ fuel =>
      have hk := h.of_eq (L' := {(a, .node k ts (headOf ns))} + (strings ts + cells k ns + L)) (by simp only [cells]; abel)
      have hts := strings_freed sure k ts (hfull _ (List.mem_cons_self ..))
      obtain ⟨m1, e1, h1, a1⟩ := Holds.freeAll hs ((freedMembers k).map fun i => (ts[i]?).getD none)
        (hk.of_eq (L' := strings ((freedMembers k).map fun i => (ts[i]?).getD none) + (own (some a) (.node k ts (headOf ns)) + (cells k ns + L)))
          (by rw [hts]; simp only [own]; abel))
      obtain ⟨m2, e2, h2, a2⟩ := Holds.free hs h1
      obtain ⟨m3, e3, h3, a3⟩ := ih fuel (by simpa using hf) (fun n hn => hfull n (List.mem_cons_of_mem _ hn)) h2
      refine ⟨m3, ?_, h3, a3.trans (a2.trans a1)⟩
      show Ownership.freeNodes k (fuel + 1) (some a) m = _
      simp only [Ownership.freeNodes, hk.read, if_pos, e1, Ends.bind, e2, e3]

/-- The strings of a jail. -/
def texts (t : Text → Option Nat) : Owned :=
  own (t .user) .text + own (t .chrootdir) .text + own (t .pidFile) .text + own (t .uidmap) .text + own (t .gidmap) .text + own (t .hostname) .text
    + own (t .preload) .text + own (t .filename) .text + own (t .altTable) .text + own (t .policy) .text

theorem texts_set (t : Text → Option Nat) (f : Text) (v : Option Nat) :
    texts (fun x => if x = f then v else t x) + own (t f) .text = texts t + own v .text := by
  cases f <;> simp [texts] <;> abel

/-- The lists of a jail. -/
def lists (ns : Kind → Elems) : Owned := cells .mount (ns .mount) + cells .remount (ns .remount) + cells .hook (ns .hook) + cells .rule (ns .rule)

theorem lists_set (ns : Kind → Elems) (k : Kind) (l : Elems) :
    lists (fun x => if x = k then l else ns x) + cells k (ns k) = lists ns + cells k l := by
  cases k <;> simp [lists] <;> abel

/-- The filter of a jail. -/
def filterOf (p : Option Nat) (f : Nat) : Owned :=
  match p with
  | none => 0
  | some a => {(a, .prog (some f))} + {(f, .array)}

/-- What a jail owns. -/
def whole (self : Nat) (p : Members) (ns : Kind → Elems) (f : Nat) : Owned :=
  {(self, .jail)} + texts p.text + own p.gids .array + filterOf p.prog f + lists ns + strings (p.cgroups.map some)

/-- The jail owns its memory, except for what is lost. -/
structure Keeps (sure : Prop) (m0 : Ram) (jail : Nat) (p : Members) (m : Ram) (lost : Owned) : Prop where
  has : ∃ ns f, (∀ k, p.head k = headOf (ns k)) ∧ (∀ k, p.tail k = tailOf (ns k)) ∧ (∀ k, ∀ n ∈ ns k, Full sure k n.2)
    ∧ Holds m0 m (whole jail p ns f + lost)

end Minijail.Ownership
