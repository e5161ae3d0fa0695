import Verif.Model.Blocks
import Mathlib.Data.List.Nodup
import Mathlib.Data.Fintype.Card
import Mathlib.Tactic.SplitIfs
/-!
Helper lemmas for C68: lists of blocks in memory.
-/
set_option autoImplicit false
set_option linter.unusedSimpArgs false
namespace Minijail.Blocks

theorem put_same (m : Mem) (a : Nat) (c : Option Cell) : (m.put a c).cells a = c := by simp [Mem.put]
theorem put_ne (m : Mem) {a x : Nat} (c : Option Cell) (h : x ≠ a) : (m.put a c).cells x = m.cells x := by simp [Mem.put, h]
@[simp] theorem put_brk (m : Mem) (a : Nat) (c : Option Cell) : (m.put a c).brk = m.brk := rfl
theorem alloc_same (m : Mem) (c : Cell) {a : Nat} (h : a = m.brk) : (m.alloc c).cells a = some c := by simp [Mem.alloc, h]
theorem alloc_ne (m : Mem) (c : Cell) {a : Nat} (h : a ≠ m.brk) : (m.alloc c).cells a = m.cells a := by simp [Mem.alloc, h]
@[simp] theorem alloc_brk (m : Mem) (c : Cell) : (m.alloc c).brk = m.brk + 1 := rfl

/-- Nothing is allocated from `brk` on. -/
def Fresh (m : Mem) : Prop := ∀ a, m.brk ≤ a → m.cells a = none

/-- From `m` with the addresses `F` in use to `m'` with `F'` in use, everything else left as it is. -/
structure Moves (m : Mem) (F : List Nat) (m' : Mem) (F' : List Nat) : Prop where
  brk : m.brk ≤ m'.brk
  new : ∀ a ∈ F', a ∈ F ∨ (m.brk ≤ a ∧ a < m'.brk)
  same : ∀ a, a ∉ F → a ∉ F' → m'.cells a = m.cells a
  freed : ∀ a ∈ F, a ∉ F' → m'.cells a = none
  fresh : Fresh m → Fresh m'

theorem Moves.refl (m : Mem) (F : List Nat) : Moves m F m F :=
  ⟨le_refl _, fun _ h => .inl h, fun _ _ _ => rfl, fun _ h h' => absurd h h', id⟩

theorem Moves.trans {m m' m'' : Mem} {F F' F'' : List Nat} (hf : Fresh m) (h : Moves m F m' F') (h' : Moves m' F' m'' F'') : Moves m F m'' F'' := by
  refine ⟨h.brk.trans h'.brk, ?_, ?_, ?_, h'.fresh ∘ h.fresh⟩
  · intro a ha
    rcases h'.new a ha with h1 | ⟨h1, h2⟩
    · rcases h.new a h1 with h3 | ⟨h3, h4⟩
      · exact .inl h3
      · exact .inr ⟨h3, lt_of_lt_of_le h4 h'.brk⟩
    · exact .inr ⟨h.brk.trans h1, h2⟩
  · intro a h1 h2
    by_cases h3 : a ∈ F'
    · rw [h'.freed a h3 h2]
      rcases h.new a h3 with h4 | ⟨h4, _⟩
      · exact absurd h4 h1
      · exact (hf a h4).symm
    · rw [h'.same a h3 h2, h.same a h1 h3]
  · intro a h1 h2
    by_cases h3 : a ∈ F'
    · exact h'.freed a h3 h2
    · rw [h'.same a h3 h2, h.freed a h1 h3]

theorem Moves.frame {m m' : Mem} {F F' : List Nat} (h : Moves m F m' F') (G : List Nat) (hG : ∀ a ∈ G, a < m.brk) (hd : ∀ a ∈ G, a ∉ F) :
    Moves m (F ++ G) m' (F' ++ G) := by
  refine ⟨h.brk, ?_, ?_, ?_, h.fresh⟩
  · intro a ha
    rcases List.mem_append.1 ha with h1 | h1
    · rcases h.new a h1 with h2 | h2
      · exact .inl (by simp [h2])
      · exact .inr h2
    · exact .inl (by simp [h1])
  · intro a h1 h2
    simp only [List.mem_append, not_or] at h1 h2
    exact h.same a h1.1 h2.1
  · intro a h1 h2
    simp only [List.mem_append, not_or] at h1 h2
    rcases h1 with h1 | h1
    · exact h.freed a h1 h2.1
    · exact absurd h1 h2.2

theorem Moves.perm {m m' : Mem} {F F' F₂ F₂' : List Nat} (h : Moves m F m' F') (h1 : ∀ a, a ∈ F ↔ a ∈ F₂) (h2 : ∀ a, a ∈ F' ↔ a ∈ F₂') :
    Moves m F₂ m' F₂' := by
  refine ⟨h.brk, ?_, ?_, ?_, h.fresh⟩
  · intro a ha; rw [← h1]; exact h.new a ((h2 a).2 ha)
  · intro a ha hb; exact h.same a (by rwa [h1]) (by rwa [h2])
  · intro a ha hb; exact h.freed a (by rwa [h1]) (by rwa [h2])

/-- What is disjoint from `F` is disjoint from `F'`, and keeps its cells. -/
theorem Moves.apart {m m' : Mem} {F F' : List Nat} (h : Moves m F m' F') {a : Nat} (ha : a < m.brk) (hF : a ∉ F) :
    a ∉ F' ∧ m'.cells a = m.cells a := by
  have : a ∉ F' := fun hm => by
    rcases h.new a hm with h1 | ⟨h1, _⟩
    · exact hF h1
    · omega
  exact ⟨this, h.same a hF this⟩

/-- One block of a list: its address, its array's, and the instructions. -/
structure Node where
  addr : Nat
  buf : Nat
  code : List Insn

def code (l : List Node) : List Insn := l.flatMap Node.code
def cellsOf (l : List Node) : List Nat := l.flatMap fun n => [n.addr, n.buf]
def first (l : List Node) (nx : Option Nat) : Option Nat := (l.head?.map Node.addr).or nx
def final (l : List Node) : Option Nat := l.getLast?.map Node.addr

@[simp] theorem code_nil : code [] = [] := rfl
@[simp] theorem code_cons (n l) : code (n :: l) = n.code ++ code l := rfl
@[simp] theorem code_append (a b) : code (a ++ b) = code a ++ code b := by simp [code]
@[simp] theorem cellsOf_nil : cellsOf [] = [] := rfl
@[simp] theorem cellsOf_cons (n l) : cellsOf (n :: l) = n.addr :: n.buf :: cellsOf l := rfl
@[simp] theorem cellsOf_append (a b) : cellsOf (a ++ b) = cellsOf a ++ cellsOf b := by simp [cellsOf]
@[simp] theorem first_nil (nx) : first [] nx = nx := rfl
@[simp] theorem first_cons (n l nx) : first (n :: l) nx = some n.addr := rfl
theorem first_append (a b nx) : first (a ++ b) nx = first a (first b nx) := by cases a <;> rfl

/-- The blocks `l` are in memory one after the other, the last one's `next` is `nx`. -/
def Linked (m : Mem) (nx : Option Nat) : List Node → Prop
  | [] => True
  | n :: l => m.cells n.buf = some (.instrs n.code) ∧
      (∃ last total, m.cells n.addr = some (.block ⟨some n.buf, n.code.length, first l nx, last, total⟩)) ∧ Linked m nx l

theorem linked_append (m : Mem) (nx : Option Nat) (a b : List Node) : Linked m nx (a ++ b) ↔ Linked m (first b nx) a ∧ Linked m nx b := by
  induction a with
  | nil => simp [Linked]
  | cons n l ih => simp [Linked, ih, first_append, and_assoc]

theorem linked_congr {m m' : Mem} {nx : Option Nat} {l : List Node} (h : ∀ a ∈ cellsOf l, m'.cells a = m.cells a) (hl : Linked m nx l) : Linked m' nx l := by
  induction l with
  | nil => trivial
  | cons n l ih =>
    simp only [cellsOf_cons, List.mem_cons] at h
    obtain ⟨h1, ⟨x, y, h2⟩, h3⟩ := hl
    exact ⟨by rw [h _ (by simp), h1], ⟨x, y, by rw [h _ (by simp), h2]⟩, ih (fun a ha => h a (by simp [ha])) h3⟩

/-- The list with the head `p` is in memory; `[]` is a block that is new. -/
def ListAt (m : Mem) (p : Nat) : List Node → Prop
  | [] => m.cells p = some (.block {})
  | n :: l => n.addr = p ∧ m.cells n.buf = some (.instrs n.code) ∧
      m.cells p = some (.block ⟨some n.buf, n.code.length, first l none, final l, (code (n :: l)).length⟩) ∧ Linked m none l

/-- The addresses of a list. -/
def foot (p : Nat) : List Node → List Nat
  | [] => [p]
  | n :: l => cellsOf (n :: l)

/-- A list in memory at addresses of its own. -/
structure Good (m : Mem) (p : Nat) (l : List Node) : Prop where
  at_ : ListAt m p l
  nodup : (foot p l).Nodup
  lt : ∀ a ∈ foot p l, a < m.brk

theorem listAt_congr {m m' : Mem} {p : Nat} {l : List Node} (h : ∀ a ∈ foot p l, m'.cells a = m.cells a) (hl : ListAt m p l) : ListAt m' p l := by
  cases l with
  | nil => rw [ListAt, h p (by simp [foot])]; exact hl
  | cons n l =>
    obtain ⟨rfl, h1, h2, h3⟩ := hl
    simp only [foot, cellsOf_cons, List.mem_cons] at h
    exact ⟨rfl, by rw [h _ (by simp), h1], by rw [h _ (by simp), h2], linked_congr (fun a ha => h a (by simp [ha])) h3⟩

theorem Good.move {m m' : Mem} {p : Nat} {l : List Node} (hg : Good m p l) {F F' : List Nat} (h : Moves m F m' F') (hd : ∀ a ∈ foot p l, a ∉ F) :
    Good m' p l ∧ ∀ a ∈ foot p l, a ∉ F' :=
  ⟨⟨listAt_congr (fun a ha => (h.apart (hg.lt a ha) (hd a ha)).2) hg.at_, hg.nodup, fun a ha => lt_of_lt_of_le (hg.lt a ha) h.brk⟩,
    fun a ha => (h.apart (hg.lt a ha) (hd a ha)).1⟩

theorem Good.head_mem {m : Mem} {p : Nat} {l : List Node} (hg : Good m p l) : p ∈ foot p l := by
  cases l with
  | nil => simp [foot]
  | cons n l => obtain ⟨rfl, _⟩ := hg.at_; simp [foot]

theorem Good.linked {m : Mem} {p : Nat} {n : Node} {l : List Node} (hg : Good m p (n :: l)) : Linked m none (n :: l) := by
  obtain ⟨rfl, h1, h2, h3⟩ := hg.at_
  exact ⟨h1, ⟨_, _, h2⟩, h3⟩

theorem grown_moves {m m' : Mem} (hf : Fresh m) {F F' : List Nat} (hb : m'.brk = m.brk + 2) (hF : ∀ a, a ∈ F' ↔ a ∈ F ∨ a = m.brk ∨ a = m.brk + 1)
    (hs : ∀ a, a ∉ F → a ≠ m.brk → a ≠ m.brk + 1 → m'.cells a = m.cells a) (hlt : ∀ a ∈ F, a < m.brk) : Moves m F m' F' ∧ Fresh m' := by
  have hfr : Fresh m' := by
    intro a ha
    rw [hs a (fun h => by have := hlt a h; omega) (by omega) (by omega)]
    exact hf a (by omega)
  refine ⟨⟨by omega, ?_, ?_, ?_, fun _ => hfr⟩, hfr⟩
  · intro a ha
    rcases (hF a).1 ha with h | h | h
    · exact .inl h
    · exact .inr (by omega)
    · exact .inr (by omega)
  · intro a h1 h2
    rw [hF] at h2
    simp only [not_or] at h2
    exact hs a h1 h2.2.1 h2.2.2
  · intro a h1 h2
    exact absurd ((hF a).2 (.inl h1)) h2

/-- Appending an array that has just been allocated. -/
theorem append_good {m : Mem} (hf : Fresh m) {p : Nat} {l : List Node} (hg : Good m p l) (count : Nat) (c : List Insn) (hc : c.length = count) :
    ∃ n m', appendNew p count c m = .ok () m' ∧ n.code = c ∧ Good m' p (l ++ [n]) ∧ Moves m (foot p l) m' (foot p (l ++ [n])) ∧ Fresh m' := by
  subst hc
  simp only [appendNew, newInstrBuf, le_refl, if_true, MRes.bind, Nat.sub_self, List.replicate_zero, List.append_nil]
  obtain ⟨hat, hnd, hlt⟩ := hg
  cases l with
  | nil =>
    have hp : p < m.brk := hlt p (by simp [foot])
    have hcell : m.cells p = some (.block {}) := hat
    have hne : p ≠ m.brk := by omega
    refine ⟨⟨p, m.brk, c⟩, (m.alloc (.instrs c)).put p (some (.block ⟨some m.brk, c.length, none, none, c.length⟩)), ?_, rfl, ⟨?_, ?_, ?_⟩, ?_, ?_⟩
    · simp [appendFilterBlock, Mem.alloc, hne, hcell]
    · simp [ListAt, Mem.alloc, Mem.put, hne, hne.symm, Linked, final]
    · simp [foot, hne]
    · simp [foot, Mem.alloc, Mem.put]; omega
    · refine ⟨by simp [Mem.alloc, Mem.put], ?_, ?_, ?_, ?_⟩
      · simp [foot, Mem.alloc, Mem.put]
      · intro a h1 h2
        simp [foot] at h1 h2
        simp [Mem.alloc, Mem.put, h2]
      · simp [foot]
      · intro _ a ha
        simp only [Mem.alloc, Mem.put] at ha ⊢
        rw [if_neg (by omega), if_neg (by omega)]
        exact hf a (by omega)
    · intro a ha
      simp only [Mem.alloc, Mem.put] at ha ⊢
      rw [if_neg (by omega), if_neg (by omega)]
      exact hf a (by omega)
  | cons n l =>
    obtain ⟨rfl, hbuf, hblk, hlk⟩ := hat
    simp only [foot] at hnd hlt
    have hn : n.addr < m.brk := hlt _ (by simp)
    have hb : n.buf < m.brk := hlt _ (by simp)
    rcases List.eq_nil_or_concat l with rfl | ⟨k, z, rfl⟩
    · have hne : n.addr ≠ n.buf := by
        simp only [cellsOf_cons, cellsOf_nil, List.nodup_cons, List.mem_cons, List.not_mem_nil, or_false] at hnd
        exact hnd.1
      refine ⟨⟨m.brk + 1, m.brk, c⟩, ((m.alloc (.instrs c)).alloc (.block ⟨some m.brk, c.length, none, none, c.length⟩)).put n.addr
        (some (.block ⟨some n.buf, n.code.length, some (m.brk + 1), some (m.brk + 1), n.code.length + c.length⟩)), ?_, rfl, ⟨?_, ?_, ?_⟩, ?_⟩
      · have : (m.alloc (.instrs c)).cells n.addr = some (.block ⟨some n.buf, n.code.length, none, none, n.code.length⟩) := by
          rw [Mem.alloc]; simp only; rw [if_neg (by omega), hblk]; simp [final]
        simp [appendFilterBlock, this]
      · refine ⟨rfl, ?_, ?_, ?_, ⟨none, c.length, ?_⟩, trivial⟩
        · rw [put_ne _ _ hne.symm, alloc_ne _ _ (by simp; omega), alloc_ne _ _ (by omega), hbuf]
        · rw [put_same]; simp [final]
        · rw [put_ne _ _ (by simp; omega), alloc_ne _ _ (by simp), alloc_same _ _ rfl]
        · rw [put_ne _ _ (by simp; omega), alloc_same _ _ (by simp)]; rfl
      · simp [foot, hne]; omega
      · simp [foot, Mem.alloc, Mem.put]; omega
      · refine grown_moves hf (by simp [Mem.alloc, Mem.put]) (by simp [foot]; tauto) ?_ hlt
        intro a h1 h2 h3
        simp only [foot, cellsOf_cons, cellsOf_nil, List.mem_cons, List.not_mem_nil, or_false, not_or] at h1
        simp [Mem.alloc, Mem.put, h1.1, h2, h3]
    · simp only [List.concat_eq_append] at *
      rw [linked_append] at hlk
      obtain ⟨hk, hzb, ⟨zl, zt, hz⟩, _⟩ := hlk
      have hnd' := hnd
      simp only [cellsOf_cons, cellsOf_append, cellsOf_nil, List.nodup_cons, List.mem_cons, List.mem_append, List.not_mem_nil, or_false,
        not_or, List.nodup_append] at hnd
      obtain ⟨⟨hne, hnk, hnz, hnzb⟩, ⟨hbk, hbz, hbzb⟩, hkn, ⟨hzz, -⟩, hkz⟩ := hnd
      have hzl : z.addr < m.brk := hlt _ (by simp)
      have hzbl : z.buf < m.brk := hlt _ (by simp)
      have hkl : ∀ a ∈ cellsOf k, a < m.brk := fun a ha => hlt _ (by simp [ha])
      have hfin : final (k ++ [z]) = some z.addr := by simp [final]
      have hfst : ∃ f, first (k ++ [z]) none = some f := by cases k <;> simp
      obtain ⟨f, hfst⟩ := hfst
      rw [hfin, hfst] at hblk
      refine ⟨⟨m.brk + 1, m.brk, c⟩, (((m.alloc (.instrs c)).alloc (.block ⟨some m.brk, c.length, none, none, c.length⟩)).put z.addr
        (some (.block ⟨some z.buf, z.code.length, some (m.brk + 1), zl, zt⟩))).put n.addr
        (some (.block ⟨some n.buf, n.code.length, some f, some (m.brk + 1), (code (n :: (k ++ [z]))).length + c.length⟩)), ?_, rfl, ⟨?_, ?_, ?_⟩, ?_⟩
      · have h1 : (m.alloc (.instrs c)).cells n.addr = some (.block ⟨some n.buf, n.code.length, some f, some z.addr, (code (n :: (k ++ [z]))).length⟩) := by
          rw [Mem.alloc]; simp only; rw [if_neg (by omega), hblk]
        have h2 : ∀ cc, ((m.alloc (.instrs c)).alloc cc).cells z.addr = some (.block ⟨some z.buf, z.code.length, none, zl, zt⟩) := by
          intro cc
          rw [Mem.alloc, Mem.alloc]; simp only; rw [if_neg (by omega), if_neg (by omega), hz, first_nil]
        simp only [appendFilterBlock, h1, h2]
        simp
      · have hcells : ∀ x, x ≠ n.addr → x ≠ z.addr → x < m.brk → ∀ c1 c2 c3 c4, ((((m.alloc c1).alloc c2).put z.addr c3).put n.addr c4).cells x = m.cells x := by
          intro x h1 h2 h3 c1 c2 c3 c4
          rw [put_ne _ _ h1, put_ne _ _ h2, alloc_ne _ _ (by simp; omega), alloc_ne _ _ (by omega)]
        simp only [List.cons_append, ListAt]
        refine ⟨trivial, ?_, ?_, ?_⟩
        · rw [hcells _ (Ne.symm hne) hbz hb, hbuf]
        · have e1 : first (k ++ [z] ++ [⟨m.brk + 1, m.brk, c⟩]) none = some f := by
            rw [first_append, first_cons]
            cases k with
            | nil => simpa using hfst
            | cons => simpa using hfst
          rw [e1]
          simp [Mem.put, final, Nat.add_assoc]
        · rw [linked_append, linked_append]
          refine ⟨⟨linked_congr (fun a ha => hcells a (fun e => hnk (e ▸ ha)) (fun e => (hkz _ ha _ (.inl rfl)) e) (hkl a ha) _ _ _ _) hk, ?_, ?_, trivial⟩, ?_, ?_, trivial⟩
          · rw [hcells _ (Ne.symm hnzb) (Ne.symm hzz) hzbl, hzb]
          · refine ⟨zl, zt, ?_⟩
            rw [put_ne _ _ (Ne.symm hnz), put_same]
            rfl
          · rw [put_ne _ _ (by simp; omega), put_ne _ _ (by simp; omega), alloc_ne _ _ (by simp), alloc_same _ _ rfl]
          · refine ⟨none, c.length, ?_⟩
            rw [put_ne _ _ (by simp; omega), put_ne _ _ (by simp; omega), alloc_same _ _ (by simp)]
            rfl
      · have : foot n.addr (n :: (k ++ [z]) ++ [⟨m.brk + 1, m.brk, c⟩]) = cellsOf (n :: (k ++ [z])) ++ [m.brk + 1, m.brk] := by simp [foot]
        rw [this, List.nodup_append]
        refine ⟨hnd', by simp, ?_⟩
        intro a ha b hb'
        have := hlt a ha
        simp at hb'
        omega
      · intro a ha
        have : foot n.addr (n :: (k ++ [z]) ++ [⟨m.brk + 1, m.brk, c⟩]) = cellsOf (n :: (k ++ [z])) ++ [m.brk + 1, m.brk] := by simp [foot]
        rw [this, List.mem_append] at ha
        have : ∀ c1 c2 c3 c4, ((((m.alloc c1).alloc c2).put z.addr c3).put n.addr c4).brk = m.brk + 2 := fun _ _ _ _ => rfl
        rw [this]
        rcases ha with ha | ha
        · have := hlt a ha; omega
        · simp at ha; omega
      · refine grown_moves hf rfl (by simp [foot]; tauto) ?_ hlt
        intro a h1 h2 h3
        simp only [foot, cellsOf_cons, cellsOf_append, cellsOf_nil, List.mem_cons, List.mem_append, List.not_mem_nil, or_false, not_or] at h1
        simp [Mem.alloc, Mem.put, h1.1, h1.2.2.2.1, h2, h3]

/-- Joining two lists, the second of more than one block. -/
theorem extend_good {m : Mem} {p q : Nat} {l k : List Node} (hl : Good m p l) (hk : Good m q k) (hl0 : l ≠ []) (hk2 : 2 ≤ k.length)
    (hd : ∀ a ∈ foot p l, a ∉ foot q k) :
    ∃ m', extendFilterBlockList p q m = .ok () m' ∧ Good m' p (l ++ k) ∧ m'.brk = m.brk ∧ (∀ a, a ∉ foot p l → m'.cells a = m.cells a) := by
  obtain ⟨hla, hln, hlt⟩ := hl
  obtain ⟨hka, hkn, hkt⟩ := hk
  match l, k, hl0, hk2 with
  | n :: l, y :: x :: k, _, _ =>
  obtain ⟨rfl, hbuf, hblk, hlk⟩ := hla
  obtain ⟨rfl, hkb, hkh, hkl⟩ := hka
  have hfoot : foot n.addr (n :: l ++ y :: x :: k) = foot n.addr (n :: l) ++ foot y.addr (y :: x :: k) := by simp [foot]
  have hnd : (foot n.addr (n :: l ++ y :: x :: k)).Nodup := by
    rw [hfoot, List.nodup_append]
    exact ⟨hln, hkn, fun a ha b hb e => hd a ha (e ▸ hb)⟩
  have hltt : ∀ a ∈ foot n.addr (n :: l ++ y :: x :: k), a < m.brk := by
    rw [hfoot]
    intro a ha
    rcases List.mem_append.1 ha with h | h
    · exact hlt a h
    · exact hkt a h
  have hfin : final (x :: k) = final (l ++ y :: x :: k) := by
    simp [final, List.getLast?_append, List.getLast?_cons_cons]
    rw [List.getLast?_eq_getLast_of_ne_nil (l := x :: k) (by simp)]
    rfl
  have hkL : Linked m none (y :: x :: k) := ⟨hkb, ⟨_, _, hkh⟩, hkl⟩
  rcases List.eq_nil_or_concat l with rfl | ⟨w, z, rfl⟩
  · refine ⟨m.put n.addr (some (.block ⟨some n.buf, n.code.length, some y.addr, final (x :: k), n.code.length + (code (y :: x :: k)).length⟩)), ?_,
      ⟨?_, hnd, hltt⟩, rfl, ?_⟩
    · simp [extendFilterBlockList, hblk, hkh, final]
    · have hne : n.addr ≠ n.buf := by
        simp only [foot, cellsOf_cons, cellsOf_nil, List.nodup_cons, List.mem_cons, List.not_mem_nil, or_false] at hln
        exact hln.1
      refine ⟨rfl, ?_, ?_, ?_⟩
      · rw [put_ne _ _ hne.symm, hbuf]
      · rw [put_same]; simp at hfin; simp [hfin]
      · exact linked_congr (fun a ha => put_ne _ _ (fun e => hd n.addr (by simp [foot]) (by rw [← e]; exact ha))) hkL
    · intro a ha
      exact put_ne _ _ (fun e => ha (by simp [foot, e]))
  · simp only [List.concat_eq_append] at *
    rw [linked_append] at hlk
    obtain ⟨hw, hzb, ⟨zl, zt, hz⟩, _⟩ := hlk
    have hln' := hln
    simp only [foot, cellsOf_cons, cellsOf_append, cellsOf_nil, List.nodup_cons, List.mem_cons, List.mem_append, List.not_mem_nil, or_false,
      not_or, List.nodup_append] at hln'
    obtain ⟨⟨hne, hnk, hnz, hnzb⟩, ⟨hbk, hbz, hbzb⟩, hkn', ⟨hzz, -⟩, hkz⟩ := hln'
    have hf0 : final (w ++ [z]) = some z.addr := by simp [final]
    refine ⟨(m.put z.addr (some (.block ⟨some z.buf, z.code.length, some y.addr, zl, zt⟩))).put n.addr
      (some (.block ⟨some n.buf, n.code.length, first (w ++ [z]) none, final (x :: k), (code (n :: (w ++ [z]))).length + (code (y :: x :: k)).length⟩)), ?_,
      ⟨?_, hnd, hltt⟩, rfl, ?_⟩
    · simp [extendFilterBlockList, hblk, hkh, hf0, hz]
    · have hcells : ∀ a, a ≠ n.addr → a ≠ z.addr → ∀ c1 c2, ((m.put z.addr c1).put n.addr c2).cells a = m.cells a := by
        intro a h1 h2 c1 c2
        rw [put_ne _ _ h1, put_ne _ _ h2]
      simp only [List.cons_append, ListAt]
      refine ⟨trivial, ?_, ?_, ?_⟩
      · rw [hcells _ (Ne.symm hne) hbz, hbuf]
      · rw [put_same, ← hfin]
        have : first (w ++ [z] ++ y :: x :: k) none = first (w ++ [z]) none := by cases w <;> rfl
        rw [this]
        simp [Nat.add_assoc]
      · rw [linked_append, linked_append]
        refine ⟨⟨linked_congr (fun a ha => hcells a (fun e => hnk (e ▸ ha)) (fun e => (hkz _ ha _ (.inl rfl)) e) _ _) hw, ?_, ?_, trivial⟩, ?_⟩
        · rw [hcells _ (Ne.symm hnzb) (Ne.symm hzz), hzb]
        · exact ⟨zl, zt, by rw [put_ne _ _ (Ne.symm hnz), put_same]; rfl⟩
        · refine linked_congr (fun a ha => hcells a (fun e => hd n.addr (by simp [foot]) (by rw [← e]; exact ha))
            (fun e => hd z.addr (by simp [foot]) (by rw [← e]; exact ha)) _ _) hkL
    · intro a ha
      rw [put_ne _ _ (fun e => ha (by simp [foot, e])), put_ne _ _ (fun e => ha (by simp [foot, e]))]

theorem free_linked (l : List Node) : ∀ (fuel : Nat) (m : Mem), l.length ≤ fuel → Linked m none l → (cellsOf l).Nodup →
    ∃ m', freeBlocks fuel (first l none) m = .ok () m' ∧ m'.brk = m.brk ∧ (∀ a ∈ cellsOf l, m'.cells a = none) ∧
      ∀ a, a ∉ cellsOf l → m'.cells a = m.cells a := by
  induction l with
  | nil => intro fuel m _ _ _; exact ⟨m, by cases fuel <;> rfl, rfl, by simp, fun _ _ => rfl⟩
  | cons n l ih =>
    intro fuel m hfu hl hnd
    obtain ⟨fuel, rfl⟩ : ∃ k, fuel = k + 1 := ⟨fuel - 1, by simp at hfu; omega⟩
    obtain ⟨hb, ⟨x, y, hn⟩, hl⟩ := hl
    simp only [cellsOf_cons, List.nodup_cons, List.mem_cons, not_or] at hnd
    obtain ⟨⟨h1, h2⟩, h3, h4⟩ := hnd
    obtain ⟨m', e1, e2, e3, e4⟩ := ih fuel ((m.put n.buf none).put n.addr none) (by simpa using hfu)
      (linked_congr (fun a ha => by rw [put_ne _ _ (fun e : a = n.addr => h2 (e ▸ ha)), put_ne _ _ (fun e : a = n.buf => h3 (e ▸ ha))]) hl) h4
    refine ⟨m', ?_, e2, ?_, ?_⟩
    · rw [first_cons, freeBlocks]
      simp only [hn, hb]
      exact e1
    · intro a ha
      by_cases hm : a ∈ cellsOf l
      · exact e3 a hm
      · rw [e4 a hm]
        simp only [cellsOf_cons, List.mem_cons, hm, or_false] at ha
        rcases ha with rfl | rfl
        · rw [put_same]
        · rw [put_ne _ _ (Ne.symm h1), put_same]
    · intro a ha
      simp only [cellsOf_cons, List.mem_cons, not_or] at ha
      rw [e4 a ha.2.2, put_ne _ _ ha.1, put_ne _ _ ha.2.1]

theorem length_le_brk {l : List Node} {b : Nat} (hn : (cellsOf l).Nodup) (hlt : ∀ a ∈ cellsOf l, a < b) : l.length ≤ b := by
  have h1 : (cellsOf l).length ≤ (List.range b).length := List.Subperm.length_le (List.subperm_of_subset hn (fun a ha => by simpa using hlt a ha))
  have h2 : (cellsOf l).length = 2 * l.length := by
    clear * -
    induction l with
    | nil => rfl
    | cons n l ih => simp [ih]; omega
  simp at h1
  omega

/-- Freeing a list gives back all of its memory. -/
theorem free_good {m : Mem} (hf : Fresh m) {p : Nat} {l : List Node} (hg : Good m p l) :
    ∃ m', freeBlockList (some p) m = .ok () m' ∧ Moves m (foot p l) m' [] ∧ Fresh m' := by
  have key : ∃ m', freeBlockList (some p) m = .ok () m' ∧ m'.brk = m.brk ∧ (∀ a ∈ foot p l, m'.cells a = none) ∧
      ∀ a, a ∉ foot p l → m'.cells a = m.cells a := by
    cases l with
    | nil =>
      have hc : m.cells p = some (.block {}) := hg.at_
      have hlt := hg.lt p hg.head_mem
      refine ⟨m.put p none, ?_, rfl, by simp [foot, put_same], fun a ha => put_ne _ _ (by simpa [foot] using ha)⟩
      obtain ⟨k, hk⟩ : ∃ k, m.brk = k + 1 := ⟨m.brk - 1, by omega⟩
      rw [freeBlockList, hk, freeBlocks]
      simp only [hc]
      cases k <;> rfl
    | cons n l =>
      have := free_linked (n :: l) m.brk m (length_le_brk hg.nodup hg.lt) hg.linked hg.nodup
      obtain ⟨rfl, _⟩ := hg.at_
      exact this
  obtain ⟨m', h1, h2, h3, h4⟩ := key
  have hfr : Fresh m' := by
    intro a ha
    by_cases hm : a ∈ foot p l
    · exact h3 a hm
    · rw [h4 a hm]; exact hf a (by omega)
  exact ⟨m', h1, ⟨by omega, by simp, fun a ha _ => h4 a ha, fun a ha _ => h3 a ha, fun _ => hfr⟩, hfr⟩

theorem copy_ok (cap : Nat) (src : List Insn) : ∀ (pre rest : List Insn), pre.length + rest.length = cap → src.length ≤ rest.length →
    copyInstrs cap src pre.length (pre ++ rest) = some (pre.length + src.length, pre ++ src ++ rest.drop src.length) := by
  induction src with
  | nil => intro pre rest _ _; simp [copyInstrs]
  | cons i src ih =>
    intro pre rest hc hl
    match rest, hl with
    | r :: rest, hl =>
      simp only [List.length_cons] at hl hc
      rw [copyInstrs, if_neg (by omega)]
      have h := ih (pre ++ [i]) rest (by simp; omega) (by omega)
      have e : (pre ++ r :: rest).set pre.length i = pre ++ [i] ++ rest := by simp [List.set_append]
      rw [e]
      simp only [List.length_append, List.length_singleton] at h
      rw [h]
      simp
      omega

theorem flatten_linked (m : Mem) (cap : Nat) (l : List Node) : ∀ (fuel : Nat) (pre rest : List Insn), l.length ≤ fuel → Linked m none l →
    pre.length + rest.length = cap → (code l).length ≤ rest.length →
    flattenBlocks m cap fuel (first l none) pre.length (pre ++ rest) = .ok (pre ++ code l ++ rest.drop (code l).length) m := by
  induction l with
  | nil => intro fuel pre rest _ _ _ _; cases fuel <;> simp [flattenBlocks]
  | cons n l ih =>
    intro fuel pre rest hfu hl hc hr
    obtain ⟨fuel, rfl⟩ : ∃ k, fuel = k + 1 := ⟨fuel - 1, by simp at hfu; omega⟩
    obtain ⟨hb, ⟨x, y, hn⟩, hl⟩ := hl
    rw [first_cons, flattenBlocks]
    simp only [hn]
    simp only [code_cons, List.length_append] at hr
    by_cases h0 : n.code.length = 0
    · rw [if_pos h0]
      have : n.code = [] := List.length_eq_zero_iff.1 h0
      rw [ih fuel pre rest (by simpa using hfu) hl hc (by omega)]
      simp [this]
    · rw [if_neg h0]
      simp only [Option.bind_some, hb, lt_irrefl, if_false, List.take_length]
      rw [copy_ok cap n.code pre rest hc (by omega)]
      simp only
      have h := ih fuel (pre ++ n.code) (rest.drop n.code.length) (by simpa using hfu) hl (by simp; omega) (by simp; omega)
      simp only [List.length_append] at h
      rw [h]
      simp [List.drop_drop]

end Minijail.Blocks
