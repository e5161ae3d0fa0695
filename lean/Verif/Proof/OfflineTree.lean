import Verif.Proof.OfflineRanges
/-! Helper lemmas: the code that finds the range of a system call number. -/
set_option autoImplicit false
set_option linter.unusedSimpArgs false
namespace Minijail.Offline
open Minijail.Spec

/-- One of the blocks, and a basic one. -/
def Leaf (H : Block → Prop) (b : Block) : Prop := H b ∧ ∃ i act l, b = .basic i act l

/-- A test of the number of the system call. -/
def IsEntry (b : Block) : Prop := ∃ i op nr jt jf, b = .syscallEntry i op nr jt jf

/-- More objects. -/
def Grows (d : SeccompData) (H : Block → Prop) (n : Nat) (H' : Block → Prop) (m : Nat) : Prop := n ≤ m ∧ (∀ b, H b → H' b) ∧ Heap (Code d) H' m

theorem Grows.trans {d : SeccompData} {H H' H'' : Block → Prop} {n n' n'' : Nat} (h : Grows d H n H' n') (h' : Grows d H' n' H'' n'') : Grows d H n H'' n'' :=
  ⟨Nat.le_trans h.1 h'.1, fun b hb => h'.2.1 b (h.2.1 b hb), h'.2.2⟩

theorem Leaf.mono {H H' : Block → Prop} (h : ∀ b, H b → H' b) {b : Block} (hl : Leaf H b) : Leaf H' b := ⟨h b hl.1, hl.2⟩

theorem leaf_sem {d : SeccompData} {H : Block → Prop} {n : Nat} (hh : Heap (Code d) H n) {b : Block} (hb : Leaf H b) (r : Regs) : sem d b r = lv d b := by
  obtain ⟨h, i, act, l, rfl⟩ := hb
  exact (hh.node _ h).2.1 r

open Classical in
theorem single_ok {d : SeccompData} {H : Block → Prop} {n : Nat} (hh : Heap (Code d) H n) {e : Range} {accept reject : Block} (ha : Leaf H (e.filter.getD accept)) (hr : H reject)
    (hlo : e.lo < e.hi) (htop : e.hi < 2 ^ 32) :
    ∃ H', Grows d H n H' (compileSingleRange e accept reject n).2.2 ∧ H' (compileSingleRange e accept reject n).2.1 ∧ IsEntry (compileSingleRange e accept reject n).2.1 ∧
      ∀ r, sem d (compileSingleRange e accept reject n).2.1 r = if e.lo ≤ r.a.toNat ∧ r.a.toNat < e.hi then fval d accept e.filter else sem d reject r := by
  have hs : ∀ r, sem d (e.filter.getD accept) r = fval d accept e.filter := fun r => leaf_sem hh ha r
  unfold compileSingleRange
  dsimp only
  split
  · refine ⟨_, ⟨Nat.le_succ _, fun b hb => .inl hb, hh.add (b := .syscallEntry n .jeq e.lo (e.filter.getD accept) reject) rfl ⟨ha.1, hr⟩ (show e.lo < 2 ^ 32 by omega)⟩, .inr rfl, ⟨_, _, _, _, _, rfl⟩, fun r => ?_⟩
    simp only [sem, hs]
    apply ite_congr'
    simp only [jumpTest]
    omega
  · split
    · refine ⟨_, ⟨Nat.le_succ _, fun b hb => .inl hb, hh.add (b := .syscallEntry n .jge e.hi reject (e.filter.getD accept)) rfl ⟨hr, ha.1⟩ htop⟩, .inr rfl, ⟨_, _, _, _, _, rfl⟩, fun r => ?_⟩
      simp only [sem, hs]
      by_cases hc : jumpTest .jge r.a.toNat e.hi
      · rw [if_pos hc, if_neg (by simp only [jumpTest] at hc; omega)]
      · rw [if_neg hc, if_pos (by simp only [jumpTest] at hc; omega)]
    · split
      · next hu =>
        refine ⟨_, ⟨Nat.le_succ _, fun b hb => .inl hb, hh.add (b := .syscallEntry n .jge e.lo (e.filter.getD accept) reject) rfl ⟨ha.1, hr⟩ (show e.lo < 2 ^ 32 by omega)⟩, .inr rfl, ⟨_, _, _, _, _, rfl⟩, fun r => ?_⟩
        simp only [sem, hs]
        apply ite_congr'
        simp only [jumpTest]
        have h1 := r.a.isLt
        have h2 : 2 ^ 32 ≤ UPPER := by decide
        omega
      · refine ⟨_, ⟨Nat.le_add_right _ _, fun b hb => .inl (.inl hb), (hh.add (b := .syscallEntry n .jge e.hi reject (e.filter.getD accept)) rfl ⟨hr, ha.1⟩ htop).add
          (b := .syscallEntry (n + 1) .jge e.lo (.syscallEntry n .jge e.hi reject (e.filter.getD accept)) reject) rfl ⟨.inr rfl, .inl hr⟩ (show e.lo < 2 ^ 32 by omega)⟩, .inr rfl, ⟨_, _, _, _, _, rfl⟩, fun r => ?_⟩
        simp only [sem, hs]
        by_cases hc : jumpTest .jge r.a.toNat e.lo
        · rw [if_pos hc]
          by_cases hc' : jumpTest .jge r.a.toNat e.hi
          · rw [if_pos hc', if_neg (by simp only [jumpTest] at hc'; omega)]
          · rw [if_neg hc', if_pos (by simp only [jumpTest] at hc hc'; omega)]
        · rw [if_neg hc, if_neg (by simp only [jumpTest] at hc; omega)]

/-! ### One range after the other -/

/-- One step of `_compile_ranges_linear`. -/
def linStep (accept : Block) (s : Linear) (e : Range) : Linear :=
  let x := compileSingleRange e accept s.action s.next
  ⟨s.cost + (s.accumulated + e.frequency) * x.1, s.accumulated + e.frequency, x.2.1, x.2.2⟩

theorem fold_ok {d : SeccompData} {H : Block → Prop} {accept : Block} (l : List Range) (s : Linear) (hh : Heap (Code d) H s.next) (ha : ∀ e ∈ l, Leaf H (e.filter.getD accept))
    (hr : H s.action) (hlo : ∀ e ∈ l, e.lo < e.hi) (htop : ∀ e ∈ l, e.hi < 2 ^ 32) :
    ∃ H', Grows d H s.next H' (l.foldl (linStep accept) s).next ∧ H' (l.foldl (linStep accept) s).action ∧ (l ≠ [] ∨ IsEntry s.action → IsEntry (l.foldl (linStep accept) s).action) ∧
      ∀ r, sem d (l.foldl (linStep accept) s).action r =
        (l.reverse.find? (fun e => decide (e.lo ≤ r.a.toNat ∧ r.a.toNat < e.hi))).elim (sem d s.action r) (fun e => fval d accept e.filter) := by
  induction l generalizing s H with
  | nil => exact ⟨H, ⟨Nat.le_refl _, fun _ h => h, hh⟩, hr, fun h => h.resolve_left fun h => h rfl, fun r => rfl⟩
  | cons e l ih =>
    obtain ⟨H1, g1, g2, g3, g4⟩ := single_ok hh (ha e (List.mem_cons_self ..)) hr (hlo e (List.mem_cons_self ..)) (htop e (List.mem_cons_self ..))
    obtain ⟨H2, k1, k2, k3, k4⟩ := ih (linStep accept s e) g1.2.2 (fun e he => (ha e (List.mem_cons_of_mem _ he)).mono g1.2.1) g2 (fun e he => hlo e (List.mem_cons_of_mem _ he)) (fun e he => htop e (List.mem_cons_of_mem _ he))
    rw [List.foldl_cons]
    refine ⟨H2, g1.trans k1, k2, fun _ => k3 (.inr g3), fun r => ?_⟩
    rw [k4 r, List.reverse_cons, List.find?_append]
    cases hf : l.reverse.find? (fun e => decide (e.lo ≤ r.a.toNat ∧ r.a.toNat < e.hi)) with
    | some y => rfl
    | none =>
      simp only [Option.elim_none, Option.none_or]
      rw [show (linStep accept s e).action = (compileSingleRange e accept s.action s.next).2.1 from rfl, g4 r, List.find?_cons]
      by_cases hc : e.lo ≤ r.a.toNat ∧ r.a.toNat < e.hi
      · simp only [hc, and_self, decide_true, if_true, Option.elim_some]
      · simp only [hc, decide_false, if_false, List.find?_nil, Option.elim_none]

theorem linear_ok {d : SeccompData} {H : Block → Prop} {n : Nat} (hh : Heap (Code d) H n) {accept reject : Block} (hr : Leaf H reject) {rs : List Range}
    (hg : GoodRanges (fun f => Leaf H (f.getD accept)) rs) :
    ∃ H', Grows d H n H' (compileRangesLinear rs accept reject n).2.2 ∧ H' (compileRangesLinear rs accept reject n).2.1 ∧ (rs ≠ [] → IsEntry (compileRangesLinear rs accept reject n).2.1) ∧
      ∀ r, sem d (compileRangesLinear rs accept reject n).2.1 r = rv d accept reject rs r.a.toNat := by
  have hp := sortBy_perm Range.frequency rs
  obtain ⟨H', g1, g2, g3, g4⟩ := fold_ok (sortBy Range.frequency rs) ⟨0, 0, reject, n⟩ hh (fun e he => hg.filter e (hp.mem_iff.1 he)) hr.1 (fun e he => hg.pos e (hp.mem_iff.1 he)) (fun e he => hg.top e (hp.mem_iff.1 he))
  refine ⟨H', g1, g2, fun h => g3 (.inl fun q => h ?_), fun r => ?_⟩
  · rw [q] at hp; exact List.nil_perm.1 hp
  · refine (g4 r).trans ?_
    rw [leaf_sem hh hr, ← find_perm (hp.symm.trans (List.reverse_perm _).symm) (ranges_unique hg _)]
    unfold rv
    cases rs.find? (fun e => decide (e.lo ≤ r.a.toNat ∧ r.a.toNat < e.hi)) <;> rfl

/-! ### The tree -/

theorem find_sub {α : Type} {p : α → Bool} {l sub : List α} (hu : ∀ a ∈ l, ∀ b ∈ l, p a = true → p b = true → a = b) (hs : ∀ x ∈ sub, x ∈ l) (hc : ∀ x ∈ l, p x = true → x ∈ sub) :
    sub.find? p = l.find? p := by
  cases h : l.find? p with
  | none => exact List.find?_eq_none.2 fun x hx => List.find?_eq_none.1 h x (hs x hx)
  | some y => exact find_unique (fun a ha b hb => hu a (hs a ha) b (hs b hb)) (hc y (List.mem_of_find?_eq_some h) (List.find?_some h)) (List.find?_some h)

theorem apart_idx {F : Option Block → Prop} {rs : List Range} (h : GoodRanges F rs) {k j : Nat} {a b : Range} (hk : rs[k]? = some a) (hj : rs[j]? = some b) (hkj : k < j) : a.hi ≤ b.lo := by
  obtain ⟨h1, rfl⟩ := List.getElem?_eq_some_iff.1 hk
  obtain ⟨h2, rfl⟩ := List.getElem?_eq_some_iff.1 hj
  exact List.pairwise_iff_getElem.1 h.apart k j h1 h2 hkj

/-- The ranges from `lo` on and before `hi` are those that meet the bounds. -/
def Meets (rs : List Range) (lo hi : Nat) (b : Nat × Nat) : Prop :=
  ∀ k e, rs[k]? = some e → (k < lo → e.hi ≤ b.1) ∧ (hi ≤ k → b.2 ≤ e.lo)

theorem meets_sub {rs : List Range} {lo hi : Nat} {b : Nat × Nat} (h : Meets rs lo hi b) {x : Nat} (h1 : b.1 ≤ x) (h2 : x < b.2) {e : Range} (he : e ∈ rs) (hx : e.lo ≤ x ∧ x < e.hi) :
    ∃ k, lo ≤ k ∧ k < hi ∧ rs[k]? = some e := by
  obtain ⟨k, hk⟩ := List.mem_iff_getElem?.1 he
  obtain ⟨q1, q2⟩ := h k e hk
  refine ⟨k, ?_, ?_, hk⟩
  · by_contra hn; have := q1 (by omega); omega
  · by_contra hn; have := q2 (by omega); omega

theorem meets_rv {F : Option Block → Prop} {rs : List Range} (hg : GoodRanges F rs) (d : SeccompData) (accept reject : Block) {lo hi : Nat} {b : Nat × Nat} (h : Meets rs lo hi b) {x : Nat}
    (h1 : b.1 ≤ x) (h2 : x < b.2) : rv d accept reject ((rs.drop lo).take (hi - lo)) x = rv d accept reject rs x := by
  unfold rv
  rw [find_sub (ranges_unique hg x) (fun y hy => List.mem_of_mem_drop (List.mem_of_mem_take hy)) fun y hy hp => ?_]
  obtain ⟨k, k1, k2, k3⟩ := meets_sub h h1 h2 hy (by simpa using hp)
  refine List.mem_iff_getElem?.2 ⟨k - lo, ?_⟩
  rw [List.getElem?_take, if_pos (by omega), List.getElem?_drop, ← k3]
  congr 1
  omega

theorem sub_good {F : Option Block → Prop} {rs : List Range} (hg : GoodRanges F rs) (lo m : Nat) : GoodRanges F ((rs.drop lo).take m) := by
  have hs : ((rs.drop lo).take m).Sublist rs := (List.take_sublist _ _).trans (List.drop_sublist _ _)
  exact ⟨hg.apart.sublist hs, fun a ha => hg.pos a (hs.mem ha), fun a ha => hg.top a (hs.mem ha), fun a ha => hg.filter a (hs.mem ha)⟩

/-- The objects, and what is remembered for bounds is right for them. -/
def BInv (d : SeccompData) (accept reject : Block) (rs : List Range) (H : Block → Prop) (s : Bst) : Prop :=
  Heap (Code d) H s.next ∧ ∀ b x, s.memo.lookup b = some x → H x.2 ∧ ∀ r : Regs, b.1 ≤ r.a.toNat → r.a.toNat < b.2 → sem d x.2 r = rv d accept reject rs r.a.toNat

/-- A block is right for bounds. -/
def Right (d : SeccompData) (accept reject : Block) (rs : List Range) (H : Block → Prop) (b : Nat × Nat) (x : Block) : Prop :=
  H x ∧ ∀ r : Regs, b.1 ≤ r.a.toNat → r.a.toNat < b.2 → sem d x r = rv d accept reject rs r.a.toNat

theorem BInv.memo {d : SeccompData} {accept reject : Block} {rs : List Range} {H : Block → Prop} {s : Bst} (h : BInv d accept reject rs H s) {b : Nat × Nat} {c : Nat} {x : Block}
    (hx : Right d accept reject rs H b x) : BInv d accept reject rs H { s with memo := (b, (c, x)) :: s.memo } := by
  refine ⟨h.1, fun b' y hy => ?_⟩
  simp only [List.lookup_cons] at hy
  split at hy
  · next hq =>
    simp only [Option.some.injEq] at hy
    subst hy
    have : b' = b := by simpa using hq
    subst this
    exact hx
  · exact h.2 b' y hy

theorem BInv.grow {d : SeccompData} {accept reject : Block} {rs : List Range} {H H' : Block → Prop} {s : Bst} (h : BInv d accept reject rs H s) {m : Nat} (hg : Grows d H s.next H' m) :
    BInv d accept reject rs H' { s with next := m } :=
  ⟨hg.2.2, fun b y hy => ⟨hg.2.1 _ (h.2 b y hy).1, (h.2 b y hy).2⟩⟩

theorem cutoffs_mem {rs : List Range} {lo hi : Nat} {b : Nat × Nat} {cut : Nat × Nat} (h : cut ∈ cutoffs rs lo hi b) :
    lo < cut.1 ∧ cut.1 < hi ∧ b.1 < cut.2 ∧ cut.2 < b.2 ∧
      ((∃ e, rs[cut.1]? = some e ∧ cut.2 = e.lo) ∨ ∃ e, rs[cut.1 - 1]? = some e ∧ cut.2 = e.hi) := by
  unfold cutoffs at h
  obtain ⟨i, -, h⟩ := List.mem_flatMap.1 h
  obtain ⟨c, hc, rfl⟩ := List.mem_map.1 h
  obtain ⟨hc1, hc2⟩ := List.mem_filter.1 hc
  simp only [decide_eq_true_eq] at hc2
  refine ⟨hc2.2.2.1, hc2.2.2.2, hc2.1, hc2.2.1, ?_⟩
  rcases List.mem_append.1 hc1 with h | h
  · left
    simp only [Option.mem_toList, Option.map_eq_some_iff] at h
    obtain ⟨e, h1, rfl⟩ := h
    exact ⟨e, by rw [← h1]; congr 1; dsimp only; omega, rfl⟩
  · right
    split at h
    · simp at h
    · next hi =>
      simp only [Option.mem_toList, Option.map_eq_some_iff] at h
      obtain ⟨e, h1, rfl⟩ := h
      exact ⟨e, by rw [← h1]; congr 1; dsimp only; omega, rfl⟩

theorem cut_small {F : Option Block → Prop} {rs : List Range} (hg : GoodRanges F rs) {lo hi : Nat} {b : Nat × Nat} {cut : Nat × Nat} (hc : cut ∈ cutoffs rs lo hi b) : cut.2 < 2 ^ 32 := by
  obtain ⟨-, -, -, -, ⟨e, h1, h2⟩ | ⟨e, h1, h2⟩⟩ := cutoffs_mem hc
  · have := hg.pos e (List.mem_iff_getElem?.2 ⟨_, h1⟩)
    have := hg.top e (List.mem_iff_getElem?.2 ⟨_, h1⟩)
    omega
  · have := hg.top e (List.mem_iff_getElem?.2 ⟨_, h1⟩)
    omega

/-- A cut leaves the ranges before it on one side and the others on the other. -/
theorem cut_meets {F : Option Block → Prop} {rs : List Range} (hg : GoodRanges F rs) {lo hi : Nat} {b : Nat × Nat} (hm : Meets rs lo hi b) {cut : Nat × Nat} (hc : cut ∈ cutoffs rs lo hi b) :
    Meets rs lo cut.1 (b.1, cut.2) ∧ Meets rs cut.1 hi (cut.2, b.2) := by
  obtain ⟨c1, c2, c3, c4, c5⟩ := cutoffs_mem hc
  have L : ∀ k e, rs[k]? = some e → cut.1 ≤ k → cut.2 ≤ e.lo := by
    intro k e he hk
    rcases c5 with ⟨f, f1, f2⟩ | ⟨f, f1, f2⟩
    · rcases Nat.lt_or_ge cut.1 k with h | h
      · have := apart_idx hg f1 he h
        have := hg.pos f (List.mem_iff_getElem?.2 ⟨_, f1⟩)
        omega
      · have : cut.1 = k := by omega
        rw [this, he] at f1
        simp only [Option.some.injEq] at f1
        subst f1
        omega
    · have := apart_idx hg f1 he (by omega)
      omega
  have R : ∀ k e, rs[k]? = some e → k < cut.1 → e.hi ≤ cut.2 := by
    intro k e he hk
    rcases c5 with ⟨f, f1, f2⟩ | ⟨f, f1, f2⟩
    · have := apart_idx hg he f1 hk
      omega
    · rcases Nat.lt_or_ge k (cut.1 - 1) with h | h
      · have := apart_idx hg he f1 h
        have := hg.pos f (List.mem_iff_getElem?.2 ⟨_, f1⟩)
        omega
      · have : k = cut.1 - 1 := by omega
        rw [← this, he] at f1
        simp only [Option.some.injEq] at f1
        subst f1
        omega
  exact ⟨fun k e he => ⟨(hm k e he).1, fun h => L k e he h⟩, fun k e he => ⟨fun h => R k e he h, (hm k e he).2⟩⟩

theorem foldlM_inv {α β : Type} (P : β → Prop) (f : β → α → Option β) (l : List α) (hf : ∀ b a b', a ∈ l → P b → f b a = some b' → P b') {b b' : β} (hb : P b) (h : l.foldlM f b = some b') : P b' := by
  induction l generalizing b with
  | nil => simp only [List.foldlM_nil, Option.pure_def, Option.some.injEq] at h; subst h; exact hb
  | cons a l ih =>
    rw [List.foldlM_cons] at h
    obtain ⟨c, h1, h2⟩ := Option.bind_eq_some_iff.1 h
    exact ih (fun b a b' ha => hf b a b' (List.mem_cons_of_mem _ ha)) (hf b a c (List.mem_cons_self ..) hb h1) h2

/-- What a call of `_generate_syscall_bst` does. -/
theorem generateBst_ok {d : SeccompData} {accept reject : Block} {H0 : Block → Prop} {rs : List Range} (hg : GoodRanges (fun f => Leaf H0 (f.getD accept)) rs) (hr : Leaf H0 reject)
    (fuel : Nat) {lo hi : Nat} {b : Nat × Nat} {s : Bst} {y : (Nat × Block) × Bst} (h : generateBst rs accept reject fuel lo hi b s = some y) (hlh : lo < hi) (hm : Meets rs lo hi b)
    {H : Block → Prop} (h0 : ∀ b, H0 b → H b) (hi' : BInv d accept reject rs H s) :
    ∃ H', Grows d H s.next H' y.2.next ∧ BInv d accept reject rs H' y.2 ∧ Right d accept reject rs H' b y.1.2 := by
  induction fuel generalizing lo hi b s y H with
  | zero => simp [generateBst] at h
  | succ fuel ih =>
    simp only [generateBst] at h
    obtain ⟨first, hf, h⟩ := Option.bind_eq_some_iff.1 h
    obtain ⟨last, hl, h⟩ := Option.bind_eq_some_iff.1 h
    split at h
    · simp at h
    · next hb =>
      have hb : b.1 ≤ first.lo ∧ last.hi ≤ b.2 := by by_contra hn; exact hb hn
      have hfm : first ∈ rs := List.mem_iff_getElem?.2 ⟨_, hf⟩
      have hrl : Leaf H reject := hr.mono h0
      split at h
      · next x hx =>
        simp only [Option.some.injEq] at h
        subst h
        exact ⟨H, ⟨Nat.le_refl _, fun _ h => h, hi'.1⟩, hi', hi'.2 b x hx⟩
      · next hx =>
        split at h
        · next h1 =>
          have hlf : Leaf H (first.filter.getD accept) := (hg.filter first hfm).mono h0
          have hone : ∀ x, b.1 ≤ x → x < b.2 → rv d accept reject rs x = if first.lo ≤ x ∧ x < first.hi then fval d accept first.filter else lv d reject := by
            intro x q1 q2
            rw [← meets_rv hg d accept reject hm q1 q2]
            have : (rs.drop lo).take (hi - lo) = [first] := by
              rw [h1]
              obtain ⟨q, rfl⟩ := List.getElem?_eq_some_iff.1 hf
              rw [List.drop_eq_getElem_cons q]
              rfl
            rw [this, rv_cons]
            rfl
          split at h
          · next ht =>
            simp only [Option.some.injEq] at h
            subst h
            have hR : Right d accept reject rs H b (first.filter.getD accept) := by
              refine ⟨hlf.1, fun r r1 r2 => ?_⟩
              rw [hone _ r1 r2, if_pos (by rw [ht] at r1 r2; exact ⟨r1, r2⟩), leaf_sem hi'.1 hlf]
              rfl
            exact ⟨H, ⟨Nat.le_refl _, fun _ h => h, hi'.1⟩, hi'.memo hR, hR⟩
          · simp only [Option.some.injEq] at h
            subst h
            obtain ⟨H', g1, g2, g3, g4⟩ := single_ok hi'.1 hlf hrl.1 (hg.pos first hfm) (hg.top first hfm)
            have hR : Right d accept reject rs H' b (compileSingleRange first accept reject s.next).2.1 := by
              refine ⟨g2, fun r r1 r2 => ?_⟩
              rw [hone _ r1 r2, g4 r, leaf_sem hi'.1 hrl]
            exact ⟨H', g1, (hi'.grow g1).memo hR, hR⟩
        · obtain ⟨best, h2, h⟩ := Option.bind_eq_some_iff.1 h
          simp only [Option.pure_def, Option.some.injEq] at h
          subst h
          have hgs := sub_good hg lo (hi - lo)
          obtain ⟨H1, g1, g2, g3, g4⟩ := linear_ok hi'.1 hrl (rs := (rs.drop lo).take (hi - lo)) ⟨hgs.apart, hgs.pos, hgs.top, fun a ha => (hgs.filter a ha).mono h0⟩
          have start : Right d accept reject rs H1 b (compileRangesLinear ((rs.drop lo).take (hi - lo)) accept reject s.next).2.1 :=
            ⟨g2, fun r r1 r2 => by rw [g4 r, meets_rv hg d accept reject hm r1 r2]⟩
          have := foldlM_inv (fun z : (Nat × Block) × Bst => ∃ H', Grows d H s.next H' z.2.next ∧ BInv d accept reject rs H' z.2 ∧ Right d accept reject rs H' b z.1.2) _ _ ?_
            ⟨H1, g1, hi'.grow g1, start⟩ h2
          · obtain ⟨H', k1, k2, k3⟩ := this
            exact ⟨H', k1, k2.memo k3, k3⟩
          · rintro ⟨⟨c, x⟩, t⟩ cut z hcut ⟨Hc, k1, k2, k3⟩ hz
            obtain ⟨m1, m2⟩ := cut_meets hg hm hcut
            obtain ⟨c1, c2, -⟩ := cutoffs_mem hcut
            unfold bstStep at hz
            obtain ⟨l, hl, hz⟩ := Option.bind_eq_some_iff.1 hz
            obtain ⟨q, hq, hz⟩ := Option.bind_eq_some_iff.1 hz
            simp only [Option.pure_def, Option.some.injEq] at hz
            subst hz
            obtain ⟨Hl, l1, l2, l3⟩ := ih hl c1 m1 (fun b hb => k1.2.1 b (h0 b hb)) k2
            obtain ⟨Hr, r1, r2, r3⟩ := ih hq c2 m2 (fun b hb => l1.2.1 b (k1.2.1 b (h0 b hb))) l2
            have G : Grows d Hr q.2.next (fun z => Hr z ∨ z = .syscallEntry q.2.next .jge cut.2 q.1.2 l.1.2) (q.2.next + 1) :=
              ⟨Nat.le_succ _, fun b hb => .inl hb, r2.1.add (b := .syscallEntry q.2.next .jge cut.2 q.1.2 l.1.2) rfl ⟨r3.1, r1.2.1 _ l3.1⟩ (cut_small hg hcut)⟩
            refine ⟨_, ((k1.trans l1).trans r1).trans G, r2.grow G, ?_⟩
            dsimp only
            split
            · refine ⟨.inr rfl, fun r a1 a2 => ?_⟩
              simp only [sem]
              by_cases hc : jumpTest .jge r.a.toNat cut.2
              · rw [if_pos hc]; exact r3.2 r hc a2
              · rw [if_neg hc]; exact l3.2 r a1 (by simp only [jumpTest] at hc; dsimp only; omega)
            · exact ⟨.inl (r1.2.1 _ (l1.2.1 _ k3.1)), k3.2⟩

/-- The result is a test, unless the bounds are those of a single range. -/
theorem generateBst_entry {accept reject : Block} {F : Option Block → Prop} {rs : List Range} (hg : GoodRanges F rs) {fuel : Nat} {lo hi : Nat} {b : Nat × Nat} {s : Bst} {y : (Nat × Block) × Bst}
    (h : generateBst rs accept reject fuel lo hi b s = some y) (hlh : lo < hi) (hm : s.memo.lookup b = none) (hb : 2 ^ 32 < b.2) {d : SeccompData} {H : Block → Prop} (hh : Heap (Code d) H s.next)
    (ha : ∀ e ∈ rs, Leaf H (e.filter.getD accept)) (hr : Leaf H reject) : IsEntry y.1.2 := by
  cases fuel with
  | zero => simp [generateBst] at h
  | succ fuel =>
    simp only [generateBst] at h
    obtain ⟨first, hf, h⟩ := Option.bind_eq_some_iff.1 h
    obtain ⟨last, hl, h⟩ := Option.bind_eq_some_iff.1 h
    have hfm : first ∈ rs := List.mem_iff_getElem?.2 ⟨_, hf⟩
    split at h
    · simp at h
    · rw [hm] at h
      dsimp only at h
      split at h
      · split at h
        · next ht =>
          have := hg.top first hfm
          rw [ht] at hb
          dsimp only at hb
          omega
        · simp only [Option.some.injEq] at h
          subst h
          exact (single_ok hh (ha first hfm) hr.1 (hg.pos first hfm) (hg.top first hfm)).choose_spec.2.2.1
      · obtain ⟨best, h2, h⟩ := Option.bind_eq_some_iff.1 h
        simp only [Option.pure_def, Option.some.injEq] at h
        subst h
        have hgs := sub_good hg lo (hi - lo)
        obtain ⟨H1, g1, g2, g3, g4⟩ := linear_ok hh hr (rs := (rs.drop lo).take (hi - lo)) ⟨hgs.apart, hgs.pos, hgs.top, fun a ha' => ha a (List.mem_of_mem_drop (List.mem_of_mem_take ha'))⟩
        show IsEntry best.1.2
        refine foldlM_inv (fun z : (Nat × Block) × Bst => IsEntry z.1.2) _ _ ?_ (g3 ?_) h2
        · rintro ⟨⟨c, x⟩, t⟩ cut z hcut hx hz
          unfold bstStep at hz
          obtain ⟨l, hl, hz⟩ := Option.bind_eq_some_iff.1 hz
          obtain ⟨q, hq, hz⟩ := Option.bind_eq_some_iff.1 hz
          simp only [Option.pure_def, Option.some.injEq] at hz
          subst hz
          dsimp only
          split
          · exact ⟨_, _, _, _, _, rfl⟩
          · exact hx
        · intro hn
          have := congrArg (fun l => l[0]?) hn
          simp only [List.getElem?_take, List.getElem?_drop, List.getElem?_nil] at this
          rw [if_pos (by omega), Nat.add_zero, hf] at this
          simp at this

/-- The code for the entries, in both ways. -/
theorem entries_ok {d : SeccompData} {H : Block → Prop} {n : Nat} (hh : Heap (Code d) H n) {accept reject : Block} (hr : Leaf H reject) {es : List Entry} (hne : es ≠ [])
    (ha : ∀ e ∈ es, Leaf H (e.filter.getD accept)) (hd : es.Pairwise fun a b => a.number ≠ b.number) (hlt : ∀ e ∈ es, e.number < 2 ^ 32 - 1) {bst : Bool} {y : Block × Nat}
    (h : (if bst then compileEntriesBst es accept reject n else some (compileEntriesLinear es accept reject n)) = some y) :
    ∃ H', Grows d H n H' y.2 ∧ H' y.1 ∧ IsEntry y.1 ∧ ∀ r, sem d y.1 r = ev d accept reject es r.a.toNat := by
  have hg := convertToRanges_good (F := fun f => Leaf H (f.getD accept)) hd ha hlt
  have hv := convertToRanges_rv d accept reject hd
  have hn := convertToRanges_ne hne
  split at h
  · unfold compileEntriesBst at h
    obtain ⟨x, h1, h⟩ := Option.bind_eq_some_iff.1 h
    simp only [Option.pure_def, Option.some.injEq] at h
    subst h
    have hg' := accumulate_good hg 0
    have hpos : 0 < (accumulate 0 (convertToRanges es)).length := by
      cases hc : convertToRanges es with
      | nil => exact absurd hc hn
      | cons e l => simp [accumulate]
    have hm : Meets (accumulate 0 (convertToRanges es)) 0 (accumulate 0 (convertToRanges es)).length (0, 2 ^ 64 - 1) := by
      intro k e hk
      refine ⟨fun h => absurd h (Nat.not_lt_zero _), fun h => ?_⟩
      obtain ⟨q, -⟩ := List.getElem?_eq_some_iff.1 hk
      omega
    obtain ⟨H', k1, k2, k3⟩ := generateBst_ok (d := d) hg' hr _ h1 hpos hm (H := H) (fun _ h => h) ⟨hh, fun b x h => by simp at h⟩
    refine ⟨H', k1, k3.1, generateBst_entry hg' h1 hpos rfl (by decide) (d := d) hh hg'.filter hr, fun r => ?_⟩
    rw [k3.2 r (Nat.zero_le _) (by have := r.a.isLt; dsimp only; omega), accumulate_rv, hv]
  · simp only [Option.some.injEq] at h
    subst h
    obtain ⟨H', g1, g2, g3, g4⟩ := linear_ok hh hr hg
    exact ⟨H', g1, g2, g3 hn, fun r => by rw [show (compileEntriesLinear es accept reject n).1 = (compileRangesLinear (convertToRanges es) accept reject n).2.1 from rfl, g4 r, hv]⟩

end Minijail.Offline
