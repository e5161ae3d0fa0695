import Verif.Proof.OfflineLower
/-! Helper lemmas: the filter of one system call. -/
set_option autoImplicit false
set_option linter.unusedSimpArgs false
namespace Minijail.Offline
open Minijail.Spec

/-- The copies do what the originals say. -/
def LInv (bits : Nat) (d : SeccompData) (H : Block → Prop) (s : Low) : Prop :=
  ∃ H', Heap (Code d) H' s.next ∧ ∀ i b', s.mapping.lookup i = some b' → H' b' ∧ ∀ b, H b → b.id = i → ∀ r, sem d b' r = asem bits d b

theorem set_shape {s s' : Low} {i : Nat} {b : Block} {n : Nat} (h : s.set i b n = some s') : s' = { s with mapping := (i, b) :: s.mapping, next := n } := by
  unfold Low.set at h
  split at h
  · simp at h
  · simpa using h.symm

theorem ret_fits {w : Nat} (h : w < 2 ^ 32) : ∀ i ∈ [(⟨RET, 0, 0, w⟩ : SockFilter)], Fits i := by
  intro i hi
  rw [List.mem_singleton.1 hi]
  exact ⟨(by decide : RET < 2 ^ 16), (by decide : 0 < 2 ^ 8), (by decide : 0 < 2 ^ 8), h⟩

open Classical in
/-- Lowering a graph of comparisons keeps what it says. -/
theorem lowerAccept_inv {bits : Nat} (hbits : bits = 32 ∨ bits = 64) {d : SeccompData} {H : Block → Prop} {n : Nat} (hh : Heap (Tree bits) H n) (b : Block) {s s' : Low} (hb : H b)
    (h : lowerAccept bits b s = some s') (hi : LInv bits d H s) : LInv bits d H s' := by
  induction b generalizing s s' with
  | basic i act l =>
    simp only [lowerAccept] at h
    split at h
    · simp only [Option.some.injEq] at h; subst h; exact hi
    · obtain ⟨H', hH, hm⟩ := hi
      have e := set_shape h
      subst e
      obtain ⟨w, hw', hw⟩ := hh.node _ hb
      refine ⟨_, hH.add (b := .basic s.next act l) rfl trivial ?_, ?_⟩
      · subst hw
        refine ⟨?_, fun r => ?_, fun _ => ret_fits hw', done_ret _⟩
        · rw [execN_ret]
          simp
        · rw [execN_ret, execN_ret]
      · intro j b' hl
        simp only [List.lookup_cons] at hl
        split at hl
        · next hq =>
          simp only [Option.some.injEq] at hl
          subst hl
          refine ⟨Or.inr rfl, fun c hc hci r => ?_⟩
          have : c = .basic i act l := hh.inj _ _ hc hb (by rw [hci]; exact (by simpa using hq : j = i))
          subst this
          subst hw
          simp only [sem, asem, execN_ret]
        · obtain ⟨h1, h2⟩ := hm j b' hl
          exact ⟨Or.inl h1, h2⟩
  | validateArch i b ih => exact (hh.node _ hb).elim
  | syscallEntry i op nr jt jf => exact (hh.node _ hb).elim
  | wideAtom i off op v jt jf => exact (hh.node _ hb).elim
  | atom i arg op v jt jf ih1 ih2 =>
    simp only [lowerAccept] at h
    split at h
    · simp only [Option.some.injEq] at h; subst h; exact hi
    · obtain ⟨s1, h1, h⟩ := Option.bind_eq_some_iff.1 h
      obtain ⟨s2, h2, h⟩ := Option.bind_eq_some_iff.1 h
      obtain ⟨jt', g1, h⟩ := Option.bind_eq_some_iff.1 h
      obtain ⟨jf', g2, h⟩ := Option.bind_eq_some_iff.1 h
      have c := hh.closed _ hb
      have i2 := ih2 c.2 h2 (ih1 c.1 h1 hi)
      obtain ⟨H', hH, hm⟩ := i2
      obtain ⟨k1, k2⟩ := hm _ _ g1
      obtain ⟨k3, k4⟩ := hm _ _ g2
      obtain ⟨n1, n2, n3⟩ := hh.node _ hb
      obtain ⟨H'', m1, m2, m3, m4⟩ := lowerAtom_sem hbits hH n1 n2 n3 k1 k3 (k2 jt c.1 rfl) (k4 jf c.2 rfl)
      have e := set_shape h
      subst e
      refine ⟨H'', m2, ?_⟩
      intro j b' hl
      simp only [List.lookup_cons] at hl
      split at hl
      · next hq =>
        simp only [Option.some.injEq] at hl
        subst hl
        refine ⟨m3, fun c hc hci r => ?_⟩
        have : c = .atom i arg op v jt jf := hh.inj _ _ hc hb (by rw [hci]; exact (by simpa using hq : j = i))
        subst this
        rw [m4 r]
        rfl
      · obtain ⟨h1, h2⟩ := hm j b' hl
        exact ⟨m1 _ h1, h2⟩

theorem lower_sem {bits : Nat} (hbits : bits = 32 ∨ bits = 64) {d : SeccompData} {H : Block → Prop} {n : Nat} (hh : Heap (Tree bits) H n) {b : Block} (hb : H b) {m : Nat} {b' : Block} {m' : Nat}
    (h : lower bits b m = some (b', m')) : ∃ H', Heap (Code d) H' m' ∧ H' b' ∧ ∀ r, sem d b' r = asem bits d b := by
  unfold lower at h
  obtain ⟨s, h1, h⟩ := Option.bind_eq_some_iff.1 h
  obtain ⟨c, h2, h⟩ := Option.bind_eq_some_iff.1 h
  simp only [Option.pure_def, Option.some.injEq, Prod.mk.injEq] at h
  obtain ⟨rfl, rfl⟩ := h
  have hi : LInv bits d H ⟨[], [], m⟩ := ⟨fun _ => False, ⟨fun _ h => h.elim, fun _ _ h => h.elim, fun _ h => h.elim, fun _ h => h.elim⟩,
    fun i b' h => by simp at h⟩
  obtain ⟨H', hH, hm⟩ := lowerAccept_inv hbits hh b hb h1 hi
  obtain ⟨k1, k2⟩ := hm _ _ h2
  exact ⟨H', hH, k1, k2 b hb rfl⟩

/-! ### Numbers only grow -/

theorem lowerAtom_next (bits n arg : Nat) (op : JOp) (v : Nat) (jt jf : Block) : n ≤ (lowerAtom bits n arg op v jt jf).2 := by
  unfold lowerAtom
  dsimp only
  split
  · dsimp only; omega
  · split
    all_goals first | (split <;> dsimp only <;> omega) | (dsimp only; omega)

theorem lowerAccept_next {bits : Nat} (b : Block) {s s' : Low} (h : lowerAccept bits b s = some s') : s.next ≤ s'.next := by
  induction b generalizing s s' with
  | basic i act l =>
    simp only [lowerAccept] at h
    split at h
    · simp only [Option.some.injEq] at h; subst h; exact Nat.le_refl _
    · rw [set_shape h]; exact Nat.le_succ _
  | validateArch i b ih =>
    simp only [lowerAccept] at h
    split at h
    · simp only [Option.some.injEq] at h; subst h; exact Nat.le_refl _
    · obtain ⟨s1, h1, h⟩ := Option.bind_eq_some_iff.1 h
      obtain ⟨b', g1, h⟩ := Option.bind_eq_some_iff.1 h
      have := ih h1
      rw [set_shape h]
      dsimp only at *
      omega
  | syscallEntry i op nr jt jf ih1 ih2 =>
    simp only [lowerAccept] at h
    split at h
    · simp only [Option.some.injEq] at h; subst h; exact Nat.le_refl _
    · obtain ⟨s1, h1, h⟩ := Option.bind_eq_some_iff.1 h
      obtain ⟨s2, h2, h⟩ := Option.bind_eq_some_iff.1 h
      obtain ⟨jt', g1, h⟩ := Option.bind_eq_some_iff.1 h
      obtain ⟨jf', g2, h⟩ := Option.bind_eq_some_iff.1 h
      have := ih1 h1
      have := ih2 h2
      rw [set_shape h]
      dsimp only at *
      omega
  | wideAtom i off op v jt jf ih1 ih2 =>
    simp only [lowerAccept] at h
    split at h
    · simp only [Option.some.injEq] at h; subst h; exact Nat.le_refl _
    · obtain ⟨s1, h1, h⟩ := Option.bind_eq_some_iff.1 h
      obtain ⟨s2, h2, h⟩ := Option.bind_eq_some_iff.1 h
      obtain ⟨jt', g1, h⟩ := Option.bind_eq_some_iff.1 h
      obtain ⟨jf', g2, h⟩ := Option.bind_eq_some_iff.1 h
      have := ih1 h1
      have := ih2 h2
      rw [set_shape h]
      dsimp only at *
      omega
  | atom i arg op v jt jf ih1 ih2 =>
    simp only [lowerAccept] at h
    split at h
    · simp only [Option.some.injEq] at h; subst h; exact Nat.le_refl _
    · obtain ⟨s1, h1, h⟩ := Option.bind_eq_some_iff.1 h
      obtain ⟨s2, h2, h⟩ := Option.bind_eq_some_iff.1 h
      obtain ⟨jt', g1, h⟩ := Option.bind_eq_some_iff.1 h
      obtain ⟨jf', g2, h⟩ := Option.bind_eq_some_iff.1 h
      have := ih1 h1
      have := ih2 h2
      have := lowerAtom_next bits s2.next arg op v jt' jf'
      rw [set_shape h]
      dsimp only at *
      omega

/-! ### Conditions -/

open Classical in
/-- A comparison as written. -/
theorem mkAtom_asem {bits : Nat} (hbits : bits = 32 ∨ bits = 64) (d : SeccompData) (id : Nat) (a : PAtom) (hv : a.value < 2 ^ bits) (jt jf : Block) :
    asem bits d (mkAtom id a.arg a.op a.value jt jf) = if patomHolds bits d a then asem bits d jt else asem bits d jf := by
  have sw : ∀ {p q : Prop} (X Y : Verdict), (p ↔ ¬ q) → (if p then X else Y) = if q then Y else X := by
    intro p q X Y h
    by_cases hp : p
    · rw [if_pos hp, if_neg (h.1 hp)]
    · rw [if_neg hp, if_pos (by by_contra hq; exact hp (h.2 hq))]
  obtain ⟨arg, op, v⟩ := a
  dsimp only at *
  unfold patomHolds
  dsimp only
  have hx : argValue bits d arg < 2 ^ 64 := by
    unfold argValue
    split
    · exact lt_of_le_of_lt (Nat.mod_le _ _) (BitVec.isLt _)
    · decide
  have hv64 : v < 2 ^ 64 := by rcases hbits with rfl | rfl <;> omega
  cases op <;> simp only [mkAtom, asem, opCmp] <;> generalize argValue bits d arg = x at hx
  · exact ite_congr' Iff.rfl _ _
  · exact sw _ _ (by simp [jumpTest, Cmp.holds])
  · exact ite_congr' Iff.rfl _ _
  · exact sw _ _ (by simp [jumpTest, Cmp.holds])
  · exact ite_congr' Iff.rfl _ _
  · exact sw _ _ (by simp [jumpTest, Cmp.holds])
  · exact ite_congr' Iff.rfl _ _
  · refine sw _ _ ?_
    simp only [jumpTest, Cmp.holds]
    rw [Nat.mod_eq_of_lt hv64, show 2 ^ 64 - 1 - v = 2 ^ 64 - (v + 1) by omega]
    constructor
    · rintro ⟨b, h1, h2⟩ h
      rw [Nat.testBit_two_pow_sub_succ hv64, h b h1] at h2
      simp at h2
    · intro h
      by_contra hn
      refine h fun b hb => ?_
      by_contra hc
      refine hn ⟨b, hb, ?_⟩
      rw [Nat.testBit_two_pow_sub_succ hv64]
      have := testBit_lt hx hb
      simp [this, Bool.eq_false_iff.2 hc]

theorem mkAtom_tree {bits : Nat} (hbits : bits = 32 ∨ bits = 64) (id : Nat) (a : PAtom) (ha : a.arg < 6) (hv : a.value < 2 ^ bits) (jt jf : Block) :
    Tree bits (mkAtom id a.arg a.op a.value jt jf) ∧ (mkAtom id a.arg a.op a.value jt jf).id = id ∧
      ∀ H : Block → Prop, H jt → H jf → Closed H (mkAtom id a.arg a.op a.value jt jf) := by
  have hv64 : a.value < 2 ^ 64 := by rcases hbits with h | h <;> rw [h] at hv <;> omega
  have h32 : bits = 32 → a.value < 2 ^ 32 := by rintro rfl; exact hv
  unfold mkAtom
  split
  · exact ⟨⟨ha, hv64, fun h => .inr (h32 h)⟩, rfl, fun H h1 h2 => ⟨h1, h2⟩⟩
  · exact ⟨⟨ha, hv64, fun h => .inr (h32 h)⟩, rfl, fun H h1 h2 => ⟨h2, h1⟩⟩
  · exact ⟨⟨ha, hv64, fun h => .inr (h32 h)⟩, rfl, fun H h1 h2 => ⟨h1, h2⟩⟩
  · exact ⟨⟨ha, hv64, fun h => .inr (h32 h)⟩, rfl, fun H h1 h2 => ⟨h2, h1⟩⟩
  · exact ⟨⟨ha, hv64, fun h => .inr (h32 h)⟩, rfl, fun H h1 h2 => ⟨h1, h2⟩⟩
  · exact ⟨⟨ha, hv64, fun h => .inr (h32 h)⟩, rfl, fun H h1 h2 => ⟨h2, h1⟩⟩
  · exact ⟨⟨ha, hv64, fun h => .inr (h32 h)⟩, rfl, fun H h1 h2 => ⟨h1, h2⟩⟩
  · exact ⟨⟨ha, by omega, fun h => .inl rfl⟩, rfl, fun H h1 h2 => ⟨h2, h1⟩⟩

/-- What building a condition does: more objects, and among them the condition. -/
def Builds (bits : Nat) (d : SeccompData) (H : Block → Prop) (n : Nat) (x : Block × Nat) (v : Verdict) : Prop :=
  n ≤ x.2 ∧ ∃ H', (∀ b, H b → H' b) ∧ Heap (Tree bits) H' x.2 ∧ H' x.1 ∧ asem bits d x.1 = v

open Classical in
theorem conjunction_builds {bits : Nat} (hbits : bits = 32 ∨ bits = 64) (d : SeccompData) (atoms : List PAtom) (ha : ∀ a ∈ atoms, a.arg < 6 ∧ a.value < 2 ^ bits)
    {H : Block → Prop} {n : Nat} (hh : Heap (Tree bits) H n) {t f : Block} (ht : H t) (hf : H f) :
    Builds bits d H n (conjunction atoms t f n) (if ∀ a ∈ atoms, patomHolds bits d a then asem bits d t else asem bits d f) := by
  induction atoms generalizing H n t with
  | nil => exact ⟨Nat.le_refl _, H, fun _ h => h, hh, ht, by simp [conjunction]⟩
  | cons a l ih =>
    have h0 := ha a (List.mem_cons_self ..)
    obtain ⟨m1, m2, m3⟩ := mkAtom_tree hbits n a h0.1 h0.2 t f
    have hh' := hh.add m2 (m3 H ht hf) m1
    obtain ⟨k0, H', k1, k2, k3, k4⟩ := ih (fun b hb => ha b (List.mem_cons_of_mem _ hb)) hh' (t := mkAtom n a.arg a.op a.value t f) (.inr rfl) (.inl hf)
    rw [mkAtom_asem hbits d n a h0.2 t f] at k4
    refine ⟨Nat.le_trans (Nat.le_succ _) k0, H', fun b hb => k1 b (.inl hb), k2, k3, ?_⟩
    rw [show conjunction (a :: l) t f n = conjunction l (mkAtom n a.arg a.op a.value t f) f (n + 1) from rfl, k4]
    by_cases h1 : ∀ b ∈ l, patomHolds bits d b
    · rw [if_pos h1]
      apply ite_congr'
      constructor
      · intro h2 b hb
        rcases List.mem_cons.1 hb with rfl | hb
        · exact h2
        · exact h1 b hb
      · intro h2; exact h2 a (List.mem_cons_self ..)
    · rw [if_neg h1, if_neg fun h2 => h1 fun b hb => h2 b (List.mem_cons_of_mem _ hb)]

open Classical in
theorem disjunction_builds {bits : Nat} (hbits : bits = 32 ∨ bits = 64) (d : SeccompData) (e : List (List PAtom)) (ha : ∀ c ∈ e, ∀ a ∈ c, a.arg < 6 ∧ a.value < 2 ^ bits)
    {H : Block → Prop} {n : Nat} (hh : Heap (Tree bits) H n) {t f : Block} (ht : H t) (hf : H f) :
    Builds bits d H n (disjunction e t f n) (if condition bits d (some e) then asem bits d t else asem bits d f) := by
  induction e generalizing H n f with
  | nil => exact ⟨Nat.le_refl _, H, fun _ h => h, hh, hf, by simp [disjunction, condition]⟩
  | cons c l ih =>
    obtain ⟨j0, H1, j1, j2, j3, j4⟩ := conjunction_builds hbits d c (ha c (List.mem_cons_self ..)) hh ht hf
    obtain ⟨k0, H', k1, k2, k3, k4⟩ := ih (fun c hc => ha c (List.mem_cons_of_mem _ hc)) j2 (j1 _ ht) j3
    refine ⟨Nat.le_trans j0 k0, H', fun b hb => k1 b (j1 b hb), k2, k3, ?_⟩
    rw [show disjunction (c :: l) t f n = disjunction l t (conjunction c t f n).1 (conjunction c t f n).2 from rfl, k4, j4]
    by_cases h1 : condition bits d (some l)
    · rw [if_pos h1, if_pos]
      obtain ⟨c, hc, h⟩ := h1
      exact ⟨c, List.mem_cons_of_mem _ hc, h⟩
    · rw [if_neg h1]
      apply ite_congr'
      constructor
      · intro h; exact ⟨c, List.mem_cons_self .., h⟩
      · rintro ⟨c', hc, h⟩
        rcases List.mem_cons.1 hc with rfl | hc
        · exact h
        · exact absurd ⟨c', hc, h⟩ h1

/-- The word of an action. -/
theorem action_small (a : Action) : ∃ w, w < 2 ^ 32 ∧ a.instructions = [⟨RET, 0, 0, w⟩] ∧ BitVec.ofNat 32 w = actionWord a := by
  cases a with
  | returnErrno e =>
    refine ⟨_, ?_, rfl, ?_⟩
    all_goals
      have h1 : e &&& 0x0000FFFF = e % 65536 := Nat.and_two_pow_sub_one_eq_mod e 16
      have h2 : 0x00050000 ||| e % 65536 = 0x50000 + e % 65536 := by
        have := Nat.two_pow_add_eq_or_of_lt (i := 16) (b := e % 65536) (Nat.mod_lt _ (by decide)) 5
        rw [show (0x00050000 : Nat) = 2 ^ 16 * 5 from rfl, this]
      rw [h1, h2]
    · omega
    · rfl
  | _ => exact ⟨_, by decide, rfl, rfl⟩

theorem action_word (a : Action) : ∃ w, a.instructions = [⟨RET, 0, 0, w⟩] ∧ BitVec.ofNat 32 w = actionWord a := by
  obtain ⟨w, -, h⟩ := action_small a
  exact ⟨w, h⟩

theorem asem_action (bits : Nat) (d : SeccompData) (a : ActObj) : asem bits d a.block = .ret (actionWord a.act) := by
  obtain ⟨w, h1, h2⟩ := action_word a.act
  simp only [ActObj.block, asem, h1, execN_ret, h2]

theorem execN_action (d : SeccompData) (a : Action) (p : List SockFilter) (r : Regs) : execN d (a.instructions ++ p) 0 r = .ret (actionWord a) := by
  obtain ⟨w, h1, h2⟩ := action_word a
  simp only [h1, List.cons_append, execN_ret, h2]

open Classical in
theorem filterChain_builds {bits : Nat} (hbits : bits = 32 ∨ bits = 64) (d : SeccompData) (fs : List PFilter)
    (ha : ∀ f ∈ fs, ∃ e, f.expression = some e ∧ ∀ c ∈ e, ∀ a ∈ c, a.arg < 6 ∧ a.value < 2 ^ bits)
    {H : Block → Prop} {n : Nat} (hh : Heap (Tree bits) H n) {last : ActObj} (hl : H last.block) (hf : ∀ f ∈ fs, H f.action.block) :
    ∃ x, filterChain fs last.block n = some x ∧ Builds bits d H n x (.ret (actionWord ((firstMatch bits d fs).getD last.act))) := by
  induction fs with
  | nil => exact ⟨_, rfl, Nat.le_refl _, H, fun _ h => h, hh, hl, by rw [asem_action]; rfl⟩
  | cons f l ih =>
    obtain ⟨x, hx, j0, H1, j1, j2, j3, j4⟩ := ih (fun f hf => ha f (List.mem_cons_of_mem _ hf)) (fun g hg => hf g (List.mem_cons_of_mem _ hg))
    obtain ⟨e, he, h0⟩ := ha f (List.mem_cons_self ..)
    obtain ⟨k0, H', k1, k2, k3, k4⟩ := disjunction_builds hbits d e h0 j2 (j1 _ (hf f (List.mem_cons_self ..))) j3
    refine ⟨disjunction e f.action.block x.1 x.2, ?_, Nat.le_trans j0 k0, H', fun b hb => k1 b (j1 b hb), k2, k3, ?_⟩
    · rw [filterChain, List.foldr_cons, show l.foldr _ _ = _ from hx, he]
      rfl
    · rw [k4, j4, asem_action]
      simp only [firstMatch, he]
      by_cases hc : condition bits d (some e)
      · rw [if_pos hc, if_pos hc]; rfl
      · rw [if_neg hc, if_neg hc]

end Minijail.Offline
