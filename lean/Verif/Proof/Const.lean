import Verif.Proof.Number
import Verif.Spec.CtxLang
import Mathlib.Tactic.Push
import Mathlib.Tactic.Positivity
import Mathlib.Tactic.Ring
/-! `parse_constant` against the grammar of constant expressions. -/
set_option linter.unusedSimpArgs false
set_option autoImplicit false
namespace Minijail

theorem ofInt_eq_iff {w : Nat} (i : Int) (b : BitVec w) : BitVec.ofInt w i = b ↔ (b.toNat : Int) = i % 2 ^ w := by
  have hpos : (0 : Int) ≤ i % ((2 ^ w : Nat) : Int) := Int.emod_nonneg _ (by positivity)
  have hcast : ((2 ^ w : Nat) : Int) = (2 : Int) ^ w := by norm_cast
  rw [← BitVec.toNat_inj, BitVec.toNat_ofInt]
  rw [← hcast]
  omega

theorem parseNumber_iff {w : Nat} (hw : 0 < w) (s : CStr) (b : BitVec w) :
    (match strtol w 0 s with
    | none => none
    | some r =>
      if r.erange then
        if r.val = 2 ^ (w - 1) - 1 then
          match strtoul w 0 s with
          | none => none
          | some r' => if r'.erange then none else if r'.rest ≠ [] then none else some (BitVec.ofInt w r'.val)
        else none
      else if r.rest ≠ [] then none
      else some (BitVec.ofInt w r.val)) = some b ↔ Spec.Number w s b.toNat := by
  have hpow : (2 : Int) ^ w = 2 * 2 ^ (w - 1) := by
    obtain ⟨k, rfl⟩ : ∃ k, w = k + 1 := ⟨w - 1, by omega⟩
    simp [pow_succ]; ring
  have hpowN : (2 : Nat) ^ w = 2 * 2 ^ (w - 1) := by
    obtain ⟨k, rfl⟩ : ∃ k, w = k + 1 := ⟨w - 1, by omega⟩
    simp [pow_succ]; ring
  have hp1 : (0 : Int) < 2 ^ (w - 1) := by positivity
  have hc1 : ((2 ^ (w - 1) : Nat) : Int) = (2 : Int) ^ (w - 1) := by norm_cast
  unfold Spec.Number
  simp only [signed_literal_iff]
  cases hs : strtolScan 0 s with
  | none => simp [strtol, hs]
  | some x =>
    obtain ⟨neg, m, rest⟩ := x
    simp only [strtol, strtoul, hs]
    have key : (∃ i : Int, (∃ neg' m', some (neg, m, rest) = some (neg', m', []) ∧
          i = if neg' = true then -(m' : Int) else m') ∧ -2 ^ (w - 1) ≤ i ∧ i < 2 ^ w ∧ (b.toNat : Int) = i % 2 ^ w) ↔
        (rest = [] ∧ -2 ^ (w - 1) ≤ (if neg = true then -(m : Int) else m) ∧
          (if neg = true then -(m : Int) else m) < 2 ^ w ∧
          (b.toNat : Int) = (if neg = true then -(m : Int) else m) % 2 ^ w) := by
      constructor
      · rintro ⟨i, ⟨neg', m', h1, rfl⟩, h2⟩
        simp only [Option.some.injEq, Prod.mk.injEq] at h1
        obtain ⟨rfl, rfl, rfl⟩ := h1
        exact ⟨rfl, h2⟩
      · rintro ⟨rfl, h2⟩
        exact ⟨_, ⟨neg, m, rfl, rfl⟩, h2⟩
    rw [key]
    cases neg with
    | true =>
      simp only [if_true]
      by_cases hm : m ≤ 2 ^ (w - 1)
      · simp only [if_pos hm, Bool.false_eq_true, if_false]
        by_cases hr : rest = []
        · subst hr
          simp only [ne_eq, not_true_eq_false, if_false, Option.some.injEq, ofInt_eq_iff, true_and]
          constructor
          · intro h; exact ⟨by omega, by omega, h⟩
          · rintro ⟨_, _, h⟩; exact h
        · simp [hr]
      · simp only [if_neg hm, if_true]
        have : ¬ (-(2:Int) ^ (w - 1) = 2 ^ (w - 1) - 1) := by omega
        rw [if_neg this]
        constructor
        · intro h; simp at h
        · rintro ⟨_, h, _⟩; omega
    | false =>
      simp only [Bool.false_eq_true, if_false]
      by_cases hm : m < 2 ^ (w - 1)
      · simp only [if_pos hm, Bool.false_eq_true, if_false]
        by_cases hr : rest = []
        · subst hr
          simp only [ne_eq, not_true_eq_false, if_false, Option.some.injEq, ofInt_eq_iff, true_and]
          constructor
          · intro h; exact ⟨by omega, by omega, h⟩
          · rintro ⟨_, _, h⟩; exact h
        · simp [hr]
      · simp only [if_neg hm, if_true]
        by_cases hm2 : m < 2 ^ w
        · simp only [if_pos hm2, Bool.false_eq_true, if_false]
          by_cases hr : rest = []
          · subst hr
            simp only [ne_eq, not_true_eq_false, if_false, Option.some.injEq, ofInt_eq_iff, true_and]
            constructor
            · intro h; exact ⟨by omega, by omega, h⟩
            · rintro ⟨_, _, h⟩; exact h
          · simp [hr]
        · simp only [if_neg hm2, if_true]
          constructor
          · intro h; simp at h
          · rintro ⟨_, _, h, _⟩; omega

theorem parseSingle_iff {w : Nat} (hw : 0 < w) (tbl : ConstTable w) (s : CStr) (b : BitVec w) :
    parseSingleConstant tbl s = some b ↔ Spec.Single tbl.named w s b.toNat := by
  unfold parseSingleConstant Spec.Single ConstTable.named
  cases hf : tbl.find? (fun e => e.1 == s) with
  | some e =>
    simp only [Option.map_some, Option.some.injEq, reduceCtorEq, false_and, or_false]
    by_cases hs : s = []
    · simp [hs]
    · simp only [hs, if_false, Option.some.injEq, ne_eq, not_false_eq_true, true_and]
      exact BitVec.toNat_inj.symm
  | none =>
    simp only [Option.map_none, reduceCtorEq, false_or, true_and]
    refine Iff.trans (parseNumber_iff hw s b) ?_
    constructor
    · intro h
      refine ⟨?_, h⟩
      rintro rfl
      obtain ⟨i, hi, _⟩ := h
      obtain ⟨neg, m, h1, _⟩ := (signed_literal_iff _ _).1 hi
      simp [strtolScan, strtolSign, strtolMag, strtolPrefix] at h1
    · exact fun h => h.2

/-! ### Parentheses -/

/-- Scanning at depth `n` reaches depth 0 exactly after the text. -/
def bal : Nat → CStr → Prop
  | n, [] => n = 1
  | n, c :: s => if c = '(' then bal (n + 1) s else if c = ')' then 2 ≤ n ∧ bal (n - 1) s else bal n s

theorem closeParen_iff (n : Nat) (hn : 1 ≤ n) (s g rest : CStr) :
    closeParen n s = some (g, rest) ↔ s = g ++ ')' :: rest ∧ bal n g := by
  induction s generalizing n g with
  | nil => simp [closeParen]
  | cons c s ih =>
    simp only [closeParen]
    have key : ∀ m, 1 ≤ m →
        ((closeParen m s).map (fun (x : CStr × CStr) => (c :: x.1, x.2)) = some (g, rest) ↔
          ∃ g', g = c :: g' ∧ s = g' ++ ')' :: rest ∧ bal m g') := by
      intro m hm
      rw [Option.map_eq_some_iff]
      constructor
      · rintro ⟨⟨a, b⟩, h1, h2⟩
        simp only [Prod.mk.injEq] at h2
        obtain ⟨rfl, rfl⟩ := h2
        exact ⟨a, rfl, (ih m hm a).1 h1⟩
      · rintro ⟨g', rfl, h1, h2⟩
        exact ⟨(g', rest), (ih m hm g').2 ⟨h1, h2⟩, rfl⟩
    by_cases h1 : c = '('
    · subst h1
      simp only [if_true]
      rw [key _ (by omega)]
      constructor
      · rintro ⟨g', rfl, rfl, h⟩; exact ⟨rfl, by simpa [bal] using h⟩
      · rintro ⟨h, hb⟩
        cases g with
        | nil => simp at h
        | cons d g =>
          simp only [List.cons_append, List.cons.injEq] at h
          obtain ⟨rfl, rfl⟩ := h
          exact ⟨g, rfl, rfl, by simpa [bal] using hb⟩
    · simp only [h1, if_false]
      by_cases h2 : c = ')'
      · subst h2
        simp only [if_true]
        by_cases h3 : n - 1 = 0
        · simp only [h3, if_true, Option.some.injEq, Prod.mk.injEq]
          have : n = 1 := by omega
          subst this
          constructor
          · rintro ⟨rfl, rfl⟩; simp [bal]
          · rintro ⟨h, hb⟩
            cases g with
            | nil => simpa using h
            | cons d g =>
              simp only [List.cons_append, List.cons.injEq] at h
              obtain ⟨rfl, rfl⟩ := h
              simp [bal] at hb
        · simp only [h3, if_false]
          rw [key _ (by omega)]
          constructor
          · rintro ⟨g', rfl, rfl, h⟩; refine ⟨rfl, ?_⟩; simp only [bal]; simp; exact ⟨by omega, h⟩
          · rintro ⟨h, hb⟩
            cases g with
            | nil => simp only [bal] at hb; omega
            | cons d g =>
              simp only [List.cons_append, List.cons.injEq] at h
              obtain ⟨rfl, rfl⟩ := h
              simp only [bal] at hb
              simp at hb
              exact ⟨g, rfl, rfl, hb.2⟩
      · simp only [h2, if_false]
        rw [key _ hn]
        constructor
        · rintro ⟨g', rfl, rfl, h⟩; exact ⟨rfl, by simpa [bal, h1, h2] using h⟩
        · rintro ⟨h, hb⟩
          cases g with
          | nil => simp at h; exact absurd h.1 h2
          | cons d g =>
            simp only [List.cons_append, List.cons.injEq] at h
            obtain ⟨rfl, rfl⟩ := h
            exact ⟨g, rfl, rfl, by simpa [bal, h1, h2] using hb⟩

theorem bal_iff (n : Nat) (hn : 1 ≤ n) (s : CStr) : bal n s ↔
    (∀ k, (s.take k).count ')' < n + (s.take k).count '(') ∧ n + s.count '(' = s.count ')' + 1 := by
  induction s generalizing n with
  | nil => simp [bal]; omega
  | cons c s ih =>
    simp only [bal]
    by_cases h1 : c = '('
    · subst h1
      simp only [if_true]
      rw [ih _ (by omega)]
      constructor
      · rintro ⟨h, h'⟩
        constructor
        · intro k
          cases k with
          | zero => simp; omega
          | succ k => have := h k; simp only [List.take_succ_cons, List.count_cons]; simp; omega
        · simp only [List.count_cons]; simp; omega
      · rintro ⟨h, h'⟩
        constructor
        · intro k
          have := h (k + 1); simp only [List.take_succ_cons, List.count_cons] at this; simp at this; omega
        · simp only [List.count_cons] at h'; simp at h'; omega
    · by_cases h2 : c = ')'
      · subst h2
        simp only [h1, if_false, if_true]
        constructor
        · rintro ⟨h0, h⟩
          obtain ⟨h, h'⟩ := (ih _ (by omega)).1 h
          constructor
          · intro k
            cases k with
            | zero => simp; omega
            | succ k => have := h k; simp only [List.take_succ_cons, List.count_cons]; simp; omega
          · simp only [List.count_cons]; simp; omega
        · rintro ⟨h, h'⟩
          have h0 : 2 ≤ n := by have := h 1; simp at this; omega
          refine ⟨h0, (ih _ (by omega)).2 ⟨?_, ?_⟩⟩
          · intro k
            have := h (k + 1); simp only [List.take_succ_cons, List.count_cons] at this; simp at this; omega
          · simp only [List.count_cons] at h'; simp at h'; omega
      · simp only [h1, h2, if_false]
        rw [ih _ hn]
        constructor
        · rintro ⟨h, h'⟩
          constructor
          · intro k
            cases k with
            | zero => simp; omega
            | succ k => have := h k; simp only [List.take_succ_cons, List.count_cons]; simp [h1, h2]; omega
          · simp only [List.count_cons]; simp [h1, h2]; omega
        · rintro ⟨h, h'⟩
          constructor
          · intro k
            have := h (k + 1); simp only [List.take_succ_cons, List.count_cons] at this; simp [h1, h2] at this; omega
          · simp only [List.count_cons] at h'; simp [h1, h2] at h'; omega

theorem closeParen_one (s g rest : CStr) :
    closeParen 1 s = some (g, rest) ↔ s = g ++ ')' :: rest ∧ Spec.Balanced g := by
  rw [closeParen_iff 1 (by omega), bal_iff 1 (by omega)]
  unfold Spec.Balanced
  constructor
  · rintro ⟨h1, h2, h3⟩; exact ⟨h1, fun k => by have := h2 k; omega, by omega⟩
  · rintro ⟨h1, h2, h3⟩; exact ⟨h1, fun k => by have := h2 k; omega, by omega⟩

/-! ### One-character separators -/

theorem strstr1_none {d : Char} {s : CStr} : strstr [d] s = none ↔ d ∉ s := by
  induction s with
  | nil => simp [strstr]
  | cons c s ih =>
    rw [strstr]
    by_cases h : d = c
    · subst h; simp [List.isPrefixOf]
    · simp [List.isPrefixOf, h, ih]

theorem strstr1_some {d : Char} {s a b : CStr} : strstr [d] s = some (a, b) ↔ s = a ++ d :: b ∧ d ∉ a := by
  induction s generalizing a with
  | nil => simp [strstr]
  | cons c s ih =>
    rw [strstr]
    by_cases h : d = c
    · subst h
      simp only [List.isPrefixOf, beq_self_eq_true, Bool.true_and, if_true, List.length_cons, List.length_nil,
        Option.some.injEq, Prod.mk.injEq]
      constructor
      · rintro ⟨rfl, rfl⟩; simp
      · rintro ⟨h1, h2⟩
        cases a with
        | nil => simpa using h1
        | cons e a => simp at h1; obtain ⟨rfl, _⟩ := h1; simp at h2
    · have hp : ([d] : CStr).isPrefixOf (c :: s) = false := by simp [List.isPrefixOf, h]
      rw [hp]
      simp only [Bool.false_eq_true, if_false, Option.map_eq_some_iff, Prod.mk.injEq]
      constructor
      · rintro ⟨⟨a', b'⟩, h1, h2, h3⟩
        simp only at h2 h3
        subst h2 h3
        obtain ⟨rfl, h5⟩ := ih.1 h1
        refine ⟨rfl, ?_⟩
        simp [h, h5]
      · rintro ⟨h1, h2⟩
        cases a with
        | nil => simp at h1; exact absurd h1.1.symm h
        | cons e a =>
          simp only [List.cons_append, List.cons.injEq] at h1
          obtain ⟨rfl, rfl⟩ := h1
          simp only [List.mem_cons, not_or] at h2
          exact ⟨(a, b), ih.2 ⟨rfl, h2.2⟩, rfl, rfl⟩

/-! ### The loop -/

section loop
variable {w : Nat} (tbl : ConstTable w)

/-- The value a constant contributes. -/
def cval (neg : Bool) (v : BitVec w) : BitVec w := if neg then ~~~v else v

theorem bv_zero_or (x : BitVec w) : (0 : BitVec w) ||| x = x := BitVec.zero_or

theorem cval_toNat (neg : Bool) (v : BitVec w) : (cval neg v).toNat = Spec.compl w neg v.toNat := by
  cases neg <;> simp [cval, Spec.compl]

theorem tilde_split (s : CStr) : ∃ neg s1, s = Spec.tilde neg ++ s1 ∧ (neg = false → s1.head? ≠ some '~') := by
  by_cases h : s.head? = some '~'
  · cases s with
    | nil => simp at h
    | cons c s => simp at h; subst h; exact ⟨true, s, by simp [Spec.tilde], by simp⟩
  · exact ⟨false, s, by simp [Spec.tilde], fun _ => h⟩

theorem loop_eq (neg : Bool) (s1 : CStr) (acc : Option (BitVec w)) (hne : Spec.tilde neg ++ s1 ≠ [])
    (hn : neg = false → s1.head? ≠ some '~') :
    parseConstantLoop tbl (Spec.tilde neg ++ s1) acc =
      if s1.head? = some '(' then
        match closeParen 1 s1.tail with
        | none => none
        | some (g, rest) =>
          match parseConstantLoop tbl g none with
          | none => none
          | some v =>
            if rest = [] then some (acc.getD 0 ||| cval neg v)
            else if rest.head? ≠ some '|' then none
            else if rest.tail = [] then none
            else parseConstantLoop tbl rest.tail (some (acc.getD 0 ||| cval neg v))
      else
        match strstr ['|'] s1 with
        | none => (parseSingleConstant tbl s1).map fun v => acc.getD 0 ||| cval neg v
        | some (tok, rest) =>
          match parseSingleConstant tbl tok with
          | none => none
          | some v => parseConstantLoop tbl rest (some (acc.getD 0 ||| cval neg v)) := by
  rw [parseConstantLoop]
  rw [dif_neg hne]
  have h1 : ((Spec.tilde neg ++ s1).head? = some '~') ↔ neg = true := by
    cases neg <;> simp [Spec.tilde] at *; exact hn
  have h2 : (if (Spec.tilde neg ++ s1).head? = some '~' then (Spec.tilde neg ++ s1).tail else Spec.tilde neg ++ s1) = s1 := by
    cases neg with
    | false => simp only [h1]; simp [Spec.tilde]
    | true => simp only [h1]; simp [Spec.tilde]
  simp only [h2]
  by_cases hp : s1.head? = some '('
  · simp only [hp, dite_true, if_true]
    split
    · next h => rw [h2] at h; simp only [h]
    · next g rest h =>
      rw [h2] at h
      simp only [h]
      cases parseConstantLoop tbl g none with
      | none => rfl
      | some v =>
        simp only [cval, h1]
        rfl
  · simp only [hp, dite_false, if_false]
    split
    · next h => rw [h2] at h; simp only [h, h1]; rfl
    · next tok rest h => rw [h2] at h; simp only [h, h1]; rfl

theorem loop_nil (acc : Option (BitVec w)) : parseConstantLoop tbl [] acc = acc := by
  rw [parseConstantLoop]; simp

theorem loop_acc (s : CStr) (hs : s ≠ []) (a : BitVec w) :
    parseConstantLoop tbl s (some a) = (parseConstantLoop tbl s none).map (a ||| ·) := by
  obtain ⟨n, hn⟩ : ∃ n, s.length < n := ⟨_, Nat.lt_succ_self _⟩
  induction n generalizing s a with
  | zero => omega
  | succ n ih =>
    obtain ⟨neg, s1, rfl, hneg⟩ := tilde_split s
    rw [loop_eq tbl neg s1 _ hs hneg, loop_eq tbl neg s1 _ hs hneg]
    have hl : s1.length ≤ (Spec.tilde neg ++ s1).length := by simp
    simp only [Option.getD_none, Option.getD_some, bv_zero_or]
    by_cases hp : s1.head? = some '('
    · simp only [hp, if_true]
      cases hc : closeParen 1 s1.tail with
      | none => simp
      | some x =>
        obtain ⟨g, rest⟩ := x
        simp only
        cases parseConstantLoop tbl g none with
        | none => rfl
        | some v =>
          simp only
          by_cases hr : rest = []
          · simp [hr]
          · by_cases hr2 : rest.head? = some '|'
            · by_cases hr3 : rest.tail = []
              · simp [hr, hr2, hr3]
              · have hlen : rest.tail.length < n := by
                  have := closeParen_length hc
                  simp only [List.length_tail] at this ⊢
                  omega
                simp only [hr, hr2, hr3, if_false, ne_eq, not_true_eq_false]
                rw [ih _ hr3 _ hlen, ih _ hr3 _ hlen, Option.map_map]
                congr 1
                funext x
                simp [Function.comp, BitVec.or_assoc]
            · simp [hr, hr2]
    · simp only [hp, if_false]
      cases ht : strstr ['|'] s1 with
      | none => simp only [Option.map_map]; congr 1
      | some x =>
        obtain ⟨tok, rest⟩ := x
        simp only
        cases parseSingleConstant tbl tok with
        | none => rfl
        | some v =>
          simp only
          by_cases hr : rest = []
          · subst hr; simp [loop_nil]
          · have hlen : rest.length < n := by
              have := strstr_length ht
              simp only [List.length_cons, List.length_nil] at this
              omega
            rw [ih _ hr _ hlen, ih _ hr _ hlen, Option.map_map]
            congr 1
            funext x
            simp [Function.comp, BitVec.or_assoc]

theorem tilde_cons_ne (neg : Bool) (s : CStr) (h : s ≠ []) : Spec.tilde neg ++ s ≠ [] := by
  cases neg <;> simp [Spec.tilde, h]

theorem loop_sound (hw : 0 < w) (s : CStr) (b : BitVec w) (h : parseConstantLoop tbl s none = some b) :
    Spec.ConstExpr tbl.named w s b.toNat := by
  obtain ⟨n, hn⟩ : ∃ n, s.length < n := ⟨_, Nat.lt_succ_self _⟩
  induction n generalizing s b with
  | zero => omega
  | succ n ih =>
    have hs : s ≠ [] := by rintro rfl; simp [loop_nil] at h
    obtain ⟨neg, s1, rfl, hneg⟩ := tilde_split s
    have hl : s1.length ≤ (Spec.tilde neg ++ s1).length := by simp
    rw [loop_eq tbl neg s1 _ hs hneg] at h
    simp only [Option.getD_none, bv_zero_or] at h
    by_cases hp : s1.head? = some '('
    · simp only [hp, if_true] at h
      obtain ⟨s2, rfl⟩ : ∃ s2, s1 = '(' :: s2 := by
        cases s1 with
        | nil => simp at hp
        | cons c s2 => simp at hp; subst hp; exact ⟨s2, rfl⟩
      simp only [List.tail_cons] at h
      cases hc : closeParen 1 s2 with
      | none => simp [hc] at h
      | some x =>
        obtain ⟨g, rest⟩ := x
        have hlen := closeParen_length hc
        obtain ⟨rfl, hbal⟩ := (closeParen_one _ _ _).1 hc
        simp only [hc] at h
        cases hg : parseConstantLoop tbl g none with
        | none => simp [hg] at h
        | some v =>
          simp only [List.length_cons] at hl
          have hgc := ih g v hg (by omega)
          simp only [hg] at h
          by_cases hr : rest = []
          · subst hr
            simp only [if_true, Option.some.injEq] at h
            subst h
            rw [cval_toNat]
            have := Spec.ConstExpr.group (neg := neg) hbal hgc
            simpa using this
          · simp only [hr, if_false] at h
            by_cases hr2 : rest.head? = some '|'
            · by_cases hr3 : rest.tail = []
              · simp [hr2, hr3] at h
              · simp only [hr2, hr3, if_false, ne_eq, not_true_eq_false] at h
                rw [loop_acc tbl _ hr3, Option.map_eq_some_iff] at h
                obtain ⟨u, hu, rfl⟩ := h
                obtain ⟨r, rfl⟩ : ∃ r, rest = '|' :: r := by
                  cases rest with
                  | nil => simp at hr2
                  | cons c r => simp at hr2; subst hr2; exact ⟨r, rfl⟩
                simp only [List.length_cons] at hlen
                have huc := ih _ u hu (by simp only [List.tail_cons]; omega)
                rw [BitVec.toNat_or, cval_toNat]
                have := Spec.ConstExpr.groupOr (neg := neg) hbal hgc huc
                simpa using this
            · simp [hr2] at h
    · simp only [hp, if_false] at h
      cases ht : strstr ['|'] s1 with
      | none =>
        simp only [ht, Option.map_eq_some_iff] at h
        obtain ⟨v, hv, rfl⟩ := h
        rw [cval_toNat]
        exact .plain ⟨strstr1_none.1 ht, hp, hneg⟩ ((parseSingle_iff hw tbl s1 v).1 hv)
      | some x =>
        obtain ⟨tok, rest⟩ := x
        have hlen := strstr_length ht
        simp only [List.length_cons, List.length_nil] at hlen
        obtain ⟨rfl, hnot⟩ := strstr1_some.1 ht
        simp only [ht] at h
        cases hv : parseSingleConstant tbl tok with
        | none => simp [hv] at h
        | some v =>
          have hvc := (parseSingle_iff hw tbl tok v).1 hv
          simp only [hv] at h
          have hplain : Spec.PlainToken neg tok := by
            refine ⟨hnot, ?_, ?_⟩
            · intro hh; apply hp; cases tok <;> simp_all
            · intro hh hh'; apply hneg hh; cases tok <;> simp_all
          by_cases hr : rest = []
          · subst hr
            simp only [loop_nil, Option.some.injEq] at h
            subst h
            rw [cval_toNat]
            have := Spec.ConstExpr.trailingBar (neg := neg) hplain hvc
            simpa using this
          · rw [loop_acc tbl _ hr, Option.map_eq_some_iff] at h
            obtain ⟨u, hu, rfl⟩ := h
            have huc := ih _ u hu (by omega)
            rw [BitVec.toNat_or, cval_toNat]
            have := Spec.ConstExpr.plainOr (neg := neg) hplain hvc huc
            simpa using this

theorem named_lt (n : CStr) (v : Nat) (h : tbl.named n = some v) : v < 2 ^ w := by
  unfold ConstTable.named at h
  rw [Option.map_eq_some_iff] at h
  obtain ⟨e, _, rfl⟩ := h
  exact e.2.isLt

theorem single_lt (s : CStr) (v : Nat) (h : Spec.Single tbl.named w s v) : v < 2 ^ w := by
  obtain ⟨_, h | ⟨_, i, _, _, _, hv⟩⟩ := h
  · exact named_lt tbl _ _ h
  · have hcast : ((2 ^ w : Nat) : Int) = (2 : Int) ^ w := by norm_cast
    have := Int.emod_lt_of_pos i (show (0 : Int) < 2 ^ w by positivity)
    omega

theorem compl_lt (neg : Bool) (v : Nat) (h : v < 2 ^ w) : Spec.compl w neg v < 2 ^ w := by
  unfold Spec.compl; split <;> omega

theorem single_parse (hw : 0 < w) (s : CStr) (v : Nat) (h : Spec.Single tbl.named w s v) :
    parseSingleConstant tbl s = some (BitVec.ofNat w v) := by
  rw [parseSingle_iff hw, BitVec.toNat_ofNat, Nat.mod_eq_of_lt (single_lt tbl _ _ h)]
  exact h

theorem cval_ofNat (neg : Bool) (v : Nat) (h : v < 2 ^ w) :
    cval neg (BitVec.ofNat w v) = BitVec.ofNat w (Spec.compl w neg v) := by
  apply BitVec.eq_of_toNat_eq
  rw [cval_toNat, BitVec.toNat_ofNat, BitVec.toNat_ofNat, Nat.mod_eq_of_lt h, Nat.mod_eq_of_lt (compl_lt neg v h)]

theorem loop_complete (hw : 0 < w) (s : CStr) (v : Nat) (h : Spec.ConstExpr tbl.named w s v) :
    v < 2 ^ w ∧ s ≠ [] ∧ parseConstantLoop tbl s none = some (BitVec.ofNat w v) := by
  have single_head : ∀ {neg tok v}, Spec.PlainToken neg tok → Spec.Single tbl.named w tok v → tok ≠ [] := fun _ h => h.1
  have orlem : ∀ a b : Nat, BitVec.ofNat w a ||| BitVec.ofNat w b = BitVec.ofNat w (a ||| b) := by
    intro a b
    apply BitVec.eq_of_toNat_eq
    simp [BitVec.toNat_or, Nat.or_mod_two_pow]
  induction h with
  | @plain neg tok v hp hs =>
    have hv := single_lt tbl _ _ hs
    refine ⟨compl_lt neg v hv, tilde_cons_ne _ _ hs.1, ?_⟩
    rw [loop_eq tbl neg tok _ (tilde_cons_ne _ _ hs.1) hp.2.2, if_neg hp.2.1, strstr1_none.2 hp.1]
    simp [single_parse tbl hw _ _ hs, cval_ofNat neg v hv]
  | @group neg g v hb _ ih =>
    obtain ⟨hv, _, ih⟩ := ih
    have hne : Spec.tilde neg ++ ('(' :: g ++ [')']) ≠ [] := tilde_cons_ne _ _ (by simp)
    have hc : closeParen 1 (g ++ [')']) = some (g, []) := (closeParen_one _ _ _).2 ⟨rfl, hb⟩
    have e : Spec.tilde neg ++ '(' :: g ++ [')'] = Spec.tilde neg ++ ('(' :: g ++ [')']) := by simp
    rw [e]
    refine ⟨compl_lt neg v hv, hne, ?_⟩
    rw [loop_eq tbl neg _ _ hne (by simp)]
    simp [hc, ih, cval_ofNat neg v hv]
  | @plainOr neg tok v rest u hp hs _ ih =>
    have hv := single_lt tbl _ _ hs
    obtain ⟨hu, hr, ih⟩ := ih
    have e : Spec.tilde neg ++ tok ++ '|' :: rest = Spec.tilde neg ++ (tok ++ '|' :: rest) := by simp
    have hne : Spec.tilde neg ++ (tok ++ '|' :: rest) ≠ [] := tilde_cons_ne _ _ (by simp)
    rw [e]
    refine ⟨Nat.or_lt_two_pow (compl_lt neg v hv) hu, hne, ?_⟩
    have h1 : (tok ++ '|' :: rest).head? = tok.head? := by
      have := hs.1; cases tok <;> simp_all
    rw [loop_eq tbl neg _ _ hne (by rw [h1]; exact hp.2.2), if_neg (by rw [h1]; exact hp.2.1),
      strstr1_some.2 ⟨rfl, hp.1⟩]
    simp only [single_parse tbl hw _ _ hs]
    rw [loop_acc tbl _ hr, ih]
    simp only [Option.map_some, Option.getD_none, bv_zero_or, cval_ofNat neg v hv, orlem]
  | @groupOr neg g v rest u hb _ _ ihg ih =>
    obtain ⟨hv, _, ihg⟩ := ihg
    obtain ⟨hu, hr, ih⟩ := ih
    have e : Spec.tilde neg ++ '(' :: g ++ ')' :: '|' :: rest = Spec.tilde neg ++ ('(' :: g ++ ')' :: '|' :: rest) := by simp
    have hne : Spec.tilde neg ++ ('(' :: g ++ ')' :: '|' :: rest) ≠ [] := tilde_cons_ne _ _ (by simp)
    rw [e]
    have hc : closeParen 1 (g ++ ')' :: '|' :: rest) = some (g, '|' :: rest) := (closeParen_one _ _ _).2 ⟨rfl, hb⟩
    refine ⟨Nat.or_lt_two_pow (compl_lt neg v hv) hu, hne, ?_⟩
    rw [loop_eq tbl neg _ _ hne (by simp)]
    simp [hc, ihg, hr]
    rw [loop_acc tbl _ hr, ih]
    simp only [Option.map_some, Option.getD_none, bv_zero_or, cval_ofNat neg v hv, orlem]
  | @trailingBar neg tok v hp hs =>
    have hv := single_lt tbl _ _ hs
    have e : Spec.tilde neg ++ tok ++ ['|'] = Spec.tilde neg ++ (tok ++ '|' :: []) := by simp
    have hne : Spec.tilde neg ++ (tok ++ '|' :: []) ≠ [] := tilde_cons_ne _ _ (by simp)
    rw [e]
    refine ⟨compl_lt neg v hv, hne, ?_⟩
    have h1 : (tok ++ '|' :: []).head? = tok.head? := by
      have := hs.1; cases tok <;> simp_all
    rw [loop_eq tbl neg _ _ hne (by rw [h1]; exact hp.2.2), if_neg (by rw [h1]; exact hp.2.1),
      strstr1_some.2 ⟨rfl, hp.1⟩]
    simp [single_parse tbl hw _ _ hs, loop_nil, cval_ofNat neg v hv]

/-- The code computes exactly the relation of the specification. -/
theorem parseConstant_iff (hw : 0 < w) (s : CStr) (b : BitVec w) :
    parseConstant tbl s = some b ↔ Spec.ConstExpr tbl.named w s b.toNat := by
  constructor
  · exact loop_sound tbl hw s b
  · intro h
    have := (loop_complete tbl hw s _ h).2.2
    rw [BitVec.ofNat_toNat, BitVec.setWidth_eq] at this
    exact this

end loop
end Minijail
