import Verif.Proof.Const
/-! C11: constant expressions evaluate to their documented value. -/
set_option autoImplicit false
namespace Minijail

/-- `parse_constant` computes exactly the relation `Spec.ConstExpr`: it returns `b` exactly for the texts that
denote `b`, and reports an error for every text that denotes nothing (`w` is the width of `long`). -/
theorem C11_constant_exact {w : Nat} (hw : 0 < w) (tbl : ConstTable w) (s : CStr) (b : BitVec w) :
    parseConstant tbl s = some b ↔ Spec.ConstExpr tbl.named w s b.toNat := parseConstant_iff tbl hw s b

/-- Errors: exactly the texts without a denotation. -/
theorem C11_error_exact {w : Nat} (hw : 0 < w) (tbl : ConstTable w) (s : CStr) :
    parseConstant tbl s = none ↔ ∀ v, ¬ Spec.ConstExpr tbl.named w s v := by
  constructor
  · intro h v hv
    have := (loop_complete tbl hw s v hv).2.2
    rw [show parseConstantLoop tbl s none = none from h] at this
    simp at this
  · intro h
    cases hb : parseConstant tbl s with
    | none => rfl
    | some b => exact absurd ((C11_constant_exact hw tbl s b).1 hb) (h _)

/-- The grammar is unambiguous: a text denotes at most one value. -/
theorem C11_value_unique {w : Nat} (hw : 0 < w) (tbl : ConstTable w) (s : CStr) (u v : Nat)
    (hu : Spec.ConstExpr tbl.named w s u) (hv : Spec.ConstExpr tbl.named w s v) : u = v := by
  have h1 := loop_complete tbl hw s u hu
  have h2 := loop_complete tbl hw s v hv
  rw [h1.2.2, Option.some.injEq] at h2
  have := congrArg BitVec.toNat h2.2.2
  simpa [Nat.mod_eq_of_lt h1.1, Nat.mod_eq_of_lt h2.1] using this

/-- The documented forms denote what they say, in particular: -/
theorem C11_name {w : Nat} (hw : 0 < w) (tbl : ConstTable w) (n : CStr) (v : BitVec w)
    (h : tbl.named n = some v.toNat) (hn : n ≠ []) (h1 : '|' ∉ n) (h2 : n.head? ≠ some '(') (h3 : n.head? ≠ some '~') :
    parseConstant tbl n = some v ∧ parseConstant tbl ('~' :: n) = some (~~~v) := by
  constructor
  · exact (C11_constant_exact hw tbl n v).2 (.plain (neg := false) ⟨h1, h2, fun _ => h3⟩ ⟨hn, .inl h⟩)
  · rw [C11_constant_exact hw, BitVec.toNat_not]
    exact .plain (neg := true) ⟨h1, h2, by simp⟩ ⟨hn, .inl h⟩

/-- `e|f`, where `e` is a parenthesised expression. -/
theorem C11_or {w : Nat} (hw : 0 < w) (tbl : ConstTable w) (g f : CStr) (u v : BitVec w)
    (hb : Spec.Balanced g) (hu : parseConstant tbl g = some u) (hv : parseConstant tbl f = some v) :
    parseConstant tbl ('(' :: g ++ ")|".toList ++ f) = some (u ||| v) := by
  rw [C11_constant_exact hw] at *
  rw [BitVec.toNat_or]
  have := Spec.ConstExpr.groupOr (neg := false) hb hu hv
  simpa [Spec.tilde, Spec.compl] using this

/-- `~(e)` is the complement. -/
theorem C11_not {w : Nat} (hw : 0 < w) (tbl : ConstTable w) (g : CStr) (u : BitVec w)
    (hb : Spec.Balanced g) (hu : parseConstant tbl g = some u) :
    parseConstant tbl ("~(".toList ++ g ++ ")".toList) = some (~~~u) := by
  rw [C11_constant_exact hw] at *
  rw [BitVec.toNat_not]
  have := Spec.ConstExpr.group (neg := true) hb hu
  simpa [Spec.tilde, Spec.compl] using this

/-- No number outside `[-2^(w-1), 2^w)` is accepted. -/
theorem C11_overflow {w : Nat} (hw : 0 < w) (tbl : ConstTable w) (s : CStr) (i : Int) (hn : tbl.named s = none)
    (hbar : '|' ∉ s) (hi : Spec.Signed Spec.Literal s i) (ho : i < -2 ^ (w - 1) ∨ 2 ^ w ≤ i) :
    parseConstant tbl s = none := by
  obtain ⟨neg, m, hscan, hval⟩ := (signed_literal_iff s i).1 hi
  have hfirst : s.head? ≠ some '(' ∧ s.head? ≠ some '~' := by
    constructor <;>
    · intro h
      cases s with
      | nil => simp at h
      | cons c s =>
        simp at h; subst h
        revert hscan
        simp [strtolScan, strtolSign, isspace, strtolMag, strtolPrefix, isDigitIn, digitVal]
  rw [show parseConstant tbl s = parseConstantLoop tbl (Spec.tilde false ++ s) none by simp [Spec.tilde, parseConstant]]
  have hs : s ≠ [] := by
    rintro rfl
    simp [strtolScan, strtolSign, strtolMag, strtolPrefix] at hscan
  rw [loop_eq tbl false s none (by simpa [Spec.tilde] using hs) (fun _ => hfirst.2), if_neg hfirst.1, strstr1_none.2 hbar]
  simp only [Option.map_eq_none_iff]
  cases hb : parseSingleConstant tbl s with
  | none => rfl
  | some b =>
    obtain ⟨_, h | ⟨_, j, hj, hj1, hj2, _⟩⟩ := (parseSingle_iff hw tbl s b).1 hb
    · rw [hn] at h; simp at h
    · obtain ⟨neg', m', hscan', hval'⟩ := (signed_literal_iff s j).1 hj
      rw [hscan] at hscan'
      simp only [Option.some.injEq, Prod.mk.injEq] at hscan'
      obtain ⟨rfl, rfl, _⟩ := hscan'
      have : i = j := by rw [hval, hval']
      omega

/-- Empty texts and unclosed groups are errors. -/
theorem C11_malformed {w : Nat} (tbl : ConstTable w) :
    parseConstant tbl [] = none ∧
    ∀ g, (∀ a b, g = a ++ ')' :: b → ¬ Spec.Balanced a) → parseConstant tbl ('(' :: g) = none := by
  refine ⟨loop_nil tbl none, fun g h => ?_⟩
  rw [show parseConstant tbl ('(' :: g) = parseConstantLoop tbl (Spec.tilde false ++ '(' :: g) none by
    simp [Spec.tilde, parseConstant]]
  rw [loop_eq tbl false _ none (by simp [Spec.tilde]) (by simp)]
  simp only [List.head?_cons, if_true, List.tail_cons]
  cases hc : closeParen 1 g with
  | none => rfl
  | some x =>
    obtain ⟨a, b⟩ := x
    obtain ⟨h1, h2⟩ := (closeParen_one _ _ _).1 hc
    exact absurd h2 (h a b h1)

/-- A table with the kernel's `O_*` values, for the examples. -/
def exampleTable : ConstTable 64 :=
  [("O_RDONLY".toList, 0), ("O_WRONLY".toList, 1), ("O_CREAT".toList, 0o100), ("O_APPEND".toList, 0o2000)]

/-- Two balanced texts. -/
theorem example_balanced : Spec.Balanced "O_CREAT|(0x10|010)".toList ∧ Spec.Balanced "0x10|010".toList :=
  ⟨((closeParen_one ("O_CREAT|(0x10|010)".toList ++ [')']) _ []).1 rfl).2,
    ((closeParen_one ("0x10|010".toList ++ [')']) _ []).1 rfl).2⟩

/-- A nested expression with all the operators has a denotation, and the parser finds it. -/
example : parseConstant exampleTable "~(O_CREAT|(0x10|010))|O_WRONLY".toList = some (0xffffffffffffffa7 : BitVec 64) := by
  rw [C11_constant_exact (by decide)]
  have single : ∀ (s : CStr) (v : BitVec 64), parseSingleConstant exampleTable s = some v →
      Spec.Single exampleTable.named 64 s v.toNat := fun s v => (parseSingle_iff (by decide) _ s v).1
  have h1 := single "O_CREAT".toList 0x40 rfl
  have h2 := single "0x10".toList 0x10 rfl
  have h3 := single "010".toList 8 rfl
  have h4 := single "O_WRONLY".toList 1 rfl
  have e1 := Spec.ConstExpr.plainOr (neg := false) (by simp [Spec.PlainToken]) h2
    (.plain (neg := false) (by simp [Spec.PlainToken]) h3)
  have e2 := Spec.ConstExpr.plainOr (neg := false) (by simp [Spec.PlainToken]) h1
    (.group (neg := false) example_balanced.2 e1)
  exact Spec.ConstExpr.groupOr (neg := true) example_balanced.1 e2 (.plain (neg := false) (by simp [Spec.PlainToken]) h4)

/-- `2^64` does not fit, `2^64 - 1` does. -/
example : parseSingleConstant exampleTable "18446744073709551616".toList = none ∧
    parseSingleConstant exampleTable "18446744073709551615".toList = some (-1) := ⟨rfl, rfl⟩

end Minijail
