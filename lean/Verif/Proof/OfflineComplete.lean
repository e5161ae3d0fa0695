import Verif.Proof.OfflineParse
/-! The parser of tools/parser.py reads every phrase of its grammar, and reads it in one way only. -/
set_option linter.unusedSimpArgs false
set_option autoImplicit false
namespace Minijail.Offline
open Minijail.Spec

/-- The next token is of none of these types. -/
def NotIn (l : List TokType) (rest : List Token) : Prop := ∀ t, rest.head? = some t → t.type ∉ l

theorem notIn_nil (l : List TokType) : NotIn l [] := by intro t h; simp at h

theorem notIn_cons {l : List TokType} {t : Token} {rest : List Token} : NotIn l (t :: rest) ↔ t.type ∉ l := by simp [NotIn]

theorem NotIn.mono {l l' : List TokType} {rest : List Token} (h : NotIn l rest) (hl : ∀ x ∈ l', x ∈ l) : NotIn l' rest := fun t ht hm => h t ht (hl _ hm)

/-- A phrase is read as it means, if what follows cannot be taken for more of it. -/
def Reads {α β : Type} (p : PS → Option (α × PS)) (F : List Token → Prop) (view : α → β) (ts : List Token) (x : β) : Prop :=
  ts ≠ [] ∧ ∀ rest n, F rest → ∃ y n', p ⟨ts ++ rest, n⟩ = some (y, ⟨rest, n'⟩) ∧ view y = x

theorem Reads.mono {α β : Type} {p : PS → Option (α × PS)} {F G : List Token → Prop} {view : α → β} {ts : List Token} {x : β} (h : Reads p F view ts x)
    (hg : ∀ r, G r → F r) : Reads p G view ts x := ⟨h.1, fun rest n hr => h.2 rest n (hg rest hr)⟩

theorem expect_cons {ty : TokType} {t : Token} {ts : List Token} {n : Nat} (h : t.type = ty) : PS.expect ty ⟨t :: ts, n⟩ = some (t, ⟨ts, n⟩) := by
  simp [PS.expect, h]

theorem peek_notIn {l : List TokType} {rest : List Token} {n : Nat} {ty : TokType} (h : NotIn l rest) (ht : ty ∈ l) : (PS.mk rest n).peek ≠ some ty := by
  intro hp
  obtain ⟨t, e1, e2, -⟩ := peek_some hp
  dsimp only at e1
  refine h t (by rw [e1]; rfl) (by rw [e2]; exact ht)

theorem sepBy_reads {α β : Type} {sep : TokType} {item : PS → Option (α × PS)} {Item : List Token → β → Prop} {view : α → β} {F : List Token → Prop} {m : Nat}
    (hi : ∀ ts x, Item ts x → ts.length ≤ m → Reads item F view ts x) (hs : ∀ t rest, t.type = sep → F (t :: rest)) {ts : List Token} {xs : List β}
    (h : SepBy sep Item ts xs) : ts.length ≤ m → ∀ fuel, ts.length ≤ fuel → Reads (sepBy sep item fuel) (fun r => F r ∧ NotIn [sep] r) (List.map view) ts xs := by
  induction h with
  | @one ts x h =>
    intro hm fuel hf
    obtain ⟨hne, hr⟩ := hi _ _ h hm
    refine ⟨hne, ?_⟩
    rintro rest n ⟨hF, hN⟩
    obtain ⟨y, n', e, hv⟩ := hr rest n hF
    obtain ⟨fuel, rfl⟩ : ∃ k, fuel = k + 1 := ⟨fuel - 1, by have := List.length_pos_iff.2 hne; omega⟩
    refine ⟨[y], n', ?_, by simp [hv]⟩
    unfold sepBy
    rw [if_neg (by simp [hne]), e]
    simp only [Option.bind_eq_bind, Option.bind_some, Option.pure_def]
    rw [if_neg (peek_notIn hN (by simp))]
  | @more ts t rest' x xs h ht _ ih =>
    intro hm fuel hf
    have hl : (ts ++ t :: rest').length = ts.length + rest'.length + 1 := by simp; omega
    rw [hl] at hm hf
    obtain ⟨hne, hr⟩ := hi _ _ h (by omega)
    refine ⟨by simp, ?_⟩
    rintro rest n hF
    obtain ⟨fuel, rfl⟩ : ∃ k, fuel = k + 1 := ⟨fuel - 1, by omega⟩
    obtain ⟨y, n', e, hv⟩ := hr (t :: rest' ++ rest) n (hs _ _ ht)
    obtain ⟨ys, n'', e', hv'⟩ := (ih (by omega) fuel (by omega)).2 rest n' hF
    refine ⟨y :: ys, n'', ?_, by simp [hv, hv']⟩
    unfold sepBy
    rw [if_neg (by simp), List.append_assoc, e]
    simp only [Option.bind_eq_bind, Option.bind_some, Option.pure_def]
    rw [if_pos (by simp [PS.peek, ht])]
    simp only [PS.pop, List.cons_append, List.tail_cons]
    rw [e']
    rfl

theorem digits_all {b : Nat} (hb : b ≤ 16) {s : CStr} {n : Nat} (h : Digits b s n) : s.all (isDigitIn b) = true ∧ digitsVal b s = n := by
  obtain ⟨h1, h2⟩ := (digits_iff b hb s n).1 h
  exact ⟨List.all_eq_true.2 h1, h2.symm⟩

theorem isDigitIn_mono {b c : Nat} (h : b ≤ c) {x : Char} (hx : isDigitIn b x = true) : isDigitIn c x = true := by
  unfold isDigitIn at *
  cases e : digitVal x with
  | none => rw [e] at hx; simp at hx
  | some v => rw [e] at hx; simp at hx ⊢; omega

theorem numeralParts_of {s : CStr} {n : Nat} (h : PyNumeral s n) :
    (numeralParts s).2 ≠ [] ∧ (numeralParts s).2.all (isDigitIn (numeralParts s).1) = true ∧ digitsVal (numeralParts s).1 (numeralParts s).2 = n ∧
      s.head? ≠ some '-' := by
  cases h with
  | @hex x s n hx hs h =>
    obtain ⟨h1, h2⟩ := digits_all (by decide) h
    obtain ⟨c, t, rfl⟩ := List.exists_cons_of_ne_nil hs
    have hc : isDigitIn 16 c = true := by simp at h1; exact h1.1
    have e : numeralParts ('0' :: x :: c :: t) = (16, c :: t) := by
      unfold numeralParts; simp [hx, hc]
    rw [e]
    exact ⟨by simp, h1, h2, by simp⟩
  | @oct s n hs h =>
    obtain ⟨h1, h2⟩ := digits_all (by decide) h
    obtain ⟨c, t, rfl⟩ := List.exists_cons_of_ne_nil hs
    have hc : isDigitIn 8 c = true := by simp at h1; exact h1.1
    have hx : ¬(c = 'x' ∨ c = 'X') := by rintro (rfl | rfl) <;> exact absurd hc (by decide)
    have e : numeralParts ('0' :: c :: t) = (8, c :: t) := by
      unfold numeralParts; simp [hx, hc]
    rw [e]
    exact ⟨by simp, h1, h2, by simp⟩
  | dec hs h hno =>
    obtain ⟨h1, h2⟩ := digits_all (by decide) h
    have e : numeralParts s = (10, s) := by
      unfold numeralParts
      split
      · next x t =>
        have hx : isDigitIn 10 x = true := by simp at h1; exact h1.2.1
        have hx' : ¬(x = 'x' ∨ x = 'X') := by rintro (rfl | rfl) <;> exact absurd hx (by decide)
        have h8 : ¬isDigitIn 8 x = true := by
          intro h8
          obtain ⟨v, hv, hl⟩ := (digit_iff 8 (by decide) x).2 h8
          exact hno x t rfl v hv hl
        rw [if_neg (fun h => hx' h.1), if_neg h8]
      · rfl
    rw [e]
    refine ⟨hs, h1, h2, ?_⟩
    intro hh
    obtain ⟨t, rfl⟩ : ∃ t, s = '-' :: t := by
      cases s with
      | nil => simp at hh
      | cons c t => simp at hh; exact ⟨t, by rw [hh]⟩
    simp at h1
    exact absurd h1.1 (by decide)

theorem numericValue_of {s : CStr} {i : Int} (h : PySigned s i) : numericValue s = some i := by
  cases h with
  | plain h =>
    obtain ⟨h1, h2, h3, h4⟩ := numeralParts_of h
    unfold numericValue
    simp only [h4, if_false, decide_false]
    rw [if_pos ⟨h1, h2⟩, h3]
  | @minus s n h =>
    obtain ⟨h1, h2, h3, h4⟩ := numeralParts_of h
    unfold numericValue
    simp only [List.head?_cons, decide_true, if_true, List.tail_cons]
    rw [if_pos ⟨h1, h2⟩, h3]

theorem single_complete {a : Arch} {t : Token} {v : Nat} (h : SingleT a t v) : parseSingleConstant a t = some v := by
  obtain ⟨i, h1, h2, h3, h4⟩ := h
  have e : (if t.type = .identifier then a.constants t.value else if t.type = .numeric then numericValue t.value else none) = some i := by
    rcases h1 with ⟨h1, h1'⟩ | ⟨h1, h1'⟩
    · rw [if_pos h1, h1']
    · rw [if_neg (by rw [h1]; decide), if_pos h1, numericValue_of h1']
  unfold parseSingleConstant
  rw [e]
  simp only [Option.bind_eq_bind, Option.bind_some]
  rw [if_neg (by omega), if_neg (by omega), ← h4]
  simp

theorem single_type {a : Arch} {t : Token} {v : Nat} (h : SingleT a t v) : t.type = .identifier ∨ t.type = .numeric := by
  obtain ⟨i, h1, -⟩ := h
  exact h1.imp And.left And.left

theorem mod_lt_pow {a : Arch} {v : Nat} (h : v < 2 ^ a.bits) : v % 2 ^ a.bits = v := Nat.mod_eq_of_lt h

theorem cv_reads (a : Arch) :
    (∀ ts v, ConstantT a ts v → ∀ fuel, ts.length ≤ fuel + 1 → Reads (parseConstant a (parseValue a fuel)) (fun _ => True) id ts v) ∧
    (∀ ts v, ValueT a ts v → ∃ l, SepBy .bitOr (fun ts v => ∀ fuel, ts.length ≤ fuel + 1 →
      Reads (parseConstant a (parseValue a fuel)) (fun _ => True) id ts v) ts l ∧ l.foldl (· ||| ·) 0 = v) := by
  have value : ∀ ts v l, SepBy .bitOr (fun ts v => ∀ fuel, ts.length ≤ fuel + 1 → Reads (parseConstant a (parseValue a fuel)) (fun _ => True) id ts v) ts l →
      l.foldl (· ||| ·) 0 = v → ∀ fuel, ts.length ≤ fuel → Reads (parseValue a fuel) (NotIn [.bitOr]) id ts v := by
    intro ts v l hl hv fuel hf
    have hne : ts ≠ [] := (sepBy_reads (m := ts.length) (fun _ _ h hm => h ts.length (by omega)) (fun _ _ _ => trivial) hl (Nat.le_refl _) _ (Nat.le_refl _)).1
    refine ⟨hne, ?_⟩
    intro rest n hF
    obtain ⟨fuel, rfl⟩ : ∃ k, fuel = k + 1 := ⟨fuel - 1, by have := List.length_pos_iff.2 hne; omega⟩
    obtain ⟨ys, n', e, hy⟩ := (sepBy_reads (m := ts.length) (fun _ _ h hm => h fuel (by omega)) (fun _ _ _ => trivial) hl (Nat.le_refl _)
      (ts ++ rest).length (by simp)).2 rest n ⟨trivial, hF⟩
    refine ⟨v, n', ?_, rfl⟩
    unfold parseValue
    simp only [Option.bind_eq_bind, Option.pure_def]
    rw [e]
    rw [List.map_id] at hy
    simp [hy, hv]
  refine cv_induction (P := fun ts v => ∀ fuel, ts.length ≤ fuel + 1 → Reads (parseConstant a (parseValue a fuel)) (fun _ => True) id ts v)
    (Q := fun ts v => ∃ l, SepBy .bitOr (fun ts v => ∀ fuel, ts.length ≤ fuel + 1 →
      Reads (parseConstant a (parseValue a fuel)) (fun _ => True) id ts v) ts l ∧ l.foldl (· ||| ·) 0 = v) ?_ ?_ ?_ ?_ ?_ ?_
  · intro t v h fuel _
    refine ⟨by simp, fun rest n _ => ⟨v, n, ?_, rfl⟩⟩
    have ht := single_type h
    have h1 : t.type ≠ .complement := by rcases ht with h | h <;> rw [h] <;> decide
    have h2 : t.type ≠ .lparen := by rcases ht with h | h <;> rw [h] <;> decide
    simp [parseConstant, PS.peek, h1, h2, single_complete h]
  · intro c t v hc h fuel _
    refine ⟨by simp, fun rest n _ => ⟨2 ^ a.bits - 1 - v, n, ?_, rfl⟩⟩
    have ht := single_type h
    have h1 : t.type ≠ .complement := by rcases ht with h | h <;> rw [h] <;> decide
    have h2 : t.type ≠ .lparen := by rcases ht with h | h <;> rw [h] <;> decide
    simp [parseConstant, PS.peek, PS.pop, hc, h1, h2, single_complete h, mod_lt_pow (single_lt h)]
  · rintro l ts r v hl hv ⟨ks, hk, hkv⟩ hr fuel hf
    refine ⟨by simp, fun rest n _ => ?_⟩
    have hf' : ts.length ≤ fuel := by simp at hf; omega
    obtain ⟨y, n', e, hy⟩ := (value ts v ks hk hkv fuel hf').2 (r :: rest) n (notIn_cons.2 (by rw [hr]; decide))
    refine ⟨v, n', ?_, rfl⟩
    simp only [id] at hy
    subst hy
    simp [parseConstant, PS.peek, PS.pop, hl, e, expect_cons hr]
  · rintro c l ts r v hc hl hv ⟨ks, hk, hkv⟩ hr fuel hf
    refine ⟨by simp, fun rest n _ => ?_⟩
    have hf' : ts.length ≤ fuel := by simp at hf; omega
    obtain ⟨y, n', e, hy⟩ := (value ts v ks hk hkv fuel hf').2 (r :: rest) n (notIn_cons.2 (by rw [hr]; decide))
    refine ⟨2 ^ a.bits - 1 - v, n', ?_, rfl⟩
    simp only [id] at hy
    subst hy
    simp [parseConstant, PS.peek, PS.pop, hc, hl, e, expect_cons hr, mod_lt_pow (value_lt hv)]
  · intro ts v _ h
    exact ⟨[v], .one h, by simp⟩
  · rintro ts b rest v u _ h hb _ ⟨l, hl, hu⟩
    refine ⟨v :: l, .more h hb hl, ?_⟩
    rw [List.foldl_cons, foldl_or, hu]
    simp

theorem value_reads {a : Arch} {ts : List Token} {v : Nat} (h : ValueT a ts v) (fuel : Nat) (hf : ts.length ≤ fuel) :
    Reads (parseValue a fuel) (NotIn [.bitOr]) id ts v := by
  obtain ⟨l, hl, hv⟩ := (cv_reads a).2 ts v h
  have hne : ts ≠ [] := (sepBy_reads (m := ts.length) (fun _ _ h hm => h ts.length (by omega)) (fun _ _ _ => trivial) hl (Nat.le_refl _) _ (Nat.le_refl _)).1
  refine ⟨hne, ?_⟩
  intro rest n hF
  obtain ⟨fuel, rfl⟩ : ∃ k, fuel = k + 1 := ⟨fuel - 1, by have := List.length_pos_iff.2 hne; omega⟩
  obtain ⟨ys, n', e, hy⟩ := (sepBy_reads (m := ts.length) (fun _ _ h hm => h fuel (by omega)) (fun _ _ _ => trivial) hl (Nat.le_refl _)
    (ts ++ rest).length (by simp)).2 rest n ⟨trivial, hF⟩
  refine ⟨v, n', ?_, rfl⟩
  unfold parseValue
  simp only [Option.bind_eq_bind, Option.pure_def]
  rw [e]
  rw [List.map_id] at hy
  simp [hy, hv]

theorem atom_reads {a : Arch} {ts : List Token} {x : PAtom} (h : AtomT a ts x) : Reads (parseAtom a) (NotIn [.bitOr]) id ts x := by
  cases h with
  | @mk x o ts s i op v h1 h2 h3 h4 h5 h6 h7 h8 =>
    refine ⟨by simp, fun rest n hF => ?_⟩
    obtain ⟨y, n', e, hy⟩ := (value_reads h8 (ts ++ rest).length (by simp)).2 rest n hF
    obtain ⟨d1, d2⟩ := digits_all (by decide) h4
    simp only [id] at hy
    subst hy
    refine ⟨⟨i, op, y⟩, n', ?_, rfl⟩
    unfold parseAtom
    simp only [List.cons_append, expect_cons h1, expect_cons h6, Option.bind_eq_bind, Option.bind_some, e, h7, pyOp_opText, h2, Option.pure_def]
    rw [if_pos ⟨h3, d1, by rw [d2]; exact h5⟩, d2]

/-- The same for a list with separators, where the parser's bound is the number of tokens that are left. -/
theorem sepBy_reads' {α β : Type} {sep : TokType} {item : PS → Option (α × PS)} {Item : List Token → β → Prop} {view : α → β} {F : List Token → Prop}
    (hi : ∀ ts x, Item ts x → Reads item F view ts x) (hs : ∀ t rest, t.type = sep → F (t :: rest)) {ts : List Token} {xs : List β}
    (h : SepBy sep Item ts xs) : Reads (fun s => sepBy sep item s.toks.length s) (fun r => F r ∧ NotIn [sep] r) (List.map view) ts xs := by
  have := fun fuel hf => sepBy_reads (m := ts.length) (fun ts x h _ => hi ts x h) hs h (Nat.le_refl _) fuel hf
  refine ⟨(this _ (Nat.le_refl _)).1, fun rest n hF => ?_⟩
  exact (this (ts ++ rest).length (by simp)).2 rest n hF

theorem clause_reads {a : Arch} {ts : List Token} {x : List PAtom} (h : ClauseT a ts x) : Reads (parseClause a) (NotIn [.bitOr, .and]) id ts x := by
  have := (sepBy_reads' (fun _ _ h => atom_reads h) (fun t rest ht => notIn_cons.2 (by rw [ht]; decide)) h).mono (G := NotIn [.bitOr, .and])
    (fun r hr => ⟨hr.mono (by simp), hr.mono (by simp)⟩)
  rw [List.map_id_fun] at this
  exact this

theorem expression_reads {a : Arch} {ts : List Token} {x : List (List PAtom)} (h : ExpressionT a ts x) :
    Reads (parseExpression a) (NotIn [.bitOr, .and, .or]) id ts x := by
  have := (sepBy_reads' (fun _ _ h => clause_reads h) (fun t rest ht => notIn_cons.2 (by rw [ht]; decide)) h).mono (G := NotIn [.bitOr, .and, .or])
    (fun r hr => ⟨hr.mono (by simp), hr.mono (by simp)⟩)
  rw [List.map_id_fun] at this
  exact this

theorem expression_head {a : Arch} {ts : List Token} {x : List (List PAtom)} (h : ExpressionT a ts x) : ∃ t r, ts = t :: r ∧ t.type = .argument := by
  have atom : ∀ ts x, AtomT a ts x → ∃ t r, ts = t :: r ∧ t.type = .argument := by
    rintro ts x ⟨h, -⟩; exact ⟨_, _, rfl, h⟩
  have clause : ∀ ts x, ClauseT a ts x → ∃ t r, ts = t :: r ∧ t.type = .argument := by
    intro ts x h
    cases h with
    | one h => exact atom _ _ h
    | more h _ _ => obtain ⟨t, r, rfl, e⟩ := atom _ _ h; exact ⟨t, _, rfl, e⟩
  cases h with
  | one h => exact clause _ _ h
  | more h _ _ => obtain ⟨t, r, rfl, e⟩ := clause _ _ h; exact ⟨t, _, rfl, e⟩

theorem text_actionOf {v : CStr} {act : Action} (h : (v, act) ∈ actionText) : actionOf v = some act ∧ v ≠ "kill".toList := by
  simp only [actionText, List.mem_cons, Prod.mk.injEq, List.not_mem_nil, or_false] at h
  rcases h with ⟨rfl, rfl⟩ | ⟨rfl, rfl⟩ | ⟨rfl, rfl⟩ | ⟨rfl, rfl⟩ | ⟨rfl, rfl⟩ | ⟨rfl, rfl⟩ | ⟨rfl, rfl⟩ <;> decide

theorem action_reads {g : Settings} {ts : List Token} {x : Action} (h : ActionT g ts x) : Reads (parseAction g) (fun _ => True) ActObj.act ts x := by
  cases h with
  | kill hd ht hv =>
    refine ⟨by simp, fun rest n _ => ⟨g.kill, n, ?_, rfl⟩⟩
    simp only [parseAction, List.cons_append]
    rw [if_neg (by simp [hd]), if_pos ht, if_pos hv]
    rfl
  | @word t act hd ht hv =>
    obtain ⟨e1, e2⟩ := text_actionOf hv
    refine ⟨by simp, fun rest n _ => ⟨⟨n, x⟩, n + 1, ?_, rfl⟩⟩
    simp only [parseAction, List.cons_append]
    rw [if_neg (by simp [hd]), if_pos ht, if_neg e2, e1]
    rfl
  | @one t hd ht hv =>
    refine ⟨by simp, fun rest n _ => ⟨⟨n, .allow⟩, n + 1, ?_, rfl⟩⟩
    simp only [parseAction, List.cons_append]
    rw [if_neg (by simp [hd]), if_neg (by rw [ht]; decide), if_pos ht, single_complete hv]
    rfl
  | @errno t u v ht hl hv =>
    refine ⟨by simp, fun rest n _ => ⟨⟨n, .returnErrno v⟩, n + 1, ?_, rfl⟩⟩
    simp only [parseAction, List.cons_append]
    rw [if_neg (by simp [ht]), if_neg (by rw [ht]; decide), if_neg (by rw [ht]; decide), if_pos ht]
    simp [hl, single_complete hv, PS.fresh]
  | @logged t u ht hl =>
    refine ⟨by simp, fun rest n _ => ⟨⟨n, .log⟩, n + 1, ?_, rfl⟩⟩
    simp only [parseAction, List.cons_append]
    rw [if_neg (by simp [ht]), if_neg (by rw [ht]; decide), if_neg (by rw [ht]; decide), if_pos ht]
    simp [hl, PS.fresh]

theorem action_head {g : Settings} {ts : List Token} {x : Action} (h : ActionT g ts x) :
    ∃ t r, ts = t :: r ∧ (t.type = .action ∨ t.type = .numeric ∨ t.type = .ret) := by
  cases h with
  | kill _ h _ => exact ⟨_, _, rfl, .inl h⟩
  | word _ h _ => exact ⟨_, _, rfl, .inl h⟩
  | one _ h _ => exact ⟨_, _, rfl, .inr (.inl h)⟩
  | errno h _ _ => exact ⟨_, _, rfl, .inr (.inr h)⟩
  | logged h _ => exact ⟨_, _, rfl, .inr (.inr h)⟩

theorem singleFilter_reads {g : Settings} {ts : List Token} {x : Guarded} (h : SingleFilterT g ts x) :
    Reads (parseSingleFilter g) (NotIn [.bitOr, .and, .or, .semicolon]) view ts x := by
  cases h with
  | always h =>
    obtain ⟨hne, hr⟩ := action_reads h
    refine ⟨hne, fun rest n _ => ?_⟩
    obtain ⟨y, n', e, hy⟩ := hr rest n trivial
    refine ⟨⟨none, y⟩, n', ?_, by simp [view, hy]⟩
    obtain ⟨t, r, rfl, ht⟩ := action_head h
    unfold parseSingleFilter
    rw [if_neg (by rcases ht with h | h | h <;> simp [PS.peek, h]), e]
    rfl
  | allow h =>
    obtain ⟨hne, hr⟩ := expression_reads h
    refine ⟨hne, fun rest n hF => ?_⟩
    obtain ⟨y, n', e, hy⟩ := hr rest n (hF.mono (by simp))
    simp only [id] at hy
    subst hy
    refine ⟨⟨some y, ⟨n', .allow⟩⟩, n' + 1, ?_, rfl⟩
    obtain ⟨t, r, rfl, ht⟩ := expression_head h
    unfold parseSingleFilter
    rw [if_pos (by simp [PS.peek, ht]), e]
    simp only [Option.bind_eq_bind, Option.bind_some]
    rw [if_neg (peek_notIn hF (by simp))]
    rfl
  | @act ts t us e act h ht h' =>
    obtain ⟨hne, hr⟩ := expression_reads h
    obtain ⟨hne', hr'⟩ := action_reads h'
    refine ⟨by simp, fun rest n hF => ?_⟩
    obtain ⟨y, n', e, hy⟩ := hr (t :: us ++ rest) n (notIn_cons.2 (by rw [ht]; decide))
    obtain ⟨z, n'', e', hz⟩ := hr' rest n' trivial
    simp only [id] at hy
    subst hy
    refine ⟨⟨some y, z⟩, n'', ?_, by simp [view, hz]⟩
    obtain ⟨t', r, rfl, ht'⟩ := expression_head h
    unfold parseSingleFilter
    rw [if_pos (by simp [PS.peek, ht']), List.append_assoc, e]
    simp only [Option.bind_eq_bind, Option.bind_some]
    rw [if_pos (by simp [PS.peek, ht])]
    simp only [PS.pop, List.cons_append, List.tail_cons]
    rw [e']
    rfl

theorem singleFilter_head {g : Settings} {ts : List Token} {x : Guarded} (h : SingleFilterT g ts x) : ∃ t r, ts = t :: r ∧ t.type ≠ .lbrace := by
  cases h with
  | always h => obtain ⟨t, r, e, h | h | h⟩ := action_head h <;> exact ⟨t, r, e, by rw [h]; decide⟩
  | allow h => obtain ⟨t, r, e, h⟩ := expression_head h; exact ⟨t, r, e, by rw [h]; decide⟩
  | act h _ _ => obtain ⟨t, r, rfl, ht⟩ := expression_head h; exact ⟨t, _, rfl, by rw [ht]; decide⟩

theorem filter_reads {g : Settings} {ts : List Token} {x : List Guarded} (h : FilterT g ts x) :
    Reads (parseFilter g) (NotIn [.bitOr, .and, .or, .semicolon]) (List.map view) ts x := by
  cases h with
  | one h =>
    obtain ⟨hne, hr⟩ := singleFilter_reads h
    refine ⟨hne, fun rest n hF => ?_⟩
    obtain ⟨y, n', e, hy⟩ := hr rest n hF
    obtain ⟨t, r, rfl, ht⟩ := singleFilter_head h
    refine ⟨[y], n', ?_, by simp [hy]⟩
    unfold parseFilter
    rw [if_neg (by simp [PS.peek, ht]), e]
    rfl
  | @braces l ts r fs hl h hr' =>
    obtain ⟨hne, hr⟩ := sepBy_reads' (fun _ _ h => singleFilter_reads h) (fun t rest ht => notIn_cons.2 (by rw [ht]; decide)) h
    refine ⟨by simp, fun rest n hF => ?_⟩
    obtain ⟨y, n', e, hy⟩ := hr (r :: rest) n ⟨notIn_cons.2 (by rw [hr']; decide), notIn_cons.2 (by rw [hr']; decide)⟩
    refine ⟨y, n', ?_, hy⟩
    unfold parseFilter
    rw [if_pos (by simp [PS.peek, hl])]
    simp only [PS.pop, List.cons_append, List.tail_cons, List.append_assoc, List.nil_append]
    dsimp only at e
    rw [e]
    simp [expect_cons hr']

theorem identifier_reads {ts : List Token} {x : CStr} (h : IdentifierT ts x) : Reads (PS.expect .identifier) (fun _ => True) Token.value ts x := by
  cases h with
  | mk h => exact ⟨by simp, fun rest n _ => ⟨_, n, by simp [expect_cons h], rfl⟩⟩

theorem keyValue_reads {ts : List Token} {x : CStr × List CStr} (h : KeyValueT ts x) : Reads parseKeyValue (NotIn [.comma]) id ts x := by
  cases h with
  | mk hk he h =>
    obtain ⟨hne, hr⟩ := sepBy_reads' (fun _ _ h => identifier_reads h) (fun _ _ _ => trivial) h
    refine ⟨by simp, fun rest n hF => ?_⟩
    obtain ⟨y, n', e, hy⟩ := hr rest n ⟨trivial, hF⟩
    refine ⟨_, n', ?_, rfl⟩
    unfold parseKeyValue
    simp only [List.cons_append, expect_cons hk, expect_cons he, Option.bind_eq_bind, Option.bind_some]
    dsimp only at e
    rw [e]
    simp [hy]

theorem metadata_reads {ts : List Token} {x : List (CStr × List CStr)} (h : MetadataT ts x) : Reads parseMetadata (fun _ => True) id ts x := by
  cases h with
  | @mk l ts r kvs hl h hn hr' =>
    obtain ⟨hne, hr⟩ := sepBy_reads' (fun _ _ h => keyValue_reads h) (fun t rest ht => notIn_cons.2 (by rw [ht]; decide)) h
    refine ⟨by simp, fun rest n hF => ?_⟩
    obtain ⟨y, n', e, hy⟩ := hr (r :: rest) n ⟨notIn_cons.2 (by rw [hr']; decide), notIn_cons.2 (by rw [hr']; decide)⟩
    rw [List.map_id] at hy
    subst hy
    refine ⟨y, n', ?_, rfl⟩
    unfold parseMetadata
    simp only [List.cons_append, List.append_assoc, List.nil_append, expect_cons hl, Option.bind_eq_bind, Option.bind_some]
    dsimp only at e
    rw [e]
    simp [expect_cons hr', hn]

theorem lookupSyscalls_of {a : Arch} {cs : List Syscall} (h : ∀ c ∈ cs, a.syscalls c.name = some c.number) :
    lookupSyscalls a (cs.map Syscall.name) = some cs := by
  induction cs with
  | nil => rfl
  | cons c cs ih =>
    unfold lookupSyscalls
    simp only [List.map_cons]
    rw [h c (by simp), ih (fun c hc => h c (by simp [hc]))]
    rfl

theorem named_complete {a : Arch} {v : CStr} {cs : List Syscall} (h : NamedT a v cs) : namedSyscalls a v = some cs := by
  rcases h with ⟨h1, n, h2, rfl⟩ | ⟨group, ns, m, names, rfl, h1, h2, h3, h4, h5, h6⟩
  · have : v.dropWhile (· != '@') = [] := by
      rw [List.dropWhile_eq_nil_iff]
      intro c hc
      simp only [bne_iff_ne]
      rintro rfl; exact h1 hc
    unfold namedSyscalls
    rw [this]
    simp [lookupSyscalls, h2]
  · have hall : ∀ c ∈ group, (c != '@') = true := by
      intro c hc
      simp only [bne_iff_ne]
      rintro rfl; exact h1 hc
    have e1 : (group ++ '@' :: ns).dropWhile (· != '@') = '@' :: ns := by
      rw [List.dropWhile_append_of_pos hall]; simp
    have e2 : (group ++ '@' :: ns).takeWhile (· != '@') = group := by
      rw [List.takeWhile_append_of_pos hall]; simp
    unfold namedSyscalls
    rw [e1, e2]
    simp only
    rw [if_neg h2, h3]
    simp only [Option.bind_eq_bind, Option.bind_some]
    rw [h4, ← h5]
    exact lookupSyscalls_of h6

theorem descriptor_reads {a : Arch} {ts : List Token} {x : List Syscall} (h : DescriptorT a ts x) : Reads (parseDescriptor a) (NotIn [.lbracket]) id ts x := by
  have hgo : ∀ t : Token, t.type = .identifier ∨ t.value = "kill".toList → ¬(t.type ≠ .identifier ∧ t.value ≠ "kill".toList) := by
    rintro t (h | h) ⟨h1, h2⟩ <;> contradiction
  have hmeta : ∀ ts m, MetadataT ts m → ∃ t r, ts = t :: r ∧ t.type = .lbracket := by
    rintro ts m ⟨h, -⟩; exact ⟨_, _, rfl, h⟩
  cases h with
  | plain ht h =>
    refine ⟨by simp, fun rest n hF => ⟨x, n, ?_, rfl⟩⟩
    unfold parseDescriptor
    simp only [List.cons_append, List.nil_append]
    rw [if_neg (hgo _ ht), if_neg (peek_notIn hF (by simp))]
    simp [named_complete h]
  | @here t ts m cs ht hm ho h =>
    obtain ⟨hne, hr⟩ := metadata_reads hm
    refine ⟨by simp, fun rest n hF => ?_⟩
    obtain ⟨y, n', e, hy⟩ := hr rest n trivial
    simp only [id] at hy
    subst hy
    refine ⟨x, n', ?_, rfl⟩
    have hp : (PS.mk (ts ++ rest) n).peek = some .lbracket := by
      obtain ⟨t', r, rfl, ht'⟩ := hmeta _ _ hm; simp [PS.peek, ht']
    unfold parseDescriptor
    simp only [List.cons_append]
    rw [if_neg (hgo _ ht), if_pos hp, e]
    simp only [Option.bind_eq_bind, Option.bind_some]
    rw [if_neg (fun hh => ho ((otherArch_iff (metadata_nodup hm)).1 hh)), named_complete h]
    rfl
  | @elsewhere t ts m ht hm ho =>
    obtain ⟨hne, hr⟩ := metadata_reads hm
    refine ⟨by simp, fun rest n hF => ?_⟩
    obtain ⟨y, n', e, hy⟩ := hr rest n trivial
    simp only [id] at hy
    subst hy
    refine ⟨[], n', ?_, rfl⟩
    have hp : (PS.mk (ts ++ rest) n).peek = some .lbracket := by
      obtain ⟨t', r, rfl, ht'⟩ := hmeta _ _ hm; simp [PS.peek, ht']
    unfold parseDescriptor
    simp only [List.cons_append]
    rw [if_neg (hgo _ ht), if_pos hp, e]
    simp only [Option.bind_eq_bind, Option.bind_some]
    rw [if_pos ((otherArch_iff (metadata_nodup hm)).2 ho)]
    rfl

/-- Tokens with the text `kill` are words. -/
def KillIsWord (ts : List Token) : Prop := ∀ t ∈ ts, t.value = "kill".toList → t.type = .action ∨ t.type = .identifier

/-- The part of a statement before the colon. -/
def parseSubjects (a : Arch) (s : PS) : Option (List Syscall × PS) :=
  if s.peek = some .lbrace then do
    let x ← sepBy .comma (parseDescriptor a) s.pop.toks.length s.pop
    let y ← x.2.expect .rbrace
    return (x.1.flatten, y.2)
  else parseDescriptor a s

theorem parseStatement_eq (g : Settings) (s : PS) : parseStatement g s = (parseSubjects g.arch s).bind fun x => (x.2.expect .colon).bind fun c =>
    (parseFilter g c.2).bind fun f => some (⟨x.1, f.1⟩, f.2) := rfl

theorem descriptor_head {a : Arch} {ts : List Token} {x : List Syscall} (h : DescriptorT a ts x) :
    ∃ t r, ts = t :: r ∧ (t.type = .identifier ∨ t.value = "kill".toList) := by
  cases h with
  | plain h _ => exact ⟨_, _, rfl, h⟩
  | here h _ _ _ => exact ⟨_, _, rfl, h⟩
  | elsewhere h _ _ => exact ⟨_, _, rfl, h⟩

theorem subjects_head {a : Arch} {ts : List Token} {x : List Syscall} (h : SubjectsT a ts x) (hk : KillIsWord ts) :
    ∃ t r, ts = t :: r ∧ (t.type = .identifier ∨ t.type = .action ∨ t.type = .lbrace) := by
  cases h with
  | one h =>
    obtain ⟨t, r, rfl, ht | ht⟩ := descriptor_head h
    · exact ⟨t, r, rfl, .inl ht⟩
    · rcases hk t (by simp) ht with h | h
      · exact ⟨t, r, rfl, .inr (.inl h)⟩
      · exact ⟨t, r, rfl, .inl h⟩
  | braces h _ _ => exact ⟨_, _, rfl, .inr (.inr h)⟩

theorem subjects_reads {a : Arch} {ts : List Token} {x : List Syscall} (h : SubjectsT a ts x) (hk : KillIsWord ts) :
    Reads (parseSubjects a) (NotIn [.lbracket]) id ts x := by
  cases h with
  | one h =>
    obtain ⟨hne, hr⟩ := descriptor_reads h
    refine ⟨hne, fun rest n hF => ?_⟩
    obtain ⟨y, n', e, hy⟩ := hr rest n hF
    refine ⟨y, n', ?_, hy⟩
    obtain ⟨t, r, rfl, ht⟩ := descriptor_head h
    have : t.type ≠ .lbrace := by
      rcases ht with ht | ht
      · rw [ht]; decide
      · rcases hk t (by simp) ht with h | h <;> rw [h] <;> decide
    unfold parseSubjects
    rw [if_neg (by simp [PS.peek, this]), e]
  | @braces l ts r css hl h hr' =>
    obtain ⟨hne, hr⟩ := sepBy_reads' (fun _ _ h => descriptor_reads h) (fun t rest ht => notIn_cons.2 (by rw [ht]; decide)) h
    refine ⟨by simp, fun rest n hF => ?_⟩
    obtain ⟨y, n', e, hy⟩ := hr (r :: rest) n ⟨notIn_cons.2 (by rw [hr']; decide), notIn_cons.2 (by rw [hr']; decide)⟩
    rw [List.map_id] at hy
    subst hy
    refine ⟨y.flatten, n', ?_, rfl⟩
    unfold parseSubjects
    rw [if_pos (by simp [PS.peek, hl])]
    simp only [PS.pop, List.cons_append, List.tail_cons, List.append_assoc, List.nil_append]
    dsimp only at e
    rw [e]
    simp [expect_cons hr']

theorem statement_reads {g : Settings} {ts : List Token} {cs : List Syscall} {fs : List Guarded} (h : StatementT g ts cs fs) (hk : KillIsWord ts) :
    Reads (parseStatement g) (NotIn [.bitOr, .and, .or, .semicolon]) (fun x => (x.syscalls, x.filters.map view)) ts (cs, fs) := by
  cases h with
  | @mk ts c us cs fs h hc hf =>
    obtain ⟨hne, hr⟩ := subjects_reads h (fun t ht => hk t (by simp [ht]))
    obtain ⟨hne', hr'⟩ := filter_reads hf
    refine ⟨by simp, fun rest n hF => ?_⟩
    obtain ⟨y, n', e, hy⟩ := hr (c :: us ++ rest) n (notIn_cons.2 (by rw [hc]; decide))
    obtain ⟨z, n'', e', hz⟩ := hr' rest n' hF
    simp only [id] at hy
    subst hy
    refine ⟨⟨y, z⟩, n'', ?_, by simp [hz]⟩
    rw [parseStatement_eq, List.append_assoc, e]
    simp only [Option.bind_some, List.cons_append, expect_cons hc]
    rw [e']
    rfl

/-- The system calls of a statement do not depend on what follows the colon. -/
theorem statement_syscalls {g : Settings} {ts extra : List Token} {cs : List Syscall} {fs : List Guarded} (h : StatementT g ts cs fs) (hk : KillIsWord ts) {n : Nat}
    {x : Statement × PS} (hx : parseStatement g ⟨ts ++ extra, n⟩ = some x) : x.1.syscalls = cs := by
  cases h with
  | @mk ts c us cs fs h hc hf =>
    obtain ⟨hne, hr⟩ := subjects_reads h (fun t ht => hk t (by simp [ht]))
    obtain ⟨y, n', e, hy⟩ := hr (c :: us ++ extra) n (notIn_cons.2 (by rw [hc]; decide))
    rw [parseStatement_eq, List.append_assoc, e] at hx
    simp only [Option.bind_some, List.cons_append, expect_cons hc] at hx
    obtain ⟨f, hf, hx⟩ := Option.bind_eq_some_iff.1 hx
    simp only [Option.some.injEq] at hx
    rw [← hx]
    exact hy

theorem default_reads {g : Settings} {ts : List Token} {x : Action} (h : DefaultT g ts x) : Reads (parseDefaultAction g) (fun _ => True) ActObj.act ts x := by
  cases h with
  | kill ht hv =>
    refine ⟨by simp, fun rest n _ => ⟨g.kill, n, ?_, rfl⟩⟩
    unfold parseDefaultAction
    simp only [List.cons_append, expect_cons ht, Option.bind_eq_bind, Option.bind_some, hv]
    rfl
  | @word t act ht hv ha =>
    refine ⟨by simp, fun rest n _ => ⟨⟨n, x⟩, n + 1, ?_, rfl⟩⟩
    unfold parseDefaultAction
    simp only [List.cons_append, expect_cons ht, Option.bind_eq_bind, Option.bind_some]
    simp only [actionText, List.mem_cons, Prod.mk.injEq, List.not_mem_nil, or_false] at hv ha
    rcases hv with ⟨e, rfl⟩ | ⟨e, rfl⟩ | ⟨e, rfl⟩ | ⟨e, rfl⟩ | ⟨e, rfl⟩ | ⟨e, rfl⟩ | ⟨e, rfl⟩ <;> first | (exfalso; revert ha; decide) | (rw [e]; rfl)

end Minijail.Offline
