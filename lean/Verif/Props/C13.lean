import Verif.Proof.Text
import Verif.Proof.Const
/-! C13: splitting and trimming lose nothing but delimiters and blanks. -/
set_option linter.unusedSimpArgs false
set_option autoImplicit false
namespace Minijail

private theorem strstr_none_iff {d s : CStr} : strstr d s = none ↔ ¬ d <:+: s := by
  induction s with
  | nil => simp [strstr]
  | cons c s ih =>
    rw [strstr, List.infix_cons_iff]
    by_cases h : d.isPrefixOf (c :: s)
    · simp [h, List.isPrefixOf_iff_prefix.1 h]
    · have h' : ¬ d <+: c :: s := fun hp => h (List.isPrefixOf_iff_prefix.2 hp)
      simp [h, h', ih]

private theorem strstr_some_spec {d s a b : CStr} (h : strstr d s = some (a, b)) :
    s = a ++ d ++ b ∧ ∀ k, k < a.length → ¬ d <+: s.drop k := by
  induction s generalizing a with
  | nil =>
    simp only [strstr] at h
    split at h
    · next hd => simp at h; obtain ⟨rfl, rfl⟩ := h; simp [hd]
    · simp at h
  | cons c s ih =>
    rw [strstr] at h
    by_cases hp : d.isPrefixOf (c :: s)
    · simp only [hp, if_true, Option.some.injEq, Prod.mk.injEq] at h
      obtain ⟨rfl, rfl⟩ := h
      obtain ⟨t, ht⟩ := List.isPrefixOf_iff_prefix.1 hp
      simp [← ht]
    · simp only [hp, Bool.false_eq_true, if_false, Option.map_eq_some_iff] at h
      obtain ⟨⟨a', b'⟩, h1, h2⟩ := h
      simp only [Prod.mk.injEq] at h2
      obtain ⟨rfl, rfl⟩ := h2
      obtain ⟨h3, h4⟩ := ih h1
      refine ⟨by simp [h3], ?_⟩
      intro k hk
      cases k with
      | zero => intro hd; exact hp (List.isPrefixOf_iff_prefix.2 hd)
      | succ k => simpa using h4 k (by simpa using hk)

/-- Repeated `tokenize` returns the fields between leftmost delimiters. -/
theorem C13_tokenize (d s : CStr) (hd : d ≠ []) : Spec.SplitAt d s (tokenizeAll d s) := by
  obtain ⟨n, hn⟩ : ∃ n, s.length < n := ⟨_, Nat.lt_succ_self _⟩
  induction n generalizing s with
  | zero => omega
  | succ n ih =>
    rw [tokenizeAll_eq _ _ hd]
    cases h : strstr d s with
    | none => exact .last (strstr_none_iff.1 h)
    | some x =>
      obtain ⟨a, b⟩ := x
      have hl := strstr_length h
      have : 0 < d.length := List.length_pos_iff.2 hd
      obtain ⟨rfl, h2⟩ := strstr_some_spec h
      exact .cut h2 (ih b (by omega))

/-- Nothing is lost: joining the fields with the delimiter gives back the text; and no field contains the
delimiter. -/
theorem C13_tokenize_join (d s : CStr) (hd : d ≠ []) :
    List.intercalate d (tokenizeAll d s) = s ∧ ∀ t ∈ tokenizeAll d s, ¬ d <:+: t := by
  have h := C13_tokenize d s hd
  generalize tokenizeAll d s = fs at h
  induction h with
  | last h => exact ⟨by simp [List.intercalate], by simpa using h⟩
  | @cut a b ts h1 h2 ih =>
    constructor
    · have : ts ≠ [] := by cases h2 <;> simp
      cases ts with
      | nil => exact absurd rfl this
      | cons t ts =>
        have := ih.1
        simp only [List.intercalate, List.intersperse_cons_cons, List.flatten_cons] at this ⊢
        rw [this]; simp
    · intro t ht
      rcases List.mem_cons.1 ht with rfl | ht
      · rintro ⟨x, y, hxy⟩
        have hlen : x.length < t.length := by
          have : 0 < d.length := List.length_pos_iff.2 hd
          rw [← hxy]; simp; omega
        apply h1 x.length hlen
        rw [← hxy]
        simp
      · exact ih.2 t ht

/-- A token is consumed at each call, and the last call reports that nothing is left. -/
theorem C13_tokenize_step (d s : CStr) (hd : d ≠ []) :
    ∃ tok rest, tokenize (some s) d = some (tok, rest) ∧
      tokenizeAll d s = tok :: (match rest with | none => [] | some r => tokenizeAll d r) := by
  rw [tokenizeAll_eq _ _ hd]
  unfold tokenize
  simp only [hd, if_false]
  cases h : strstr d s with
  | none => exact ⟨s, none, rfl, rfl⟩
  | some x => exact ⟨x.1, some x.2, rfl, rfl⟩

private theorem isblank_iff (c : Char) : isblank c = true ↔ Spec.isBlank c := by
  simp [isblank, Spec.isBlank]

/-- `strip` removes exactly the leading blanks and the trailing blanks and newlines. -/
theorem C13_strip (s t : CStr) : strip s = t ↔ Spec.Stripped s t := by
  have hdw : ∀ (p : Char → Bool) (l : CStr) c, (l.dropWhile p).head? = some c → p c = false := by
    intro p l c h
    induction l with
    | nil => simp at h
    | cons x l ih =>
      rw [List.dropWhile_cons] at h
      split at h
      · exact ih h
      · simp at h; subst h; simp_all
  have hbn : ∀ c, (isblank c || c == '\n') = true ↔ (Spec.isBlank c ∨ c = '\n') := by
    intro c; simp [isblank_iff]
  have htw : ∀ (p : Char → Bool) (l : CStr), ∀ c ∈ l.takeWhile p, p c = true := by
    intro p l c h
    exact List.mem_takeWhile_imp h
  constructor
  · rintro rfl
    unfold strip
    set u := s.dropWhile isblank with hu
    set q : Char → Bool := fun c => isblank c || c == '\n' with hq
    constructor
    · refine ⟨s.takeWhile isblank, (u.reverse.takeWhile q).reverse, ?_, ?_, ?_⟩
      · rw [List.append_assoc, ← List.reverse_append, List.takeWhile_append_dropWhile, List.reverse_reverse,
          List.takeWhile_append_dropWhile]
      · intro c hc; exact (isblank_iff c).1 (htw _ _ c hc)
      · intro c hc; exact (hbn c).1 (htw q _ c (by simpa using hc))
    · intro c hc hb
      have h1 : ∃ r, u = (u.reverse.dropWhile q).reverse ++ r :=
        ⟨(u.reverse.takeWhile q).reverse, by
          rw [← List.reverse_append, List.takeWhile_append_dropWhile, List.reverse_reverse]⟩
      obtain ⟨r, hr⟩ := h1
      have h2 : u.head? = some c := by
        rw [hr]
        cases hx : (u.reverse.dropWhile q).reverse with
        | nil => rw [hx] at hc; simp at hc
        | cons y ys => rw [hx] at hc; simpa using hc
      have := hdw _ _ _ h2
      rw [(isblank_iff c).2 hb] at this
      simp at this
    · intro c hc hb
      rw [List.getLast?_reverse] at hc
      have := hdw _ _ _ hc
      rw [show q c = true from (hbn c).2 hb] at this
      simp at this
  · rintro ⟨⟨l, r, rfl, hl, hr⟩, hf, hla⟩
    unfold strip
    cases t with
    | nil =>
      simp only [List.append_nil]
      rw [List.reverse_eq_nil_iff, List.dropWhile_eq_nil_iff]
      intro x hx
      rw [List.mem_reverse] at hx
      have := (List.dropWhile_sublist isblank).mem hx
      rcases List.mem_append.1 this with h | h
      · exact (hbn x).2 (.inl (hl x h))
      · exact (hbn x).2 (hr x h)
    | cons c t =>
      have h1 : (l ++ c :: t ++ r).dropWhile isblank = c :: t ++ r := by
        rw [List.append_assoc, List.dropWhile_append_of_pos (fun a ha => (isblank_iff a).2 (hl a ha))]
        have : isblank c = false := by
          by_contra h
          exact hf c rfl ((isblank_iff c).1 (by simpa using h))
        simp [List.dropWhile_cons, this]
      rw [h1, List.reverse_append, List.dropWhile_append_of_pos
        (fun a ha => (hbn a).2 (hr a (by simpa using ha)))]
      have h2 : ((c :: t).reverse.dropWhile (fun c => isblank c || c == '\n')) = (c :: t).reverse := by
        cases hrev : (c :: t).reverse with
        | nil => rfl
        | cons x xs =>
          have hx : (c :: t).getLast? = some x := by
            rw [← List.head?_reverse, hrev]; rfl
          have : (isblank x || x == '\n') = false := by
            by_contra h
            exact hla x hx ((hbn x).1 ((Bool.not_eq_false _).mp h))
          rw [List.dropWhile_cons, this]; rfl
      rw [h2, List.reverse_reverse]

/-- A separator that overlaps itself is cut from the left. -/
example : Spec.SplitAt "||".toList "a|||b".toList ["a".toList, "|b".toList] := by
  have h := C13_tokenize "||".toList "a|||b".toList (by decide)
  have e : tokenizeAll "||".toList "a|||b".toList = ["a".toList, "|b".toList] := by
    rw [tokenizeAll_eq _ _ (by decide)]
    show _ :: tokenizeAll "||".toList "|b".toList = _
    rw [tokenizeAll_eq _ _ (by decide)]
    rfl
  rwa [e] at h

example : Spec.Stripped " \t open: 1\t \n".toList "open: 1".toList := (C13_strip _ _).1 rfl

end Minijail
