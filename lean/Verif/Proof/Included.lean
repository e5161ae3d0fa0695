import Verif.Proof.CommonPyFile
import Verif.Spec.Included
/-! Which file an `@include` or `@frequency` statement names. -/
set_option autoImplicit false
set_option linter.unusedSimpArgs false
namespace Minijail
open Offline Spec

theorem split_ne (p : List Char) : splitSlash p ≠ [] := by
  cases p with
  | nil => simp [splitSlash]
  | cons c s =>
    unfold splitSlash
    split
    · simp
    · split <;> simp

theorem split_append (a b : List Char) : splitSlash (a ++ '/' :: b) = splitSlash a ++ splitSlash b := by
  induction a with
  | nil => simp [splitSlash]
  | cons c s ih =>
    rw [List.cons_append]
    by_cases h : c = '/'
    · subst h
      simp [splitSlash, ih]
    · rw [splitSlash, if_neg h, ih]
      conv => rhs; rw [splitSlash, if_neg h]
      cases e : splitSlash s with
      | nil => exact absurd e (split_ne s)
      | cons w ws => rfl

theorem split_noslash (p : List Char) : ∀ n ∈ splitSlash p, '/' ∉ n := by
  induction p with
  | nil => simp [splitSlash]
  | cons c s ih =>
    intro n hn
    rw [splitSlash] at hn
    split at hn
    · rcases List.mem_cons.1 hn with rfl | hn
      · simp
      · exact ih n hn
    next hc =>
    split at hn
    · simp only [List.mem_singleton] at hn
      subst hn
      simpa using fun e => hc e.symm
    · next w ws e =>
      rw [e] at ih
      rcases List.mem_cons.1 hn with rfl | hn
      · have := ih w (by simp)
        simp only [List.mem_cons, not_or]
        exact ⟨fun e => hc e.symm, this⟩
      · exact ih n (by simp [hn])

theorem split_join (names : List (List Char)) (h0 : names ≠ []) (h : ∀ n ∈ names, '/' ∉ n) : splitSlash (List.intercalate ['/'] names) = names := by
  induction names with
  | nil => exact absurd rfl h0
  | cons n l ih =>
    cases l with
    | nil => simpa [List.intercalate] using splitSlash_all (h n (by simp))
    | cons m l =>
      have e : List.intercalate ['/'] (n :: m :: l) = n ++ '/' :: List.intercalate ['/'] (m :: l) := by simp [List.intercalate]
      rw [e, split_append, splitSlash_all (h n (by simp)), ih (by simp) fun x hx => h x (by simp [hx])]
      rfl

theorem join_split (p : List Char) : p = List.intercalate ['/'] (splitSlash p) := by
  induction p with
  | nil => simp [splitSlash, List.intercalate]
  | cons c s ih =>
    rw [splitSlash]
    cases e : splitSlash s with
    | nil => exact absurd e (split_ne s)
    | cons w ws =>
      rw [e] at ih
      split
      · next hc =>
        subst hc
        have : List.intercalate ['/'] ([] :: w :: ws) = '/' :: List.intercalate ['/'] (w :: ws) := by simp [List.intercalate]
        rw [this, ← ih]
      · cases ws with
        | nil =>
          simp [List.intercalate] at ih ⊢
          exact ih
        | cons v ws =>
          simp [List.intercalate] at ih ⊢
          exact ih

theorem components_iff (p : List Char) (names : List (List Char)) : Components p names ↔ names = splitSlash p := by
  constructor
  · rintro ⟨h0, h1, rfl⟩
    exact (split_join names h0 h1).symm
  · rintro rfl
    exact ⟨split_ne p, split_noslash p, join_split p⟩

/-- Where a path leads. -/
def lead (d : Dir) (p : List Char) : Dir := (splitSlash p).foldl visit (begins d p)

theorem leads_iff (d : Dir) (p : List Char) (x : Dir) : LeadsTo d p x ↔ x = lead d p := by
  unfold LeadsTo lead
  constructor
  · rintro ⟨names, h, rfl⟩
    rw [(components_iff p names).1 h]
  · rintro rfl
    exact ⟨_, (components_iff p _).2 rfl, rfl⟩

theorem split_replicate (s : List Char) (k : Nat) : splitSlash (s ++ List.replicate k '/') = splitSlash s ++ List.replicate k [] := by
  induction k generalizing s with
  | zero => simp
  | succ k ih =>
    rw [List.replicate_succ, split_append]
    have := ih []
    simp only [List.nil_append] at this
    rw [this, List.replicate_succ]
    rfl

theorem visit_empties (k : Nat) (d : Dir) : (List.replicate k ([] : List Char)).foldl visit d = d := by
  induction k with
  | zero => rfl
  | succ k ih => rw [List.replicate_succ, List.foldl_cons]; simpa [visit] using ih

theorem begins_append (d : Dir) (a b : List Char) (h : a ≠ []) : begins d (a ++ b) = begins d a := by
  cases a with
  | nil => exact absurd rfl h
  | cons c s => rfl

/-- Slashes at the end do not matter. -/
theorem lead_slashes (d : Dir) (s : List Char) (k : Nat) (h : s ≠ []) : lead d (s ++ List.replicate k '/') = lead d s := by
  unfold lead
  rw [split_replicate, List.foldl_append, visit_empties, begins_append _ _ _ h]

/-! ### The directory -/

theorem strip_slashes (s : List Char) : ∃ k, s = (s.reverse.dropWhile (· == '/')).reverse ++ List.replicate k '/' := by
  refine ⟨(s.reverse.takeWhile (· == '/')).length, ?_⟩
  have h := List.takeWhile_append_dropWhile (p := (· == '/')) (l := s.reverse)
  have h2 : s.reverse.takeWhile (· == '/') = List.replicate (s.reverse.takeWhile (· == '/')).length '/' := by
    apply List.eq_replicate_of_mem
    intro c hc
    simpa using List.mem_takeWhile_imp hc
  have := congrArg List.reverse h
  rw [List.reverse_append, List.reverse_reverse] at this
  rw [← List.reverse_replicate, ← h2]
  exact this.symm

theorem lead_strip (d : Dir) (s : List Char) : lead d (if s.all (· == '/') then s else (s.reverse.dropWhile (· == '/')).reverse) = lead d s := by
  split
  · rfl
  · next h =>
    obtain ⟨k, e⟩ := strip_slashes s
    conv => rhs; rw [e]
    rw [lead_slashes]
    intro e0
    rw [e0, List.nil_append] at e
    rw [e] at h
    simp at h

theorem lead_dirname (d : Dir) (f : List Char) : lead d (dirname f) = (splitSlash f).dropLast.foldl visit (begins d f) := by
  unfold dirname
  rw [lead_strip]
  have hf := join_split f
  by_cases hs : '/' ∈ f
  · obtain ⟨a, b, e, hb⟩ : ∃ a b, f = a ++ '/' :: b ∧ '/' ∉ b := by
      have hr : '/' ∈ f.reverse := by simpa using hs
      obtain ⟨x, y, e, hx⟩ := List.eq_append_cons_of_mem hr
      refine ⟨y.reverse, x.reverse, ?_, by simpa using hx⟩
      have := congrArg List.reverse e
      simpa using this
    have hd : (f.reverse.dropWhile (· != '/')).reverse = a ++ List.replicate 1 '/' := by
      rw [e]
      rw [List.reverse_append, List.reverse_cons, List.append_assoc, List.dropWhile_append_of_pos]
      · simp
      · intro c hc
        simp only [List.mem_reverse] at hc
        simp only [bne_iff_ne, ne_eq]
        rintro rfl
        exact hb hc
    rw [hd, e, split_append, splitSlash_all hb, List.dropLast_concat]
    unfold lead
    rw [split_replicate, List.foldl_append, visit_empties]
    cases a <;> rfl
  · have : (f.reverse.dropWhile (· != '/')).reverse = [] := by
      rw [List.reverse_eq_nil_iff, List.dropWhile_eq_nil_iff]
      intro c hc
      simp only [List.mem_reverse] at hc
      simp only [bne_iff_ne, ne_eq]
      rintro rfl
      exact hs hc
    rw [this, splitSlash_all hs]
    have hb : begins d f = d := by
      unfold begins
      rw [if_neg]
      intro h
      exact hs (List.mem_of_mem_head? h)
    rw [hb]
    rfl

theorem folder_iff (d : Dir) (f : List Char) (x : Dir) : FolderOf d f x ↔ x = lead d (dirname f) := by
  rw [lead_dirname]
  unfold FolderOf
  constructor
  · rintro ⟨names, base, h, rfl⟩
    rw [← (components_iff _ _).1 h, List.dropLast_concat]
  · rintro rfl
    refine ⟨(splitSlash f).dropLast, (splitSlash f).getLast (split_ne f), ?_, rfl⟩
    rw [List.dropLast_concat_getLast]
    exact (components_iff f _).2 rfl

/-! ### Joining -/

theorem lead_absolute (d d' : Dir) (p : List Char) (h : p.head? = some '/') : lead d p = lead d' p := by
  unfold lead begins
  rw [if_pos h, if_pos h]

theorem lead_join (d : Dir) (a b : List Char) : lead d (pathJoin a b) = lead (lead d a) b := by
  unfold pathJoin
  split
  · next h => exact lead_absolute _ _ _ h
  next hb =>
  have hbb (x : Dir) : lead x b = (splitSlash b).foldl visit x := by unfold lead begins; rw [if_neg hb]
  split
  · next h =>
    rcases h with rfl | h
    · rfl
    · obtain ⟨a', rfl⟩ : ∃ a', a = a' ++ ['/'] := by
        refine ⟨a.dropLast, ?_⟩
        rw [List.getLast?_eq_some_iff] at h
        obtain ⟨y, rfl⟩ := h
        simp
      rw [hbb]
      unfold lead
      rw [List.append_assoc, List.cons_append, List.nil_append, split_append, split_append, List.foldl_append, List.foldl_append]
      have : begins d (a' ++ '/' :: b) = begins d (a' ++ ['/']) := by cases a' <;> rfl
      rw [this]
      rfl
  · next h =>
    rw [hbb]
    unfold lead
    rw [split_append, List.foldl_append, begins_append]
    intro e
    exact h (.inl e)

/-! ### Normal form -/

/-- One component in `normpath`. -/
private def norm1 (slashes : Nat) (l : List (List Char)) (comp : List Char) : List (List Char) :=
  if comp = [] ∨ comp = ['.'] then l
  else if comp ≠ ['.', '.'] ∨ (slashes = 0 ∧ l = []) ∨ l.getLast? = some ['.', '.'] then l ++ [comp]
  else l.dropLast

private theorem norm1_ok {slashes : Nat} {l : List (List Char)} {d : Dir} (comp : List Char) (hd : slashes ≠ 0 → d = [])
    (hl : ∀ n ∈ l, n ≠ [] ∧ n ≠ ['.']) (hs : slashes ≠ 0 → ['.', '.'] ∉ l) :
    (norm1 slashes l comp).foldl visit d = (l ++ [comp]).foldl visit d ∧ (∀ n ∈ norm1 slashes l comp, n ≠ [] ∧ n ≠ ['.']) ∧
    (slashes ≠ 0 → ['.', '.'] ∉ norm1 slashes l comp) ∧ ∀ n ∈ norm1 slashes l comp, n ∈ l ∨ n = comp := by
  unfold norm1
  split
  · next h =>
    refine ⟨?_, hl, hs, fun n hn => .inl hn⟩
    rw [List.foldl_append, List.foldl_cons, List.foldl_nil]
    have e1 (x : Dir) : visit x comp = x := by unfold visit; rw [if_pos h]
    rw [e1]
  next h =>
  split
  · next h2 =>
    refine ⟨rfl, ?_, ?_, ?_⟩
    · intro n hn
      rcases List.mem_append.1 hn with hn | hn
      · exact hl n hn
      · rw [List.mem_singleton.1 hn]
        exact ⟨fun e => h (.inl e), fun e => h (.inr e)⟩
    · intro h0 hm
      rcases List.mem_append.1 hm with hm | hm
      · exact hs h0 hm
      · have := List.mem_singleton.1 hm
        rcases h2 with h2 | h2 | h2
        · exact h2 this.symm
        · exact h0 h2.1
        · exact hs h0 (List.mem_of_mem_getLast? h2)
    · intro n hn
      simpa using hn
  · next h2 =>
    simp only [not_or, Decidable.not_not, not_and] at h2
    obtain ⟨rfl, h3, h4⟩ := h2
    refine ⟨?_, fun n hn => hl n (List.dropLast_subset l hn), fun h0 hm => hs h0 (List.dropLast_subset l hm), fun n hn => .inl (List.dropLast_subset l hn)⟩
    rcases List.eq_nil_or_concat l with rfl | ⟨l', w, e⟩
    · by_cases h0 : slashes = 0
      · exact absurd rfl (h3 h0)
      · rw [hd h0]
        rfl
    · rw [List.concat_eq_append] at e
      subst e
      rw [List.dropLast_concat, List.foldl_append, List.foldl_append, List.foldl_cons, List.foldl_nil, List.foldl_cons, List.foldl_nil]
      have hw := hl w (by simp)
      have hw2 : w ≠ ['.', '.'] := fun e => h4 (by simp [e])
      have e1 (x : Dir) : visit x w = w :: x := by
        unfold visit
        rw [if_neg (by rintro (e | e); exacts [hw.1 e, hw.2 e]), if_neg hw2]
      rw [e1]
      simp [visit]

private theorem norm_ok {slashes : Nat} {d : Dir} (hd : slashes ≠ 0 → d = []) (names : List (List Char)) : ∀ l : List (List Char),
    (∀ n ∈ l, n ≠ [] ∧ n ≠ ['.']) → (slashes ≠ 0 → ['.', '.'] ∉ l) →
    (names.foldl (norm1 slashes) l).foldl visit d = (l ++ names).foldl visit d ∧ (∀ n ∈ names.foldl (norm1 slashes) l, n ≠ [] ∧ n ≠ ['.']) ∧
    ∀ n ∈ names.foldl (norm1 slashes) l, n ∈ l ∨ n ∈ names := by
  induction names with
  | nil => intro l hl hs; exact ⟨by simp, hl, fun n hn => .inl hn⟩
  | cons c names ih =>
    intro l hl hs
    obtain ⟨h1, h2, h3, h4⟩ := norm1_ok c hd hl hs
    obtain ⟨g1, g2, g3⟩ := ih _ h2 h3
    rw [List.foldl_cons]
    refine ⟨?_, g2, ?_⟩
    · rw [g1, List.foldl_append, h1, ← List.foldl_append, List.append_assoc]
      rfl
    · intro n hn
      rcases g3 n hn with hn | hn
      · rcases h4 n hn with hn | rfl
        · exact .inl hn
        · exact .inr (by simp)
      · exact .inr (by simp [hn])

theorem lead_normpath (d : Dir) (p : List Char) : lead d (normpath p) = lead d p := by
  unfold normpath
  split
  · next h => subst h; rfl
  next h0 =>
  dsimp only
  generalize hsl : (if p.head? ≠ some '/' then 0 else if p.take 2 = ['/', '/'] ∧ p.take 3 ≠ ['/', '/', '/'] then 2 else 1 : Nat) = slashes
  have hz : slashes = 0 ↔ p.head? ≠ some '/' := by
    rw [← hsl]
    split
    · next h => simp [h]
    · next h =>
      rw [ne_eq, Decidable.not_not] at h
      split <;> simp [h]
  have hd : slashes ≠ 0 → begins d p = [] := by
    intro h
    unfold begins
    rw [if_pos]
    rw [ne_eq, hz, ne_eq, Decidable.not_not] at h
    exact h
  obtain ⟨g1, g2, g3⟩ := norm_ok hd (splitSlash p) [] (by simp) (by simp)
  show lead d (if List.replicate slashes '/' ++ List.intercalate ['/'] ((splitSlash p).foldl (norm1 slashes) []) = [] then ['.']
    else List.replicate slashes '/' ++ List.intercalate ['/'] ((splitSlash p).foldl (norm1 slashes) [])) = lead d p
  generalize (splitSlash p).foldl (norm1 slashes) [] = comps at *
  rw [List.nil_append] at g1
  have hc : ∀ n ∈ comps, '/' ∉ n := fun n hn => split_noslash p n (by simpa using g3 n hn)
  have hfold : (splitSlash (List.intercalate ['/'] comps)).foldl visit (begins d p) = comps.foldl visit (begins d p) := by
    cases comps with
    | nil => rfl
    | cons n l => rw [split_join _ (by simp) hc]
  have hhead : (List.intercalate ['/'] comps).head? ≠ some '/' := by
    cases comps with
    | nil => simp [List.intercalate]
    | cons n l =>
      have hn := (g2 n (by simp)).1
      have hs := hc n (by simp)
      cases n with
      | nil => exact absurd rfl hn
      | cons c n =>
        intro e
        have : c = '/' := by
          cases l with
          | nil => simpa [List.intercalate] using e
          | cons m l => simpa [List.intercalate] using e
        exact hs (by simp [this])
  have hpre : splitSlash (List.replicate slashes '/' ++ List.intercalate ['/'] comps) = List.replicate slashes [] ++ splitSlash (List.intercalate ['/'] comps) := by
    clear hz hd g1 hsl
    induction slashes with
    | zero => rfl
    | succ k ih => rw [List.replicate_succ, List.cons_append, splitSlash, if_pos rfl, ih]; rfl
  have hbeg : begins d (List.replicate slashes '/' ++ List.intercalate ['/'] comps) = begins d p := by
    cases slashes with
    | zero =>
      have := hz.1 rfl
      unfold begins
      rw [if_neg this, if_neg (by simpa using hhead)]
    | succ k =>
      rw [hd (by simp)]
      rfl
  split
  · next he =>
    have hs0 : slashes = 0 := by
      cases slashes with
      | zero => rfl
      | succ k => simp [List.replicate_succ] at he
    have hp := hz.1 hs0
    have hb : begins d p = d := by unfold begins; rw [if_neg hp]
    have hemp : List.intercalate ['/'] comps = [] := by
      rw [hs0] at he
      simpa using he
    rw [hemp, g1] at hfold
    show d = lead d p
    unfold lead
    rw [← hfold, hb]
    rfl
  · unfold lead
    rw [hpre, hbeg, List.foldl_append, visit_empties, hfold, g1]

theorem lead_resolve (d : Dir) (file path : List Char) : lead d (resolve file path) = lead (lead d (dirname file)) path := by
  unfold resolve
  rw [lead_normpath, lead_join]

end Minijail
