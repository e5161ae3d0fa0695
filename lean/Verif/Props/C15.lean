import Verif.Model.Path
import Verif.Spec.Path
import Verif.Proof.Text
/-! C15: the path-parent test is the component-wise prefix relation. -/
set_option linter.unusedSimpArgs false
set_option autoImplicit false
namespace Minijail

theorem fields_append (d : Char) (a b : List Char) : Spec.fields d (a ++ d :: b) = Spec.fields d a ++ Spec.fields d b := by
  induction a with
  | nil => simp [Spec.fields]
  | cons c a ih =>
    simp only [List.cons_append, Spec.fields]
    split
    · simp [ih]
    · rw [ih]
      have := fields_ne_nil d a
      cases h : Spec.fields d a with
      | nil => exact absurd h this
      | cons f fs => simp [Spec.consHead]

theorem fields_join (d : Char) (s : List Char) : List.intercalate [d] (Spec.fields d s) = s := by
  induction s with
  | nil => simp [Spec.fields, List.intercalate]
  | cons c s ih =>
    have hne := fields_ne_nil d s
    simp only [Spec.fields]
    split
    · next h =>
      subst h
      cases h : Spec.fields c s with
      | nil => exact absurd h hne
      | cons f fs =>
        rw [h] at ih
        simp only [List.intercalate, List.intersperse_cons_cons, List.flatten_cons, List.nil_append, List.singleton_append] at ih ⊢
        rw [ih]
    · cases h : Spec.fields d s with
      | nil => exact absurd h hne
      | cons f fs =>
        rw [h] at ih
        cases fs with
        | nil => simpa [Spec.consHead, List.intercalate] using ih
        | cons g fs =>
          simp only [Spec.consHead, List.intercalate, List.intersperse_cons_cons, List.flatten_cons] at ih ⊢
          rw [← ih]; simp

private theorem fields_prefix {a c : List Char} {more : List (List Char)} (hm : more ≠ [])
    (h : Spec.fields '/' c = Spec.fields '/' a ++ more) : ∃ r, c = a ++ '/' :: r := by
  have h1 := fields_join '/' c
  have h2 := fields_join '/' a
  rw [h] at h1
  have key : ∀ (xs ys : List (List Char)), xs ≠ [] → ys ≠ [] →
      List.intercalate ['/'] (xs ++ ys) = List.intercalate ['/'] xs ++ '/' :: List.intercalate ['/'] ys := by
    intro xs
    induction xs with
    | nil => intro ys h; exact absurd rfl h
    | cons x xs ih =>
      intro ys _ hy
      cases xs with
      | nil =>
        cases ys with
        | nil => exact absurd rfl hy
        | cons y ys => simp [List.intercalate]
      | cons x' xs =>
        have := ih ys (by simp) hy
        simp only [List.intercalate, List.cons_append, List.intersperse_cons_cons, List.flatten_cons] at this ⊢
        rw [this]; simp
  rw [key _ _ (fields_ne_nil _ _) hm, h2] at h1
  exact ⟨_, h1.symm⟩

/-- For a non-empty parent the test is the component-wise relation. -/
theorem C15_parent_exact_partial (p c : CStr) (hp : p ≠ []) :
    ∃ b, pathIsParent p c = .ok b ∧ (b = true ↔ Spec.Below p c) := by
  have key : (∃ r, r ≠ [] ∧ c = p ++ r ∧ (p.getLast? = some '/' ∨ r.head? = some '/')) ↔ Spec.Below p c := by
    constructor
    · rintro ⟨r, hr, rfl, h⟩
      refine ⟨by simpa using hr, ?_⟩
      unfold Spec.chopSlash
      by_cases hl : p.getLast? = some '/'
      · rw [if_pos hl]
        refine ⟨Spec.fields '/' r, fields_ne_nil _ _, ?_⟩
        obtain ⟨q, rfl⟩ := List.getLast?_eq_some_iff.1 hl
        rw [List.dropLast_concat, List.append_assoc]
        exact fields_append _ _ _
      · rw [if_neg hl]
        have h := h.resolve_left hl
        cases r with
        | nil => exact absurd rfl hr
        | cons x r =>
          simp only [List.head?_cons, Option.some.injEq] at h
          subst h
          exact ⟨Spec.fields '/' r, fields_ne_nil _ _, fields_append _ _ _⟩
    · rintro ⟨hne, more, hm, h⟩
      obtain ⟨r, hr⟩ := fields_prefix hm h
      unfold Spec.chopSlash at hr
      by_cases hl : p.getLast? = some '/'
      · rw [if_pos hl] at hr
        obtain ⟨q, rfl⟩ := List.getLast?_eq_some_iff.1 hl
        rw [List.dropLast_concat] at hr
        refine ⟨r, ?_, by simp [hr], .inl hl⟩
        rintro rfl
        exact hne hr
      · rw [if_neg hl] at hr
        exact ⟨_, by simp, hr, .inr rfl⟩
  rw [← key]
  unfold pathIsParent
  by_cases hpre : p <+: c
  · rw [if_pos (List.isPrefixOf_iff_prefix.2 hpre)]
    obtain ⟨r, rfl⟩ := hpre
    cases r with
    | nil =>
      refine ⟨false, by simp, ?_⟩
      simp only [Bool.false_eq_true, false_iff]
      rintro ⟨r, hr, h, -⟩
      exact hr (by simpa using h)
    | cons x r =>
      rw [if_pos (by simp), if_neg hp]
      refine ⟨_, rfl, ?_⟩
      simp only [Bool.or_eq_true, decide_eq_true_eq]
      constructor
      · intro h
        exact ⟨x :: r, by simp, rfl, by simpa using h⟩
      · rintro ⟨r', -, h, h'⟩
        obtain rfl := List.append_cancel_left h
        simpa using h'
  · rw [if_neg (fun h => hpre (List.isPrefixOf_iff_prefix.1 h))]
    refine ⟨false, rfl, ?_⟩
    simp only [Bool.false_eq_true, false_iff]
    rintro ⟨r, -, rfl, -⟩
    exact hpre (List.prefix_append _ _)

/-- The intended statement: for all strings the test is the component-wise relation. It fails: with an empty parent
the code reads in front of the string. -/
theorem C15_violated : ¬ ∀ p c : CStr, ∃ b, pathIsParent p c = .ok b ∧ (b = true ↔ Spec.Below p c) := by
  intro h
  obtain ⟨b, hb, -⟩ := h [] ['a']
  revert hb
  decide +revert

/-- `/var` is a parent of `/var/log` and not of `/variable`; the root is a parent of both. -/
example : Spec.Below "/var".toList "/var/log".toList ∧ ¬ Spec.Below "/var".toList "/variable".toList ∧
    Spec.Below "/".toList "/variable".toList := by
  have h (p c : CStr) (hp : p ≠ []) (b : Bool) (hb : pathIsParent p c = .ok b) : b = true ↔ Spec.Below p c := by
    obtain ⟨b', h1, h2⟩ := C15_parent_exact_partial p c hp
    rw [hb] at h1
    cases h1
    exact h2
  exact ⟨(h _ _ (by decide) true (by decide)).1 rfl, fun hb => by simpa using (h _ _ (by decide) false (by decide)).2 hb,
    (h _ _ (by decide) true (by decide)).1 rfl⟩

/-- **C15**, joining: the components of a joined path are those of the first path followed by those of the second, and
the joined path lies below the first one. -/
theorem C15_join (p c : CStr) : Spec.fields '/' (pathJoin p c) = Spec.fields '/' p ++ Spec.fields '/' c ∧
    (p ≠ [] → pathIsParent p (pathJoin p c) = .ok true) := by
  refine ⟨fields_append _ _ _, fun hp => ?_⟩
  have h1 : p.isPrefixOf (pathJoin p c) = true := by simp [pathJoin]
  have h2 : (pathJoin p c).length > p.length := by simp [pathJoin]
  have h3 : (pathJoin p c)[p.length]? = some '/' := by simp [pathJoin]
  unfold pathIsParent
  rw [if_pos h1, if_pos h2, if_neg hp, h3]
  simp

/-- A concrete case of the theorem above. -/
example : pathJoin "/var/log".toList "mail/x".toList = "/var/log/mail/x".toList ∧
    pathIsParent "/var/log".toList (pathJoin "/var/log".toList "mail/x".toList) = .ok true :=
  ⟨rfl, (C15_join _ _).2 (by decide)⟩

end Minijail
