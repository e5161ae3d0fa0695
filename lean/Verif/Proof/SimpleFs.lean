import Verif.Spec.Files
import Verif.Proof.OriginalPath
import Mathlib.Tactic.SplitIfs
import Mathlib.Tactic.Push
/-! A simple file system: a tree of names without links, in which some directories do not allow new names. It meets what is expected of a file
system. -/
set_option linter.unusedSimpArgs false
set_option autoImplicit false
namespace Minijail
open Spec

/-- What each list of names stands for. -/
abbrev Tree := List BStr → Option FileKind

/-- Following a path: every name before the last must stand for a directory. -/
def follow (t : Tree) (cs : List BStr) : Option FileKind :=
  if ∀ i < cs.length, 0 < i → t (cs.take i) = some .dir then (if cs = [] then some .dir else t cs) else none

/-- The answers of a simple file system; `deny` lists the paths that may not be made. -/
def simpleFs (deny : List BStr → Bool) : FsOps Tree where
  stat t p := if p = [] then .error 2 else match follow t (components p) with
    | some k => .ok k
    | none => .error 2
  mkdir t p :=
    if p = [] then (t, 2) else if components p = [] then (t, 17)
    else if follow t (components p).dropLast ≠ some .dir then (t, 20)
    else if (t (components p)).isSome then (t, 17)
    else if deny (components p) then (t, 13)
    else (fun cs => if cs = components p then some .dir else t cs, 0)
  create t p :=
    if p = [] then (t, 2) else if components p = [] then (t, 21)
    else if follow t (components p).dropLast ≠ some .dir then (t, 20)
    else if (t (components p)).isSome then (t, 0)
    else if deny (components p) then (t, 13)
    else (fun cs => if cs = components p then some .other else t cs, 0)
  chown t p _ _ := if p ≠ [] ∧ (follow t (components p)).isSome then (t, 0) else (t, 2)

theorem follow_keeps {t : Tree} {x : List BStr} {k k' : FileKind} {cs : List BStr} (hx : t x = none) (h : follow t cs = some k) :
    follow (fun cs => if cs = x then some k' else t cs) cs = some k := by
  unfold follow at h ⊢
  split at h
  · next hd =>
    have hd' : ∀ i < cs.length, 0 < i → (if cs.take i = x then some k' else t (cs.take i)) = some .dir := by
      intro i hi h0
      have := hd i hi h0
      rw [if_neg (by intro e; rw [e, hx] at this; simp at this)]
      exact this
    rw [if_pos hd']
    split
    · next hc => rw [if_pos hc] at h; exact h
    · next hc =>
      rw [if_neg hc] at h
      show (if cs = x then some k' else t cs) = some k
      rw [if_neg (by intro e; rw [e, hx] at h; simp at h)]
      exact h
  · simp at h

theorem follow_prefix {t : Tree} {a b : List BStr} {k : FileKind} (hb : b ≠ []) (h : follow t (a ++ b) = some k) : follow t a = some .dir := by
  have hlen : 0 < b.length := by cases b with | nil => simp at hb | cons _ _ => simp
  unfold follow at h ⊢
  split at h
  · next hd =>
    have hd' : ∀ i < a.length, 0 < i → t (a.take i) = some .dir := by
      intro i hi h0
      have := hd i (by simp; omega) h0
      rwa [List.take_append_of_le_length (by omega)] at this
    rw [if_pos hd']
    split
    · rfl
    · next hc =>
      have h0 : 0 < a.length := by cases a with | nil => simp at hc | cons _ _ => simp
      have := hd a.length (by simp; omega) h0
      simpa using this
  · simp at h

theorem components_ne {r : BStr} (h : ∃ c ∈ r, c ≠ 47#8) : components r ≠ [] := by
  obtain ⟨c, hc, hne⟩ := h
  obtain ⟨a, b, rfl⟩ := List.append_of_mem hc
  clear hc
  intro he
  have hall : ∀ x ∈ pieces (a ++ c :: b), x = [] := by
    intro x hx
    have := List.filter_eq_nil_iff.1 he x hx
    simpa using this
  clear he
  induction a with
  | nil =>
    rw [List.nil_append, pieces, if_neg hne] at hall
    cases h : pieces b with
    | nil => exact absurd h (pieces_ne b)
    | cons x xs => rw [h] at hall; have := hall (c :: x) (by simp); simp at this
  | cons d a ih =>
    apply ih
    intro x hx
    rw [List.cons_append, pieces] at hall
    split at hall
    · exact hall x (by simp [hx])
    · cases h : pieces (a ++ c :: b) with
      | nil => exact absurd h (pieces_ne _)
      | cons y ys => rw [h] at hall; have := hall (d :: y) (by simp); simp at this

theorem ancestor_components {q p : BStr} (h : Ancestor q p) : q ≠ [] ∧ p ≠ [] ∧ ∃ b, b ≠ [] ∧ components p = components q ++ b := by
  obtain ⟨r, rfl, hq, hr⟩ := h
  exact ⟨hq, by simp, components r, components_ne hr, components_join q r⟩

theorem simple_stat {deny : List BStr → Bool} {t : Tree} {p : BStr} {k : FileKind} :
    (simpleFs deny).stat t p = .ok k ↔ p ≠ [] ∧ follow t (components p) = some k := by
  simp only [simpleFs]
  by_cases hp : p = []
  · simp [hp]
  · rw [if_neg hp]
    cases follow t (components p) <;> simp [hp]

theorem follow_new {t : Tree} {cs : List BStr} (hc : cs ≠ []) (h : follow t cs.dropLast = some .dir) (k : FileKind) :
    follow (fun x => if x = cs then some k else t x) cs = some k := by
  unfold follow at h ⊢
  have hlen : 0 < cs.length := by cases cs with | nil => simp at hc | cons _ _ => simp
  split at h
  · next hd =>
    have hd' : ∀ i < cs.length, 0 < i → (if cs.take i = cs then some k else t (cs.take i)) = some .dir := by
      intro i hi h0
      rw [if_neg (by intro e; have := congrArg List.length e; simp at this; omega)]
      by_cases hl : i = cs.length - 1
      · split at h
        · next he => have := congrArg List.length he; simp at this; omega
        · rw [List.dropLast_eq_take] at h; rw [hl]; exact h
      · have := hd i (by simp; omega) h0
        rwa [List.dropLast_eq_take, List.take_take, Nat.min_eq_left (by omega)] at this
    rw [if_pos hd', if_neg hc]
    simp
  · simp at h

theorem simple_is_fs (deny : List BStr → Bool) : FileSystem (simpleFs deny) := by
  have up : ∀ t p q, Ancestor q p → ∀ k, follow t (components p) = some k → IsDir (simpleFs deny) t q := by
    intro t p q ha k hk
    obtain ⟨hq, -, b, hb, e⟩ := ancestor_components ha
    rw [e] at hk
    exact simple_stat.2 ⟨hq, follow_prefix hb hk⟩
  constructor
  · intro t p q k h
    obtain ⟨hq, hf⟩ := simple_stat.1 h
    refine simple_stat.2 ⟨hq, ?_⟩
    simp only [simpleFs]
    split_ifs <;> try exact hf
    next h1 _ => exact follow_keeps (by simpa using h1) hf
  · intro t p q k h
    obtain ⟨hq, hf⟩ := simple_stat.1 h
    refine simple_stat.2 ⟨hq, ?_⟩
    simp only [simpleFs]
    split_ifs <;> try exact hf
    next h1 _ => exact follow_keeps (by simpa using h1) hf
  · intro t p u g q k h
    obtain ⟨hq, hf⟩ := simple_stat.1 h
    refine simple_stat.2 ⟨hq, ?_⟩
    simp only [simpleFs]
    split <;> exact hf
  · intro t p h
    simp only [simpleFs] at h
    split_ifs at h with h1 h2 h3 h4 h5
    refine simple_stat.2 ⟨h1, ?_⟩
    simp only [simpleFs, if_neg h1, if_neg h2, if_neg h3, if_neg h4, if_neg h5]
    exact follow_new h2 (by simpa using h3) .dir
  · intro t p u g h
    simp only [simpleFs] at h
    split_ifs at h with h1
    obtain ⟨k, hk⟩ := Option.isSome_iff_exists.1 h1.2
    refine ⟨k, simple_stat.2 ⟨h1.1, ?_⟩⟩
    simp only [simpleFs, if_pos h1]
    exact hk
  · intro t p q h ha
    obtain ⟨hq, hp, b, hb, e⟩ := ancestor_components ha
    simp only [simpleFs, if_neg hp] at h
    have hc : components p ≠ [] := by rw [e]; simp [hb]
    rw [if_neg hc] at h
    have hd : follow t (components p).dropLast = some .dir := by
      apply Classical.byContradiction
      intro hn
      rw [if_pos hn] at h
      simp at h
    rw [e, List.dropLast_append_of_ne_nil hb] at hd
    refine simple_stat.2 ⟨hq, ?_⟩
    by_cases hbb : b.dropLast = []
    · rwa [hbb, List.append_nil] at hd
    · exact follow_prefix hbb hd
  · intro t p q ⟨k, hk⟩ ha
    exact up t p q ha k (simple_stat.1 hk).2
  · intro t p e h
    simp only [simpleFs] at h
    split at h
    · simp only [Except.error.injEq] at h; omega
    · split at h
      · simp at h
      · simp only [Except.error.injEq] at h; omega

end Minijail
