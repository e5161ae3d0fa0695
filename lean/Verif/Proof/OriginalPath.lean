import Verif.Spec.OriginalPath
/-! Lemmas about components of paths. -/
set_option autoImplicit false
set_option linter.unusedSimpArgs false
namespace Minijail
open Spec

theorem pieces_ne : ∀ p : BStr, pieces p ≠ []
  | [] => by simp [pieces]
  | c :: p => by
    unfold pieces
    split
    · simp
    · split <;> simp

theorem pieces_append (b : BStr) : ∀ a : BStr, pieces (a ++ 47#8 :: b) = pieces a ++ pieces b
  | [] => by simp [pieces]
  | c :: a => by
    have ih := pieces_append b a
    by_cases hc : c = 47#8
    · simp [pieces, hc, ih]
    · simp only [List.cons_append, pieces, if_neg hc, ih]
      cases h : pieces a with
      | nil => exact absurd h (pieces_ne a)
      | cons x xs => simp

theorem components_join (a b : BStr) : components (a ++ 47#8 :: b) = components a ++ components b := by
  simp [components, pieces_append]

theorem components_nil : components [] = [] := rfl
theorem components_slash (b : BStr) : components (47#8 :: b) = components b := components_join [] b

theorem components_joinPath (a b : BStr) : components (joinPath a b) = components a ++ components b := components_join a b

/-- A component without slash is one component. -/
theorem pieces_word : ∀ c : BStr, 47#8 ∉ c → pieces c = [c]
  | [], _ => rfl
  | x :: c, h => by
    have hx : x ≠ 47#8 := fun e => h (by simp [e])
    rw [pieces, if_neg hx, pieces_word c fun hc => h (by simp [hc])]

theorem pieces_no_slash : ∀ p : BStr, ∀ c ∈ pieces p, 47#8 ∉ c
  | [], c, hc => by simp [pieces] at hc; simp [hc]
  | x :: p, c, hc => by
    have ih := pieces_no_slash p
    unfold pieces at hc
    split at hc
    · rcases List.mem_cons.1 hc with rfl | hc
      · simp
      · exact ih c hc
    · rename_i hx
      cases h : pieces p with
      | nil => exact absurd h (pieces_ne p)
      | cons y ys =>
        rw [h] at hc ih
        rcases List.mem_cons.1 hc with rfl | hc
        · have := ih y (by simp)
          simp [this, Ne.symm hx]
        · exact ih c (by simp [hc])

/-- A plain path that covers another begins it. -/
theorem plain_prefix {d p : BStr} (hd : Plain d) (hp : Plain p) (h : components d <+: components p) : d <+: p := by
  obtain ⟨more, h⟩ := h
  unfold Plain at hd hp
  rw [hd, hp, ← h]
  by_cases h1 : components d = []
  · rw [if_pos h1, h1, List.nil_append]
    split
    · exact List.prefix_refl _
    · cases more with
      | nil => contradiction
      | cons x xs => exact ⟨x ++ xs.flatMap fun c => 47#8 :: c, by simp⟩
  · rw [if_neg h1, if_neg (by simp [h1]), List.flatMap_append]
    exact List.prefix_append _ _

/-- If a plain path begins another plain path and covers it, the rest has the other components. -/
theorem plain_rest {d p r : BStr} (hd : Plain d) (hp : Plain p) (e : p = d ++ r) (h : components d <+: components p) :
    components p = components d ++ components r := by
  obtain ⟨more, h⟩ := h
  unfold Plain at hd hp
  by_cases h1 : components d = []
  · rw [if_pos h1] at hd
    rw [e, hd, List.singleton_append, components_slash]; rfl
  · rw [if_neg h1] at hd
    rw [← h, if_neg (by simp [h1]), List.flatMap_append, ← hd] at hp
    have hr : r = more.flatMap fun c => 47#8 :: c := List.append_cancel_left (e.symm.trans hp)
    cases more with
    | nil =>
      rw [List.append_nil] at h
      rw [← h, hr]; simp [components_nil]
    | cons x xs =>
      rw [e, hr, List.flatMap_cons, List.cons_append, components_join, components_slash]

theorem original_none (chroot : Option BStr) (p : BStr) : ∀ ms : List Mountpoint, (∀ m ∈ ms, ¬ m.dest <+: p) →
    originalFrom chroot p ms = originalFrom chroot p []
  | [], _ => rfl
  | m :: ms, h => by
    have hm := h m (by simp)
    rw [originalFrom, if_neg (show ¬ m.dest = p from fun e => hm (by rw [e]; exact List.prefix_refl _)), if_neg (by simpa using hm)]
    exact original_none chroot p ms fun x hx => h x (by simp [hx])

theorem original_first (chroot : Option BStr) (p : BStr) (m : Mountpoint) (l2 : List Mountpoint) (hm : m.dest <+: p) :
    ∀ l1 : List Mountpoint, (∀ x ∈ l1, ¬ x.dest <+: p) →
    originalFrom chroot p (l1 ++ m :: l2) = if m.dest = p then m.src else joinPath m.src (p.drop m.dest.length)
  | [], _ => by
    rw [List.nil_append, originalFrom]
    split
    · rfl
    · rw [if_pos (by simpa using hm)]
  | x :: l1, h => by
    have hx := h x (by simp)
    rw [List.cons_append, originalFrom, if_neg (show ¬ x.dest = p from fun e => hx (by rw [e]; exact List.prefix_refl _)), if_neg (by simpa using hx)]
    exact original_first chroot p m l2 hm l1 fun y hy => h y (by simp [hy])

end Minijail
