import Verif.Proof.Jailed
/-! What a process in a jail can never become. -/
set_option autoImplicit false
set_option linter.unusedSimpArgs false
namespace Minijail
open Spec

variable {env : EnterEnv} {j : Jail} {g : Option BStr → BitVec 32 → List (BitVec 32)} {p q r : Proc} {n : Nat}

/-- Capability `i` is in none of the sets. -/
private def Lacks (i : Nat) (p : Proc) : Prop :=
  p.eff.getLsbD i = false ∧ p.perm.getLsbD i = false ∧ p.inh.getLsbD i = false ∧ p.amb.getLsbD i = false ∧ p.bound.getLsbD i = false

private theorem not_within {x y : BitVec 64} {i : Nat} (h : SubsetOf x y) (hy : y.getLsbD i = false) : x.getLsbD i = false := by
  cases hx : x.getLsbD i
  · rfl
  · rw [h i hx] at hy; exact absurd hy (by simp)

private theorem Lacks.act {i : Nat} (h : Act p q) (hl : Lacks i p) : Lacks i q := by
  obtain ⟨l1, l2, l3, l4, l5⟩ := hl
  cases h with
  | capset e pm x h1 h2 h3 =>
    have a := not_within h2 l2
    refine ⟨not_within h1 a, a, not_within h3 (by simp [l2, l3, l5]), by simp [l4], l5⟩
  | ambient a h => exact ⟨l1, l2, l3, not_within h (by simp [l2, l4]), l5⟩
  | bounding b h => exact ⟨l1, l2, l3, l4, not_within h l5⟩
  | securebits b => exact ⟨l1, l2, l3, l4, l5⟩
  | noNewPrivs => exact ⟨l1, l2, l3, l4, l5⟩
  | filter f => exact ⟨l1, l2, l3, l4, l5⟩
  | user u e pm a h h1 h2 h3 => exact ⟨not_within h1 l2, not_within h2 l2, l3, not_within h3 l4, l5⟩
  | group g h => exact ⟨l1, l2, l3, l4, l5⟩
  | groups l h => exact ⟨l1, l2, l3, l4, l5⟩
  | exec u g fi fp a e b h1 h2 =>
    have x := not_within h1 l4
    have y : (p.inh &&& fi ||| fp &&& p.bound ||| a).getLsbD i = false := by simp [l3, l5, x]
    exact ⟨not_within h2 y, y, l3, x, l5⟩

private theorem Lacks.later {i : Nat} (h : Later q r) (hl : Lacks i q) : Lacks i r := by
  induction h with
  | now => exact hl
  | step h _ ih => exact ih (hl.act h)

private theorem lasting (hr : Later q r) : (∃ more, r.filters = more ++ q.filters) ∧ (q.noNewPrivs = true → r.noNewPrivs = true) := by
  induction hr with
  | now => exact ⟨⟨[], rfl⟩, id⟩
  | step h _ ih =>
    obtain ⟨⟨more, hm⟩, hn⟩ := ih
    cases h with
    | filter f => exact ⟨⟨more ++ [f], by rw [hm]; simp⟩, hn⟩
    | noNewPrivs => exact ⟨⟨more, hm⟩, fun _ => hn rfl⟩
    | _ => exact ⟨⟨more, hm⟩, hn⟩

private theorem same_user (hr : Later q r) (hn : q.noNewPrivs = true) (hl : Lacks capSetuid q) : r.uid = q.uid := by
  induction hr with
  | now => rfl
  | step h hs ih =>
    have := hl.act h
    cases h with
    | user u e pm a h' h1 h2 h3 =>
      rcases h' with h' | h'
      · rw [ih hn this]; exact h'
      · rw [hl.1] at h'; exact absurd h' (by simp)
    | exec => rw [ih hn this]; simp [hn]
    | noNewPrivs => exact ih rfl this
    | _ => exact ih hn this

private theorem same_groups (hr : Later q r) (hn : q.noNewPrivs = true) (hl : Lacks capSetgid q) : r.gid = q.gid ∧ r.groups = q.groups := by
  induction hr with
  | now => exact ⟨rfl, rfl⟩
  | step h hs ih =>
    have := hl.act h
    cases h with
    | group g h' =>
      rcases h' with h' | h'
      · rw [(ih hn this).1, (ih hn this).2]; exact ⟨h', rfl⟩
      · rw [hl.1] at h'; exact absurd h' (by simp)
    | groups l h' => rw [hl.1] at h'; exact absurd h' (by simp)
    | exec => rw [(ih hn this).1, (ih hn this).2]; simp [hn]
    | noNewPrivs => exact ih rfl this
    | _ => exact ih hn this

theorem stays_of (J : Jailed env g j n q) (hr : Later q r) : Stays env g j n r := by
  have lk : j.flags.use_caps = true → j.securebits_skip_mask.getLsbD 0 = false → j.securebits_skip_mask.getLsbD 1 = false →
      ∀ i ≤ n, j.caps.getLsbD i = false → Lacks i q := by
    intro hu h0 h1 i hi hc
    obtain ⟨a, b, c⟩ := J.caps hu i
    refine ⟨by rw [a, hc]; rfl, by rw [b, hc]; rfl, by rw [c, hc]; rfl, ?_, J.bounding hu h0 h1 i hi hc⟩
    cases ha : q.amb.getLsbD i
    · rfl
    · rw [(J.noAmbient hu i ha).1] at hc; exact absurd hc (by simp)
  obtain ⟨⟨more, hm⟩, hn⟩ := lasting hr
  refine ⟨fun hu h0 h1 i hi hc => (lk hu h0 h1 i hi hc).later hr, fun hs ha => ?_, fun hs => hn (J.noNewPrivs hs), ?_, ?_⟩
  · rw [hm]
    refine List.mem_append_right _ ?_
    have := J.filter hs ha
    cases hq : q.filters with
    | nil => rw [hq] at this; simp at this
    | cons x l => rw [hq] at this; simp at this; rw [this]; exact List.mem_cons_self
  · intro hu h0 h1 hnn h7 hc hf hid
    rw [same_user hr (J.noNewPrivs hnn) (lk hu h0 h1 _ h7 hc)]
    exact J.uid hf hid
  · intro hu h0 h1 hnn h6 hc
    obtain ⟨a, b⟩ := same_groups hr (J.noNewPrivs hnn) (lk hu h0 h1 _ h6 hc)
    rw [a, b]
    exact ⟨J.gid, J.groups, J.inherited, J.noGroups⟩

end Minijail
