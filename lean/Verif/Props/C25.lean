import Verif.Proof.EnterFinal
import Verif.Props.EnterExample
/-! C25: dropping capabilities leaves exactly the requested ones. `p` is the process before, `q` after `minijail_enter` returned. -/
set_option autoImplicit false
set_option linter.unusedSimpArgs false
namespace Minijail
open Spec

variable {env : EnterEnv} {j : Jail} {k : Kernel} {t : List Ev} {g : Option BStr → BitVec 32 → List (BitVec 32)} {p q : Proc} {n : Nat}

/-- Whoever asks for capabilities or a bounding set has the number of the last capability read first. -/
theorem C25_last (h : Entered env j k t) (hu : j.flags.use_caps = true ∨ j.flags.capbset_drop = true) : ∃ n, n ≤ 64 ∧ LastCap t n := by
  obtain ⟨E⟩ := trace_of h
  exact ⟨E.last, E.hlast, head_last E hu⟩

/-- The effective, permitted and inheritable sets are the requested mask restricted to the capabilities the system knows. -/
theorem C25_sets (h : Entered env j k t) (hp : Evolves g p t q) (hu : j.flags.use_caps = true) (hn : LastCap t n) (i : Nat) :
    q.eff.getLsbD i = (j.caps.getLsbD i && decide (i ≤ n)) ∧ q.perm.getLsbD i = (j.caps.getLsbD i && decide (i ≤ n)) ∧
      q.inh.getLsbD i = (j.caps.getLsbD i && decide (i ≤ n)) := by
  obtain ⟨E, rfl⟩ := last_of h (.inl hu) hn
  obtain ⟨h1, h2, h3, _⟩ := caps_final E hp hu
  rw [h1, h2, h3, finalCaps_get]
  exact ⟨rfl, rfl, rfl⟩

/-- The ambient set is the same mask if ambient capabilities were asked for, and has nothing else in it otherwise. -/
theorem C25_ambient (h : Entered env j k t) (hp : Evolves g p t q) (hu : j.flags.use_caps = true) (hn : LastCap t n) (i : Nat) :
    (j.flags.set_ambient_caps = true → q.amb.getLsbD i = (j.caps.getLsbD i && decide (i ≤ n))) ∧
      (q.amb.getLsbD i = true → j.caps.getLsbD i = true ∧ i ≤ n) := by
  obtain ⟨E, rfl⟩ := last_of h (.inl hu) hn
  obtain ⟨_, _, _, h4, _⟩ := caps_final E hp hu
  cases ha : j.flags.set_ambient_caps
  · rw [ha] at h4
    simp only [Bool.false_eq_true, if_false] at h4
    refine ⟨by simp, fun hi => ?_⟩
    have := h4 i hi
    rw [finalCaps_get] at this
    simpa using this
  · rw [ha] at h4
    simp only [if_true] at h4
    rw [h4, finalCaps_get]
    exact ⟨fun _ => rfl, fun hi => by simpa using hi⟩

/-- Every capability outside the mask is gone from the bounding set, unless the caller asked to leave SECURE_NOROOT (bit 0) or its lock
(bit 1) alone. -/
theorem C25_bounding (h : Entered env j k t) (hp : Evolves g p t q) (hu : j.flags.use_caps = true) (hn : LastCap t n)
    (h0 : j.securebits_skip_mask.getLsbD 0 = false) (h1 : j.securebits_skip_mask.getLsbD 1 = false) (i : Nat) (hi : i ≤ n)
    (hc : j.caps.getLsbD i = false) : q.bound.getLsbD i = false := by
  obtain ⟨E, rfl⟩ := last_of h (.inl hu) hn
  obtain ⟨_, _, _, _, b, hb⟩ := caps_final E hp hu
  rw [hb, (noroot_iff _).2 ⟨h0, h1⟩, hc, show decide (E.last < i) = false by simp; omega]
  simp

/-- A requested bounding set is never exceeded. -/
theorem C25_requested_bounding (h : Entered env j k t) (hp : Evolves g p t q) (hd : j.flags.capbset_drop = true) (hn : LastCap t n)
    (i : Nat) (hi : i ≤ n) (hc : j.cap_bset.getLsbD i = false) : q.bound.getLsbD i = false := by
  obtain ⟨E, rfl⟩ := last_of h (.inr hd) hn
  exact bound_requested E hp hd i hi hc

/-- The bounding set exactly, when no hook interferes: what it was before, without what was asked to be dropped. -/
theorem C25_bounding_exact (h : Entered env j k t) (hp : Evolves g p t q) (hh : j.hooks = []) (hn : LastCap t n)
    (hu : j.flags.use_caps = true ∨ j.flags.capbset_drop = true) (i : Nat) : q.bound.getLsbD i = true ↔ p.bound.getLsbD i = true ∧
      ¬ (j.flags.capbset_drop = true ∧ i ≤ n ∧ j.cap_bset.getLsbD i = false) ∧
      ¬ (j.flags.use_caps = true ∧ j.securebits_skip_mask.getLsbD 0 = false ∧ j.securebits_skip_mask.getLsbD 1 = false ∧ i ≤ n ∧
         j.caps.getLsbD i = false) := by
  obtain ⟨E, rfl⟩ := last_of h hu hn
  exact bound_exact E hp hh i

/-- The privileges the steps need are given up only after them. Dropping from the bounding set needs CAP_SETPCAP (8) in the effective set, raising an
ambient capability needs it in the permitted and the inheritable set (capabilities(7)); all sets the jail gave itself before have these. -/
theorem C25_able (h : Entered env j k t) (hu : j.flags.use_caps = true) (hn : LastCap t n) {t1 t2 : List Ev} {e : Ev} (ht : t = t1 ++ e :: t2)
    {eff perm inh : BitVec 64} {x : Int} (hc : (Sys.capset eff perm inh, x) ∈ t1) :
    (∀ i, e.1 = .dropBound i → 8 ≤ n → eff.getLsbD 8 = true) ∧ (∀ i, e.1 = .ambientRaise i → perm.getLsbD i = true ∧ inh.getLsbD i = true) := by
  obtain ⟨E, rfl⟩ := last_of h (.inl hu) hn
  obtain ⟨X, Y, eq, hX, hY, hX6, hYr⟩ := cut_caps E hu
  rw [eq] at ht
  refine ⟨fun i hi h8 => ?_, fun i hi => ?_⟩
  · have : ∃ c, X = t1 ++ c := by
      rcases List.append_eq_append_iff.1 ht with ⟨c, e1, e2⟩ | ⟨c, e1, e2⟩
      · exact absurd (show kind e.1 = 5 by rw [hi]; rfl) (hYr e (by rw [e2]; simp)).1
      · exact ⟨c, e1⟩
    obtain ⟨c, rfl⟩ := this
    have := hX _ (List.mem_append_left _ hc) rfl
    simp only [Sys.capset.injEq] at this
    rw [this.1, keptCaps_get _ _ _ (by decide)]
    simp [CAP_SETPCAP, h8]
  · have he : e ∈ Y := by
      have : e ∈ X ++ Y := by rw [ht]; simp
      rcases List.mem_append.1 this with h | h
      · exact absurd (by rw [hi]; rfl) (hX6 e h)
      · exact h
    obtain ⟨r1, r2, r3⟩ := (hYr e he).2 i hi
    have hc' : (Sys.capset eff perm inh, x) ∈ X ++ Y := by rw [ht]; exact List.mem_append_left _ hc
    rcases List.mem_append.1 hc' with h | h
    · have := hX _ h rfl
      simp only [Sys.capset.injEq] at this
      rw [this.2.1, this.2.2, keptCaps_get _ _ _ r3, r1]
      simp [r2]
    · have := hY _ h rfl
      simp only [Sys.capset.injEq] at this
      rw [this.2.1, this.2.2, finalCaps_get, r1]
      simp [r2]

/-- A jail that drops to CAP_NET_BIND_SERVICE, entered by root: it keeps capability 10, also as an ambient one, and the bounding set has
nothing else among the 41 known capabilities. -/
example : LastCap richTrace 40 ∧ richJail.flags.use_caps = true ∧ (after rootProc richTrace).eff = 0x400#64 ∧
    (after rootProc richTrace).amb = 0x400#64 ∧ (after rootProc richTrace).bound = 0x400#64 := by decide +kernel

example (i : Nat) : (after rootProc richTrace).eff.getLsbD i = (richJail.caps.getLsbD i && decide (i ≤ 40)) :=
  (C25_sets rich_entered (evolves_after _ _) rfl (by decide +kernel) i).1

example : (after rootProc richTrace).bound.getLsbD 21 = false :=
  C25_bounding rich_entered (evolves_after _ _) rfl (by decide +kernel) (by decide) (by decide) 21 (by decide : 21 ≤ 40) (by decide)

end Minijail
