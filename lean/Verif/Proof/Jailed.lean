import Verif.Spec.Forever
import Verif.Proof.EnterFinal
/-! A process that has made the requests of a jail is as the jail wants it. -/
set_option autoImplicit false
set_option linter.unusedSimpArgs false
namespace Minijail
open Spec

variable {env : EnterEnv} {j : Jail} {k : Kernel} {t : List Ev} {g : Option BStr → BitVec 32 → List (BitVec 32)} {p q : Proc}

theorem jailed_of (E : EnterTrace env j t) (hp : Evolves g p t q) : Jailed env g j E.last q := by
  obtain ⟨r, _, i1, i2, i3⟩ := ids_final E hp
  unfold wantedGroups at i3
  have one := E.one
  constructor
  · intro hu hn; rw [i1, hu, if_pos rfl]; exact if_neg hn
  · intro hu hn; rw [i2, hu, if_pos rfl]; exact if_neg hn
  · intro hs
    rw [hs] at one i3
    cases hi : j.flags.inherit_suppl_gids
    · rw [hi] at i3; exact i3
    · rw [hi] at one; cases hk : j.flags.keep_suppl_gids <;> rw [hk] at one <;> exact absurd one (by decide)
  · intro hi
    have hu := E.user hi
    rw [hi] at i3
    cases hn : j.user with
    | none => rw [hn] at hu; exact absurd hu (by simp)
    | some u => exact ⟨u, rfl, by rw [i3, hn]; rfl⟩
  · intro hs hi hk hd hu
    rw [hi, hs, hk, hd] at i3
    rcases hu with hu | hu <;> rw [i3, hu] <;> simp
  · intro hu i
    obtain ⟨h1, h2, h3, _⟩ := caps_final E hp hu
    rw [h1, h2, h3, finalCaps_get]
    exact ⟨rfl, rfl, rfl⟩
  · intro hu ha i
    obtain ⟨_, _, _, h4, _⟩ := caps_final E hp hu
    rw [ha, if_pos rfl] at h4
    rw [h4, finalCaps_get]
  · intro hu i hi
    obtain ⟨_, _, _, h4, _⟩ := caps_final E hp hu
    have : (finalCaps j E.last).getLsbD i = true := by
      cases ha : j.flags.set_ambient_caps
      · rw [ha] at h4; exact h4 i hi
      · rw [ha, if_pos rfl] at h4; rw [← h4]; exact hi
    rw [finalCaps_get] at this
    simpa using this
  · intro hu h0 h1 i hi hc
    obtain ⟨_, _, _, _, b, hb⟩ := caps_final E hp hu
    rw [hb, (noroot_iff _).2 ⟨h0, h1⟩, hc, show decide (E.last < i) = false by simp; omega]
    simp
  · exact fun hd i hi hc => bound_requested E hp hd i hi hc
  · intro hu hk hs
    obtain ⟨cur, drop, r, h1, h2, hc⟩ := secure_final E hp hu
    have hb : (lockBits env j.securebits_skip_mask drop).getLsbD 0 = true := by
      rw [lockBits_get env _ _ _ (by decide), hs, hk]; simp
    rcases hc with ⟨h0, _⟩ | ⟨_, hq⟩ | ⟨hm, _, hq⟩
    · rw [h0] at hb; simp at hb
    · rw [hq]; exact hb
    · rw [hq, BitVec.getLsbD_and, hb, BitVec.getLsbD_not, f00_get]
      simp
  · exact filters_final E hp
  · exact nnp_final E hp

end Minijail
