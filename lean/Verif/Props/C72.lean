import Verif.Proof.OwnershipUses
/-!
C72: whatever a jail is used for, and wherever memory runs out, no memory is freed twice and none is used that is not allocated; and when the jail is destroyed, all memory
that was allocated for it is given back.
-/
set_option autoImplicit false
set_option linter.unusedSimpArgs false
namespace Minijail
open Ownership Ownership.Spec

/-- Any sequence of uses from `minijail_new` to `minijail_destroy`, with memory being short at any time: there is no undefined behaviour, and memory that the caller had
allocated before is left alone. Missing: a jail with file system rules that is sent to the child, if memory was short (`C72_send_violated`). -/
theorem C72_safe_partial (short : Nat → Bool) (us : List Use) (m : Ram) (hm : Sane m) (hsend : (∃ f, Use.send f ∈ us) → ∀ n, short n = false) :
    lifetime short us m ≠ .ub ∧ ∀ m', lifetime short us m = .ok m' → ∀ a, a < m.asked → m'.at_ a = m.at_ a := by
  rcases lifetime_ok short us m hm hsend with h | ⟨m', lost, h, hh, _⟩
  · rw [h]; exact ⟨by simp, fun m' e => by cases e⟩
  · rw [h]
    refine ⟨by simp, fun m2 e a ha => ?_⟩
    cases e
    exact hh.rest a fun x hx e => by have := hh.lo x hx; omega

/-- If nothing that is set is dropped by a later use then all memory is given back. Missing: settings that are made twice (`C72_again_violated`) and filters that are taken
back (`C72_clear_violated`). -/
theorem C72_freed_partial (short : Nat → Bool) (us : List Use) (m m' : Ram) (hm : Sane m) (hsend : (∃ f, Use.send f ∈ us) → ∀ n, short n = false)
    (hd : NothingDropped us) (h : lifetime short us m = .ok m') : m'.at_ = m.at_ := by
  rcases lifetime_ok short us m hm hsend with h' | ⟨m2, lost, h', hh, hl⟩
  · rw [h'] at h; cases h
  · rw [h'] at h
    cases h
    rw [hl hd] at hh
    funext a
    exact hh.rest a (by simp)

/-- Memory with nothing allocated. -/
def nothing : Ram := { at_ := fun _ => none, asked := 0 }

theorem C72_nothing_sane : Sane nothing := fun _ _ => rfl

/-- `Some` of what is left at an address; `none` if the jail does not get to its end. -/
def leftAt (e : Ends Ram) (a : Nat) : Option (Option Block) :=
  match e with
  | .ok m => some (m.at_ a)
  | _ => none

/-- Every setting that can be made again leaks what it replaces. -/
theorem C72_again_violated (σ : Setting) : ∃ u, sets u = some σ ∧ ∃ m', lifetime (fun _ => false) [u, u] nothing = .ok m' ∧ m'.at_ 1 ≠ nothing.at_ 1 := by
  have key : ∀ u, (leftAt (lifetime (fun _ => false) [u, u] nothing) 1).join ≠ none → ∃ m', lifetime (fun _ => false) [u, u] nothing = .ok m' ∧ m'.at_ 1 ≠ nothing.at_ 1 := by
    intro u h
    cases e : lifetime (fun _ => false) [u, u] nothing with
    | ok m' => rw [e] at h; exact ⟨m', rfl, h⟩
    | died => rw [e] at h; exact absurd rfl h
    | ub => rw [e] at h; exact absurd rfl h
  cases σ with
  | user => exact ⟨.changeUser true, rfl, key _ (by decide)⟩
  | groups => exact ⟨.setSupplementaryGids false, rfl, key _ (by decide)⟩
  | uidmap => exact ⟨.uidmap, rfl, key _ (by decide)⟩
  | gidmap => exact ⟨.gidmap, rfl, key _ (by decide)⟩
  | pidFile => exact ⟨.writePidFile, rfl, key _ (by decide)⟩
  | altSyscall => exact ⟨.useAltSyscall, rfl, key _ (by decide)⟩
  | program => exact ⟨.run true, rfl, key _ (by decide)⟩

/-- A filter that is taken out of the jail, as filters are not supported any more, is not freed: its instructions are still allocated at the end. -/
theorem C72_clear_violated : (leftAt (lifetime (fun _ => false) [.setFilters false false, .setFilters true false] nothing) 2) = some (some .array) := by decide

/-- If there is no memory for the path of a rule then sending the jail to the child reads from NULL. -/
theorem C72_send_violated : ∃ short, lifetime short [.addFsRestriction, .send false] nothing = .ub := ⟨fun n => n == 2, by rfl⟩

/-- Not vacuous: a jail with many settings, which is sent, run and destroyed: it gets to the end, and nothing is dropped. -/
def busy : List Use :=
  [.changeUser true, .setSupplementaryGids false, .enterChroot, .enterPivotRoot, .mount true true, .mount true false, .mount false false, .addRemount true,
    .addRemount true, .addHook true, .addFsRestriction, .addFsRestriction, .addToCgroup, .parseFilters false true true, .setFilters false false,
    .parseFiltersFromFd false true true, .run true, .send true, .preenter, .preexec, .mount true true, .addFsRestriction, .send false]

theorem busy_drops_nothing : NothingDropped busy := by
  unfold NothingDropped busy
  simp [Drops, sets, setsFilter, clearsFilter]

example : ∃ m', lifetime (fun _ => false) busy nothing = .ok m' ∧ m'.at_ = nothing.at_ := by
  cases e : lifetime (fun _ => false) busy nothing with
  | ok m' => exact ⟨m', rfl, C72_freed_partial _ _ _ _ C72_nothing_sane (fun _ _ => rfl) busy_drops_nothing e⟩
  | died =>
    have : (leftAt (lifetime (fun _ => false) busy nothing) 0) ≠ none := by decide +kernel
    rw [e] at this
    exact absurd rfl this
  | ub => exact absurd e (C72_safe_partial _ _ _ C72_nothing_sane (fun _ _ => rfl)).1

/-- Not vacuous: memory is short at the fourth string of the second mount; the program goes on and gives everything back. -/
example : (leftAt (lifetime (fun n => n == 10) [.mount true true, .mount true true, .addFsRestriction, .preexec] nothing) 6) = some none := by decide +kernel

end Minijail
