import Verif.Proof.ApiOn
/-! C52: calls turn on and off nothing but what they are for. -/
set_option autoImplicit false
namespace Minijail
open Spec

/-- **C52**, what is on: behind any calls, whatever they return, nothing is on but what was on before and what one of the calls is for. -/
theorem C52_on (cs : List (ApiEnv × Call)) (j j' : Jail) (h : calls j cs = some j') (f : Feature) (hf : On f j') : On f j ∨ ∃ p ∈ cs, f ∈ turnsOn p.2 := by
  induction cs generalizing j with
  | nil =>
    injection h with h
    exact .inl (h ▸ hf)
  | cons p cs ih =>
    obtain ⟨env, c⟩ := p
    unfold calls at h
    split at h
    · exact absurd h (by simp)
    · next rc j1 e =>
      rcases ih j1 h with h1 | ⟨p, hp, h1⟩
      · rcases (switched_ret e).1 f h1 with h2 | h2
        · exact .inl h2
        · exact .inr ⟨_, .head _, h2⟩
      · exact .inr ⟨p, .tail _ hp, h1⟩

/-- **C52**, what is off: behind any calls, everything is on that was on before, but what one of the calls is there to turn off. -/
theorem C52_off (cs : List (ApiEnv × Call)) (j j' : Jail) (h : calls j cs = some j') (f : Feature) (hf : On f j) :
    On f j' ∨ ∃ p ∈ cs, f ∈ turnsOff p.1.softfail p.2 := by
  induction cs generalizing j with
  | nil =>
    injection h with h
    exact .inl (h ▸ hf)
  | cons p cs ih =>
    obtain ⟨env, c⟩ := p
    unfold calls at h
    split at h
    · exact absurd h (by simp)
    · next rc j1 e =>
      rcases (switched_ret e).2 f hf with h1 | h1
      · rcases ih j1 h h1 with h2 | ⟨p, hp, h2⟩
        · exact .inl h2
        · exact .inr ⟨p, .tail _ hp, h2⟩
      · exact .inr ⟨_, .head _, h1⟩

/-- **C52**, the start: a new jail has new sessions, the default runtime, and file system rules apply; nothing else is on. -/
theorem C52_new (f : Feature) :
    On f minijailNew ↔ f ∈ [Feature.enable_fs_restrictions, .enable_profile_fs_restrictions, .enable_new_sessions, .enable_default_runtime] := by
  cases f <;> simp [On, minijailNew]

/-- A jail with a pid namespace, capabilities and no new sessions: eight features are on behind these calls, three of them from the start. -/
example : ∃ j, calls minijailNew [({}, .capbsetDrop 1#64), ({}, .namespacePids), ({}, .useCaps 3#64), ({}, .setEnableNewSessions false)] = some j ∧
    On .pids j ∧ On .vfs j ∧ On .use_caps j ∧ ¬ On .capbset_drop j ∧ ¬ On .enable_new_sessions j ∧ On .enable_default_runtime j ∧ ¬ On .net j :=
  ⟨_, rfl, by decide⟩

end Minijail
