import Verif.Proof.OfflineAccepts
/-! The command tools/compile_seccomp_policy.py. -/
set_option linter.unusedSimpArgs false
set_option autoImplicit false
namespace Minijail
open Offline Spec

theorem killAction_iff (c : Command) (k : Offline.Action) : killAction c = some k ↔ KillT c k := by
  unfold killAction
  constructor
  · intro h
    cases hl : c.retLog with
    | true => rw [hl] at h; simp at h; subst h; exact .log hl
    | false =>
      rw [hl] at h
      cases hd : c.denylist with
      | true =>
        rw [hd] at h
        simp only [Bool.false_eq_true, if_false, if_true] at h
        obtain ⟨e, he, h⟩ := Option.bind_eq_some_iff.1 h
        simp only [Option.pure_def, Option.some.injEq] at h
        subst h
        exact .errno hl hd he
      | false =>
        rw [hd] at h
        cases hp : c.killProcess with
        | true => rw [hp] at h; simp at h; subst h; exact .process hl hd hp
        | false => rw [hp] at h; simp at h; subst h; exact .thread hl hd hp
  · intro h
    cases h with
    | log h => simp [h]
    | errno h1 h2 h3 =>
      rw [h1, h2]
      simp only [Bool.false_eq_true, if_false, if_true]
      rw [h3]; rfl
    | process h1 h2 h3 => simp [h1, h2, h3]
    | thread h1 h2 h3 => simp [h1, h2, h3]

theorem overrideAction_some {c : Command} {x : Option ActObj × Nat} (h : overrideAction c = some x) (k : Offline.Action) :
    OverrideT c (x.1.map ActObj.act) ∧ Known (⟨0, k⟩ :: x.1.toList) x.2 := by
  unfold overrideAction at h
  split at h
  · next e => simp only [Option.some.injEq] at h; subst h; exact ⟨.none (.inl e), by simp, by simp⟩
  · next e => simp only [Option.some.injEq] at h; subst h; exact ⟨.none (.inr e), by simp, by simp⟩
  · next text _ e =>
    obtain ⟨ls, hl, h⟩ := Option.bind_eq_some_iff.1 h
    obtain ⟨toks, ht, h⟩ := Option.bind_eq_some_iff.1 h
    obtain ⟨y, hy, h⟩ := Option.bind_eq_some_iff.1 h
    simp only [Option.pure_def, Option.some.injEq] at h
    subst h
    obtain ⟨pre, h1, h2⟩ := action_sound _ _ y.1 y.2 hy
    dsimp only at h1
    obtain ⟨nl, e1, e2, e3⟩ := (stripNewlines_iff text _).1 rfl
    have hlast : (stripNewlines text).getLast? ≠ some '\n' := fun h => (e3 _ h).2 rfl
    have hls : ls = [pre ++ y.2.toks] := by
      have := tokenizeLine_one hl
      rcases this with rfl | ⟨ts, rfl⟩
      · simp at ht
      · simp at ht; rw [← h1, ht]
    rw [hls, tokenizeLine_iff _ hlast] at hl
    refine ⟨.some e e1 e2 e3 hl h2, ?_⟩
    have hm := makes_action (K := [⟨1, .killProcess⟩]) (g := ⟨c.arch, ⟨1, .killProcess⟩, false, false⟩) (by simp) _ y.1 y.2 hy ⟨by simp, by simp⟩
    have hf := hm.from_ y.1 (by simp)
    have hle := hm.le
    simp only [List.mem_singleton] at hf hle
    have hid : 1 ≤ y.1.id ∧ y.1.id < y.2.next := by
      rcases hf with hf | hf
      · rw [hf]; exact ⟨Nat.le_refl 1, by show 1 < y.2.next; omega⟩
      · omega
    refine ⟨?_, ?_⟩
    · intro a ha
      simp only [Option.toList_some, List.mem_cons, List.not_mem_nil, or_false] at ha
      rcases ha with rfl | rfl
      · show 0 < y.2.next
        omega
      · exact hid.2
    · intro a ha b hb he
      simp only [Option.toList_some, List.mem_cons, List.not_mem_nil, or_false] at ha hb
      rcases ha with rfl | rfl <;> rcases hb with rfl | rfl
      · rfl
      · simp at he; omega
      · simp at he; omega
      · rfl

theorem overrideAction_complete {c : Command} {ov : Option Offline.Action} (h : OverrideT c ov) : ∃ x, overrideAction c = some x ∧ x.1.map ActObj.act = ov := by
  cases h with
  | none h => rcases h with h | h <;> exact ⟨(none, 1), by unfold overrideAction; rw [h], rfl⟩
  | @some text body nl ts extra act h1 e1 e2 e3 h2 h3 =>
    obtain ⟨hne, hr⟩ := action_reads h3
    obtain ⟨y, n', e, hv⟩ := hr extra 2 trivial
    have hb := (stripNewlines_iff text body).2 ⟨nl, e1, e2, e3⟩
    have h2 := (tokenizeLine_iff body (fun h => (e3 _ h).2 rfl) _).2 h2
    rw [← hb] at h2
    have ht : text ≠ [] := by
      rintro rfl
      rw [show tokenizeLines [] [stripNewlines []] = some [] from rfl] at h2
      simp at h2
    obtain ⟨ch, t, rfl⟩ := List.exists_cons_of_ne_nil ht
    refine ⟨(some y, n'), ?_, by simp [hv]⟩
    unfold overrideAction
    rw [h1]
    simp only [h2, Option.bind_eq_bind, Option.bind_some, List.head?_cons, e, Option.pure_def]

theorem override_unique {c : Command} {ov ov' : Option Offline.Action} (h : OverrideT c ov) (h' : OverrideT c ov') : ov = ov' := by
  obtain ⟨x, h1, h2⟩ := overrideAction_complete h
  obtain ⟨y, h3, h4⟩ := overrideAction_complete h'
  rw [h1, Option.some.injEq] at h3
  rw [← h2, ← h4, h3]

theorem kill_unique {c : Command} {k k' : Offline.Action} (h : KillT c k) (h' : KillT c k') : k = k' := by
  have h1 := (killAction_iff c k).2 h
  have h2 := (killAction_iff c k').2 h'
  rw [h1, Option.some.injEq] at h2
  exact h2

theorem offlineMain_some {fs : PyFiles} {c : Command} {prog : List Insn} (h : offlineMain fs c = some prog) :
    ∃ k ov x, killAction c = some k ∧ overrideAction c = some ov ∧ parseFile fs (settingsOf c k) c.depth ov.1 c.policy ov.2 = some x ∧
      compileProgram (optionsOf c k) x.1 x.2 = some prog := by
  unfold offlineMain at h
  obtain ⟨k, hk, h⟩ := Option.bind_eq_some_iff.1 h
  obtain ⟨ov, ho, h⟩ := Option.bind_eq_some_iff.1 h
  obtain ⟨x, hx, h⟩ := Option.bind_eq_some_iff.1 h
  exact ⟨k, ov, x, hk, ho, hx, h⟩

end Minijail
