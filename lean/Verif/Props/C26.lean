import Verif.Proof.EnterFinal
import Verif.Props.EnterExample
/-! C26: the user, the group and the supplementary groups of the jailed process, and the order in which they change. `p` is the process before,
`q` after `minijail_enter` returned; `g` is the group database. -/
set_option autoImplicit false
set_option linter.unusedSimpArgs false
namespace Minijail
open Spec

variable {env : EnterEnv} {j : Jail} {k : Kernel} {t : List Ev} {g : Option BStr → BitVec 32 → List (BitVec 32)} {p q : Proc}

/-- The ids asked for are the ids of the process, unless they are 4294967295. -/
theorem C26_ids_partial (h : Entered env j k t) (hp : Evolves g p t q) :
    (j.flags.uid = true → j.uid ≠ 4294967295#32 → q.uid = j.uid) ∧ (j.flags.gid = true → j.gid ≠ 4294967295#32 → q.gid = j.gid) := by
  obtain ⟨E⟩ := trace_of h
  obtain ⟨r, _, h1, h2, h3⟩ := ids_final E hp
  refine ⟨fun hu hn => ?_, fun hu hn => ?_⟩
  · rw [h1, hu, if_pos rfl]; exact if_neg hn
  · rw [h2, hu, if_pos rfl]; exact if_neg hn

/-- A jail for user and group 4294967295: the calls accept the number. -/
def minusOneJail : Jail := { minijailNew with uid := 4294967295#32, gid := 4294967295#32, flags := { minijailNew.flags with uid := true, gid := true } }

/-- Asking for user and group 4294967295 is accepted and changes neither: the system takes this number as "leave it". The process of root that was to
give up its ids goes on as root. -/
theorem C26_violated_ids : calls minijailNew [({}, .changeUid 4294967295#32), ({}, .changeGid 4294967295#32)] = some minusOneJail ∧
    ∃ t q, Entered {} minusOneJail obliging t ∧ Evolves oneGroup rootProc t q ∧ q.uid = 0#32 ∧ q.gid = 0#32 := by
  refine ⟨rfl, (minijailEnter {} minusOneJail obliging []).2, _, ?_, evolves_after _ _, ?_⟩
  · have h : ∀ x : Out Unit × List Ev, x.1 = .ok () → x = (.ok (), x.2) := by
      rintro ⟨a, b⟩ h; simp only at h; rw [h]
    exact h _ (by decide +kernel)
  · decide +kernel

/-- The supplementary groups are the ones asked for, those of the user, or none: whenever the user or the group changes they are not those of
the caller, unless the caller asked to keep them (or said that the call is not available in the user namespace). -/
theorem C26_groups (h : Entered env j k t) (hp : Evolves g p t q) :
    (j.flags.set_suppl_gids = true → q.groups = (j.suppl_gid_list.getD []).take j.suppl_gid_count) ∧
    (j.flags.inherit_suppl_gids = true → ∃ u, j.user = some u ∧ q.groups = g (some u) j.usergid) ∧
    (j.flags.set_suppl_gids = false → j.flags.inherit_suppl_gids = false → j.flags.keep_suppl_gids = false →
      j.flags.disable_setgroups = false → j.flags.uid = true ∨ j.flags.gid = true → q.groups = []) := by
  obtain ⟨E⟩ := trace_of h
  obtain ⟨r, _, _, _, h3⟩ := ids_final E hp
  unfold wantedGroups at h3
  have one := E.one
  refine ⟨fun hs => ?_, fun hi => ?_, fun hs hi hk hd hu => ?_⟩
  · rw [hs] at one h3
    cases hi : j.flags.inherit_suppl_gids
    · rw [hi] at h3; exact h3
    · rw [hi] at one; cases hk : j.flags.keep_suppl_gids <;> rw [hk] at one <;> exact absurd one (by decide)
  · have hu := E.user hi
    rw [hi] at h3
    cases hn : j.user with
    | none => rw [hn] at hu; exact absurd hu (by simp)
    | some u => exact ⟨u, rfl, by rw [h3, hn]; rfl⟩
  · rw [hi, hs, hk, hd] at h3
    rcases hu with hu | hu <;> rw [h3, hu] <;> simp

/-- Without hooks, what was not asked for stays. -/
theorem C26_rest (h : Entered env j k t) (hp : Evolves g p t q) (hh : j.hooks = []) :
    (j.flags.uid = false → q.uid = p.uid) ∧ (j.flags.gid = false → q.gid = p.gid) ∧ (j.flags.keep_suppl_gids = true → q.groups = p.groups) := by
  obtain ⟨E⟩ := trace_of h
  obtain ⟨r, h0, h1, h2, h3⟩ := ids_final E hp
  obtain ⟨e1, e2, e3⟩ := h0 hh
  refine ⟨fun hu => by rw [h1, hu, e1]; rfl, fun hu => by rw [h2, hu, e2]; rfl, fun hk => ?_⟩
  have one := E.one
  unfold wantedGroups at h3
  rw [hk] at one h3
  cases hi : j.flags.inherit_suppl_gids
  · cases hs : j.flags.set_suppl_gids
    · rw [hi, hs] at h3; rw [h3, ← e3]; rfl
    · rw [hi, hs] at one; exact absurd one (by decide)
  · rw [hi] at one; cases hs : j.flags.set_suppl_gids <;> rw [hs] at one <;> exact absurd one (by decide)

/-- The groups change before the group, the group before the user: when the request to change the user is made, those before it have been
granted, and none follows. -/
theorem C26_order (h : Entered env j k t) {t1 t2 : List Ev} {u : BitVec 32} {r : Int} (ht : t = t1 ++ (.setresuid u, r) :: t2) :
    r = 0 ∧ u = j.uid ∧ (j.flags.gid = true → (Sys.setresgid j.gid, 0) ∈ t1) ∧
    (j.flags.set_suppl_gids = true → (Sys.setgroups ((j.suppl_gid_list.getD []).take j.suppl_gid_count), 0) ∈ t1) ∧
    (j.flags.inherit_suppl_gids = true → (Sys.initgroups j.user j.usergid, 0) ∈ t1) ∧
    (∀ e ∈ t2, ∀ v l w x, e.1 ≠ .setresgid v ∧ e.1 ≠ .setgroups l ∧ e.1 ≠ .initgroups w x) := by
  obtain ⟨E⟩ := trace_of h
  have ord := ordered E
  have app := applied E
  have none_after : ∀ e ∈ t2, ∀ v l w x, e.1 ≠ .setresgid v ∧ e.1 ≠ .setgroups l ∧ e.1 ≠ .initgroups w x := by
    rw [ht] at ord
    have ord := (List.pairwise_append.1 ord).2.1
    rw [List.pairwise_cons] at ord
    intro e he v l w x
    refine ⟨fun hc => ?_, fun hc => ?_, fun hc => ?_⟩ <;> have hs := ord.1 e he <;> rw [hc] at hs <;>
      have hs := hs _ _ rfl rfl <;> cases hn : j.flags.no_new_privs <;> rw [hn] at hs <;> exact absurd hs (by decide)
  have before : ∀ c, Happened t c → (∀ e ∈ t2, e.1 ≠ c) → c ≠ .setresuid u → (c, (0 : Int)) ∈ t1 := by
    intro c hc hn hne
    unfold Happened at hc
    rw [ht] at hc
    rcases List.mem_append.1 hc with hc | hc
    · exact hc
    · rcases List.mem_cons.1 hc with hc | hc
      · exact absurd (congrArg Prod.fst hc) hne
      · exact absurd rfl (hn _ hc)
  have hmem : (Sys.setresuid u, r) ∈ t := by rw [ht]; simp
  obtain ⟨hr, hu⟩ := setresuid_event E hmem
  refine ⟨hr, hu, fun hg => ?_, fun hg => ?_, fun hg => ?_, none_after⟩
  · exact before _ (app.gid hg) (fun e he => (none_after e he _ [] none 0).1) (by simp)
  · exact before _ (app.groupsSet hg) (fun e he => (none_after e he 0 _ none 0).2.1) (by simp)
  · exact before _ (app.groupsInherited hg) (fun e he => (none_after e he 0 [] _ _).2.2) (by simp)

/-- The jail of the examples: user 1000, group 2000, groups 30 and 31; the process comes from root with groups 0 and 27. -/
example : (after rootProc richTrace).uid = 1000 ∧ (after rootProc richTrace).gid = 2000 ∧ (after rootProc richTrace).groups = [30, 31] := by
  decide +kernel

example : (after rootProc richTrace).groups = [30, 31] := (C26_groups rich_entered (evolves_after _ _)).1 rfl

/-- The request for user 1000 is in the trace. -/
example : ∃ t1 t2, richTrace = t1 ++ (.setresuid 1000, 0) :: t2 :=
  List.append_of_mem (by decide +kernel)

end Minijail
