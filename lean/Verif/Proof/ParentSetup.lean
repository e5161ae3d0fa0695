import Verif.Spec.ParentSetup
import Mathlib.Tactic.Tauto
import Mathlib.Tactic.SplitIfs
/-! Lemmas for C69. -/
set_option autoImplicit false
set_option linter.unusedSimpArgs false
namespace Minijail.ParentSetup
open Spec

/-- A step that goes on has done one of the plans; one that dies has begun one, and killed the child last. -/
def Ended (pid : Nat) (P : List Deed → List Deed → Prop) (d : List Deed) (r : SetupEnd × List Deed) : Prop :=
  match r.1 with
  | .goesOn => ∃ plan, P d plan ∧ r.2 = d ++ plan
  | .died => ∃ plan done, P d plan ∧ r.2 = d ++ done ++ [.killed pid] ∧ Begun plan done

theorem begun_left {p q a : List Deed} (h : Begun p a) : Begun (p ++ q) a := by
  rcases h with h | ⟨x, path, text, n, h, h'⟩
  · exact .inl (h.trans (List.prefix_append _ _))
  · exact .inr ⟨x, path, text, n, h, h'.trans (List.prefix_append _ _)⟩

theorem begun_right {p q a : List Deed} (h : Begun q a) : Begun (p ++ q) (p ++ a) := by
  rcases h with h | ⟨x, path, text, n, h, h'⟩
  · exact .inl ((List.prefix_append_right_inj _).2 h)
  · refine .inr ⟨p ++ x, path, text, n, by rw [h, List.append_assoc], ?_⟩
    rw [List.append_assoc]; exact (List.prefix_append_right_inj _).2 h'

/-- First one, then the other. -/
def Then (P Q : List Deed → List Deed → Prop) (d plan : List Deed) : Prop := ∃ p q, plan = p ++ q ∧ P d p ∧ Q (d ++ p) q

theorem andThen_ended {pid : Nat} {P Q : List Deed → List Deed → Prop} {d : List Deed} {r : SetupEnd × List Deed} {f : List Deed → SetupEnd × List Deed}
    (hr : Ended pid P d r) (hf : ∀ d, Ended pid Q d (f d)) (hq : ∀ d, ∃ q, Q d q) : Ended pid (Then P Q) d (SetupEnd.andThen r f) := by
  obtain ⟨e, l⟩ := r
  cases e with
  | goesOn =>
    obtain ⟨p, hp, rfl⟩ := hr
    have := hf (d ++ p)
    simp only [SetupEnd.andThen]
    generalize f (d ++ p) = r at this ⊢
    obtain ⟨e, l⟩ := r
    cases e with
    | goesOn => obtain ⟨q, hq, h⟩ := this; exact ⟨p ++ q, ⟨p, q, rfl, hp, hq⟩, by simpa using h⟩
    | died => obtain ⟨q, a, hq, h, hb⟩ := this; exact ⟨p ++ q, p ++ a, ⟨p, q, rfl, hp, hq⟩, by simpa using h, begun_right hb⟩
  | died =>
    obtain ⟨p, a, hp, h, hb⟩ := hr
    obtain ⟨q, hq⟩ := hq (d ++ p)
    exact ⟨p ++ q, a, ⟨p, q, rfl, hp, hq⟩, h, begun_left hb⟩

/-- The one plan there is. -/
def Only (l : List Deed) (_ plan : List Deed) : Prop := plan = l

theorem ended_none (pid : Nat) (d : List Deed) : Ended pid (Only []) d (.goesOn, d) := ⟨[], rfl, by simp⟩

theorem begun_nil (p : List Deed) : Begun p [] := .inl List.nil_prefix

theorem begun_open (path : BStr) (b : Bool) (t : BStr) : Begun (givenTo path b t) [.opened path b] := .inl ⟨[.wrote path t], rfl⟩

theorem begun_write (path : BStr) (b : Bool) (t : BStr) (n : Nat) : Begun (givenTo path b t) [.opened path b, .wrote path (t.take n)] :=
  .inr ⟨[.opened path b], path, t, n, rfl, List.prefix_refl _⟩

section
variable {env : SetupEnv} (hs : SetupErrors env) (hk : LogKeeps env) {pid : Nat}
include hs hk

theorem pidToPath (path : BStr) (d : List Deed) :
    (writePidToPath env pid path d).1 = 0 ∧ (writePidToPath env pid path d).2 = d ++ givenTo path true (line pid) ∨
    (writePidToPath env pid path d).1 ≠ 0 ∧ ∃ a, (writePidToPath env pid path d).2 = d ++ a ∧ Begun (givenTo path true (line pid)) a := by
  unfold writePidToPath
  cases h : env.open_ d path with
  | some e =>
    refine .inr ⟨?_, [], by simp, begun_nil _⟩
    have := hs.open_ _ _ _ h
    simp only [hk d e]; omega
  | none =>
    simp only []
    split
    · exact .inr ⟨by simp, _, rfl, begun_open _ _ _⟩
    · cases h : env.flush (d ++ [.opened path true]) path with
      | none => exact .inl ⟨rfl, by simp [givenTo, line]⟩
      | some x =>
        obtain ⟨n, e⟩ := x
        have := hs.flush _ _ _ _ h
        refine .inr ⟨?_, [.opened path true, .wrote path ((line pid).take n)], by simp [line], begun_write _ _ _ _⟩
        simp only [hk _ e]; omega

theorem procFile (content : BStr) (name : String) (d : List Deed) :
    (writeProcFile env pid content name d).1 = 0 ∧ (writeProcFile env pid content name d).2 = d ++ givenTo (procPath pid name) false content ∨
    (writeProcFile env pid content name d).1 = -2 ∧ (writeProcFile env pid content name d).2 = d ∧ env.open_ d (procPath pid name) = some 2 ∨
    (writeProcFile env pid content name d).1 ≠ 0 ∧ (writeProcFile env pid content name d).1 ≠ -2 ∧
      ∃ a, (writeProcFile env pid content name d).2 = d ++ a ∧ Begun (givenTo (procPath pid name) false content) a := by
  have hp : bstr "/proc/" ++ decimalOf pid ++ bstr "/" ++ bstr name = procPath pid name := by
    simp [procPath, bstr, List.append_assoc]
  unfold writeProcFile
  simp only [hp]
  split
  · exact .inr (.inr ⟨by simp, by simp, [], by simp, begun_nil _⟩)
  · cases h : env.open_ d (procPath pid name) with
    | some e =>
      have := hs.open_ _ _ _ h
      simp only [hk _ e]
      by_cases he : e = 2
      · subst he; exact .inr (.inl ⟨rfl, by simp, rfl⟩)
      · exact .inr (.inr ⟨by omega, by omega, [], by simp, begun_nil _⟩)
    | none =>
      simp only []
      cases h : env.write (d ++ [.opened (procPath pid name) false]) (procPath pid name) with
      | inr e =>
        have := hs.write _ _ _ h
        simp only [hk _ e]
        exact .inr (.inr ⟨by omega, by omega, _, rfl, begun_open _ _ _⟩)
      | inl n =>
        simp only []
        by_cases hn : n < content.length
        · rw [if_pos hn]
          exact .inr (.inr ⟨by simp, by simp, _, List.append_assoc _ _ _, begun_write _ _ _ _⟩)
        · rw [if_neg hn]
          exact .inl ⟨rfl, by simp [givenTo, List.take_of_length_le (Nat.le_of_not_lt hn)]⟩

theorem pidFile_ended (path : BStr) (d : List Deed) : Ended pid (Only (givenTo path true (line pid))) d (writePidFileOrDie env pid path d) := by
  unfold writePidFileOrDie
  rcases pidToPath hs hk (pid := pid) path d with ⟨h, h'⟩ | ⟨h, a, h', hb⟩
  · simp only [h, h']; exact ⟨_, rfl, rfl⟩
  · simp only [ne_eq, h, not_false_eq_true, if_true, killChildAndDie, h']; exact ⟨_, a, rfl, rfl, hb⟩

omit hs hk in
theorem ended_congr {P Q : List Deed → List Deed → Prop} {d : List Deed} {r : SetupEnd × List Deed} (h : ∀ d p, P d p → Q d p)
    (hr : Ended pid P d r) : Ended pid Q d r := by
  obtain ⟨e, l⟩ := r
  cases e with
  | goesOn => obtain ⟨p, hp, h'⟩ := hr; exact ⟨p, h _ _ hp, h'⟩
  | died => obtain ⟨p, a, hp, h'⟩ := hr; exact ⟨p, a, h _ _ hp, h'⟩

theorem cgroups_ended (cs : List BStr) (d : List Deed) :
    Ended pid (Only (cs.flatMap fun c => givenTo c true (line pid))) d (addToCgroupsOrDie env pid cs d) := by
  induction cs generalizing d with
  | nil => exact ended_none _ _
  | cons c cs ih =>
    unfold addToCgroupsOrDie
    rcases pidToPath hs hk (pid := pid) c d with ⟨h, h'⟩ | ⟨h, a, h', hb⟩
    · simp only [h, h', ne_eq, not_true_eq_false, if_false]
      have := ih (d ++ givenTo c true (line pid))
      generalize addToCgroupsOrDie env pid cs (d ++ givenTo c true (line pid)) = r at this ⊢
      obtain ⟨e, l⟩ := r
      cases e with
      | goesOn =>
        obtain ⟨p, rfl, h⟩ := this
        exact ⟨_, rfl, by simpa using h⟩
      | died =>
        obtain ⟨p, a, rfl, h, hb⟩ := this
        exact ⟨_, givenTo c true (line pid) ++ a, rfl, by simpa using h, by rw [List.flatMap_cons]; exact begun_right hb⟩
    · simp only [ne_eq, h, not_false_eq_true, if_true, killChildAndDie, h']
      exact ⟨_, a, rfl, rfl, by rw [List.flatMap_cons]; exact begun_left hb⟩

omit hs hk in
theorem rlimits_ended (ls : List Rlimit) (d : List Deed) :
    Ended pid (Only (ls.map (Deed.limited pid))) d (setRlimitsOrDie env pid ls d) := by
  induction ls generalizing d with
  | nil => exact ended_none _ _
  | cons c cs ih =>
    unfold setRlimitsOrDie
    split
    · exact ⟨_, [], rfl, by simp [killChildAndDie], begun_nil _⟩
    · have := ih (d ++ [.limited pid c])
      generalize setRlimitsOrDie env pid cs (d ++ [.limited pid c]) = r at this ⊢
      obtain ⟨e, l⟩ := r
      cases e with
      | goesOn =>
        obtain ⟨p, rfl, h⟩ := this
        exact ⟨_, rfl, by simpa using h⟩
      | died =>
        obtain ⟨p, a, rfl, h, hb⟩ := this
        exact ⟨_, [Deed.limited pid c] ++ a, rfl, by simpa using h, (begun_right (p := [Deed.limited pid c]) hb :)⟩

theorem uidMap_ended (j : Jail) (d : List Deed) :
    Ended pid (Only (match j.uidmap with
      | some m => givenTo (procPath pid "uid_map") false m
      | none => [])) d (writeUidMapOrDie env pid j d) := by
  unfold writeUidMapOrDie
  cases j.uidmap with
  | none => exact ended_none _ _
  | some m =>
    rcases procFile hs hk (pid := pid) m "uid_map" d with ⟨h, h'⟩ | ⟨h, h', _⟩ | ⟨h, _, a, h', hb⟩
    · simp only [h, h']; exact ⟨_, rfl, rfl⟩
    · simp only [h, h']; exact ⟨_, [], rfl, by simp [killChildAndDie], begun_nil _⟩
    · simp only [ne_eq, h, not_false_eq_true, if_true, killChildAndDie, h']; exact ⟨_, a, rfl, rfl, hb⟩

theorem gidMap_ended (j : Jail) (d : List Deed) :
    Ended pid (Only (match j.gidmap with
      | some m => givenTo (procPath pid "gid_map") false m
      | none => [])) d (writeGidMapOrDie env pid j d) := by
  unfold writeGidMapOrDie
  cases j.gidmap with
  | none => exact ended_none _ _
  | some m =>
    rcases procFile hs hk (pid := pid) m "gid_map" d with ⟨h, h'⟩ | ⟨h, h', _⟩ | ⟨h, _, a, h', hb⟩
    · simp only [h, h']; exact ⟨_, rfl, rfl⟩
    · simp only [h, h']; exact ⟨_, [], rfl, by simp [killChildAndDie], begun_nil _⟩
    · simp only [ne_eq, h, not_false_eq_true, if_true, killChildAndDie, h']; exact ⟨_, a, rfl, rfl, hb⟩

omit hs hk in
/-- Denied, or nothing because the file does not exist. -/
def DenyPlan (env : SetupEnv) (pid : Nat) (j : Jail) (d plan : List Deed) : Prop :=
  if j.gidmap.isSome && j.flags.disable_setgroups then
    plan = givenTo (procPath pid "setgroups") false (bstr "deny") ∨ plan = [] ∧ env.open_ d (procPath pid "setgroups") = some 2
  else plan = []

theorem deny_ended (j : Jail) (d : List Deed) : Ended pid (DenyPlan env pid j) d (denySetgroupsOrDie env pid j d) := by
  unfold denySetgroupsOrDie
  split
  · rename_i hc
    have hP : ∀ d p, DenyPlan env pid j d p ↔ (p = givenTo (procPath pid "setgroups") false (bstr "deny") ∨ p = [] ∧ env.open_ d (procPath pid "setgroups") = some 2) := by
      intro d p; unfold DenyPlan; rw [if_pos hc]
    rcases procFile hs hk (pid := pid) (bstr "deny") "setgroups" d with ⟨h, h'⟩ | ⟨h, h', ho⟩ | ⟨h, h2, a, h', hb⟩
    · simp only [h, h']; exact ⟨_, (hP _ _).2 (.inl rfl), rfl⟩
    · simp only [h, h']; exact ⟨[], (hP _ _).2 (.inr ⟨rfl, ho⟩), by simp [ENOENT]⟩
    · simp only [ne_eq, h, not_false_eq_true, if_true, h']
      rw [if_neg (by exact h2)]
      exact ⟨_, a, (hP _ _).2 (.inl rfl), rfl, hb⟩
  · rename_i hc
    exact ⟨[], by unfold DenyPlan; rw [if_neg hc], by simp⟩

omit hs hk in
/-- The maps, if there is a namespace for them. -/
def MapsPlan (env : SetupEnv) (pid : Nat) (j : Jail) (d plan : List Deed) : Prop :=
  if j.flags.userns then Then (Only (match j.uidmap with
      | some m => givenTo (procPath pid "uid_map") false m
      | none => [])) (Then (DenyPlan env pid j) (Only (match j.gidmap with
      | some m => givenTo (procPath pid "gid_map") false m
      | none => []))) d plan else plan = []

theorem setup_ended (j : Jail) (d : List Deed) :
    Ended pid (fun d plan => ∃ b, plan = setupDeeds pid j b ∧
      (b = false → ∃ h, h <+: d ++ plan ∧ env.open_ h (procPath pid "setgroups") = some 2)) d (setupChild env pid j d) := by
  have hd : ∀ d, ∃ q, DenyPlan env pid j d q := by
    intro d
    by_cases hc : (j.gidmap.isSome && j.flags.disable_setgroups) = true
    · exact ⟨_, by unfold DenyPlan; rw [if_pos hc]; exact .inl rfl⟩
    · exact ⟨[], by unfold DenyPlan; rw [if_neg hc]⟩
  have only : ∀ (l : List Deed) (d : List Deed), ∃ q, Only l d q := fun l _ => ⟨l, rfl⟩
  have hmaps : ∀ d, Ended pid (Then _ (Then _ _)) d (writeUgidMapsOrDie env pid j d) := fun d =>
    andThen_ended (uidMap_ended hs hk j d) (fun d => andThen_ended (deny_ended hs hk j d) (gidMap_ended hs hk j) (only _))
      (fun d => by obtain ⟨q, hq⟩ := hd d; exact ⟨_, q, _, rfl, hq, rfl⟩)
  -- with or without maps
  have hmaps' : ∀ d, Ended pid (MapsPlan env pid j) d
      (if j.flags.userns then writeUgidMapsOrDie env pid j d else (.goesOn, d)) := by
    unfold MapsPlan
    intro d
    cases hu : j.flags.userns with
    | true => simpa using hmaps d
    | false => exact ⟨[], by simp, by simp⟩
  have hlim : ∀ d, Ended pid (Only ((j.rlimits.take j.rlimit_count).map (Deed.limited pid))) d
      (if j.rlimit_count ≠ 0 then setRlimitsOrDie env pid (j.rlimits.take j.rlimit_count) d else (.goesOn, d)) := by
    intro d
    by_cases h : j.rlimit_count ≠ 0
    · rw [if_pos h]; exact rlimits_ended _ _
    · rw [if_neg h]
      have h0 : j.rlimit_count = 0 := by simpa using h
      rw [h0]; exact ended_none _ _
  have hcg : ∀ d, Ended pid (Only (if j.flags.cgroups then (j.cgroups.take j.cgroup_count).flatMap fun c => givenTo c true (line pid) else [])) d
      (if j.flags.cgroups then addToCgroupsOrDie env pid (j.cgroups.take j.cgroup_count) d else (.goesOn, d)) := by
    intro d
    cases j.flags.cgroups with
    | true => simpa using cgroups_ended hs hk _ d
    | false => simpa using ended_none pid d
  have hpf : ∀ d, Ended pid (Only (if j.flags.pid_file then givenTo (j.pid_file_path.getD []) true (line pid) else [])) d
      (if j.flags.pid_file then writePidFileOrDie env pid (j.pid_file_path.getD []) d else (.goesOn, d)) := by
    intro d
    cases j.flags.pid_file with
    | true => simpa using pidFile_ended hs hk _ d
    | false => simpa using ended_none pid d
  have hne : ∀ d, ∃ q, MapsPlan env pid j d q := by
    unfold MapsPlan
    intro d
    by_cases hu : j.flags.userns = true
    · obtain ⟨q, hq⟩ := hd (d ++ (match j.uidmap with
      | some m => givenTo (procPath pid "uid_map") false m
      | none => []))
      exact ⟨_, by simp only [hu, if_true]; exact ⟨_, _, rfl, rfl, _, _, rfl, hq, rfl⟩⟩
    · exact ⟨[], by rw [if_neg hu]⟩
  have hall := andThen_ended (hpf d) (fun d => andThen_ended (hcg d) (fun d => andThen_ended (hlim d) hmaps' hne)
    (fun d => by obtain ⟨q, hq⟩ := hne (d ++ (j.rlimits.take j.rlimit_count).map (Deed.limited pid)); exact ⟨_, _, _, rfl, rfl, hq⟩))
    (fun d => by
      obtain ⟨q, hq⟩ := hne (d ++ (if j.flags.cgroups then (j.cgroups.take j.cgroup_count).flatMap fun c => givenTo c true (line pid) else []) ++ (j.rlimits.take j.rlimit_count).map (Deed.limited pid))
      exact ⟨_, _, _, rfl, rfl, _, _, rfl, rfl, hq⟩)
  refine ended_congr ?_ hall
  rintro d plan ⟨p1, r1, rfl, rfl, p2, r2, rfl, rfl, p3, p4, rfl, rfl, h⟩
  unfold setupDeeds
  unfold MapsPlan at h
  cases hu : j.flags.userns with
  | false =>
    simp only [hu] at h
    refine ⟨true, ?_, by simp⟩
    have : p4 = [] := by simpa using h
    simp [this]
  | true =>
    simp only [hu, if_true] at h
    obtain ⟨q1, q2, rfl, rfl, q3, q4, rfl, hdeny, rfl⟩ := h
    unfold DenyPlan at hdeny
    cases hg : j.gidmap with
    | none =>
      simp only [hg] at hdeny
      have : q3 = [] := by simpa using hdeny
      exact ⟨true, by simp [this]; cases j.uidmap <;> rfl, by simp⟩
    | some m =>
      simp only [hg, Option.isSome_some, Bool.true_and] at hdeny
      cases hds : j.flags.disable_setgroups with
      | false =>
        simp only [hds] at hdeny
        have : q3 = [] := by simpa using hdeny
        exact ⟨true, by simp [this]; cases j.uidmap <;> rfl, by simp⟩
      | true =>
        simp only [hds, if_true] at hdeny
        rcases hdeny with rfl | ⟨rfl, ho⟩
        · exact ⟨true, by simp; cases j.uidmap <;> rfl, by simp⟩
        · refine ⟨false, by simp; cases j.uidmap <;> rfl, fun _ => ⟨_, ?_, ho⟩⟩
          simp only [List.append_assoc, List.nil_append]
          simp only [← List.append_assoc]
          exact List.prefix_append _ _
end

end Minijail.ParentSetup
