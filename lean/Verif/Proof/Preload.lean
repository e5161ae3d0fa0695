import Verif.Model.Preload
import Verif.Spec.Preload
import Verif.Props.C16
/-! Where a variable stands in an environment array, and what cutting it in place does. -/
set_option linter.unusedSimpArgs false
set_option autoImplicit false
namespace Minijail

theorem lastSpace_none {s : CStr} (h : ' ' ∉ s) : lastSpace s = none := by
  induction s with
  | nil => rfl
  | cons c s ih =>
    simp only [List.mem_cons, not_or] at h
    rw [lastSpace, ih h.2]
    simp [Ne.symm h.1]

theorem lastSpace_append {b : CStr} (h : ' ' ∉ b) (a : CStr) : lastSpace (a ++ ' ' :: b) = some a.length := by
  induction a with
  | nil => simp [lastSpace, lastSpace_none h]
  | cons c a ih => simp [lastSpace, ih]

theorem getenvIndex_none_iff (env : Env) (n : CStr) (hn : Spec.ValidName n) : getenvIndex env n = none ↔ Spec.envValue env n = none := by
  have hg := C16_get env n hn
  have hs := getenvIndex_split env n hn.2
  cases h : getenvIndex env n with
  | none => simp only [minijailGetenv, h] at hg; simp [← hg]
  | some i =>
    rw [h] at hs
    obtain ⟨a, e, b, rfl, rfl, -⟩ := hs
    simp only [minijailGetenv, h] at hg
    simp [← hg]

/-- Where a set variable stands. -/
theorem getenv_split (env : Env) (n v : CStr) (hn : Spec.ValidName n) (hv : Spec.envValue env n = some v) :
    ∃ a b, env = a ++ (n ++ '=' :: v) :: b ∧ getenvIndex env n = some a.length ∧ getenvIndex a n = none := by
  have hg := C16_get env n hn
  have hs := getenvIndex_split env n hn.2
  cases h : getenvIndex env n with
  | none => rw [(getenvIndex_none_iff env n hn).1 h] at hv; simp at hv
  | some i =>
    rw [h] at hs
    obtain ⟨a, e, b, rfl, rfl, he, ha⟩ := hs
    simp only [minijailGetenv, h] at hg
    rw [hv] at hg
    simp only [List.getElem?_append_right (Nat.le_refl _), Nat.sub_self, List.getElem?_cons_zero, Option.map_some, Option.some.injEq] at hg
    simp only [entryIs, beq_iff_eq, Option.map_eq_some_iff, Prod.exists] at he
    obtain ⟨_, w, hw, rfl⟩ := he
    obtain ⟨rfl, -⟩ := envEntry_some hw
    have d : ∀ m : List Char, (m ++ '=' :: w).drop (m.length + 1) = w := by simp
    rw [d] at hg
    refine ⟨a, b, ?_, rfl, ?_⟩
    · rw [hg]
    · unfold getenvIndex
      rw [match_eq _ hn.2]
      exact List.findIdx?_eq_none_iff.2 (by simpa using ha)

theorem getenvIndex_at {a : Env} {n : CStr} (_hn : Spec.ValidName n) (ha : getenvIndex a n = none) (v : CStr) (b : Env) :
    getenvIndex (a ++ (n ++ '=' :: v) :: b) n = some a.length := by
  unfold getenvIndex at ha ⊢
  rw [List.findIdx?_append, ha]
  simp [List.findIdx?_cons]

theorem getenvIndex_skip {n m v : CStr} (hn : Spec.ValidName n) (hm : Spec.ValidName m) (hne : n ≠ m) (a b : Env)
    (h : getenvIndex (a ++ b) n = none) : getenvIndex (a ++ (m ++ '=' :: v) :: b) n = none := by
  unfold getenvIndex at h ⊢
  rw [match_eq n hn.2] at h ⊢
  rw [List.findIdx?_eq_none_iff] at h ⊢
  intro x hx
  simp only [List.mem_append, List.mem_cons] at hx
  rcases hx with hx | rfl | hx
  · exact h x (by simp [hx])
  · simp [entryIs, envEntry_of m v hm.2, Ne.symm hne]
  · exact h x (by simp [hx])

theorem valid_ld : Spec.ValidName kLdPreloadEnvVar := by unfold Spec.ValidName; decide
theorem valid_fd : Spec.ValidName kFdEnvVar := by unfold Spec.ValidName; decide
theorem valid_policy : Spec.ValidName kSeccompPolicyPathEnvVar := by unfold Spec.ValidName; decide

theorem setenv_at {a b : Env} {n v : CStr} (hn : Spec.ValidName n) (ha : getenvIndex a n = none) (w : CStr) :
    (minijailSetenv (some (a ++ (n ++ '=' :: v) :: b)) (some n) (some w) true).2 = some (a ++ (n ++ '=' :: w) :: b) := by
  simp [minijailSetenv, hn.1, getenvIndex_at hn ha]

theorem setenv_new {a : Env} {n : CStr} (hn : Spec.ValidName n) (ha : getenvIndex a n = none) (w : CStr) :
    (minijailSetenv (some a) (some n) (some w) true).2 = some (a ++ [n ++ '=' :: w]) := by
  simp [minijailSetenv, hn.1, ha]

theorem unset_last {a : Env} {n v : CStr} (hn : Spec.ValidName n) (ha : getenvIndex a n = none) :
    (minijailUnsetenv (some (a ++ [n ++ '=' :: v])) (some n)).2 = some a := by
  simp [minijailUnsetenv, getenvIndex_at hn ha]

theorem truncate_cut {env : Env} {n v : CStr} (hn : Spec.ValidName n) (hv : Spec.envValue env n = some v) {k : Nat} (hk : lastSpace v = some k) :
    truncatePreloadEnv env n = (minijailSetenv (some env) (some n) (some (v.take k)) true).2.getD env := by
  obtain ⟨a, b, rfl, hi, ha⟩ := getenv_split env n v hn hv
  rw [setenv_at hn ha, truncatePreloadEnv, hi]
  simp only [Option.getD_some]
  have e : ((a ++ (n ++ '=' :: v) :: b)[a.length]?).getD [] = n ++ '=' :: v := by simp
  rw [e]
  have d : (n ++ '=' :: v).drop (n.length + 1) = v := by simp
  rw [d, hk]
  simp [List.take_append, Nat.add_assoc, Nat.add_comm 1 k, List.take_of_length_le]

theorem truncate_unset {env : Env} {n v : CStr} (hn : Spec.ValidName n) (hv : Spec.envValue env n = some v) (hk : lastSpace v = none) :
    truncatePreloadEnv env n = (minijailUnsetenv (some env) (some n)).2.getD env := by
  obtain ⟨a, b, rfl, hi, ha⟩ := getenv_split env n v hn hv
  rw [truncatePreloadEnv, hi]
  have e : ((a ++ (n ++ '=' :: v) :: b)[a.length]?).getD [] = n ++ '=' :: v := by simp
  have d : (n ++ '=' :: v).drop (n.length + 1) = v := by simp
  simp only [e, d, hk]

theorem append_new {e : Env} {n : CStr} (hn : Spec.ValidName n) (lib : CStr) (hv : Spec.envValue e n = none) :
    (minijailSetenv (some e) (some n) (some ((minijailGetenv (some e) (some n)).getD [] ++
      (if (minijailGetenv (some e) (some n)).getD [] ≠ [] then [' '] else []) ++ lib)) true).2.getD e = e ++ [n ++ '=' :: lib] := by
  rw [C16_get _ _ hn, hv, setenv_new hn ((getenvIndex_none_iff e _ hn).2 hv)]
  simp

theorem append_old {a b : Env} {n o : CStr} (hn : Spec.ValidName n) (lib : CStr) (ha : getenvIndex a n = none) (ho : o ≠ [])
    (hv : Spec.envValue (a ++ (n ++ '=' :: o) :: b) n = some o) :
    (minijailSetenv (some (a ++ (n ++ '=' :: o) :: b)) (some n) (some ((minijailGetenv (some (a ++ (n ++ '=' :: o) :: b)) (some n)).getD [] ++
      (if (minijailGetenv (some (a ++ (n ++ '=' :: o) :: b)) (some n)).getD [] ≠ [] then [' '] else []) ++ lib)) true).2.getD
      (a ++ (n ++ '=' :: o) :: b) = a ++ (n ++ '=' :: (o ++ ' ' :: lib)) :: b := by
  rw [C16_get _ _ hn, hv, setenv_at hn ha]
  simp [ho]

theorem value_at {a b : Env} {n o : CStr} (hn : Spec.ValidName n) (ha : getenvIndex a n = none) :
    Spec.envValue (a ++ (n ++ '=' :: o) :: b) n = some o := by
  rw [← C16_get _ _ hn, minijailGetenv, getenvIndex_at hn ha]
  simp

theorem policy_value (env : Env) (policy : Option CStr) (x : CStr) :
    Spec.envValue (policyEnv policy env) x = if x = kSeccompPolicyPathEnvVar ∧ policy.isSome then policy else Spec.envValue env x := by
  cases policy with
  | none => simp [policyEnv]
  | some p =>
    obtain ⟨e', h1, h2⟩ := C16_set env kSeccompPolicyPathEnvVar p true valid_policy
    have : policyEnv (some p) env = e' := by simp [policyEnv, setupSeccompPolicyPath, h1]
    rw [this, h2]; simp [Spec.EnvOp.onMap]

theorem policy_distinct {env : Env} (policy : Option CStr) (hd : Spec.EnvDistinct env) : Spec.EnvDistinct (policyEnv policy env) := by
  cases policy with
  | none => exact hd
  | some p =>
    obtain ⟨e', h1, h2⟩ := C16_set env kSeccompPolicyPathEnvVar p true valid_policy
    have : policyEnv (some p) env = e' := by simp [policyEnv, setupSeccompPolicyPath, h1]
    rw [this]; exact C16_set_distinct _ _ _ _ _ valid_policy hd h1

end Minijail
