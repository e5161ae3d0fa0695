import Verif.Proof.Preload
/-! C40: the preload library removes itself from the program's environment. -/
set_option linter.unusedSimpArgs false
set_option autoImplicit false
namespace Minijail

/-- The environment after `minijail_run` edited and the library restored it is the same array as without the library: for any array that does not use the
variable of the pipe itself, if the path of the library has no space in it and LD_PRELOAD is not set to nothing. (Missing: `C40_violated_space`,
`C40_violated_empty`; an array that uses the variable: `C40_restored_partial`, `C40_violated_repeated`.) -/
theorem C40_same_partial {env : Env} {lib : CStr} {fd : Nat} {policy : Option CStr} (hl : ' ' ∉ lib)
    (hf : Spec.envValue env Spec.fdVar = none) (he : Spec.envValue env Spec.preloadVar ≠ some []) :
    programEnv policy (some (lib, fd)) env = programEnv policy none env := by
  have eld : Spec.preloadVar = kLdPreloadEnvVar := rfl
  have efd : Spec.fdVar = kFdEnvVar := rfl
  have n1 : kFdEnvVar ≠ kLdPreloadEnvVar := by decide
  have n2 : kFdEnvVar ≠ kSeccompPolicyPathEnvVar := by decide
  have n3 : kLdPreloadEnvVar ≠ kSeccompPolicyPathEnvVar := by decide
  unfold programEnv fakeMainEnv childEnv
  dsimp only
  rw [show minijailCopyEnv (some env) = env from rfl]
  have f2 : getenvIndex (policyEnv policy env) kFdEnvVar = none := by
    rw [getenvIndex_none_iff _ _ valid_fd, policy_value, if_neg (by simp [n2])]; exact hf
  have l2 : Spec.envValue (policyEnv policy env) kLdPreloadEnvVar ≠ some [] := by
    rw [policy_value, if_neg (by simp [n3])]; exact he
  generalize policyEnv policy env = e at f2 l2
  cases hv : Spec.envValue e kLdPreloadEnvVar with
  | none =>
    have hi := (getenvIndex_none_iff e _ valid_ld).2 hv
    have h1 : setupPreload lib e = e ++ [kLdPreloadEnvVar ++ '=' :: lib] := append_new valid_ld lib hv
    have f3 : getenvIndex (e ++ [kLdPreloadEnvVar ++ '=' :: lib]) kFdEnvVar = none :=
      getenvIndex_skip valid_fd valid_ld n1 e [] (by rw [List.append_nil]; exact f2)
    rw [h1, setupPipeEnv, setenv_new valid_fd f3, Option.getD_some, unset_last valid_fd f3, Option.getD_some]
    have hv' : Spec.envValue (e ++ [kLdPreloadEnvVar ++ '=' :: lib]) kLdPreloadEnvVar = some lib := value_at valid_ld hi
    rw [truncate_unset valid_ld hv' (lastSpace_none hl), unset_last valid_ld hi, Option.getD_some]
  | some o =>
    have ho : o ≠ [] := by rintro rfl; exact l2 hv
    obtain ⟨a, b, rfl, hi, ha⟩ := getenv_split e _ o valid_ld hv
    have h1 : setupPreload lib (a ++ (kLdPreloadEnvVar ++ '=' :: o) :: b) = a ++ (kLdPreloadEnvVar ++ '=' :: (o ++ ' ' :: lib)) :: b :=
      append_old valid_ld lib ha ho hv
    have f0 : getenvIndex (a ++ b) kFdEnvVar = none := by
      unfold getenvIndex at f2 ⊢
      rw [List.findIdx?_eq_none_iff] at f2 ⊢
      intro x hx
      refine f2 x (List.mem_append.2 ?_)
      rcases List.mem_append.1 hx with h | h
      · exact .inl h
      · exact .inr (List.mem_cons_of_mem _ h)
    have f3 := getenvIndex_skip (v := o ++ ' ' :: lib) valid_fd valid_ld n1 a b f0
    rw [h1, setupPipeEnv, setenv_new valid_fd f3, Option.getD_some, unset_last valid_fd f3, Option.getD_some]
    have hv' : Spec.envValue (a ++ (kLdPreloadEnvVar ++ '=' :: (o ++ ' ' :: lib)) :: b) kLdPreloadEnvVar = some (o ++ ' ' :: lib) :=
      value_at valid_ld ha
    rw [truncate_cut valid_ld hv' (lastSpace_append hl o), setenv_at valid_ld ha, Option.getD_some, List.take_left' rfl]

/-- In general, for arrays in which no variable occurs twice: every variable other than LD_PRELOAD is as intended, and LD_PRELOAD is what the loader was
given, cut at its last space. -/
theorem C40_value {env : Env} (hd : Spec.EnvDistinct env) (lib : CStr) (fd : Nat) (policy : Option CStr) (v : CStr)
    (hv : v = match Spec.envValue env Spec.preloadVar with
      | some (c :: old) => (c :: old) ++ ' ' :: lib
      | _ => lib) :
    Spec.envValue (childEnv policy (some (lib, fd)) env) Spec.preloadVar = some v ∧
    (∀ x, x ≠ Spec.preloadVar → Spec.envValue (programEnv policy (some (lib, fd)) env) x = Spec.intended env policy true x) ∧
    (' ' ∉ v → Spec.envValue (programEnv policy (some (lib, fd)) env) Spec.preloadVar = none) ∧
    (∀ a b, v = a ++ ' ' :: b → ' ' ∉ b → Spec.envValue (programEnv policy (some (lib, fd)) env) Spec.preloadVar = some a) := by
  have eld : Spec.preloadVar = kLdPreloadEnvVar := rfl
  have efd : Spec.fdVar = kFdEnvVar := rfl
  have epo : Spec.policyVar = kSeccompPolicyPathEnvVar := rfl
  have n1 : kFdEnvVar ≠ kLdPreloadEnvVar := by decide
  have n2 : kFdEnvVar ≠ kSeccompPolicyPathEnvVar := by decide
  have n3 : kLdPreloadEnvVar ≠ kSeccompPolicyPathEnvVar := by decide
  -- the policy path
  have hcp : minijailCopyEnv (some env) = env := rfl
  have h2 : ∃ env2, policyEnv policy env = env2 := ⟨_, rfl⟩
  obtain ⟨env2, h2⟩ := h2
  have m2 := fun x => policy_value env policy x
  have d2 := policy_distinct policy hd
  rw [h2] at d2
  simp only [h2] at m2
  -- the library
  obtain ⟨env3, h3, m3, d3⟩ : ∃ env3, setupPreload lib env2 = env3 ∧
      (∀ x, Spec.envValue env3 x = if x = kLdPreloadEnvVar then some v else Spec.envValue env2 x) ∧ Spec.EnvDistinct env3 := by
    obtain ⟨e', h1, h2⟩ := C16_set env2 kLdPreloadEnvVar v true valid_ld
    refine ⟨e', ?_, fun x => ?_, C16_set_distinct _ _ _ _ _ valid_ld d2 h1⟩
    · have hold : Spec.envValue env2 kLdPreloadEnvVar = Spec.envValue env kLdPreloadEnvVar := by rw [m2]; simp [n3]
      have e : ((Spec.envValue env kLdPreloadEnvVar).getD [] ++ (if (Spec.envValue env kLdPreloadEnvVar).getD [] ≠ [] then [' '] else []) ++ lib) = v := by
        rw [hv, eld]
        cases Spec.envValue env kLdPreloadEnvVar with
        | none => simp
        | some o => cases o <;> simp
      unfold setupPreload
      dsimp only
      rw [C16_get env2 _ valid_ld, hold, e, h1]
      rfl
    · rw [h2]; simp [Spec.EnvOp.onMap]
  -- the pipe
  obtain ⟨env4, h4, m4, d4⟩ : ∃ env4, setupPipeEnv fd env3 = env4 ∧
      (∀ x, Spec.envValue env4 x = if x = kFdEnvVar then some (Nat.toDigits 10 fd) else Spec.envValue env3 x) ∧ Spec.EnvDistinct env4 := by
    obtain ⟨e', h1, h2⟩ := C16_set env3 kFdEnvVar (Nat.toDigits 10 fd) true valid_fd
    refine ⟨e', ?_, fun x => ?_, C16_set_distinct _ _ _ _ _ valid_fd d3 h1⟩
    · simp [setupPipeEnv, h1]
    · rw [h2]; simp [Spec.EnvOp.onMap]
  have hc : childEnv policy (some (lib, fd)) env = env4 := by
    unfold childEnv; dsimp only; rw [hcp, h2, h3, h4]
  -- the child
  obtain ⟨env5, h5, m5, d5⟩ := C16_unset_partial env4 kFdEnvVar valid_fd d4
  have v5 : Spec.envValue env5 kLdPreloadEnvVar = some v := by rw [m5]; simp [Spec.EnvOp.onMap, Ne.symm n1, m4, m3]
  have hp : programEnv policy (some (lib, fd)) env = truncatePreloadEnv env5 kLdPreloadEnvVar := by
    unfold programEnv fakeMainEnv; dsimp only; rw [hc, h5]; rfl
  have rest : ∀ x, x ≠ kLdPreloadEnvVar → Spec.envValue env5 x = Spec.intended env policy true x := by
    intro x hx
    rw [m5]
    simp only [Spec.EnvOp.onMap, Spec.intended, efd, epo]
    by_cases h : x = kFdEnvVar
    · simp [h]
    · rw [if_neg h, m4, if_neg h, m3, if_neg hx, m2]; simp [h]
  refine ⟨by rw [hc, m4, eld, if_neg (Ne.symm n1), m3, if_pos rfl], ?_, ?_, ?_⟩
  · intro x hx
    rw [eld] at hx
    rw [hp]
    cases hk : lastSpace v with
    | none =>
      obtain ⟨e', h1, h2, -⟩ := C16_unset_partial env5 kLdPreloadEnvVar valid_ld d5
      rw [truncate_unset valid_ld v5 hk, h1, Option.getD_some, h2]
      simp only [Spec.EnvOp.onMap]
      rw [if_neg hx, rest x hx]
    | some k =>
      obtain ⟨e', h1, h2⟩ := C16_set env5 kLdPreloadEnvVar (v.take k) true valid_ld
      rw [truncate_cut valid_ld v5 hk, h1, Option.getD_some, h2]
      simp only [Spec.EnvOp.onMap]
      rw [if_neg hx, rest x hx]
  · intro h
    obtain ⟨e', h1, h2, -⟩ := C16_unset_partial env5 kLdPreloadEnvVar valid_ld d5
    rw [hp, truncate_unset valid_ld v5 (lastSpace_none h), h1, Option.getD_some, h2]
    simp [Spec.EnvOp.onMap, eld]
  · intro a b e h
    obtain ⟨e', h1, h2⟩ := C16_set env5 kLdPreloadEnvVar (v.take a.length) true valid_ld
    rw [hp, truncate_cut valid_ld v5 (by rw [e]; exact lastSpace_append h a), h1, Option.getD_some, h2]
    simp [Spec.EnvOp.onMap, eld, e]

/-- So the program finds exactly the intended environment, if the path of the library has no space in it, LD_PRELOAD is not set to nothing and no
variable occurs twice. -/
theorem C40_restored_partial {env : Env} (hd : Spec.EnvDistinct env) {lib : CStr} {fd : Nat} {policy : Option CStr} (hl : ' ' ∉ lib)
    (he : Spec.envValue env Spec.preloadVar ≠ some []) (x : CStr) :
    Spec.envValue (programEnv policy (some (lib, fd)) env) x = Spec.intended env policy true x := by
  obtain ⟨-, h1, h2, h3⟩ := C40_value hd lib fd policy _ rfl
  by_cases hx : x = Spec.preloadVar
  · have hi : Spec.intended env policy true x = Spec.envValue env Spec.preloadVar := by
      subst hx
      unfold Spec.intended
      rw [if_neg (by decide), if_neg (by intro h; exact absurd h.1 (by decide))]
    rw [hi, hx]
    cases h : Spec.envValue env Spec.preloadVar with
    | none => rw [h] at h2; exact h2 hl
    | some o =>
      cases o with
      | nil => exact absurd h he
      | cons c o => rw [h] at h3; exact h3 _ _ rfl hl
  · exact h1 x hx

/-- Without the library the program finds the intended environment too. -/
theorem C40_direct (env : Env) (policy : Option CStr) (x : CStr) :
    Spec.envValue (programEnv policy none env) x = Spec.intended env policy false x := by
  unfold programEnv childEnv Spec.intended
  dsimp only
  rw [show minijailCopyEnv (some env) = env from rfl, policy_value, show Spec.policyVar = kSeccompPolicyPathEnvVar from rfl]
  simp

/-- The library learns the number of the pipe, whatever the caller's environment says about it. -/
theorem C40_announced (env : Env) (lib : CStr) (fd : Nat) (policy : Option CStr) :
    minijailGetenv (some (childEnv policy (some (lib, fd)) env)) (some Spec.fdVar) = some (Nat.toDigits 10 fd) := by
  rw [show Spec.fdVar = kFdEnvVar from rfl, C16_get _ _ valid_fd]
  unfold childEnv
  dsimp only
  generalize setupPreload lib (policyEnv policy (minijailCopyEnv (some env))) = e
  obtain ⟨e', h1, h2⟩ := C16_set e kFdEnvVar (Nat.toDigits 10 fd) true valid_fd
  rw [setupPipeEnv, h1, Option.getD_some, h2]
  simp [Spec.EnvOp.onMap]

/-- LD_PRELOAD set to nothing becomes unset. -/
theorem C40_violated_empty : Spec.envValue (programEnv none (some ("/lib/p.so".toList, 5)) ["LD_PRELOAD=".toList]) Spec.preloadVar = none := by
  decide

/-- If the path of the library has a space in it, part of it stays. -/
theorem C40_violated_space :
    Spec.envValue (programEnv none (some ("/my libs/p.so".toList, 5)) ["A=1".toList]) Spec.preloadVar = some "/my".toList := by decide

/-- If the caller's array uses the variable of the pipe, the order of the others changes, which matters for a variable that occurs twice. -/
theorem C40_violated_repeated :
    Spec.envValue (programEnv none (some ("/p.so".toList, 5)) ["__MINIJAIL_FD=1".toList, "A=1".toList, "LD_PRELOAD=/x".toList, "A=2".toList]) "A".toList
      = some "2".toList := by decide

/-- An environment with two preloaded libraries and a policy. -/
example : programEnv (some "/p".toList) (some ("/lib/p.so".toList, 12)) ["A=1".toList, "LD_PRELOAD=/x.so /y.so".toList, "B".toList] =
    ["A=1".toList, "LD_PRELOAD=/x.so /y.so".toList, "B".toList, "SECCOMP_POLICY_PATH=/p".toList] := by
  rw [C40_same_partial] <;> decide

/-- An environment that announces another pipe. -/
example : Spec.envValue (programEnv none (some ("/lib/p.so".toList, 12)) ["__MINIJAIL_FD=3".toList, "A=1".toList, "LD_PRELOAD=/x.so".toList])
    "A".toList = some "1".toList := by
  rw [C40_restored_partial (by unfold Spec.EnvDistinct; decide) (by decide) (by decide)]
  decide

end Minijail
