import Verif.Proof.EnterProc
/-! Before privileges are dropped, only hooks change the process. -/
set_option autoImplicit false
set_option linter.unusedSimpArgs false
namespace Minijail
open Spec

/-- A request that leaves the process alone, or one of the jail's hooks. -/
def Mild (j : Jail) (c : Sys) : Prop := kind c = 0 ∨ ∃ h ∈ j.hooks, c = .hook h.hook h.payload

theorem hooks_mild (j : Jail) (ev : Nat) : ∀ c ∈ hookPlan j ev, Mild j c := by
  intro c hc
  unfold hookPlan at hc
  simp only [List.mem_flatMap, List.mem_singleton, List.mem_filter] at hc
  obtain ⟨h, hh, rfl⟩ := hc
  exact Or.inr ⟨h, hh.1, rfl⟩

theorem ns_mild (j : Jail) (lo kr : Int) : ∀ e ∈ nsTrace j lo kr, Mild j e.1 := by
  intro e he
  unfold nsTrace at he
  simp only [List.mem_append] at he
  rcases he with he | he | he | he
  · have hc := (done_ok he).2
    unfold nsPlanA at hc
    simp only [List.mem_append] at hc
    rcases hc with hc | hc | hc | hc | hc
    · split_ifs at hc <;> simp at hc; rw [hc]; exact Or.inl rfl
    · split_ifs at hc with h1 h2
      · simp only [List.mem_append, List.mem_singleton, List.mem_flatMap] at hc
        rcases hc with hc | hc | ⟨_, _, hc⟩ <;> rw [hc] <;> exact Or.inl rfl
      · simp at hc; rw [hc]; exact Or.inl rfl
      · simp at hc
    · split_ifs at hc <;> simp at hc; rw [hc]; exact Or.inl rfl
    · split_ifs at hc <;> simp at hc
      · rcases hc with hc | hc <;> rw [hc] <;> exact Or.inl rfl
      · rw [hc]; exact Or.inl rfl
    · split_ifs at hc <;> simp at hc <;> rw [hc] <;> exact Or.inl rfl
  · split_ifs at he <;> simp at he; rw [he]; exact Or.inl rfl
  · have hc := (done_ok he).2
    split_ifs at hc <;> simp at hc; rw [hc]; exact Or.inl rfl
  · split_ifs at he <;> simp at he; rw [he]; exact Or.inl rfl

theorem mountRun_mild {j : Jail} {dev : Option BStr} {ms : List Mountpoint} {t : List Ev} (h : MountRun j dev ms t) :
    ∀ e ∈ t, kind e.1 = 0 := by
  have prep : ∀ m, kind (prepare j dev m).1 = 0 := fun m => rfl
  induction h with
  | nil => intro e he; simp at he
  | noFlags m ms o ho hw =>
    intro e he
    simp only [List.mem_cons, List.not_mem_nil, or_false] at he
    rcases he with rfl | rfl
    · exact prep m
    · rfl
  | notValid m ms o ho hb =>
    intro e he
    simp only [List.mem_cons, List.mem_append, List.not_mem_nil, or_false] at he
    rcases he with rfl | he | rfl
    · exact prep m
    · split_ifs at he <;> simp at he
      subst he; rfl
    · rfl
  | step m ms o v ho hv t ht ih =>
    intro e he
    rcases List.mem_append.1 he with he | he
    · unfold stepTrace at he
      simp only [List.mem_cons, List.mem_append] at he
      rcases he with rfl | he | he | he | he
      · exact prep m
      · split_ifs at he <;> simp at he
        subst he; rfl
      · split_ifs at he <;> simp at he
        subst he; rfl
      · simp [done] at he
        subst he; rfl
      · split_ifs at he <;> simp [done] at he
        subst he; rfl
    · exact ih e he

theorem dev_mild : ∀ c ∈ deviceNodes ++ deviceSymlinks ++ [.mkdirat (bstr "shm") 0o1777], kind c = 0 := by
  intro c hc
  simp only [deviceNodes, deviceSymlinks, List.mem_append, List.mem_cons, List.not_mem_nil, or_false] at hc
  rcases hc with ((rfl | rfl | rfl | rfl | rfl) | rfl | rfl | rfl | rfl | rfl) | rfl <;> rfl

theorem mounts_mild {env : EnterEnv} {j : Jail} {t : List Ev} (h : MountsTrace env j t) : ∀ e ∈ t, kind e.1 = 0 := by
  obtain ⟨fd, a, b, mt, hfd, hm, e⟩ := h
  intro x hx
  rw [e] at hx
  simp only [List.mem_append] at hx
  rcases hx with hx | hx | hx
  · split_ifs at hx
    · unfold devTrace at hx
      simp only [List.mem_append, List.mem_cons] at hx
      rcases hx with hx | rfl | hx
      · have := (done_ok hx).2
        simp only [List.mem_cons, List.not_mem_nil, or_false] at this
        rcases this with h | h <;> rw [h] <;> rfl
      · rfl
      · exact dev_mild _ (done_ok hx).2
    · simp at hx
  · exact mountRun_mild hm x hx
  · split_ifs at hx
    · unfold finTrace at hx
      simp only [List.mem_append, List.mem_cons, List.not_mem_nil, or_false] at hx
      rcases hx with hx | rfl | rfl
      · have := (done_ok hx).2
        simp only [List.mem_cons, List.not_mem_nil, or_false] at this
        rcases this with h | h <;> rw [h] <;> rfl
      · rfl
      · rfl
    · simp at hx

theorem root_mild (j : Jail) (a b : Int) : ∀ e ∈ rootTrace j a b, Mild j e.1 := by
  intro e he
  unfold rootTrace at he
  rcases List.mem_append.1 he with he | he
  · have := (done_ok he).2
    split_ifs at this
    · unfold chrootPlan at this
      simp only [List.mem_append, List.mem_cons, List.not_mem_nil, or_false] at this
      rcases this with h | h | h
      · exact hooks_mild _ _ _ h
      · rw [h]; exact Or.inl rfl
      · rw [h]; exact Or.inl rfl
    · simp at this
  · split_ifs at he
    · simp only [List.mem_append, List.mem_cons, List.not_mem_nil, or_false] at he
      rcases he with he | (rfl | rfl) | he
      · exact hooks_mild _ _ _ (done_ok he).2
      · exact Or.inl rfl
      · exact Or.inl rfl
      · have := (done_ok he).2
        unfold pivotPlan at this
        simp only [List.mem_cons, List.not_mem_nil, or_false] at this
        rcases this with h | h | h | h | h | h | h | h | h <;> rw [h] <;> exact Or.inl rfl
    · simp at he

theorem pre_mild {env : EnterEnv} {j : Jail} {t : List Ev} (E : EnterTrace env j t) :
    ∀ e ∈ E.lt ++ (nsTrace j E.lo E.kr ++ (E.mt ++ rootTrace j E.a E.b)), Mild j e.1 := by
  intro e he
  simp only [List.mem_append] at he
  rcases he with he | he | he | he
  · rw [E.hlt] at he
    split_ifs at he <;> simp at he; rw [he]; exact Or.inl rfl
  · exact ns_mild _ _ _ e he
  · exact Or.inl (mounts_mild E.hmt e he)
  · exact root_mild _ _ _ e he

/-- The requests between the change of root and the bounding set. -/
def innerPre (env : EnterEnv) (j : Jail) : List Sys :=
  (if j.flags.mount_tmp then [.mount (some (bstr "none")) (bstr "/tmp") (some (bstr "tmpfs"))
    (MS_NODEV ||| MS_NOEXEC ||| MS_NOSUID ||| if env.noSymfollow then MS_NOSYMFOLLOW else 0#64)
    (some (bstr ("size=" ++ toString j.tmpfs_size.toNat ++ ",mode=1777")))] else []) ++
  ((if j.flags.remount_proc_ro then (if !j.flags.userns then [.umount (bstr "/proc")] else []) ++
    [.mount (some (bstr "proc")) (bstr "/proc") (some (bstr "proc")) (MS_NODEV ||| MS_NOEXEC ||| MS_NOSUID ||| MS_RDONLY) (some [])] else []) ++
  hookPlan j PRE_DROP_CAPS)

theorem innerPlan_eq (env : EnterEnv) (j : Jail) (last : Nat) :
    innerPlan env j last = innerPre env j ++ (if j.flags.capbset_drop then boundPlan j.cap_bset last else []) := by
  unfold innerPlan innerPre; simp only [List.append_assoc]

theorem innerPre_mild (env : EnterEnv) (j : Jail) : ∀ c ∈ innerPre env j, Mild j c := by
  intro c hc
  unfold innerPre at hc
  simp only [List.mem_append] at hc
  rcases hc with hc | hc | hc
  · split_ifs at hc <;> simp at hc <;> (subst hc; exact Or.inl rfl)
  · split_ifs at hc <;> simp at hc
    · rcases hc with rfl | rfl <;> exact Or.inl rfl
    · subst hc; exact Or.inl rfl
  · exact hooks_mild _ _ _ hc

theorem mild_kind {j : Jail} (hj : j.hooks = []) {c : Sys} (h : Mild j c) : kind c = 0 := by
  rcases h with h | ⟨x, hx, _⟩
  · exact h
  · rw [hj] at hx; simp at hx

end Minijail
