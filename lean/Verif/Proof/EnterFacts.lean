import Verif.Proof.EnterShape
import Verif.Spec.Enter
/-! Facts about the trace of `minijail_enter`. -/
set_option autoImplicit false
set_option linter.unusedSimpArgs false
namespace Minijail
open Spec

theorem mem_done {c : Sys} {cs : List Sys} : ((c, (0 : Int)) ∈ done cs) ↔ c ∈ cs := by
  simp [done]

theorem done_ok {e : Ev} {cs : List Sys} (he : e ∈ done cs) : e.2 = 0 ∧ e.1 ∈ cs := by
  simp only [done, List.mem_map] at he
  obtain ⟨c, hc, rfl⟩ := he
  exact ⟨rfl, hc⟩

section
variable {env : EnterEnv} {j : Jail} {t : List Ev}

theorem mem_ns (E : EnterTrace env j t) {e : Ev} (he : e ∈ nsTrace j E.lo E.kr) : e ∈ t := by
  rw [E.eq]; simp [he]
theorem mem_mt (E : EnterTrace env j t) {e : Ev} (he : e ∈ E.mt) : e ∈ t := by
  rw [E.eq]; simp [he]
theorem mem_root (E : EnterTrace env j t) {e : Ev} (he : e ∈ rootTrace j E.a E.b) : e ∈ t := by
  rw [E.eq]; simp [he]
theorem mem_inner (E : EnterTrace env j t) {c : Sys} (he : c ∈ innerPlan env j E.last) : Happened t c := by
  show _ ∈ t
  rw [E.eq]
  simp only [List.mem_append]
  exact Or.inr (Or.inr (Or.inr (Or.inr (Or.inl (mem_done.2 he)))))
theorem mem_priv (E : EnterTrace env j t) {e : Ev} (he : e ∈ (if j.flags.no_new_privs then done (idPlan j) ++ (capsTrace j E.last E.q ++
    (done [.noNewPrivs] ++ (E.ll ++ done (filterPlan env j))))
    else E.ll ++ (done (filterPlan env j) ++ (done (idPlan j) ++ capsTrace j E.last E.q)))) : e ∈ t := by
  rw [E.eq]
  simp only [List.mem_append]
  exact Or.inr (Or.inr (Or.inr (Or.inr (Or.inr (Or.inr (Or.inl he))))))
theorem mem_ids (E : EnterTrace env j t) {c : Sys} (he : c ∈ idPlan j) : Happened t c := by
  apply mem_priv E
  have := mem_done.2 he
  cases j.flags.no_new_privs <;> simp [this]
theorem mem_filter (E : EnterTrace env j t) {c : Sys} (he : c ∈ filterPlan env j) : Happened t c := by
  apply mem_priv E
  have := mem_done.2 he
  cases j.flags.no_new_privs <;> simp [this]
theorem mem_ll (E : EnterTrace env j t) {e : Ev} (he : e ∈ E.ll) : e ∈ t := by
  apply mem_priv E
  cases j.flags.no_new_privs <;> simp [he]
theorem mem_caps (E : EnterTrace env j t) {e : Ev} (he : e ∈ capsTrace j E.last E.q) : e ∈ t := by
  apply mem_priv E
  cases j.flags.no_new_privs <;> simp [he]
theorem mem_alt (E : EnterTrace env j t) {e : Ev} (he : e ∈ E.alt) : e ∈ t := by
  rw [E.eq]; simp [he]
theorem mem_strict (E : EnterTrace env j t) {e : Ev} (he : e ∈ E.strict) : e ∈ t := by
  rw [E.eq]; simp [he]
theorem mem_nsA (E : EnterTrace env j t) {c : Sys} (he : c ∈ nsPlanA j) : Happened t c :=
  mem_ns E (by unfold nsTrace; simp [mem_done.2 he])

theorem root_infix (E : EnterTrace env j t) : rootTrace j E.a E.b <:+: t :=
  ⟨E.lt ++ (nsTrace j E.lo E.kr ++ E.mt), done (innerPlan env j E.last) ++ (E.st ++
    ((if j.flags.no_new_privs then done (idPlan j) ++ (capsTrace j E.last E.q ++ (done [.noNewPrivs] ++ (E.ll ++ done (filterPlan env j))))
      else E.ll ++ (done (filterPlan env j) ++ (done (idPlan j) ++ capsTrace j E.last E.q))) ++ (E.alt ++ E.strict))), by
    refine Eq.trans ?_ E.eq.symm
    simp only [List.append_assoc]⟩

theorem mem_hooks (j : Jail) {h : Hook} (hh : h ∈ j.hooks) {e : Nat} (he : h.event = e) : Sys.hook h.hook h.payload ∈ hookPlan j e := by
  unfold hookPlan
  simp only [List.mem_flatMap, List.mem_filter, List.mem_singleton]
  exact ⟨h, ⟨hh, by simp [he]⟩, rfl⟩

theorem applied (E : EnterTrace env j t) : Applied env j t where
  enterMountNs h := mem_nsA E (by simp [nsPlanA, h])
  newMountNs h := mem_nsA E (by simp [nsPlanA, h])
  propagation h hm := mem_nsA E (by simp [nsPlanA, h, hm])
  ownPropagation h hm m hmem := mem_nsA E (by
    simp only [nsPlanA, h, hm, List.mem_append, if_true, decide_not, decide_false, Bool.not_false, List.mem_flatMap, List.mem_singleton]
    refine Or.inr (Or.inl (Or.inr (Or.inr ⟨m, hmem, rfl⟩))))
  newIpcNs h := mem_nsA E (by simp [nsPlanA, h])
  newUtsNs h := mem_nsA E (by simp [nsPlanA, h])
  hostname h n hn := mem_nsA E (by simp [nsPlanA, h, hn])
  enterNetNs h := mem_nsA E (by simp [nsPlanA, h])
  newNetNs h hn := mem_nsA E (by simp [nsPlanA, h, hn])
  newCgroupNs h := mem_ns E (by simp [nsTrace, h, done])
  newKeyring h := ⟨E.kr, E.hkr, mem_ns E (by simp [nsTrace, h])⟩
  devTmpfs h := by
    obtain ⟨fd, a, b, mt, hfd, hr, e⟩ := E.hmt
    apply mem_mt E
    rw [e]; simp [h, devTrace, done]
  devMoved h := by
    obtain ⟨fd, a, b, mt, hfd, hr, e⟩ := E.hmt
    apply mem_mt E
    rw [e]; simp [h, finTrace, done]
  devNodes h x hx := by
    obtain ⟨fd, a, b, mt, hfd, hr, e⟩ := E.hmt
    refine ⟨if x.1 = "urandom" then 0o20444 else 0o20666, mem_mt E ?_⟩
    rw [e, if_pos h]
    refine List.mem_append_left _ ?_
    unfold devTrace
    have : Sys.mknod (bstr x.1) (if x.1 = "urandom" then 0o20444 else 0o20666) x.2.1 x.2.2 ∈
        deviceNodes ++ deviceSymlinks ++ [.mkdirat (bstr "shm") 0o1777] := by
      simp only [List.mem_cons, List.not_mem_nil, or_false] at hx
      rcases hx with rfl | rfl | rfl | rfl | rfl <;> decide +kernel
    exact List.mem_append_right _ (List.mem_cons_of_mem _ (mem_done.2 this))
  chroot h := by
    refine List.IsInfix.trans ?_ (root_infix E)
    unfold rootTrace chrootPlan
    rw [if_pos h, done_append]
    exact List.infix_append _ _ _
  pivotRoot h := by
    refine List.IsInfix.trans ?_ (root_infix E)
    unfold rootTrace
    rw [if_pos h]
    refine ⟨done (if j.flags.chroot then chrootPlan j else []) ++ (done (hookPlan j PRE_CHROOT) ++
      [(.openDir (some (bstr "/")), E.a), (.openDir j.chrootdir, E.b)]), [], ?_⟩
    simp only [List.append_assoc, List.append_nil]; rfl
  tmp h := ⟨MS_NODEV ||| MS_NOEXEC ||| MS_NOSUID ||| if env.noSymfollow then MS_NOSYMFOLLOW else 0#64,
    some (bstr ("size=" ++ toString j.tmpfs_size.toNat ++ ",mode=1777")), by cases env.noSymfollow <;> decide,
    mem_inner E (by simp [innerPlan, h])⟩
  proc h := mem_inner E (by simp [innerPlan, h])
  hooks h hh he := by
    rcases he with he | ⟨he, hc | hc⟩
    · exact mem_inner E (by simp [innerPlan, PRE_DROP_CAPS, mem_hooks j hh he])
    · have := mem_hooks j hh he
      refine mem_root E ?_
      unfold rootTrace chrootPlan PRE_CHROOT
      rw [hc, if_pos rfl, done_append]
      simp [done, this]
    · have := mem_hooks j hh he
      refine mem_root E ?_
      unfold rootTrace PRE_CHROOT
      rw [hc]
      simp [done, this]
  groupsSet h := mem_ids E (by
    have := E.one
    have hi : j.flags.inherit_suppl_gids = false := by
      revert this
      cases j.flags.inherit_suppl_gids <;> cases j.flags.keep_suppl_gids <;> simp [countTrue, h]
    simp [idPlan, groupPlan, h, hi])
  groupsInherited h := mem_ids E (by simp [idPlan, groupPlan, h])
  gid h := mem_ids E (by simp [idPlan, h])
  uid h := mem_ids E (by simp [idPlan, h])
  noNewPrivs h := mem_priv E (by simp [h, done])
  landlock h hr hf := by
    obtain ⟨a, s, hs, e⟩ := E.hll
    apply mem_ll E
    have : usesRules j = true := by
      unfold usesRules
      cases hc : j.fs_rules
      · exact absurd hc hr
      · simp [h]
    rw [e, if_pos this]
    simp [done, hf]
  filter h ha := mem_filter E (by simp [filterPlan, h, ha])
  altSyscall h := mem_alt E (by rw [E.halt]; simp [h, done])
  strict h := by
    obtain ⟨r, hr, e⟩ := E.hstrict
    rw [if_pos h] at e
    rcases hr with rfl | ⟨rfl, hs⟩
    · exact Or.inl (mem_strict E (by rw [e]; simp))
    · exact Or.inr ⟨hs, mem_strict E (by rw [e]; simp)⟩

end

/-! ### Failures -/

theorem failed_zero {c : Sys} (h : isCheck c = false) : ¬ Failed c 0 := by
  unfold Failed
  rw [h]
  cases hasValue c <;> simp

theorem failed_val {c : Sys} (h : isCheck c = false) (hv : hasValue c = true) {r : Int} (hr : 0 ≤ r) : ¬ Failed c r := by
  unfold Failed
  rw [h, hv]
  simp
  omega

theorem ok_done {cs : List Sys} (h : ∀ c ∈ cs, isCheck c = false) : ∀ e ∈ done cs, ¬ Failed e.1 e.2 := by
  intro e he
  obtain ⟨h0, hc⟩ := done_ok he
  rw [h0]
  exact failed_zero (h _ hc)

theorem hooks_check (j : Jail) (ev : Nat) : ∀ c ∈ hookPlan j ev, isCheck c = false := by
  intro c hc
  unfold hookPlan at hc
  simp only [List.mem_flatMap, List.mem_singleton] at hc
  obtain ⟨_, _, rfl⟩ := hc
  rfl

theorem bound_check (keep : BitVec 64) (last : Nat) : ∀ c ∈ boundPlan keep last, isCheck c = false := by
  intro c hc
  unfold boundPlan at hc
  simp only [List.mem_flatMap, List.mem_singleton] at hc
  obtain ⟨_, _, rfl⟩ := hc
  rfl

theorem ids_check (j : Jail) : ∀ c ∈ idPlan j, isCheck c = false := by
  intro c hc
  unfold idPlan groupPlan at hc
  split_ifs at hc <;> simp at hc <;> first | (rcases hc with rfl | rfl | rfl <;> rfl) | (rcases hc with rfl | rfl <;> rfl) | (subst hc; rfl)

theorem filter_check (env : EnterEnv) (j : Jail) : ∀ c ∈ filterPlan env j, isCheck c = false := by
  intro c hc
  unfold filterPlan at hc
  split_ifs at hc <;> simp at hc <;> first | (rcases hc with rfl | rfl <;> rfl) | (subst hc; rfl)

theorem inner_check (env : EnterEnv) (j : Jail) (last : Nat) : ∀ c ∈ innerPlan env j last, isCheck c = false := by
  intro c hc
  unfold innerPlan at hc
  simp only [List.mem_append] at hc
  rcases hc with hc | hc | hc | hc
  · split_ifs at hc <;> simp at hc <;> (subst hc; rfl)
  · split_ifs at hc <;> simp at hc <;> first | (rcases hc with rfl | rfl <;> rfl) | (subst hc; rfl)
  · exact hooks_check _ _ c hc
  · split_ifs at hc
    · exact bound_check _ _ c hc
    · simp at hc

theorem nsA_check (j : Jail) : ∀ c ∈ nsPlanA j, isCheck c = false := by
  intro c hc
  unfold nsPlanA at hc
  simp only [List.mem_append] at hc
  rcases hc with hc | hc | hc | hc | hc
  · split_ifs at hc <;> simp at hc <;> (subst hc; rfl)
  · split_ifs at hc with h1 h2
    · simp only [List.mem_append, List.mem_singleton, List.mem_flatMap] at hc
      rcases hc with rfl | rfl | ⟨_, _, rfl⟩ <;> rfl
    · simp at hc; subst hc; rfl
    · simp at hc
  · split_ifs at hc <;> simp at hc <;> (subst hc; rfl)
  · split_ifs at hc <;> simp at hc <;> first | (rcases hc with rfl | rfl <;> rfl) | (subst hc; rfl)
  · split_ifs at hc <;> simp at hc <;> (subst hc; rfl)

theorem dev_check : ∀ c ∈ deviceNodes ++ deviceSymlinks ++ [.mkdirat (bstr "shm") 0o1777], isCheck c = false := by
  decide +kernel

theorem mountRun_fail {j : Jail} {dev : Option BStr} {ms : List Mountpoint} {t : List Ev} (h : MountRun j dev ms t) :
    ∀ e ∈ t, Failed e.1 e.2 → MountCheck e.1 e.2 := by
  have prep : ∀ m, ¬ Failed (prepare j dev m).1 (prepare j dev m).2 := fun m => failed_zero rfl
  induction h with
  | nil => intro e he; simp at he
  | noFlags m ms o ho hw =>
    intro e he hf
    simp only [List.mem_cons, List.not_mem_nil, or_false] at he
    rcases he with rfl | rfl
    · exact absurd hf (prep m)
    · exact Or.inl ⟨⟨_, rfl⟩, ho⟩
  | notValid m ms o ho hb =>
    intro e he hf
    simp only [List.mem_cons, List.mem_append, List.not_mem_nil, or_false] at he
    rcases he with rfl | he | rfl
    · exact absurd hf (prep m)
    · split_ifs at he with hw
      · simp at he
        subst he
        exact absurd hf (failed_val rfl rfl (ho hw))
      · simp at he
    · exact Or.inr ⟨⟨_, rfl⟩, rfl⟩
  | step m ms o v ho hv t ht ih =>
    intro e he hf
    rcases List.mem_append.1 he with he | he
    · unfold stepTrace at he
      simp only [List.mem_cons, List.mem_append] at he
      rcases he with rfl | he | he | he | he
      · exact absurd hf (prep m)
      · split_ifs at he with hw
        · simp at he
          subst he
          exact absurd hf (failed_val rfl rfl (ho hw))
        · simp at he
      · split_ifs at he with hw
        · simp at he
          subst he
          exact absurd hf (hv hw)
        · simp at he
      · exact absurd hf (ok_done (by simp [isCheck]) e he)
      · split_ifs at he
        · exact absurd hf (ok_done (by simp [isCheck]) e he)
        · simp at he
    · exact ih e he hf

theorem mounts_fail {env : EnterEnv} {j : Jail} {t : List Ev} (h : MountsTrace env j t) :
    ∀ e ∈ t, Failed e.1 e.2 → Tolerated env e.1 e.2 ∨ MountCheck e.1 e.2 := by
  obtain ⟨fd, a, b, mt, hfd, hm, e⟩ := h
  intro x hx hf
  rw [e] at hx
  simp only [List.mem_append] at hx
  rcases hx with hx | hx | hx
  · split_ifs at hx
    · unfold devTrace at hx
      simp only [List.mem_append, List.mem_cons] at hx
      rcases hx with hx | rfl | hx
      · exact absurd hf (ok_done (by simp [isCheck]) x hx)
      · exact absurd hf (failed_val rfl rfl hfd)
      · exact absurd hf (ok_done dev_check x hx)
    · simp at hx
  · exact Or.inr (mountRun_fail hm x hx hf)
  · split_ifs at hx
    · unfold finTrace at hx
      simp only [List.mem_append, List.mem_cons, List.not_mem_nil, or_false] at hx
      rcases hx with hx | rfl | rfl
      · exact absurd hf (ok_done (by simp [isCheck]) x hx)
      · exact Or.inl (Or.inr (Or.inr (Or.inr (Or.inr (Or.inr (Or.inl rfl))))))
      · exact Or.inl (Or.inr (Or.inr (Or.inr (Or.inr (Or.inr (Or.inr rfl))))))
    · simp at hx

theorem caps_ok (j : Jail) (last : Nat) {q : Int} (hq : 0 ≤ q) : ∀ e ∈ capsTrace j last q, ¬ Failed e.1 e.2 := by
  intro e he
  unfold capsTrace at he
  split_ifs at he
  all_goals simp only [List.mem_append, List.mem_cons, List.not_mem_nil, or_false] at he
  · rcases he with he | rfl | he
    · refine ok_done ?_ e he
      intro c hc
      simp only [List.mem_append, List.mem_cons, List.not_mem_nil, or_false] at hc
      rcases hc with (rfl | rfl) | hc | rfl
      · rfl
      · rfl
      · exact bound_check _ _ c hc
      · rfl
    · exact failed_val rfl rfl hq
    · refine ok_done ?_ e he
      intro c hc
      unfold ambientPlan at hc
      simp only [List.mem_cons, List.mem_flatMap, List.not_mem_nil, or_false] at hc
      rcases hc with rfl | ⟨_, _, rfl⟩ <;> rfl
  · refine ok_done ?_ e he
    intro c hc
    simp only [List.mem_append, List.mem_cons, List.not_mem_nil, or_false] at hc
    rcases hc with (rfl | rfl) | hc | rfl
    · rfl
    · rfl
    · exact bound_check _ _ c hc
    · rfl
  · rcases he with he | rfl | he
    · refine ok_done ?_ e he
      intro c hc
      simp only [List.mem_append, List.mem_cons, List.not_mem_nil, or_false] at hc
      rcases hc with (rfl | rfl) | hc | rfl
      · rfl
      · rfl
      · simp at hc
      · rfl
    · exact failed_val rfl rfl hq
    · refine ok_done ?_ e he
      intro c hc
      unfold ambientPlan at hc
      simp only [List.mem_cons, List.mem_flatMap, List.not_mem_nil, or_false] at hc
      rcases hc with rfl | ⟨_, _, rfl⟩ <;> rfl
  · exact ok_done (by simp [isCheck]) e he

theorem failures {env : EnterEnv} {j : Jail} {t : List Ev} (E : EnterTrace env j t) :
    ∀ e ∈ t, Failed e.1 e.2 → Tolerated env e.1 e.2 ∨ MountCheck e.1 e.2 := by
  intro e he hf
  have priv : e ∈ E.ll ∨ e ∈ done (filterPlan env j) ∨ e ∈ done (idPlan j) ∨ e ∈ capsTrace j E.last E.q ∨ e ∈ done [.noNewPrivs] →
      Tolerated env e.1 e.2 ∨ MountCheck e.1 e.2 := by
    rintro (h | h | h | h | h)
    · obtain ⟨a, s, hs, eq⟩ := E.hll
      rw [eq] at h
      split_ifs at h with h1 h2
      · simp only [List.cons_append, List.mem_cons, List.mem_append] at h
        rcases h with rfl | h | h
        · exact Or.inl (Or.inr (Or.inr (Or.inl rfl)))
        · have : e.1 ∈ s.map (·.1) := List.mem_map_of_mem h
          rw [hs] at this
          split_ifs at this
          · obtain ⟨r, _, hr⟩ := List.mem_map.1 this
            exact Or.inl (Or.inr (Or.inl ⟨_, _, hr.symm⟩))
          · simp at this
        · exact absurd hf (ok_done (by simp [isCheck]) e h)
      · simp only [List.cons_append, List.mem_cons, List.mem_append, List.not_mem_nil, or_false] at h
        rcases h with rfl | h
        · exact Or.inl (Or.inr (Or.inr (Or.inl rfl)))
        · have : e.1 ∈ s.map (·.1) := List.mem_map_of_mem h
          rw [hs] at this
          split_ifs at this
          · obtain ⟨r, _, hr⟩ := List.mem_map.1 this
            exact Or.inl (Or.inr (Or.inl ⟨_, _, hr.symm⟩))
          · simp at this
      · simp at h
    · exact absurd hf (ok_done (filter_check _ _) e h)
    · exact absurd hf (ok_done (ids_check _) e h)
    · exact absurd hf (caps_ok _ _ E.hq e h)
    · exact absurd hf (ok_done (by simp [isCheck]) e h)
  rw [E.eq] at he
  simp only [List.mem_append] at he
  rcases he with he | he | he | he | he | he | he | he | he
  · rw [E.hlt] at he
    split_ifs at he
    · simp at he; subst he
      exact absurd hf (failed_val rfl rfl (by simp))
    · simp at he
  · unfold nsTrace at he
    simp only [List.mem_append] at he
    rcases he with he | he | he | he
    · exact absurd hf (ok_done (nsA_check _) e he)
    · split_ifs at he
      · simp at he; subst he; exact Or.inl (Or.inl rfl)
      · simp at he
    · refine absurd hf (ok_done ?_ e he)
      split_ifs <;> simp [isCheck]
    · split_ifs at he
      · simp at he; subst he; exact absurd hf (failed_val rfl rfl E.hkr)
      · simp at he
  · exact mounts_fail E.hmt e he hf
  · unfold rootTrace at he
    simp only [List.mem_append] at he
    rcases he with he | he
    · refine absurd hf (ok_done ?_ e he)
      intro c hc
      split_ifs at hc
      · unfold chrootPlan at hc
        simp only [List.mem_append, List.mem_cons, List.not_mem_nil, or_false] at hc
        rcases hc with hc | rfl | rfl
        · exact hooks_check _ _ c hc
        · rfl
        · rfl
      · simp at hc
    · split_ifs at he
      · simp only [List.mem_append, List.mem_cons, List.not_mem_nil, or_false] at he
        rcases he with he | (rfl | rfl) | he
        · exact absurd hf (ok_done (hooks_check _ _) e he)
        · exact absurd hf (failed_val rfl rfl E.ha)
        · exact absurd hf (failed_val rfl rfl E.hb)
        · exact absurd hf (ok_done (by simp [pivotPlan, isCheck]) e he)
      · simp at he
  · exact absurd hf (ok_done (inner_check _ _ _) e he)
  · have hst := E.hst
    split_ifs at hst
    · obtain ⟨cur, drop, h1, h2, s, e1, h3⟩ := hst
      rw [e1] at he
      rcases List.mem_append.1 he with he | he
      · split_ifs at he with hreq
        · simp at he
        · simp at he; subst he
          exact absurd hf (failed_val rfl rfl (h2 (by simpa using hreq)).1)
      · rcases h3 with ⟨_, rfl⟩ | ⟨_, q, hq, rfl | ⟨_, rfl⟩⟩
        · simp at he
        · simp at he; subst he
          exact absurd hf (failed_val rfl rfl hq)
        · simp at he
          rcases he with rfl | rfl
          · exact Or.inl (Or.inr (Or.inr (Or.inr (Or.inr (Or.inl ⟨⟨_, rfl⟩, rfl⟩)))))
          · exact absurd hf (failed_val rfl rfl hq)
    · rw [hst] at he; simp at he
  · apply priv
    split_ifs at he <;> simp only [List.mem_append] at he
    · rcases he with h | h | h | h | h <;> simp [h]
    · rcases he with h | h | h | h <;> simp [h]
  · rw [E.halt] at he
    refine absurd hf (ok_done ?_ e he)
    split_ifs <;> simp [isCheck]
  · obtain ⟨r, hr, e1⟩ := E.hstrict
    rw [e1] at he
    split_ifs at he
    · simp at he; subst he
      rcases hr with rfl | hr
      · exact absurd hf (failed_zero rfl)
      · exact Or.inl (Or.inr (Or.inr (Or.inr (Or.inl ⟨rfl, hr⟩))))
    · simp at he

end Minijail
