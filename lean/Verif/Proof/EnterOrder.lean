import Verif.Proof.EnterFacts
/-! The order of the steps of `minijail_enter`. -/
set_option autoImplicit false
set_option linter.unusedSimpArgs false
namespace Minijail
open Spec

/-- Stages between two bounds, in order. -/
def Seg (nnp : Bool) (lo hi : Nat) (s : List Ev) : Prop :=
  InOrder nnp s ∧ ∀ e ∈ s, ∀ a, stage nnp e.1 = some a → lo ≤ a ∧ a ≤ hi

theorem seg_append {nnp : Bool} {lo m m' hi : Nat} {s t : List Ev} (hs : Seg nnp lo m s) (ht : Seg nnp m' hi t) (h1 : m ≤ m')
    (h2 : lo ≤ m') (h3 : m ≤ hi) : Seg nnp lo hi (s ++ t) := by
  constructor
  · unfold InOrder
    rw [List.pairwise_append]
    refine ⟨hs.1, ht.1, ?_⟩
    intro x hx y hy a b ha hb
    have := hs.2 x hx a ha
    have := ht.2 y hy b hb
    omega
  · intro e he a ha
    rcases List.mem_append.1 he with he | he
    · have := hs.2 e he a ha; omega
    · have := ht.2 e he a ha; omega

theorem seg_flat {nnp : Bool} {a : Nat} {s : List Ev} (h : ∀ e ∈ s, stage nnp e.1 = none ∨ stage nnp e.1 = some a) : Seg nnp a a s := by
  constructor
  · unfold InOrder
    apply List.Pairwise.imp_of_mem (R := fun _ _ => True)
    · intro x y hx hy _ b c hb hc
      rcases h x hx with h1 | h1 <;> rcases h y hy with h2 | h2 <;> rw [h1] at hb <;> rw [h2] at hc <;> simp at hb hc
      omega
    · exact List.pairwise_of_forall fun _ _ => trivial
  · intro e he b hb
    rcases h e he with h1 | h1 <;> rw [h1] at hb <;> simp at hb
    omega

theorem seg_nil {nnp : Bool} {a : Nat} : Seg nnp a a [] := seg_flat (by simp)

theorem seg_done {nnp : Bool} {a : Nat} {cs : List Sys} (h : ∀ c ∈ cs, stage nnp c = none ∨ stage nnp c = some a) :
    Seg nnp a a (done cs) := seg_flat fun _ he => h _ (done_ok he).2

theorem hooks_stage (nnp : Bool) (j : Jail) (ev : Nat) : ∀ c ∈ hookPlan j ev, stage nnp c = none := by
  intro c hc
  unfold hookPlan at hc
  simp only [List.mem_flatMap, List.mem_singleton] at hc
  obtain ⟨_, _, rfl⟩ := hc
  rfl

theorem bound_stage (nnp : Bool) (keep : BitVec 64) (last : Nat) : ∀ c ∈ boundPlan keep last, stage nnp c = none := by
  intro c hc
  unfold boundPlan at hc
  simp only [List.mem_flatMap, List.mem_singleton] at hc
  obtain ⟨_, _, rfl⟩ := hc
  rfl

theorem ns_seg (nnp : Bool) (j : Jail) (lo kr : Int) : Seg nnp 0 0 (nsTrace j lo kr) := by
  unfold nsTrace
  refine seg_append (seg_done ?_) (seg_append (m := 0) (m' := 0) (seg_flat ?_) (seg_append (m := 0) (m' := 0) (seg_done ?_) (seg_flat ?_)
    (Nat.le_refl _) (Nat.le_refl _) (Nat.le_refl _)) (Nat.le_refl _) (Nat.le_refl _) (Nat.le_refl _))
    (Nat.le_refl _) (Nat.le_refl _) (Nat.le_refl _)
  · intro c hc
    unfold nsPlanA at hc
    simp only [List.mem_append] at hc
    rcases hc with hc | hc | hc | hc | hc
    · split_ifs at hc <;> simp at hc <;> (subst hc; exact Or.inr rfl)
    · split_ifs at hc with h1 h2
      · simp only [List.mem_append, List.mem_singleton, List.mem_flatMap] at hc
        rcases hc with rfl | rfl | ⟨_, _, rfl⟩
        · exact Or.inr rfl
        · exact Or.inl rfl
        · exact Or.inl rfl
      · simp at hc; subst hc; exact Or.inr rfl
      · simp at hc
    · split_ifs at hc <;> simp at hc <;> (subst hc; exact Or.inr rfl)
    · split_ifs at hc <;> simp at hc
      · rcases hc with rfl | rfl
        · exact Or.inr rfl
        · exact Or.inl rfl
      · subst hc; exact Or.inr rfl
    · split_ifs at hc <;> simp at hc <;> (subst hc; exact Or.inr rfl)
  · intro e he
    split_ifs at he <;> simp at he
    subst he; exact Or.inl rfl
  · intro c hc
    split_ifs at hc <;> simp at hc
    subst hc; exact Or.inr rfl
  · intro e he
    split_ifs at he <;> simp at he
    subst he; exact Or.inr rfl

theorem mountRun_stage (nnp : Bool) {j : Jail} {dev : Option BStr} {ms : List Mountpoint} {t : List Ev} (h : MountRun j dev ms t) :
    ∀ e ∈ t, stage nnp e.1 = none ∨ stage nnp e.1 = some 1 := by
  have prep : ∀ m, stage nnp (prepare j dev m).1 = none ∨ stage nnp (prepare j dev m).1 = some 1 := fun m => Or.inr rfl
  induction h with
  | nil => intro e he; simp at he
  | noFlags m ms o ho hw =>
    intro e he
    simp only [List.mem_cons, List.not_mem_nil, or_false] at he
    rcases he with rfl | rfl
    · exact prep m
    · exact Or.inl rfl
  | notValid m ms o ho hb =>
    intro e he
    simp only [List.mem_cons, List.mem_append, List.not_mem_nil, or_false] at he
    rcases he with rfl | he | rfl
    · exact prep m
    · split_ifs at he <;> simp at he
      subst he; exact Or.inl rfl
    · exact Or.inl rfl
  | step m ms o v ho hv t ht ih =>
    intro e he
    rcases List.mem_append.1 he with he | he
    · unfold stepTrace at he
      simp only [List.mem_cons, List.mem_append] at he
      rcases he with rfl | he | he | he | he
      · exact prep m
      · split_ifs at he <;> simp at he
        subst he; exact Or.inl rfl
      · split_ifs at he <;> simp at he
        subst he; exact Or.inl rfl
      · simp [done] at he
        subst he; exact Or.inl rfl
      · split_ifs at he <;> simp [done] at he
        subst he; exact Or.inl rfl
    · exact ih e he

theorem dev_stage (nnp : Bool) : ∀ c ∈ deviceNodes ++ deviceSymlinks ++ [.mkdirat (bstr "shm") 0o1777], stage nnp c = none := by
  intro c hc
  simp only [deviceNodes, deviceSymlinks, List.mem_append, List.mem_cons, List.not_mem_nil, or_false] at hc
  rcases hc with ((rfl | rfl | rfl | rfl | rfl) | rfl | rfl | rfl | rfl | rfl) | rfl <;> rfl

theorem mounts_seg (nnp : Bool) {env : EnterEnv} {j : Jail} {t : List Ev} (h : MountsTrace env j t) : Seg nnp 1 1 t := by
  obtain ⟨fd, a, b, mt, hfd, hm, e⟩ := h
  refine seg_flat ?_
  intro x hx
  rw [e] at hx
  simp only [List.mem_append] at hx
  rcases hx with hx | hx | hx
  · split_ifs at hx
    · unfold devTrace at hx
      simp only [List.mem_append, List.mem_cons] at hx
      rcases hx with hx | rfl | hx
      · have := (done_ok hx).2
        simp only [List.mem_cons, List.not_mem_nil, or_false] at this
        rcases this with h | h <;> rw [h] <;> exact Or.inl rfl
      · exact Or.inl rfl
      · exact Or.inl (dev_stage nnp _ (done_ok hx).2)
    · simp at hx
  · exact mountRun_stage nnp hm x hx
  · split_ifs at hx
    · unfold finTrace at hx
      simp only [List.mem_append, List.mem_cons, List.not_mem_nil, or_false] at hx
      rcases hx with hx | rfl | rfl
      · have := (done_ok hx).2
        simp only [List.mem_cons, List.not_mem_nil, or_false] at this
        rcases this with h | h <;> rw [h] <;> exact Or.inl rfl
      · exact Or.inl rfl
      · exact Or.inl rfl
    · simp at hx

theorem root_seg (nnp : Bool) (j : Jail) (a b : Int) : Seg nnp 2 2 (rootTrace j a b) := by
  refine seg_flat ?_
  intro e he
  unfold rootTrace at he
  rcases List.mem_append.1 he with he | he
  · have := (done_ok he).2
    split_ifs at this
    · unfold chrootPlan at this
      simp only [List.mem_append, List.mem_cons, List.not_mem_nil, or_false] at this
      rcases this with h | h | h
      · exact Or.inl (hooks_stage _ _ _ _ h)
      · rw [h]; exact Or.inr rfl
      · rw [h]; exact Or.inl rfl
    · simp at this
  · split_ifs at he
    · simp only [List.mem_append, List.mem_cons, List.not_mem_nil, or_false] at he
      rcases he with he | (rfl | rfl) | he
      · exact Or.inl (hooks_stage _ _ _ _ (done_ok he).2)
      · exact Or.inl rfl
      · exact Or.inl rfl
      · have := (done_ok he).2
        unfold pivotPlan at this
        simp only [List.mem_cons, List.not_mem_nil, or_false] at this
        rcases this with h | h | h | h | h | h | h | h | h <;> rw [h] <;> first | exact Or.inl rfl | exact Or.inr rfl
    · simp at he

theorem inner_stage (nnp : Bool) (env : EnterEnv) (j : Jail) (last : Nat) : ∀ c ∈ innerPlan env j last, stage nnp c = none := by
  intro c hc
  unfold innerPlan at hc
  simp only [List.mem_append] at hc
  rcases hc with hc | hc | hc | hc
  · split_ifs at hc <;> simp at hc <;> (subst hc; rfl)
  · split_ifs at hc <;> simp at hc
    · rcases hc with rfl | rfl <;> rfl
    · subst hc; rfl
  · exact hooks_stage _ _ _ c hc
  · split_ifs at hc
    · exact bound_stage _ _ _ c hc
    · simp at hc

theorem secure_seg (nnp : Bool) {env : EnterEnv} {j : Jail} {t : List Ev} (E : EnterTrace env j t) : Seg nnp 3 3 E.st := by
  refine seg_flat ?_
  intro e he
  have hst := E.hst
  split_ifs at hst
  · obtain ⟨cur, drop, h1, h2, s, e1, h3⟩ := hst
    rw [e1] at he
    rcases List.mem_append.1 he with he | he
    · split_ifs at he <;> simp at he
      subst he; exact Or.inl rfl
    · rcases h3 with ⟨_, rfl⟩ | ⟨_, q, hq, rfl | ⟨_, rfl⟩⟩
      · simp at he
      · simp at he; subst he; exact Or.inr rfl
      · simp at he
        rcases he with rfl | rfl <;> exact Or.inr rfl
  · rw [hst] at he; simp at he

theorem ids_seg (nnp : Bool) (j : Jail) : Seg nnp (if nnp then 4 else 6) (if nnp then 6 else 8) (done (idPlan j)) := by
  unfold idPlan
  rw [done_append, done_append]
  have hg : Seg nnp (if nnp then 4 else 6) (if nnp then 4 else 6) (done (groupPlan j)) := by
    refine seg_done ?_
    intro c hc
    unfold groupPlan at hc
    split_ifs at hc <;> simp at hc <;> (subst hc; exact Or.inr rfl)
  have h1 : Seg nnp (if nnp then 5 else 7) (if nnp then 5 else 7) (done (if j.flags.gid then [Sys.setresgid j.gid] else [])) := by
    refine seg_done ?_
    intro c hc
    split_ifs at hc <;> simp at hc <;> (subst hc; exact Or.inr rfl)
  have h2 : Seg nnp (if nnp then 6 else 8) (if nnp then 6 else 8) (done (if j.flags.uid then [Sys.setresuid j.uid] else [])) := by
    refine seg_done ?_
    intro c hc
    split_ifs at hc <;> simp at hc <;> (subst hc; exact Or.inr rfl)
  exact seg_append hg (seg_append h1 h2 (by cases nnp <;> decide) (by cases nnp <;> decide) (by cases nnp <;> decide))
    (by cases nnp <;> decide) (by cases nnp <;> decide) (by cases nnp <;> decide)

theorem caps_seg (nnp : Bool) (j : Jail) (last : Nat) (q : Int) :
    Seg nnp (if nnp then 7 else 9) (if nnp then 7 else 9) (capsTrace j last q) := by
  refine seg_flat ?_
  intro e he
  unfold capsTrace at he
  split_ifs at he
  all_goals simp only [List.mem_append, List.mem_cons, List.not_mem_nil, or_false] at he
  · rcases he with he | rfl | he
    · have hc := (done_ok he).2
      simp only [List.mem_append, List.mem_cons, List.not_mem_nil, or_false] at hc
      rcases hc with (h | h) | h | h
      · rw [h]; exact Or.inl rfl
      · rw [h]; exact Or.inr rfl
      · exact Or.inl (bound_stage _ _ _ _ h)
      · rw [h]; exact Or.inr rfl
    · exact Or.inl rfl
    · have hc := (done_ok he).2
      unfold ambientPlan at hc
      simp only [List.mem_cons, List.mem_flatMap, List.not_mem_nil, or_false] at hc
      rcases hc with h | ⟨_, _, h⟩ <;> rw [h] <;> exact Or.inl rfl
  · have hc := (done_ok he).2
    simp only [List.mem_append, List.mem_cons, List.not_mem_nil, or_false] at hc
    rcases hc with (h | h) | h | h
    · rw [h]; exact Or.inl rfl
    · rw [h]; exact Or.inr rfl
    · exact Or.inl (bound_stage _ _ _ _ h)
    · rw [h]; exact Or.inr rfl
  · rcases he with he | rfl | he
    · have hc := (done_ok he).2
      simp only [List.mem_append, List.mem_cons, List.not_mem_nil, or_false, false_or] at hc
      rcases hc with (h | h) | h
      · rw [h]; exact Or.inl rfl
      · rw [h]; exact Or.inr rfl
      · rw [h]; exact Or.inr rfl
    · exact Or.inl rfl
    · have hc := (done_ok he).2
      unfold ambientPlan at hc
      simp only [List.mem_cons, List.mem_flatMap, List.not_mem_nil, or_false] at hc
      rcases hc with h | ⟨_, _, h⟩ <;> rw [h] <;> exact Or.inl rfl
  · have hc := (done_ok he).2
    simp only [List.mem_append, List.mem_cons, List.not_mem_nil, or_false, false_or] at hc
    rcases hc with (h | h) | h
    · rw [h]; exact Or.inl rfl
    · rw [h]; exact Or.inr rfl
    · rw [h]; exact Or.inr rfl

theorem landlock_seg (nnp : Bool) {j : Jail} {t : List Ev} (h : LandlockTrace j t) :
    Seg nnp (if nnp then 9 else 4) (if nnp then 9 else 4) t := by
  refine seg_flat ?_
  intro e he
  obtain ⟨a, s, hs, eq⟩ := h
  have rule : e ∈ s → stage nnp e.1 = none := by
    intro h
    have : e.1 ∈ s.map (·.1) := List.mem_map_of_mem h
    rw [hs] at this
    split_ifs at this
    · obtain ⟨r, _, hr⟩ := List.mem_map.1 this
      rw [← hr]; rfl
    · simp at this
  rw [eq] at he
  split_ifs at he
  · simp only [List.cons_append, List.mem_cons, List.mem_append] at he
    rcases he with rfl | h | h
    · exact Or.inl rfl
    · exact Or.inl (rule h)
    · have := (done_ok h).2
      simp at this
      rw [this]; exact Or.inr rfl
  · simp only [List.cons_append, List.mem_cons, List.mem_append, List.not_mem_nil, or_false] at he
    rcases he with rfl | h
    · exact Or.inl rfl
    · exact Or.inl (rule h)
  · simp at he

theorem filter_seg (nnp : Bool) (env : EnterEnv) (j : Jail) :
    Seg nnp (if nnp then 10 else 5) (if nnp then 10 else 5) (done (filterPlan env j)) := by
  refine seg_done ?_
  intro c hc
  unfold filterPlan at hc
  split_ifs at hc <;> simp at hc
  all_goals first
    | (rcases hc with rfl | rfl <;> first | exact Or.inl rfl | exact Or.inr rfl)
    | (subst hc; exact Or.inr rfl)

/-- Everything after the change of root. -/
def restTrace {env : EnterEnv} {j : Jail} {t : List Ev} (E : EnterTrace env j t) : List Ev :=
  done (innerPlan env j E.last) ++ (E.st ++
    ((if j.flags.no_new_privs then done (idPlan j) ++ (capsTrace j E.last E.q ++ (done [.noNewPrivs] ++ (E.ll ++ done (filterPlan env j))))
      else E.ll ++ (done (filterPlan env j) ++ (done (idPlan j) ++ capsTrace j E.last E.q))) ++ (E.alt ++ E.strict)))

theorem rest_seg {env : EnterEnv} {j : Jail} {t : List Ev} (E : EnterTrace env j t) : Seg j.flags.no_new_privs 3 12 (restTrace E) := by
  unfold restTrace
  generalize hn : j.flags.no_new_privs = nnp
  have halt : Seg nnp 11 11 E.alt := by
    rw [E.halt]
    refine seg_done ?_
    intro c hc
    split_ifs at hc <;> simp at hc
    subst hc; exact Or.inr rfl
  have hstrict : Seg nnp 12 12 E.strict := by
    obtain ⟨r, hr, e1⟩ := E.hstrict
    rw [e1]
    refine seg_flat ?_
    intro e he
    split_ifs at he <;> simp at he
    subst he; exact Or.inr rfl
  have hinner : Seg nnp 3 3 (done (innerPlan env j E.last)) := seg_done fun c hc => Or.inl (inner_stage _ _ _ _ c hc)
  have hpriv : Seg nnp 4 10 (if nnp then done (idPlan j) ++ (capsTrace j E.last E.q ++
      (done [.noNewPrivs] ++ (E.ll ++ done (filterPlan env j))))
      else E.ll ++ (done (filterPlan env j) ++ (done (idPlan j) ++ capsTrace j E.last E.q))) := by
    have h1 := ids_seg nnp j
    have h2 := caps_seg nnp j E.last E.q
    have h3 := landlock_seg nnp E.hll
    have h4 := filter_seg nnp env j
    have h5 : Seg nnp 8 8 (done [.noNewPrivs]) := seg_done fun c hc => by
      simp at hc; subst hc; exact Or.inr rfl
    cases nnp
    · rw [if_neg (by simp)] at h1 h2 h3 h4 ⊢
      rw [if_neg (by simp)] at h1
      refine ⟨?_, ?_⟩
      · exact (seg_append h3 (seg_append h4 (seg_append h1 h2 (by decide) (by decide) (by decide))
          (by decide) (by decide) (by decide)) (by decide) (by decide) (by decide)).1
      · intro e he a ha
        have := (seg_append h3 (seg_append h4 (seg_append h1 h2 (by decide) (by decide) (by decide))
          (by decide) (by decide) (by decide)) (by decide) (by decide) (by decide)).2 e he a ha
        omega
    · rw [if_pos rfl] at h1 h2 h3 h4 ⊢
      rw [if_pos rfl] at h1
      exact seg_append h1 (seg_append h2 (seg_append h5 (seg_append h3 h4 (by decide) (by decide) (by decide))
        (by decide) (by decide) (by decide)) (by decide) (by decide) (by decide)) (by decide) (by decide) (by decide)
  exact seg_append hinner (seg_append (secure_seg nnp E) (seg_append hpriv (seg_append halt hstrict (by decide) (by decide) (by decide))
    (by decide) (by decide) (by decide)) (by decide) (by decide) (by decide)) (by decide) (by decide) (by decide)

theorem lt_seg (nnp : Bool) {env : EnterEnv} {j : Jail} {t : List Ev} (E : EnterTrace env j t) : Seg nnp 0 0 E.lt := by
  refine seg_flat ?_
  intro e he
  rw [E.hlt] at he
  split_ifs at he <;> simp at he
  subst he; exact Or.inl rfl

theorem trace_rest {env : EnterEnv} {j : Jail} {t : List Ev} (E : EnterTrace env j t) :
    t = E.lt ++ (nsTrace j E.lo E.kr ++ (E.mt ++ (rootTrace j E.a E.b ++ restTrace E))) := E.eq

theorem ordered {env : EnterEnv} {j : Jail} {t : List Ev} (E : EnterTrace env j t) : InOrder j.flags.no_new_privs t := by
  rw [trace_rest E]
  exact (seg_append (lt_seg _ E) (seg_append (ns_seg _ j _ _) (seg_append (mounts_seg _ E.hmt) (seg_append (root_seg _ j _ _) (rest_seg E)
    (by decide) (by decide) (by decide)) (by decide) (by decide) (by decide)) (by decide) (by decide) (by decide))
      (by decide) (by decide) (by decide)).1

end Minijail
