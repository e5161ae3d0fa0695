import Verif.Proof.PolicyCompile
import Verif.Props.C06
/-! Running a compiled policy. -/
set_option linter.unusedSimpArgs false
set_option autoImplicit false
namespace Minijail

theorem uniqueLbl_of_index {p : List Insn} (h : ∀ (i j : Nat) (l : BitVec 32), p[i]? = some (bpfLbl l) → p[j]? = some (bpfLbl l) → i = j) :
    UniqueLbl p := by
  intro l
  by_contra hc
  obtain ⟨a, b, rfl⟩ : ∃ a b, p = a ++ bpfLbl l :: b :=
    List.append_of_mem (List.count_pos_iff.1 (by omega : 0 < p.count (bpfLbl l)))
  rw [List.count_append, List.count_cons_self] at hc
  have h1 : 0 < a.count (bpfLbl l) ∨ 0 < b.count (bpfLbl l) := by omega
  rcases h1 with h1 | h1
  · obtain ⟨k, hk, he⟩ := List.getElem_of_mem (List.count_pos_iff.1 h1)
    have := h k a.length l (by rw [List.getElem?_append_left hk, List.getElem?_eq_getElem hk, he]) (by simp)
    omega
  · obtain ⟨k, hk, he⟩ := List.getElem_of_mem (List.count_pos_iff.1 h1)
    have := h (a.length + 1 + k) a.length l (by
      rw [List.getElem?_append_right (by omega)]
      have : a.length + 1 + k - a.length = k + 1 := by omega
      rw [this, List.getElem?_cons_succ, List.getElem?_eq_getElem hk, he]) (by simp)
    omega

/-- The chain of system call tests, followed by the default action and the blocks. -/
theorem execL_chain (cx : Ctx) (d : SeccompData) (dflt : Spec.Action) (A : List Insn) (hA : A.length ≤ 4096)
    (items : List Item) (hok : ∀ x ∈ items, x.Ok cx)
    (hsub : ∀ x ∈ items, ∃ B C, A = B ++ x.args ++ C)
    (hv : ∀ x ∈ Item.rules items, x.1 = d.nr → x.2.valid)
    (r : Regs) (hr : r.a = d.nr)
    (hu : UniqueLbl (items.flatMap Item.head ++ [bpfStmt RET dflt.word] ++ A)) :
    execL false d (items.flatMap Item.head ++ [bpfStmt RET dflt.word] ++ A) (.skip 0) r =
      .ret (Spec.policyAction cx.t.longBits d dflt (Item.rules items)).word := by
  induction items with
  | nil =>
    simp only [List.flatMap_nil, List.nil_append, List.singleton_append, Item.rules, List.map_nil, Spec.policyAction]
    exact execL_ret _ _ _
  | cons x items ih =>
    have hu0 := hu
    simp only [List.flatMap_cons, List.append_assoc] at hu
    have ih := ih (fun y hy => hok y (List.mem_cons_of_mem _ hy)) (fun y hy => hsub y (List.mem_cons_of_mem _ hy))
      (fun y hy => hv y (List.mem_cons_of_mem _ hy)) (by simpa using hu.right)
    simp only [List.flatMap_cons, List.append_assoc, Item.rules, List.map_cons, Spec.policyAction] at ih ⊢
    by_cases hnr : d.nr = x.nr
    · rw [if_pos hnr]
      rcases hok x (by simp) with ⟨h1, h2, h3⟩ | ⟨id, body, h1, h2, h3⟩
      · rw [h2, h1]
        simp only [bpfAllowSyscall, List.cons_append, List.nil_append]
        rw [execL_jeq, if_pos (by rw [hr, hnr])]
        exact execL_ret _ _ _
      · obtain ⟨B, C, hBC⟩ := hsub x (by simp)
        rw [h1]
        simp only [bpfAllowSyscallArgs, List.cons_append, List.nil_append]
        rw [execL_jeq, if_pos (by rw [hr, hnr])]
        have e : ∀ P : List Insn, P ++ A = (P ++ B) ++ bpfLbl id :: (body ++ C) := by
          intro P; rw [hBC, h2]; simp
        have e' := e (x.head ++ (items.flatMap Item.head ++ [bpfStmt RET dflt.word]))
        rw [show x.head ++ (items.flatMap Item.head ++ ([bpfStmt RET dflt.word] ++ A)) =
          (x.head ++ (items.flatMap Item.head ++ [bpfStmt RET dflt.word])) ++ A by simp, e'] at hu
        have hu2 : UniqueLbl ((items.flatMap Item.head ++ [bpfStmt RET dflt.word] ++ B) ++ bpfLbl id :: (body ++ C)) := by
          have := hu.right
          have h4 : x.head ++ (items.flatMap Item.head ++ [bpfStmt RET dflt.word]) ++ B ++ bpfLbl id :: (body ++ C) =
            x.head ++ ((items.flatMap Item.head ++ [bpfStmt RET dflt.word] ++ B) ++ bpfLbl id :: (body ++ C)) := by simp
          rw [h4] at hu
          exact hu.right
        show execL false d (bpfJumpLbl id :: _) (.skip 0) r = _
        rw [execL_jump]
        have h5 : items.flatMap Item.head ++ ([bpfStmt RET dflt.word] ++ A) =
            (items.flatMap Item.head ++ [bpfStmt RET dflt.word] ++ B) ++ bpfLbl id :: (body ++ C) := by
          rw [← List.append_assoc, e]
        simp only [List.cons_append, List.nil_append] at h5
        rw [h5, execL_seek _ _ _ _ hu2]
        have hlen : body.length ≤ 4096 := by
          have := congrArg List.length hBC
          rw [h2] at this
          simp at this
          omega
        have hu3 : UniqueLbl (body ++ C) := by
          have := hu2.right
          exact UniqueLbl.right (a := [bpfLbl id]) this
        exact h3.1 hlen (hv (x.nr, x.rule) (by simp [Item.rules]) hnr.symm) d C r hu3
    · rw [if_neg hnr]
      rcases hok x (by simp) with ⟨h1, h2, h3⟩ | ⟨id, body, h1, h2, h3⟩
      · rw [h2]
        simp only [bpfAllowSyscall, List.cons_append, List.nil_append]
        rw [execL_jeq, if_neg (by rw [hr]; exact hnr)]
        show execL false d (_ :: _) (.skip 1) r = _
        rw [execL_skip]
        simpa using ih
      · rw [h1]
        simp only [bpfAllowSyscallArgs, List.cons_append, List.nil_append]
        rw [execL_jeq, if_neg (by rw [hr]; exact hnr)]
        show execL false d (_ :: _) (.skip 1) r = _
        rw [execL_skip]
        simpa using ih

/-- The chain for a system call that no rule names, on any machine. -/
theorem execL_chain_unnamed (cx : Ctx) (be : Bool) (d : SeccompData) (k : BitVec 32) (A : List Insn)
    (items : List Item) (hok : ∀ x ∈ items, x.Ok cx) (hn : ∀ x ∈ Item.rules items, x.1 ≠ d.nr)
    (r : Regs) (hr : r.a = d.nr) :
    execL be d (items.flatMap Item.head ++ [bpfStmt RET k] ++ A) (.skip 0) r = .ret k := by
  induction items with
  | nil =>
    simp only [List.flatMap_nil, List.nil_append, List.singleton_append]
    exact execL_ret _ _ _
  | cons x items ih =>
    have ih := ih (fun y hy => hok y (List.mem_cons_of_mem _ hy)) (fun y hy => hn y (List.mem_cons_of_mem _ hy))
    have hnr : d.nr ≠ x.nr := (hn (x.nr, x.rule) (by simp [Item.rules])).symm
    simp only [List.flatMap_cons, List.append_assoc] at ih ⊢
    rcases hok x (by simp) with ⟨h1, h2, h3⟩ | ⟨id, body, h1, h2, h3⟩
    · rw [h2]
      simp only [bpfAllowSyscall, List.cons_append, List.nil_append]
      rw [execL_jeq, if_neg (by rw [hr]; exact hnr)]
      show execL be d (_ :: _) (.skip 1) r = _
      rw [execL_skip]
      simpa using ih
    · rw [h1]
      simp only [bpfAllowSyscallArgs, List.cons_append, List.nil_append]
      rw [execL_jeq, if_neg (by rw [hr]; exact hnr)]
      show execL be d (_ :: _) (.skip 1) r = _
      rw [execL_skip]
      simpa using ih

/-- The compiled form of a built-in allowlist. -/
def allowItems (cx : Ctx) (names : List CStr) : List Item :=
  (Spec.allowNames cx.lang names).map fun x => ⟨x.1, x.2, bpfAllowSyscall x.1, []⟩

theorem allowItems_head (cx : Ctx) (names : List CStr) :
    (allowItems cx names).flatMap Item.head = allowSelectedSyscalls cx names := by
  induction names with
  | nil => rfl
  | cons n names ih =>
    have hl := lookup_eq cx n
    unfold allowItems Spec.allowNames allowSelectedSyscalls at *
    simp only [List.map_cons, List.flatMap_cons]
    rw [ih, ← hl]
    cases lookupSyscall cx.syscalls n <;> rfl

theorem allowItems_args (cx : Ctx) (names : List CStr) : (allowItems cx names).flatMap Item.args = [] := by
  rw [List.flatMap_eq_nil_iff]
  intro x hx
  simp only [allowItems, List.mem_map] at hx
  obtain ⟨n, _, rfl⟩ := hx
  rfl

theorem allowItems_rules (cx : Ctx) (names : List CStr) : Item.rules (allowItems cx names) = Spec.allowNames cx.lang names := by
  simp only [allowItems, Item.rules, List.map_map]
  exact List.map_id _

theorem allowItems_ok (cx : Ctx) (names : List CStr) : ∀ x ∈ allowItems cx names, x.Ok cx := by
  intro x hx
  left
  simp only [allowItems, Spec.allowNames, List.map_map, List.mem_map, Function.comp] at hx
  obtain ⟨n, _, rfl⟩ := hx
  exact ⟨rfl, rfl, rfl⟩

theorem builtin_items (cx : Ctx) : ∃ items, filterPrefix cx = bpfValidateArch cx.t ++ [bpfLoadSyscallNr] ++ items.flatMap Item.head ∧
    items.flatMap Item.args = [] ∧ Item.rules items = cx.builtin ∧ ∀ x ∈ items, x.Ok cx := by
  refine ⟨(if cx.opts.allowSyscallsForLogging then allowItems cx cx.logSyscalls else []) ++
    (if cx.opts.includeLibcCompatibilityAllowlist then allowItems cx cx.libcCompatibilitySyscalls else []), ?_, ?_, ?_, ?_⟩
  · unfold filterPrefix
    rw [List.flatMap_append, ← List.append_assoc]
    congr 1
    · congr 1
      split <;> simp [allowItems_head]
    · split <;> simp [allowItems_head]
  · rw [List.flatMap_append]
    split <;> split <;> simp [allowItems_args]
  · unfold Ctx.builtin Item.rules
    rw [List.map_append]
    congr 1
    · split
      · exact allowItems_rules cx _
      · rfl
    · split
      · exact allowItems_rules cx _
      · rfl
  · intro x hx
    rcases List.mem_append.1 hx with h | h
    · split at h
      · exact allowItems_ok cx _ x h
      · simp at h
    · split at h
      · exact allowItems_ok cx _ x h
      · simp at h

/-- What reading the policy file gives. -/
theorem compileFile0_ok (cx : Ctx) (content : CStr) (st0 st : CState) (hnr : ∀ e ∈ cx.syscalls, e.2 < 2 ^ 31)
    (hst : compileFile0 cx content st0 = .ok st) (hA : st.argBlocks.length ≤ 4096) :
    ∃ ritems, Spec.PolicyText cx.lang content (Item.rules ritems) ∧ StepOk cx st0 st ritems := by
  have hm1 : ∀ c a b, compileFile1 cx c a = .ok b → a.argBlocks.length ≤ b.argBlocks.length :=
    fun c a b hc => compileFileWith_mono cx 1 _ (by simp) c a b hc
  have hinc : IncOk cx (compileFile1 cx) (Spec.FileText cx.lang fun _ _ => False) := by
    refine ⟨hm1, ?_⟩
    intro c a b hc hl
    exact compileFileWith_ok cx hnr 1 _ _ (by simp) (by simp) c a b hc hl (readLines_eq_logicalLines c)
  exact compileFileWith_ok cx hnr 0 _ _ hm1 (fun _ => hinc) content _ st hst hA (readLines_eq_logicalLines content)

/-- What a successful compilation consists of. -/
theorem compileFilter_ok (cx : Ctx) (content : CStr) (prog : List Insn) (hnr : ∀ e ∈ cx.syscalls, e.2 < 2 ^ 31)
    (h : compileFilter cx content = .ok prog) :
    ∃ items ritems count, Spec.PolicyText cx.lang content (Item.rules ritems) ∧
      Item.rules items = cx.builtin ++ Item.rules ritems ∧
      (∀ x ∈ items, x.Ok cx) ∧
      bpfResolveJumps count (bpfValidateArch cx.t ++ [bpfLoadSyscallNr] ++ (items.flatMap Item.head ++
        [bpfStmt RET cx.opts.action.act.word] ++ items.flatMap Item.args)) = .ok prog := by
  unfold compileFilter at h
  split at h
  · simp at h
  · simp at h
  · simp at h
  next st hst =>
  split at h
  · simp at h
  simp only at h
  split at h
  · simp at h
  next hlen =>
  obtain ⟨bi, hb1, hb2, hb3, hb4⟩ := builtin_items cx
  have hA : st.argBlocks.length ≤ 4096 := by
    simp only [List.length_append, BPF_MAXINSNS] at hlen
    omega
  obtain ⟨ritems, h1, h2, h3, h4, _⟩ := compileFile0_ok cx content _ st hnr hst hA
  refine ⟨bi ++ ritems, ritems, st.labels.length, h1, ?_, ?_, ?_⟩
  · rw [← hb3]; simp [Item.rules]
  · intro x hx
    rcases List.mem_append.1 hx with hx | hx
    · exact hb4 x hx
    · exact h4 x hx
  · rw [h2, h3, hb1, retAction_eq] at h
    simp only [List.nil_append] at h
    rw [List.flatMap_append, List.flatMap_append, hb2]
    simpa using h

theorem load_arch (be : Bool) (d : SeccompData) : d.load be 4 = some d.arch := by simp [SeccompData.load, SeccompData.words]
theorem load_nr (be : Bool) (d : SeccompData) : d.load be 0 = some d.nr := by simp [SeccompData.load, SeccompData.words]

/-- The prologue: a foreign architecture is killed, else the number is loaded. -/
theorem execL_prologue (t : Target) (be : Bool) (d : SeccompData) (q : List Insn) (r : Regs) :
    execL be d (bpfValidateArch t ++ [bpfLoadSyscallNr] ++ q) (.skip 0) r =
      if d.arch = t.archNr then execL be d q (.skip 0) { r with a := d.nr } else .ret 0 := by
  simp only [bpfValidateArch, bpfLoadSyscallNr, List.cons_append, List.nil_append]
  rw [execL_ld _ d.arch _ _ (load_arch be d), execL_jeq]
  by_cases h : d.arch = t.archNr
  · rw [if_pos (by exact h), if_pos h]
    show execL be d (_ :: _) (.skip 1) _ = _
    rw [execL_skip, execL_ld _ d.nr _ _ (load_nr be d)]
  · rw [if_neg (by exact h), if_neg h]
    exact execL_ret _ _ _

/-- Running a compiled filter. -/
theorem runFilter_compiled (cx : Ctx) (content : CStr) (prog : List Insn) (hnr : ∀ e ∈ cx.syscalls, e.2 < 2 ^ 31)
    (h : compileFilter cx content = .ok prog) :
    ∃ rules, Spec.PolicyText cx.lang content rules ∧
      (∀ be d, d.arch ≠ cx.t.archNr → runFilter be prog d = .ret 0) ∧
      (∀ be d, d.arch = cx.t.archNr → (∀ x ∈ cx.builtin ++ rules, x.1 ≠ d.nr) →
        runFilter be prog d = .ret cx.opts.action.act.word) ∧
      (∀ d, d.arch = cx.t.archNr → (∀ x ∈ cx.builtin ++ rules, x.1 = d.nr → x.2.valid) →
        runFilter false prog d =
          .ret (Spec.policyAction cx.t.longBits d cx.opts.action.act (cx.builtin ++ rules)).word) := by
  obtain ⟨items, ritems, count, h1, h2, h3, h4⟩ := compileFilter_ok cx content prog hnr h
  refine ⟨_, h1, ?_, ?_, ?_⟩
  · intro be d hd
    rw [runFilter_resolve h4, execL_prologue, if_neg hd]
  · intro be d hd hn
    rw [runFilter_resolve h4, execL_prologue, if_pos hd]
    rw [← h2] at hn
    exact execL_chain_unnamed cx be d _ _ items h3 hn _ rfl
  · intro d hd hv
    rw [runFilter_resolve h4, execL_prologue, if_pos hd]
    rw [← h2] at hv ⊢
    have hres := (C06_resolve_sound _ _ _ h4).2
    have hu := uniqueLbl_of_index hres.unique
    have hlen := hres.short
    simp only [List.length_append] at hlen
    refine execL_chain cx d _ _ (by omega) items h3 ?_ hv _ rfl hu.right
    intro x hx
    obtain ⟨a, b, rfl⟩ := List.append_of_mem hx
    exact ⟨a.flatMap Item.args, b.flatMap Item.args, by simp⟩

end Minijail
