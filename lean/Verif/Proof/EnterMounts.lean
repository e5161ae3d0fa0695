import Verif.Proof.EnterFinal
/-! The mounts of a jail that was entered. -/
set_option autoImplicit false
set_option linter.unusedSimpArgs false
namespace Minijail
open Spec

variable {env : EnterEnv} {j : Jail} {k : Kernel} {t : List Ev}

theorem target_eq (env : EnterEnv) (j : Jail) (m : Mountpoint) :
    mountDest j (if j.flags.mount_dev then some env.devPath else none) m = target env j m := by
  have hp : m.dest.take 5 = bstr "/dev/" ↔ bstr "/dev/" <+: m.dest := by
    rw [List.prefix_iff_eq_take]
    exact eq_comm
  unfold mountDest target
  cases j.flags.mount_dev
  · simp
  · simp only [if_true, true_and]
    by_cases h : m.dest.take 5 = bstr "/dev/"
    · rw [if_pos h, if_pos (hp.1 h)]
    · rw [if_neg h, if_neg (fun h' => h (hp.2 h'))]

theorem filter_flags {m : Mountpoint} {o : Int} {p : Prop} [Decidable p] : (if p then [((Sys.mountFlags m.src, o) : Ev)] else []).filter isNewMount = [] := by
  split <;> rfl
theorem filter_valid {m : Mountpoint} {o : Int} {p : Prop} [Decidable p] : (if p then [((Sys.validBind m.src, o) : Ev)] else []).filter isNewMount = [] := by
  split <;> rfl

theorem step_filter (j : Jail) (dev : Option BStr) (m : Mountpoint) (o v : Int) : (stepTrace j dev m o v).filter isNewMount =
    [(.mount (some m.src) (mountDest j dev m) (some m.type) m.flags m.data, 0)] := by
  unfold stepTrace
  have hp : isNewMount (prepare j dev m) = false := rfl
  rw [List.filter_cons_of_neg (by rw [hp]; simp), List.filter_append, List.filter_append, List.filter_append, filter_flags, filter_valid]
  have h1 : ∀ {p : Prop} [Decidable p] {s d f x}, (if p then done [Sys.mount s d none f x] else []).filter isNewMount = [] := by
    intro p _ s d f x; split <;> rfl
  rw [h1]; rfl

theorem mountRun_prefix {dev : Option BStr} {ms : List Mountpoint} (h : MountRun j dev ms t) : ∃ n,
    t.filter isNewMount = (ms.take n).map (fun m => ((.mount (some m.src) (mountDest j dev m) (some m.type) m.flags m.data, 0) : Ev)) ∧
    (n = ms.length ∨ ∃ m, ms[n]? = some m ∧ isBind m ∧ ((∃ o : Int, o < 0 ∧ (Sys.mountFlags m.src, o) ∈ t) ∨ (Sys.validBind m.src, 0) ∈ t)) ∧
    ∀ m ∈ ms.take n, ∃ o v : Int, (wantsFlags m → 0 ≤ o) ∧ stepTrace j dev m o v <:+: t := by
  induction h with
  | nil => exact ⟨0, rfl, Or.inl rfl, by simp⟩
  | noFlags m ms o ho hw =>
    exact ⟨0, rfl, Or.inr ⟨m, rfl, ⟨hw.1, hw.2.2⟩, Or.inl ⟨o, ho, by simp⟩⟩, by simp⟩
  | notValid m ms o ho hb =>
    refine ⟨0, ?_, Or.inr ⟨m, rfl, hb, Or.inr (by simp)⟩, by simp⟩
    have hp : isNewMount (prepare j dev m) = false := rfl
    rw [List.filter_cons_of_neg (by rw [hp]; simp), List.filter_append, filter_flags]
    rfl
  | step m ms o v ho hv t ht ih =>
    obtain ⟨n, e, hn, hs⟩ := ih
    refine ⟨n + 1, by rw [List.filter_append, step_filter, e]; rfl, ?_, fun m' hm => ?_⟩
    · rcases hn with hn | ⟨m', e', hb, hc⟩
      · exact Or.inl (by rw [hn]; rfl)
      · refine Or.inr ⟨m', e', hb, ?_⟩
        rcases hc with ⟨o, ho, hm⟩ | hm
        · exact Or.inl ⟨o, ho, List.mem_append_right _ hm⟩
        · exact Or.inr (List.mem_append_right _ hm)
    · rw [List.take_succ_cons] at hm
      rcases List.mem_cons.1 hm with rfl | hm
      · exact ⟨o, v, ho, List.infix_append [] _ _⟩
      · obtain ⟨o', v', h1, h2⟩ := hs m' hm
        exact ⟨o', v', h1, h2.trans (List.suffix_append _ _).isInfix⟩

theorem no_stage {nnp : Bool} {lo hi : Nat} {s : List Ev} (h : Seg nnp lo hi s) {e : Ev} (he : e ∈ s) {a : Nat} (hs : stage nnp e.1 = some a)
    (ha : a < lo ∨ hi < a) : False := by
  have := h.2 e he a hs
  omega

theorem changesRoot_stage {c : Sys} (nnp : Bool) (h : ChangesRoot c) : stage nnp c = some 2 := by
  rcases h with rfl | ⟨_, rfl⟩ <;> rfl
theorem prepares_stage {c : Sys} (nnp : Bool) (h : Prepares c) : stage nnp c = some 1 := by
  obtain ⟨_, _, _, _, _, rfl⟩ := h; rfl

/-- The mount steps inside the trace. -/
theorem mounts_split (E : EnterTrace env j t) : ∃ before during after, t = before ++ during ++ after ∧
    MountRun j (if j.flags.mount_dev then some env.devPath else none) j.mounts during ∧
    (∀ e ∈ before ++ during, ¬ ChangesRoot e.1) ∧ (∀ e ∈ before ++ after, ¬ Prepares e.1) := by
  have hall := trace_rest E
  obtain ⟨fd, a, b, mt, hfd, hm, e⟩ := E.hmt
  have hseg := mounts_seg j.flags.no_new_privs E.hmt
  rw [e] at hall hseg
  refine ⟨E.lt ++ (nsTrace j E.lo E.kr ++ (if j.flags.mount_dev then devTrace env fd else [])), mt,
    (if j.flags.mount_dev then finTrace env j a b else []) ++ (rootTrace j E.a E.b ++ restTrace E), hall.trans (by simp only [List.append_assoc]), hm, ?_, ?_⟩
  · intro x hx hc
    have hs := changesRoot_stage j.flags.no_new_privs hc
    simp only [List.mem_append] at hx
    rcases hx with (hx | hx | hx) | hx
    · exact no_stage (lt_seg _ E) hx hs (by omega)
    · exact no_stage (ns_seg _ j _ _) hx hs (by omega)
    · exact no_stage hseg (by simp only [List.mem_append]; exact Or.inl hx) hs (by omega)
    · exact no_stage hseg (by simp only [List.mem_append]; exact Or.inr (Or.inl hx)) hs (by omega)
  · intro x hx hc
    have hs := prepares_stage j.flags.no_new_privs hc
    simp only [List.mem_append] at hx
    rcases hx with (hx | hx | hx) | hx | hx | hx
    · exact no_stage (lt_seg _ E) hx hs (by omega)
    · exact no_stage (ns_seg _ j _ _) hx hs (by omega)
    · obtain ⟨_, _, _, _, _, hc⟩ := hc
      split_ifs at hx
      · unfold devTrace at hx
        simp only [List.mem_append, List.mem_cons] at hx
        rcases hx with hx | rfl | hx
        · have := (done_ok hx).2
          rw [hc] at this
          simp at this
        · exact absurd hc (by simp)
        · have := dev_stage j.flags.no_new_privs _ (done_ok hx).2
          rw [hs] at this; exact absurd this (by simp)
      · simp at hx
    · obtain ⟨_, _, _, _, _, hc⟩ := hc
      split_ifs at hx
      · unfold finTrace at hx
        simp only [List.mem_append, List.mem_cons, List.not_mem_nil, or_false] at hx
        rcases hx with hx | rfl | rfl
        · have := (done_ok hx).2
          rw [hc] at this
          simp at this
        · exact absurd hc (by simp)
        · exact absurd hc (by simp)
      · simp at hx
    · exact no_stage (root_seg _ j _ _) hx hs (by omega)
    · exact no_stage (rest_seg E) hx hs (by omega)

theorem remount_bits (f o : BitVec 64) : ((f ||| o &&& KEPT_MOUNT_FLAGS ||| MS_REMOUNT) &&& 0x20#64 ≠ 0#64) ∧
    (f ||| o &&& KEPT_MOUNT_FLAGS ||| MS_REMOUNT) &&& mountOptions &&& 1#64 = f &&& 1#64 ∧
    (f ||| o &&& KEPT_MOUNT_FLAGS ||| MS_REMOUNT) &&& mountOptions &&& o &&& 14#64 = o &&& 14#64 := by
  have e1 : ∀ i : Fin 64, mountOptions.getLsbD i.1 = (decide (i.1 < 4) || decide (i.1 = 10) || decide (i.1 = 11) || decide (i.1 = 21)) := by decide
  have e2 : ∀ i : Fin 64, KEPT_MOUNT_FLAGS.getLsbD i.1 = ((decide (0 < i.1) && decide (i.1 < 4)) || decide (i.1 = 10) || decide (i.1 = 11) || decide (i.1 = 21)) := by decide
  have e3 : ∀ i : Fin 64, MS_REMOUNT.getLsbD i.1 = decide (i.1 = 5) := by decide
  have e4 : ∀ i : Fin 64, (1#64 : BitVec 64).getLsbD i.1 = decide (i.1 = 0) := by decide
  have e5 : ∀ i : Fin 64, (14#64 : BitVec 64).getLsbD i.1 = (decide (0 < i.1) && decide (i.1 < 4)) := by decide
  refine ⟨fun hz => ?_, ?_, ?_⟩
  · have := congrArg (·.getLsbD 5) hz
    simp [MS_REMOUNT] at this
  · apply BitVec.eq_of_getLsbD_eq
    intro i hi
    have a1 := e1 ⟨i, hi⟩; have a2 := e2 ⟨i, hi⟩; have a3 := e3 ⟨i, hi⟩; have a4 := e4 ⟨i, hi⟩
    simp only at a1 a2 a3 a4
    simp only [BitVec.getLsbD_and, BitVec.getLsbD_or, a1, a2, a3, a4]
    by_cases h0 : i = 0
    · subst h0; simp [-BitVec.getLsbD_eq_getElem]
    · simp [h0, -BitVec.getLsbD_eq_getElem]
  · apply BitVec.eq_of_getLsbD_eq
    intro i hi
    have a1 := e1 ⟨i, hi⟩; have a2 := e2 ⟨i, hi⟩; have a3 := e3 ⟨i, hi⟩; have a5 := e5 ⟨i, hi⟩
    simp only at a1 a2 a3 a5
    simp only [BitVec.getLsbD_and, BitVec.getLsbD_or, a1, a2, a3, a5]
    by_cases h0 : 0 < i ∧ i < 4
    · simp [h0.1, h0.2, -BitVec.getLsbD_eq_getElem]
      cases o.getLsbD i <;> simp
    · have : (decide (0 < i) && decide (i < 4)) = false := by simp; omega
      rw [this]; simp

/-! ### Nothing happens outside the new namespaces -/

theorem before_of {u : Ev} {X Y t1 t2 : List Ev} {e : Ev} {P : Sys → Prop} (h : t = X ++ u :: Y) (hX : ∀ x ∈ X, ¬ P x.1) (hu : ¬ P u.1)
    (ht : t = t1 ++ e :: t2) (he : P e.1) : u ∈ t1 := by
  rw [h] at ht
  rcases List.append_eq_append_iff.1 ht with ⟨c, e1, e2⟩ | ⟨c, e1, e2⟩
  · cases c with
    | nil =>
      simp only [List.nil_append, List.cons.injEq] at e2
      exact absurd he (by rw [← e2.1]; exact hu)
    | cons y c =>
      simp only [List.cons_append, List.cons.injEq] at e2
      rw [e1, e2.1]; simp
  · cases c with
    | nil =>
      simp only [List.nil_append, List.cons.injEq] at e2
      exact absurd he (by rw [e2.1]; exact hu)
    | cons y c =>
      simp only [List.cons_append, List.cons.injEq] at e2
      exact absurd he (hX e (by rw [e1, e2.1]; simp))

/-- The namespace part, taken apart. -/
theorem trace_ns (E : EnterTrace env j t) : ∃ rest, t = (E.lt ++ done ((if j.flags.enter_vfs then [.setns j.mountns_fd .mount] else []) ++
    ((if j.flags.vfs then [.unshare .mount] ++ (if decide (j.remount_mode ≠ 0#64) then
      [.mount none (bstr "/") none (MS_REC ||| j.remount_mode) none] ++
      j.remounts.flatMap fun t => [.mount none t.mount_name none (MS_REC ||| t.remount_mode) none] else []) else []) ++
    ((if j.flags.ipc then [.unshare .ipc] else []) ++
    ((if j.flags.uts then [.unshare .uts] ++ (if j.hostname.isSome then [.sethostname (j.hostname.getD [])] else []) else []) ++
    (if j.flags.enter_net then [.setns j.netns_fd .net] else if j.flags.net then [.unshare .net] else [])))))) ++ rest :=
  ⟨_, (trace_rest E).trans (by unfold nsTrace nsPlanA; simp only [List.append_assoc]; rfl)⟩

theorem cut1 {L rest : List Ev} {A B C : List Sys} {u : Sys} (h : t = L ++ done (A ++ (([u] ++ B) ++ C)) ++ rest) :
    ∃ Y, t = (L ++ done A) ++ (u, 0) :: Y :=
  ⟨done B ++ (done C ++ rest), h.trans (by simp only [done_append, List.append_assoc]; rfl)⟩

theorem cut3 {L rest : List Ev} {A1 A2 A3 B C : List Sys} {u : Sys} (h : t = L ++ done (A1 ++ (A2 ++ (A3 ++ (([u] ++ B) ++ C)))) ++ rest) :
    ∃ Y, t = (L ++ done (A1 ++ (A2 ++ A3))) ++ (u, 0) :: Y :=
  ⟨done B ++ (done C ++ rest), h.trans (by simp only [done_append, List.append_assoc]; rfl)⟩

theorem cut4 {L rest : List Ev} {A1 A2 A3 A4 : List Sys} {u : Sys} (h : t = L ++ done (A1 ++ (A2 ++ (A3 ++ (A4 ++ [u])))) ++ rest) :
    ∃ Y, t = (L ++ done (A1 ++ (A2 ++ (A3 ++ A4)))) ++ (u, 0) :: Y :=
  ⟨rest, h.trans (by simp only [done_append, List.append_assoc]; rfl)⟩

theorem lt_only (E : EnterTrace env j t) {e : Ev} (he : e ∈ E.lt) : e.1 = .lastCap := by
  rw [E.hlt] at he
  split_ifs at he <;> simp at he
  rw [he]

theorem inside_mount (E : EnterTrace env j t) (hv : j.flags.vfs = true) : ∃ X Y, t = X ++ (.unshare .mount, 0) :: Y ∧ ∀ x ∈ X, ¬ TouchesFiles x.1 := by
  obtain ⟨rest, h⟩ := trace_ns E
  rw [hv, if_pos rfl] at h
  obtain ⟨Y, hY⟩ := cut1 h
  refine ⟨_, Y, hY, fun x hx => ?_⟩
  · rcases List.mem_append.1 hx with hx | hx
    · rw [lt_only E hx]; exact id
    · have hc := (done_ok hx).2
      split_ifs at hc <;> simp at hc
      rw [hc]; exact id

theorem inside_uts (E : EnterTrace env j t) (hv : j.flags.uts = true) : ∃ X Y, t = X ++ (.unshare .uts, 0) :: Y ∧ ∀ x ∈ X, ∀ n, x.1 ≠ .sethostname n := by
  obtain ⟨rest, h⟩ := trace_ns E
  rw [hv, if_pos (c := true = true) rfl] at h
  obtain ⟨Y, hY⟩ := cut3 h
  refine ⟨_, Y, hY, fun x hx n => ?_⟩
  · rcases List.mem_append.1 hx with hx | hx
    · rw [lt_only E hx]; simp
    · have hc := (done_ok hx).2
      simp only [List.mem_append] at hc
      rcases hc with hc | hc | hc
      · split_ifs at hc <;> simp at hc; rw [hc]; simp
      · split_ifs at hc with h1 h2
        · simp only [List.mem_append, List.mem_singleton, List.mem_flatMap] at hc
          rcases hc with hc | hc | ⟨_, _, hc⟩ <;> rw [hc] <;> simp
        · simp at hc; rw [hc]; simp
        · simp at hc
      · split_ifs at hc <;> simp at hc; rw [hc]; simp

theorem inside_net (E : EnterTrace env j t) (hn : j.flags.net = true) (he : j.flags.enter_net = false) :
    ∃ X Y, t = X ++ (.unshare .net, 0) :: Y ∧ ∀ x ∈ X, x.1 ≠ .loopback := by
  obtain ⟨rest, h⟩ := trace_ns E
  rw [hn, he] at h
  simp only [Bool.false_eq_true, if_false, if_true] at h
  obtain ⟨Y, hY⟩ := cut4 h
  refine ⟨_, Y, hY, fun x hx => ?_⟩
  · rcases List.mem_append.1 hx with hx | hx
    · rw [lt_only E hx]; simp
    · have hc := (done_ok hx).2
      simp only [List.mem_append] at hc
      rcases hc with hc | hc | hc | hc
      · split_ifs at hc <;> simp at hc; rw [hc]; simp
      · split_ifs at hc with h1 h2
        · simp only [List.mem_append, List.mem_singleton, List.mem_flatMap] at hc
          rcases hc with hc | hc | ⟨_, _, hc⟩ <;> rw [hc] <;> simp
        · simp at hc; rw [hc]; simp
        · simp at hc
      · split_ifs at hc <;> simp at hc; rw [hc]; simp
      · split_ifs at hc <;> simp at hc
        · rcases hc with hc | hc <;> rw [hc] <;> simp
        · rw [hc]; simp

end Minijail
