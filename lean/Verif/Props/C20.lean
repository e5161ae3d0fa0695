import Verif.Props.C19
/-! C20: truncated or malformed buffers. -/
set_option linter.unusedSimpArgs false
set_option autoImplicit false
namespace Minijail

/-- The reader takes its data from the front: more data behind changes nothing. -/
def Rd.Mono {α : Type} (x : Rd α) : Prop := ∀ b a r ext, x b = some (a, r) → x (b ++ ext) = some (a, r ++ ext)

theorem Rd.Mono.bind {α β : Type} {x : Rd α} {f : α → Rd β} (hx : x.Mono) (hf : ∀ a, (f a).Mono) : (Rd.bind x f).Mono := by
  intro b c r ext h
  simp only [Rd.bind] at h ⊢
  cases hb : x b with
  | none => rw [hb] at h; cases h
  | some p =>
    obtain ⟨a, b'⟩ := p
    rw [hb] at h
    rw [hx b a b' ext hb]
    exact hf a b' c r ext h

theorem mono_pure {α : Type} (a : α) : Rd.Mono (fun b => some (a, b)) := by
  intro b c r ext h
  cases h
  rfl

theorem mono_consumebytes (n : Nat) : Rd.Mono (consumebytes n) := by
  intro b a r ext h
  unfold consumebytes at h ⊢
  split at h
  · cases h
  · rename_i hn
    cases h
    rw [if_neg (by simp; omega), List.take_append_of_le_length (by omega), List.drop_append_of_le_length (by omega)]

theorem mono_rdInt (n w : Nat) : (rdInt n w).Mono := by
  intro b a r ext h
  unfold rdInt at h ⊢
  cases hc : consumebytes n b with
  | none => rw [hc] at h; cases h
  | some p =>
    rw [hc] at h
    cases h
    rw [mono_consumebytes n b p.1 p.2 ext hc]
    rfl

theorem mono_rdArray {α : Type} {x : Rd α} (hx : x.Mono) (n : Nat) : (rdArray x n).Mono := by
  induction n with
  | zero => exact mono_pure []
  | succ n ih => exact hx.bind fun a => ih.bind fun as => mono_pure _

theorem mono_rdImage : rdImage.Mono := by
  have hr : rdRlimit.Mono := by
    unfold rdRlimit
    repeat' (first | exact mono_rdInt _ _ | exact mono_pure _ | refine Rd.Mono.bind ?_ fun _ => ?_)
  have hp : rdPreservedFd.Mono := by
    unfold rdPreservedFd
    repeat' (first | exact mono_rdInt _ _ | exact mono_pure _ | refine Rd.Mono.bind ?_ fun _ => ?_)
  unfold rdImage
  repeat' (first | exact mono_rdInt _ _ | exact mono_rdArray (mono_rdInt _ _) _ | exact mono_rdArray hr _ |
    exact mono_rdArray hp _ | exact mono_pure _ | refine Rd.Mono.bind ?_ fun _ => ?_)

theorem strnlen_lt {b : Bytes} (h : strnlen b ≠ b.length) : strnlen b < b.length := by
  have : strnlen b ≤ b.length := (List.takeWhile_sublist _).length_le
  omega

theorem strnlen_append {b : Bytes} (h : strnlen b ≠ b.length) (ext : Bytes) : strnlen (b ++ ext) = strnlen b := by
  unfold strnlen at h ⊢
  rw [List.takeWhile_append, if_neg h]

theorem mono_consumestr : Rd.Mono consumestr := by
  intro b a r ext h
  unfold consumestr at h ⊢
  split at h
  · cases h
  · rename_i hn
    have := strnlen_lt hn
    rw [strnlen_append hn, if_neg (by simp; omega)]
    cases hc : consumebytes (strnlen b + 1) b with
    | none => rw [hc] at h; cases h
    | some p =>
      rw [hc] at h
      cases h
      rw [mono_consumebytes _ b p.1 p.2 ext hc]
      rfl

theorem mono_optstr {c : Prop} [Decidable c] :
    Rd.Mono (fun b => if c then (consumestr b).map fun r => (some r.1, r.2) else some (none, b)) := by
  intro b a r ext h
  by_cases hc : c
  · simp only [if_pos hc] at h ⊢
    cases hs : consumestr b with
    | none => rw [hs] at h; cases h
    | some p =>
      rw [hs] at h
      cases h
      rw [mono_consumestr b p.1 p.2 ext hs]
      rfl
  · simp only [if_neg hc] at h ⊢
    cases h
    rfl

theorem mono_unmarshalOpt (p : BitVec 64) : (unmarshalOpt p).Mono := mono_optstr

theorem mono_unmarshalGids (p c : BitVec 64) : (unmarshalGids p c).Mono := by
  intro b a r ext h
  unfold unmarshalGids at h ⊢
  split_ifs at h ⊢ with h1 h2
  · cases hs : rdArray (rdInt 4 32) c.toNat b with
    | none => rw [hs] at h; cases h
    | some q =>
      rw [hs] at h
      cases h
      rw [mono_rdArray (mono_rdInt 4 32) c.toNat b q.1 q.2 ext hs]
  · cases h; rfl

theorem mono_rdInsn : rdInsn.Mono := by
  unfold rdInsn
  repeat' (first | exact mono_rdInt _ _ | exact mono_pure _ | refine Rd.Mono.bind ?_ fun _ => ?_)

theorem mono_unmarshalFilter (f : Bool) (c : BitVec 64) : (unmarshalFilter f c).Mono := by
  intro b a r ext h
  unfold unmarshalFilter at h ⊢
  split_ifs at h ⊢ with h1 h2
  · cases hs : rdArray rdInsn c.toNat b with
    | none => rw [hs] at h; cases h
    | some q =>
      rw [hs] at h
      cases h
      rw [mono_rdArray mono_rdInsn c.toNat b q.1 q.2 ext hs]
  · cases h; rfl

theorem mono_unmarshalMount (j : Jail) : (unmarshalMount j).Mono := by
  unfold unmarshalMount
  refine mono_consumestr.bind fun src => mono_consumestr.bind fun dest => mono_consumestr.bind fun type =>
    (mono_rdInt _ _).bind fun hd => mono_optstr.bind fun data => (mono_rdInt _ _).bind fun flags => ?_
  intro b a r ext h
  cases hm : mountWithData j src dest type flags data with
  | none => rw [hm] at h; cases h
  | some j' => rw [hm] at h; cases h; rfl

theorem mono_unmarshalMounts (n : Nat) (j : Jail) : (unmarshalMounts n j).Mono := by
  induction n generalizing j with
  | zero => exact mono_pure j
  | succ n ih => exact (mono_unmarshalMount j).bind fun j => ih j

theorem mono_unmarshalCgroups (d : Ptrs) (n : Nat) (j j' : Jail) (b r ext : Bytes)
    (h : unmarshalCgroups d n j b = .ok (j', r)) : unmarshalCgroups d n j (b ++ ext) = .ok (j', r ++ ext) := by
  induction n generalizing j b with
  | zero => cases h; rfl
  | succ n ih =>
    simp only [unmarshalCgroups] at h ⊢
    cases hs : consumestr b with
    | none => rw [hs] at h; cases h
    | some p =>
      rw [hs] at h
      rw [mono_consumestr b p.1 p.2 ext hs]
      simp only at h ⊢
      split_ifs at h ⊢ with hc
      exact ih _ _ h

theorem mono_unmarshalFsRules (k : LandlockKernel) (d : Ptrs) (n : Nat) (j j' : Jail) (b r ext : Bytes)
    (h : unmarshalFsRules k d n j b = .ok (j', r)) : unmarshalFsRules k d n j (b ++ ext) = .ok (j', r ++ ext) := by
  induction n generalizing j b with
  | zero => cases h; rfl
  | succ n ih =>
    simp only [unmarshalFsRules] at h ⊢
    cases hs : consumestr b with
    | none => rw [hs] at h; cases h
    | some p =>
      rw [hs] at h
      rw [mono_consumestr b p.1 p.2 ext hs]
      simp only at h ⊢
      cases hi : rdInt 8 64 p.2 with
      | none => rw [hi] at h; cases h
      | some q =>
        rw [hi] at h
        rw [mono_rdInt 8 64 p.2 q.1 q.2 ext hi]
        simp only at h ⊢
        split_ifs at h ⊢ with hc
        exact ih _ _ h

theorem mono_unmarshalTail (d : Ptrs) (pp : BitVec 64) (j j' : Jail) (b r ext : Bytes)
    (h : unmarshalTail d pp j b = .ok (j', r)) : unmarshalTail d pp j (b ++ ext) = .ok (j', r ++ ext) := by
  unfold unmarshalTail at h ⊢
  cases hi : rdInt 4 32 b with
  | none => rw [hi] at h; cases h
  | some q =>
    rw [hi] at h
    rw [mono_rdInt 4 32 b q.1 q.2 ext hi]
    simp only at h ⊢
    split_ifs at h ⊢ with hc
    cases ho : unmarshalOpt pp q.2 with
    | none => rw [ho] at h; cases h
    | some p =>
      rw [ho] at h
      rw [mono_unmarshalOpt pp q.2 p.1 p.2 ext ho]
      cases h
      rfl

private theorem mounts_cgroup_count (n : Nat) (j j' : Jail) (b r : Bytes) (h : unmarshalMounts n j b = some (j', r)) :
    j'.cgroup_count = j.cgroup_count := by
  have hb {α β : Type} {x : Rd α} {f : α → Rd β} {b : Bytes} {y : β × Bytes} (h : Rd.bind x f b = some y) :
      ∃ a r, x b = some (a, r) ∧ f a r = some y := by
    simp only [Rd.bind] at h
    cases hx : x b with
    | none => rw [hx] at h; cases h
    | some p => rw [hx] at h; exact ⟨p.1, p.2, rfl, h⟩
  induction n generalizing j b with
  | zero => cases h; rfl
  | succ n ih =>
    obtain ⟨j1, b1, h1, h2⟩ := hb h
    refine (ih _ _ h2).trans ?_
    obtain ⟨src, b2, -, h1⟩ := hb h1
    obtain ⟨dest, b3, -, h1⟩ := hb h1
    obtain ⟨type, b4, -, h1⟩ := hb h1
    obtain ⟨hd, b5, -, h1⟩ := hb h1
    obtain ⟨data, b6, -, h1⟩ := hb h1
    obtain ⟨flags, b7, -, h1⟩ := hb h1
    unfold mountWithData at h1
    split_ifs at h1 <;> simp only [Option.map_some, Option.some.injEq, Prod.mk.injEq, Option.map_none, reduceCtorEq] at h1 <;>
      (rw [← h1.1]; try rfl)

/-- The first part of deserialisation, up to and including the mounts. -/
private structure Head (b : Bytes) (i : Image) (j : Jail) (d : Ptrs) (r : Bytes) : Prop where
  img : ∃ r0, rdImage b = some (i, r0)
  cgroups : j.cgroup_count = 0
  ext : ∀ (k : LandlockKernel) (ext : Bytes), unmarshalBuffer k (b ++ ext) =
    Unm.bind (unmarshalCgroups d i.cgroup_count.toNat j (r ++ ext)) fun (j, b) =>
    Unm.bind (unmarshalFsRules k { d with fsRules := .live } i.fs_rules_count.toNat j b) fun (j, b) =>
    unmarshalTail { d with fsRules := .live } i.seccomp_policy_path j b

/-- Either the first part fails with an error, or it succeeds on every extension. -/
private theorem head_cases (b : Bytes) :
    (∀ k, ∃ d, unmarshalBuffer k b = .err d) ∨ ∃ i j d r, Head b i j d r := by
  have step {α : Type} {x : Rd α} (hx : x.Mono) (b : Bytes) : x b = none ∨ ∃ a r, x b = some (a, r) ∧ ∀ ext, x (b ++ ext) = some (a, r ++ ext) := by
    cases h : x b with
    | none => exact .inl rfl
    | some p => exact .inr ⟨p.1, p.2, rfl, fun ext => hx b p.1 p.2 ext h⟩
  rcases step mono_rdImage b with h0 | ⟨i, b0, h0, e0⟩
  · exact .inl fun k => ⟨_, by simp only [unmarshalBuffer, h0, Unm.ofOption_none, Unm.bind_err]; rfl⟩
  rcases step (mono_unmarshalOpt i.user) b0 with h1 | ⟨x1, b1, h1, e1⟩
  · exact .inl fun k => ⟨_, by simp only [unmarshalBuffer, h0, h1, Unm.ofOption_none, Unm.bind_err, Unm.ofOption_some, Unm.bind_ok]; rfl⟩
  rcases step (mono_unmarshalGids i.suppl_gid_list i.suppl_gid_count) b1 with h2 | ⟨x2, b2, h2, e2⟩
  · exact .inl fun k => ⟨_, by simp only [unmarshalBuffer, h0, h1, h2, Unm.ofOption_none, Unm.bind_err, Unm.ofOption_some, Unm.bind_ok]; rfl⟩
  rcases step (mono_unmarshalOpt i.chrootdir) b2 with h3 | ⟨x3, b3, h3, e3⟩
  · exact .inl fun k => ⟨_, by simp only [unmarshalBuffer, h0, h1, h2, h3, Unm.ofOption_none, Unm.bind_err, Unm.ofOption_some, Unm.bind_ok]; rfl⟩
  rcases step (mono_unmarshalOpt i.hostname) b3 with h4 | ⟨x4, b4, h4, e4⟩
  · exact .inl fun k => ⟨_, by simp only [unmarshalBuffer, h0, h1, h2, h3, h4, Unm.ofOption_none, Unm.bind_err, Unm.ofOption_some, Unm.bind_ok]; rfl⟩
  rcases step (mono_unmarshalOpt i.alt_syscall_table) b4 with h5 | ⟨x5, b5, h5, e5⟩
  · exact .inl fun k => ⟨_, by simp only [unmarshalBuffer, h0, h1, h2, h3, h4, h5, Unm.ofOption_none, Unm.bind_err, Unm.ofOption_some, Unm.bind_ok]; rfl⟩
  rcases step (mono_unmarshalFilter i.flags.seccomp_filter i.filter_len) b5 with h6 | ⟨x6, b6, h6, e6⟩
  · exact .inl fun k => ⟨_, by simp only [unmarshalBuffer, h0, h1, h2, h3, h4, h5, h6, Unm.ofOption_none, Unm.bind_err, Unm.ofOption_some, Unm.bind_ok]; rfl⟩
  rcases step (mono_unmarshalMounts i.mounts_count.toNat { i.toJail with
    user := x1, suppl_gid_list := x2, chrootdir := x3, hostname := x4, alt_syscall_table := x5,
    filter_prog := x6 }) b6 with h7 | ⟨x7, b7, h7, e7⟩
  · exact .inl fun k => ⟨_, by simp only [unmarshalBuffer, h0, h1, h2, h3, h4, h5, h6, h7, Unm.ofOption_none, Unm.bind_err, Unm.ofOption_some, Unm.bind_ok]; rfl⟩
  refine .inr ⟨i, x7, ⟨got x1, got x2, got x3, got x4, got x5, got x6, .live, .live, .null, sent i.seccomp_policy_path⟩, b7, ⟨b0, h0⟩, mounts_cgroup_count _ _ _ _ _ h7, fun k ext => ?_⟩
  simp only [unmarshalBuffer, e0, e1, e2, e3, e4, e5, e6, e7, Unm.ofOption_some, Unm.bind_ok]
  rfl

/-- Accepted buffers stay accepted, with the same jail, when bytes are appended. -/
theorem mono_unmarshalBuffer (k : LandlockKernel) (b r ext : Bytes) (j : Jail) (h : unmarshalBuffer k b = .ok (j, r)) :
    unmarshalBuffer k (b ++ ext) = .ok (j, r ++ ext) := by
  rcases head_cases b with hh | ⟨i, j0, d, r0, hh⟩
  · obtain ⟨d, hd⟩ := hh k
    rw [hd] at h
    cases h
  · have h0 := hh.ext k []
    simp only [List.append_nil] at h0
    rw [h0] at h
    rw [hh.ext k ext]
    cases hc : unmarshalCgroups d i.cgroup_count.toNat j0 r0 with
    | err => rw [hc] at h; cases h
    | ub => rw [hc] at h; cases h
    | ok p =>
      rw [hc] at h
      rw [mono_unmarshalCgroups _ _ _ p.1 _ p.2 ext hc]
      simp only [Unm.bind_ok] at h ⊢
      cases hf : unmarshalFsRules k { d with fsRules := .live } i.fs_rules_count.toNat p.1 p.2 with
      | err => rw [hf] at h; cases h
      | ub => rw [hf] at h; cases h
      | ok q =>
        rw [hf] at h
        rw [mono_unmarshalFsRules _ _ _ _ q.1 _ q.2 ext hf]
        simp only [Unm.bind_ok] at h ⊢
        exact mono_unmarshalTail _ _ _ _ _ _ _ h

/-- **C20**, truncation: no strict prefix of a valid serialised jail is accepted. -/
theorem C20_prefix_rejected (a : Addrs) (ha : ∀ n, a n ≠ 0#64) (k : LandlockKernel) (j : Jail) (h : Spec.GoodJail j)
    (ht : Spec.Transferable j) (n : Nat) (hn : n < minijailSize a j) (j' : Jail) :
    minijailUnmarshal k ((minijailMarshal a j (minijailSize a j)).2.take n) ≠ .ok j' := by
  rw [minijailMarshal_eq]
  intro he
  rw [minijailSize_eq] at hn
  simp only [minijailUnmarshal] at he
  cases hu : unmarshalBuffer k ((serialised a j).take n) with
  | err => rw [hu] at he; cases he
  | ub => rw [hu] at he; cases he
  | ok p =>
    have h1 := mono_unmarshalBuffer k _ p.2 ((serialised a j).drop n) p.1 hu
    rw [List.take_append_drop, unmarshal_serialised a ha k j h ht] at h1
    simp only [Unm.ok.injEq, Prod.mk.injEq] at h1
    have h2 := h1.2.symm
    rw [List.append_eq_nil_iff] at h2
    have := congrArg List.length h2.2
    simp only [List.length_drop, List.length_nil] at this
    omega

/-- **C20**, trailing bytes: they never change the outcome of an accepted buffer. -/
theorem C20_trailing (k : LandlockKernel) (b ext : Bytes) (j : Jail) (h : minijailUnmarshal k b = .ok j) :
    minijailUnmarshal k (b ++ ext) = .ok j := by
  simp only [minijailUnmarshal] at h ⊢
  cases hu : unmarshalBuffer k b with
  | err => rw [hu] at h; cases h
  | ub => rw [hu] at h; cases h
  | ok p =>
    rw [hu] at h
    rw [mono_unmarshalBuffer k b p.2 ext p.1 hu]
    exact h

private theorem cgroups_ub (d : Ptrs) (n : Nat) (j : Jail) (b : Bytes) (h : unmarshalCgroups d n j b = .ub) :
    j.cgroup_count + n > 10 := by
  induction n generalizing j b with
  | zero => cases h
  | succ n ih =>
    simp only [unmarshalCgroups] at h
    cases hs : consumestr b with
    | none => rw [hs] at h; cases h
    | some p =>
      rw [hs] at h
      simp only at h
      split_ifs at h with hc
      · simp only [MAX_CGROUPS] at hc; omega
      · have := ih _ _ h
        simp only at this
        omega

private theorem fsRules_ub (k : LandlockKernel) (d : Ptrs) (n : Nat) (j : Jail) (b : Bytes)
    (h : unmarshalFsRules k d n j b = .ub) :
    ∃ ext, unmarshalFsRules k d n j (b ++ ext) = .err ⟨.bad_fs_rules, d⟩ ∨
      ∃ j' r, ∀ ext', unmarshalFsRules k d n j (b ++ (ext ++ ext')) = .ok (j', r ++ ext') ∧ r = [] := by
  induction n generalizing j b with
  | zero => cases h
  | succ n ih =>
    simp only [unmarshalFsRules] at h ⊢
    cases hs : consumestr b with
    | none => rw [hs] at h; cases h
    | some p =>
      rw [hs] at h
      simp only at h
      have hmono := fun ext => mono_consumestr b p.1 p.2 ext hs
      cases hi : rdInt 8 64 p.2 with
      | some q =>
        rw [hi] at h
        simp only at h
        split_ifs at h with hc
        obtain ⟨ext, hext⟩ := ih _ _ h
        refine ⟨ext, ?_⟩
        simp only [hmono, fun ext => mono_rdInt 8 64 p.2 q.1 q.2 ext hi, if_neg hc]
        exact hext
      | none =>
        have hlen : p.2.length < 8 := by
          unfold rdInt consumebytes at hi
          split at hi
          · omega
          · cases hi
        refine ⟨List.replicate (8 - p.2.length) 0#8, ?_⟩
        have hread : ∀ ext', rdInt 8 64 (p.2 ++ (List.replicate (8 - p.2.length) 0#8 ++ ext')) =
            some (decLE 64 (p.2 ++ List.replicate (8 - p.2.length) 0#8), ext') := by
          intro ext'
          rw [rdInt, ← List.append_assoc, consumebytes_append ext' (by simp; omega)]
          rfl
        have hread0 := hread []
        simp only [List.append_nil] at hread0
        simp only [hmono, hread, hread0]
        split_ifs with hc
        · exact .inl rfl
        · cases n with
          | zero =>
            right
            exact ⟨_, [], fun ext' => ⟨rfl, rfl⟩⟩
          | succ n =>
            left
            simp [unmarshalFsRules, consumestr, strnlen]

/-- What holds of **C20**, memory safety: a buffer can only cause undefined behaviour when its struct announces more
than ten cgroups, or when it is truncated: some extension of it is handled properly. -/
theorem C20_ub_partial (k : LandlockKernel) (b : Bytes) (h : minijailUnmarshal k b = .ub) :
    (∃ i r, rdImage b = some (i, r) ∧ i.cgroup_count.toNat > 10) ∨
    ∃ ext, ext ≠ [] ∧ minijailUnmarshal k (b ++ ext) ≠ .ub := by
  have hb : unmarshalBuffer k b = .ub := by
    simp only [minijailUnmarshal] at h
    cases hu : unmarshalBuffer k b with
    | err => rw [hu] at h; cases h
    | ok p => rw [hu] at h; cases h
    | ub => rfl
  rcases head_cases b with hh | ⟨i, j0, d, r0, hh⟩
  · obtain ⟨d, hd⟩ := hh k
    rw [hd] at hb
    cases hb
  · have h0 := hh.ext k []
    simp only [List.append_nil] at h0
    have hb' := hb
    rw [h0] at hb'
    have ne (ext : Bytes) (d : Failure) (he : unmarshalBuffer k (b ++ ext) = .err d) : ext ≠ [] := by
      rintro rfl
      rw [List.append_nil, hb] at he
      cases he
    cases hc : unmarshalCgroups d i.cgroup_count.toNat j0 r0 with
    | err => rw [hc] at hb'; cases hb'
    | ub =>
      left
      obtain ⟨r, hr⟩ := hh.img
      refine ⟨i, r, hr, ?_⟩
      by_contra hle
      have := cgroups_ub _ _ _ _ hc
      have h1 := hh.cgroups
      omega
    | ok p =>
      right
      rw [hc] at hb'
      simp only [Unm.bind_ok] at hb'
      have hcm := fun ext => mono_unmarshalCgroups _ _ _ p.1 _ p.2 ext hc
      have fin (ext : Bytes) (he : unmarshalBuffer k (b ++ ext) ≠ .ub) :
          ∃ ext, ext ≠ [] ∧ minijailUnmarshal k (b ++ ext) ≠ .ub := by
        refine ⟨ext, ?_, ?_⟩
        · rintro rfl
          rw [List.append_nil] at he
          exact he hb
        · intro hm
          simp only [minijailUnmarshal] at hm
          cases hu : unmarshalBuffer k (b ++ ext) with
          | err => rw [hu] at hm; cases hm
          | ok p => rw [hu] at hm; cases hm
          | ub => exact he hu
      have tail (j : Jail) (r : Bytes) (ht : unmarshalTail { d with fsRules := .live } i.seccomp_policy_path j r = .ub) :
          ∃ ext, unmarshalTail { d with fsRules := .live } i.seccomp_policy_path j (r ++ ext) ≠ .ub := by
        have hlen : r.length < 4 := by
          cases hi : rdInt 4 32 r with
          | some q =>
            simp only [unmarshalTail, hi] at ht
            split_ifs at ht
            cases ho : unmarshalOpt i.seccomp_policy_path q.2 with
            | none => rw [ho] at ht; cases ht
            | some p => rw [ho] at ht; cases ht
          | none =>
            unfold rdInt consumebytes at hi
            split at hi
            · omega
            · cases hi
        refine ⟨List.replicate (4 - r.length) 0#8, ?_⟩
        have hread := consumebytes_append (n := 4) (p := r ++ List.replicate (4 - r.length) 0#8) [] (by simp; omega)
        rw [List.append_nil] at hread
        simp only [unmarshalTail, rdInt, hread, Option.map_some]
        split_ifs
        · simp
        · cases unmarshalOpt i.seccomp_policy_path [] <;> simp
      cases hf : unmarshalFsRules k { d with fsRules := .live } i.fs_rules_count.toNat p.1 p.2 with
      | err => rw [hf] at hb'; cases hb'
      | ok q =>
        rw [hf] at hb'
        simp only [Unm.bind_ok] at hb'
        obtain ⟨ext, hext⟩ := tail _ _ hb'
        refine fin ext ?_
        rw [hh.ext k ext, hcm]
        simp only [Unm.bind_ok]
        rw [mono_unmarshalFsRules _ _ _ _ q.1 _ q.2 ext hf]
        exact hext
      | ub =>
        obtain ⟨ext, hext | ⟨j', r, hext⟩⟩ := fsRules_ub k _ _ _ _ hf
        · refine fin ext ?_
          rw [hh.ext k ext, hcm]
          simp only [Unm.bind_ok, hext, Unm.bind_err]
          simp
        · have hr : r = [] := (hext []).2
          subst hr
          by_cases htl : unmarshalTail { d with fsRules := .live } i.seccomp_policy_path j' [] = .ub
          · obtain ⟨ext', hext'⟩ := tail _ _ htl
            refine fin (ext ++ ext') ?_
            rw [hh.ext k _, hcm]
            simp only [Unm.bind_ok]
            rw [(hext ext').1]
            exact hext'
          · refine fin ext ?_
            have := (hext []).1
            simp only [List.append_nil] at this
            rw [hh.ext k _, hcm]
            simp only [Unm.bind_ok]
            rw [this]
            exact htl

/-- Buffers shorter than the struct are refused without looking further. -/
theorem C20_short (k : LandlockKernel) (b : Bytes) (h : b.length < SIZEOF_MINIJAIL) : minijailUnmarshal k b = .err ⟨.out, freshPtrs⟩ := by
  have key : rdImage b = none := by
    cases hr : rdImage b with
    | none => rfl
    | some p =>
      exfalso
      have hb {α β : Type} {x : Rd α} {f : α → Rd β} {n m : Nat}
          (hx : ∀ b a r, x b = some (a, r) → r.length + n = b.length)
          (hf : ∀ a b c r, f a b = some (c, r) → r.length + m = b.length) :
          ∀ b c r, Rd.bind x f b = some (c, r) → r.length + (n + m) = b.length := by
        intro b c r h
        simp only [Rd.bind] at h
        cases hxb : x b with
        | none => rw [hxb] at h; cases h
        | some q =>
          rw [hxb] at h
          have h1 := hx b q.1 q.2 hxb
          have h2 := hf q.1 q.2 c r h
          omega
      have hi (n w : Nat) : ∀ b a r, rdInt n w b = some (a, r) → r.length + n = b.length := by
        intro b a r h
        unfold rdInt consumebytes at h
        split at h
        · cases h
        · cases h; simp; omega
      have hp {α : Type} (a : α) : ∀ b (c : α) r, (fun b => some (a, b) : Rd α) b = some (c, r) → r.length + 0 = b.length := by
        intro b c r h; cases h; rfl
      have ha {α : Type} {x : Rd α} {n : Nat} (hx : ∀ b a r, x b = some (a, r) → r.length + n = b.length) (m : Nat) :
          ∀ b a r, rdArray x m b = some (a, r) → r.length + m * n = b.length := by
        induction m with
        | zero => intro b a r h; cases h; simp
        | succ m ih =>
          intro b a r h
          have := hb hx (fun a => hb ih fun as => hp (a :: as)) b a r h
          rw [Nat.succ_mul]; omega
      have hrl : ∀ b a r, rdRlimit b = some (a, r) → r.length + 24 = b.length := by
        intro b a r h
        exact hb (hi 4 32) (fun _ => hb (hi 4 32) fun _ => hb (hi 8 64) fun _ => hb (hi 8 64) fun _ => hp _) b a r h
      have hpf : ∀ b a r, rdPreservedFd b = some (a, r) → r.length + 8 = b.length := by
        intro b a r h
        exact hb (hi 4 32) (fun _ => hb (hi 4 32) fun _ => hp _) b a r h
      have hlen : p.2.length + SIZEOF_MINIJAIL = b.length := by
        have := hb (hi 8 64) (fun _ => hb (hi 4 32) fun _ => hb (hi 4 32) fun _ => hb (hi 4 32) fun _ => hb (hi 4 32) fun _ =>
          hb (hi 8 64) fun _ => hb (hi 8 64) fun _ => hb (hi 8 64) fun _ => hb (hi 8 64) fun _ => hb (hi 8 64) fun _ =>
          hb (hi 4 32) fun _ => hb (hi 4 32) fun _ => hb (hi 4 32) fun _ => hb (hi 4 32) fun _ => hb (hi 4 32) fun _ =>
          hb (hi 4 32) fun _ => hb (hi 8 64) fun _ => hb (hi 8 64) fun _ => hb (hi 8 64) fun _ => hb (hi 8 64) fun _ =>
          hb (hi 8 64) fun _ => hb (hi 8 64) fun _ => hb (hi 8 64) fun _ => hb (hi 8 64) fun _ => hb (hi 8 64) fun _ =>
          hb (hi 8 64) fun _ => hb (hi 8 64) fun _ => hb (hi 8 64) fun _ => hb (hi 8 64) fun _ => hb (hi 8 64) fun _ =>
          hb (hi 8 64) fun _ => hb (hi 8 64) fun _ => hb (hi 8 64) fun _ => hb (hi 8 64) fun _ => hb (hi 8 64) fun _ =>
          hb (hi 8 64) fun _ => hb (ha (hi 8 64) MAX_CGROUPS) fun _ => hb (hi 8 64) fun _ => hb (ha hrl MAX_RLIMITS) fun _ =>
          hb (hi 8 64) fun _ => hb (hi 8 64) fun _ => hb (hi 8 64) fun _ => hb (hi 8 64) fun _ =>
          hb (ha hpf MAX_PRESERVED_FDS) fun _ => hb (hi 8 64) fun _ => hb (hi 8 64) fun _ => hp _) b p.1 p.2 hr
        simpa [SIZEOF_MINIJAIL, MAX_CGROUPS, MAX_RLIMITS, MAX_PRESERVED_FDS] using this
      omega
  simp only [minijailUnmarshal, unmarshalBuffer, key, Unm.ofOption_none, Unm.bind_err]

/-- **C20 does not hold**, memory safety: dropping the last four bytes of a serialised empty jail makes the receiver read
through a null pointer. -/
theorem C20_violated : ∃ (k : LandlockKernel) (j : Jail), Spec.GoodJail j ∧ Spec.Transferable j ∧
    minijailUnmarshal k (((minijailMarshal (fun _ => 4096#64) j (minijailSize (fun _ => 4096#64) j)).2).dropLast.dropLast.dropLast.dropLast)
      = .ub := by
  refine ⟨⟨3#32, 5#32⟩, minijailNew, ?_, ?_, ?_⟩
  · constructor <;> decide +kernel
  · constructor <;> decide +kernel
  · decide +kernel

/-- **C20 does not hold**, memory safety: a complete buffer that announces eleven cgroups overruns the array of ten. -/
theorem C20_cgroups_violated : ∃ (k : LandlockKernel) (i : Image), i.cgroup_count = 11#64 ∧
    minijailUnmarshal k (encImage i ++ (List.replicate 11 [0x78#8, 0#8]).flatten ++ enc32 5#32) = .ub :=
  ⟨⟨3#32, 5#32⟩, { minijailNew.image (fun _ => 4096#64) with cgroup_count := 11#64 }, rfl, by decide +kernel⟩

/-- **C20 does not hold**, malformed buffers: a count of resource limits larger than the array is accepted. The loop that
applies the limits (libminijail.c:2412-2429) then runs past the array. -/
theorem C20_counts_violated : ∃ (k : LandlockKernel) (b : Bytes) (j : Jail), minijailUnmarshal k b = .ok j ∧
    j.rlimit_count > MAX_RLIMITS ∧ j.preserved_fd_count > MAX_PRESERVED_FDS := by
  let i : Image := { minijailNew.image (fun _ => 4096#64) with rlimit_count := 33#64, preserved_fd_count := 129#64 }
  let f : Unm Jail → Bool := fun
    | .ok j => j.rlimit_count > MAX_RLIMITS ∧ j.preserved_fd_count > MAX_PRESERVED_FDS
    | _ => false
  have h : f (minijailUnmarshal ⟨3#32, 5#32⟩ (encImage i ++ enc32 5#32)) = true := by decide +kernel
  cases hu : minijailUnmarshal ⟨3#32, 5#32⟩ (encImage i ++ enc32 5#32) with
  | ok j => rw [hu] at h; exact ⟨_, _, j, hu, by simpa [f] using h⟩
  | err => rw [hu] at h; cases h
  | ub => rw [hu] at h; cases h

/-- The hypotheses are met: prefixes of a jail with every kind of part, and a buffer that is too short. -/
example : minijailUnmarshal ⟨3#32, 9#32⟩ ((minijailMarshal (fun _ => 4096#64) exampleJail
    (minijailSize (fun _ => 4096#64) exampleJail)).2.take 2200) =
      .err ⟨.bad_chrootdir, ⟨.live, .live, .stale, .stale, .stale, .null, .null, .stale, .null, .stale⟩⟩ ∧
    2200 < minijailSize (fun _ => 4096#64) exampleJail ∧ ([1#8, 2#8] : Bytes).length < SIZEOF_MINIJAIL := by
  decide +kernel

/-- The hypothesis of `C20_ub_partial` is met in both ways. -/
example : (∃ k b, minijailUnmarshal k b = .ub ∧ ∃ i r, rdImage b = some (i, r) ∧ i.cgroup_count = 0#64) ∧
    (∃ k b, minijailUnmarshal k b = .ub ∧ ∃ i r, rdImage b = some (i, r) ∧ i.cgroup_count.toNat > 10) := by
  have get (b : Bytes) (f : Image → Bool) (h : (match rdImage b with | some p => f p.1 | none => false) = true) :
      ∃ i r, rdImage b = some (i, r) ∧ f i := by
    cases hb : rdImage b with
    | none => rw [hb] at h; cases h
    | some p => rw [hb] at h; exact ⟨p.1, p.2, rfl, h⟩
  constructor
  · refine ⟨⟨3#32, 5#32⟩, encImage (minijailNew.image (fun _ => 4096#64)), by decide +kernel, ?_⟩
    have := get (encImage (minijailNew.image (fun _ => 4096#64))) (fun i => i.cgroup_count = 0#64) (by decide +kernel)
    simpa using this
  · refine ⟨⟨3#32, 5#32⟩, encImage { minijailNew.image (fun _ => 4096#64) with cgroup_count := 11#64 } ++
      (List.replicate 11 [0x78#8, 0#8]).flatten ++ enc32 5#32, by decide +kernel, ?_⟩
    have := get (encImage { minijailNew.image (fun _ => 4096#64) with cgroup_count := 11#64 } ++
      (List.replicate 11 [0x78#8, 0#8]).flatten ++ enc32 5#32) (fun i => i.cgroup_count.toNat > 10) (by decide +kernel)
    simpa using this

end Minijail
