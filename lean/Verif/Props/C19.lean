import Verif.Proof.Marshal
import Verif.Spec.Transfer
/-! C19: serialising and deserialising a jail. -/
set_option linter.unusedSimpArgs false
set_option autoImplicit false
namespace Minijail

private theorem foldl_append (ps : List Bytes) (s : MarshalState) : ps.foldl marshalAppend s =
    ⟨s.available - min s.available ps.flatten.length, s.total + ps.flatten.length,
      s.buf ++ ps.flatten.take s.available⟩ := by
  induction ps generalizing s with
  | nil => simp
  | cons p ps ih =>
    rw [List.foldl_cons, ih]
    simp only [marshalAppend, List.flatten_cons, List.length_append, MarshalState.mk.injEq]
    refine ⟨by omega, by omega, ?_⟩
    rw [List.append_assoc, List.take_append]
    congr 2
    · rcases Nat.le_total s.available p.length with h | h
      · rw [Nat.min_eq_left h]
      · rw [Nat.min_eq_right h, List.take_of_length_le (le_refl _), List.take_of_length_le h]
    · congr 1; omega

/-- The serialised jail. -/
def serialised (a : Addrs) (j : Jail) : Bytes := (marshalPieces a j).flatten

/-- **C19**, size: the predicted size is exact: a buffer of that size is filled completely and the call succeeds, any
smaller buffer is refused, and no call ever writes more than the buffer holds. -/
theorem C19_size (a : Addrs) (j : Jail) (n : Nat) :
    (minijailMarshal a j (minijailSize a j)).1 = false ∧
    (minijailMarshal a j (minijailSize a j)).2.length = minijailSize a j ∧
    ((minijailMarshal a j n).1 = true ↔ n < minijailSize a j) ∧
    (minijailMarshal a j n).2.length ≤ n ∧
    (minijailMarshal a j n).2 = (minijailMarshal a j (minijailSize a j)).2.take n := by
  simp only [minijailMarshal, minijailSize, marshalHelper, foldl_append]
  simp [-List.length_flatten]

theorem minijailSize_eq (a : Addrs) (j : Jail) : minijailSize a j = (serialised a j).length := by
  simp [minijailSize, marshalHelper, foldl_append, serialised]

theorem minijailMarshal_eq (a : Addrs) (j : Jail) : minijailMarshal a j (minijailSize a j) = (false, serialised a j) := by
  simp [minijailMarshal, minijailSize, marshalHelper, foldl_append, serialised, -List.length_flatten]

private theorem image_sized {j : Jail} (a : Addrs) (h : Spec.GoodJail j) : (j.image a).Sized :=
  ⟨by simp [Jail.image], h.rlimits, h.preserved⟩

private theorem ptr_some {a : BitVec 64} (h : a ≠ 0#64) (b : Bool) : ptr b a ≠ 0#64 ↔ b = true := by
  cases b <;> simp [ptr, h]

theorem unmarshalOpt_ok {a : BitVec 64} (ha : a ≠ 0#64) (s : Option BStr) (hs : Spec.OptCString s) (r : Bytes) :
    unmarshalOpt (ptr s.isSome a) ((marshalOpt s).flatten ++ r) = some (s, r) := by
  cases s with
  | none => simp [unmarshalOpt, ptr, marshalOpt]
  | some t =>
    simp only [unmarshalOpt, Option.isSome_some, ptr, if_true, marshalOpt, List.flatten_cons, List.flatten_nil,
      List.append_nil]
    rw [if_pos ha, consumestr_cstring (hs t rfl)]
    rfl

theorem unmarshalGids_ok {a : BitVec 64} (ha : a ≠ 0#64) {j : Jail} (h : Spec.GoodJail j) (ht : j.suppl_gid_count ≤ 65536)
    (r : Bytes) :
    unmarshalGids (ptr j.suppl_gid_list.isSome a) (BitVec.ofNat 64 j.suppl_gid_count)
      ((marshalGids j.suppl_gid_list).flatten ++ r) = some (j.suppl_gid_list, r) := by
  have hw : (BitVec.ofNat 64 j.suppl_gid_count).toNat = j.suppl_gid_count := by
    rw [BitVec.toNat_ofNat]; exact Nat.mod_eq_of_lt h.words.1
  unfold unmarshalGids
  have hg : (j.suppl_gid_list = none ∧ j.suppl_gid_count = 0) ∨
      ∃ l, j.suppl_gid_list = some l ∧ l.length = j.suppl_gid_count := by
    have := h.gids.1
    cases he : j.suppl_gid_list with
    | none => rw [he] at this; exact .inl ⟨rfl, this⟩
    | some l => rw [he] at this; exact .inr ⟨l, rfl, this.symm⟩
  rcases hg with ⟨hn, -⟩ | ⟨l, hl, hc⟩
  · simp [hn, ptr, marshalGids]
  · rw [hl, hw]
    simp only [Option.isSome_some, ptr, if_true, marshalGids, List.flatten_cons, List.flatten_nil, List.append_nil]
    rw [if_pos ha, if_neg (by simp only [NGROUPS_MAX]; omega), ← hc, rdArray_enc rdInt_enc32]

private theorem filter_cases {j : Jail} (h : Spec.GoodJail j) : (j.filter_prog = none ∧ j.filter_len = 0) ∨
    ∃ p, j.filter_prog = some p ∧ p.length = j.filter_len ∧ p.length ≤ 65535 := by
  have := h.filter
  cases he : j.filter_prog with
  | none => rw [he] at this; exact .inl ⟨rfl, this.1⟩
  | some l =>
    rw [he] at this
    simp only [Option.getD_some] at this
    exact .inr ⟨l, rfl, this.1.symm, by omega⟩

theorem unmarshalFilter_ok {j : Jail} (h : Spec.GoodJail j) (r : Bytes) :
    unmarshalFilter j.flags.seccomp_filter (BitVec.ofNat 64 j.filter_len)
      ((marshalFilter j.flags.seccomp_filter j.filter_prog).flatten ++ r) =
      some (if j.flags.seccomp_filter ∧ j.filter_len > 0 then j.filter_prog else none, r) := by
  unfold unmarshalFilter
  rcases filter_cases h with ⟨hp, hl⟩ | ⟨p, hp, hl, hm⟩
  · simp [hp, hl, marshalFilter]
  · have hw : (BitVec.ofNat 64 j.filter_len).toNat = j.filter_len := by
      rw [BitVec.toNat_ofNat]; exact Nat.mod_eq_of_lt (by omega)
    rw [hp, hw]
    cases hf : j.flags.seccomp_filter with
    | false => simp [marshalFilter]
    | true =>
      simp only [true_and, marshalFilter, if_true, List.flatten_cons, List.flatten_nil, List.append_nil]
      rcases Nat.eq_zero_or_pos j.filter_len with h0 | h0
      · have : p = [] := List.length_eq_zero_iff.mp (by omega)
        simp [h0, this]
      · rw [if_pos h0, if_pos h0, if_neg (by simp only [USHRT_MAX]; omega), ← hl, rdArray_enc rdInsn_enc]

/-- The jail after re-adding some mounts. -/
private def withMounts (j : Jail) (ms : List Mountpoint) : Jail :=
  { j with mounts := j.mounts ++ ms, mounts_count := j.mounts_count + ms.length }

theorem unmarshalMount_ok (m : Mountpoint) (h : Spec.GoodMount m) (j : Jail) (hv : j.flags.vfs = true ∨ j.flags.enter_vfs = true)
    (r : Bytes) : unmarshalMount j ((marshalMount m).flatten ++ r) =
      some ({ j with mounts := j.mounts ++ [m], mounts_count := j.mounts_count + 1 }, r) := by
  have hns : (if !j.flags.enter_vfs then namespaceVfs j else j) = j := by
    cases he : j.flags.enter_vfs with
    | true => simp
    | false =>
      simp only [he, Bool.false_eq_true, or_false] at hv
      obtain ⟨f⟩ := j
      cases f
      simp only at hv
      subst hv
      simp [namespaceVfs]
  have hmd : mountData m.type m.data = m.data := by
    unfold mountData
    rw [if_neg]
    rintro ⟨h1, h2⟩
    obtain ⟨hd, hne⟩ := h.tmpfs h2
    exact h1.elim hd hne
  have hmw : mountWithData j m.src m.dest m.type m.flags m.data =
      some { j with mounts := j.mounts ++ [m], mounts_count := j.mounts_count + 1 } := by
    unfold mountWithData
    rw [if_neg (by rw [h.absolute]; simp)]
    simp only [hns, hmd, if_neg h.flags]
  obtain ⟨src, dest, type, data, flags⟩ := m
  simp only [unmarshalMount, marshalMount, Rd.bind]
  cases data with
  | none =>
    simp only [List.flatten_append, List.flatten_cons, List.flatten_nil, List.append_nil, List.append_assoc, List.nil_append,
      consumestr_cstring h.src, consumestr_cstring h.dest, consumestr_cstring h.type, rdInt_enc32, rdInt_enc64,
      Option.isSome_none, Bool.false_eq_true, if_false, ne_eq, not_true_eq_false, hmw, Option.map_some]
  | some d =>
    have hd := h.data d rfl
    simp only [List.flatten_append, List.flatten_cons, List.flatten_nil, List.append_nil, List.append_assoc, List.nil_append,
      consumestr_cstring h.src, consumestr_cstring h.dest, consumestr_cstring h.type, rdInt_enc32, rdInt_enc64,
      Option.isSome_some, if_true, ne_eq]
    rw [if_pos (by decide), consumestr_cstring hd]
    simp only [Option.map_some, rdInt_enc64, hmw]

theorem unmarshalMounts_ok (ms : List Mountpoint) (h : ∀ m ∈ ms, Spec.GoodMount m) (j : Jail)
    (hv : ms ≠ [] → j.flags.vfs = true ∨ j.flags.enter_vfs = true) (r : Bytes) :
    unmarshalMounts ms.length j ((ms.flatMap marshalMount).flatten ++ r) = some (withMounts j ms, r) := by
  induction ms generalizing j with
  | nil => simp [unmarshalMounts, withMounts]
  | cons m ms ih =>
    have hv' := hv (by simp)
    simp only [List.length_cons, unmarshalMounts, List.flatMap_cons, List.flatten_append, List.append_assoc, Rd.bind]
    rw [unmarshalMount_ok m (h m (by simp)) j hv']
    simp only
    rw [ih (fun m hm => h m (by simp [hm])) _ (by intro _; exact hv')]
    simp [withMounts, Nat.add_assoc, Nat.add_comm]
    omega

theorem unmarshalCgroups_ok (d : Ptrs) (cs : List BStr) (h : ∀ c ∈ cs, Spec.CString c) (j : Jail) (hm : j.cgroup_count + cs.length ≤ 10)
    (r : Bytes) : unmarshalCgroups d cs.length j ((cs.map cstring).flatten ++ r) =
      .ok ({ j with cgroups := j.cgroups ++ cs, cgroup_count := j.cgroup_count + cs.length }, r) := by
  induction cs generalizing j with
  | nil => simp [unmarshalCgroups]
  | cons c cs ih =>
    simp only [List.length_cons] at hm
    simp only [List.length_cons, unmarshalCgroups, List.map_cons, List.flatten_cons, List.append_assoc]
    rw [consumestr_cstring (h c (by simp))]
    simp only
    rw [if_neg (by simp only [MAX_CGROUPS]; omega), ih (fun c hc => h c (by simp [hc])) _ (by simp only; omega)]
    simp [Nat.add_assoc, Nat.add_comm]

/-- The jail after re-adding path rules, up to the ruleset descriptor. -/
private theorem unmarshalFsRules_ok (k : LandlockKernel) (rs : List FsRule) (h : ∀ r ∈ rs, Spec.CString r.path)
    (hr : ∀ r ∈ rs, r.landlock_flags ≠ 0#64) (j : Jail) (hc : j.fs_rules_count = j.fs_rules.length) (r : Bytes) :
    ∃ fd, ∀ d, unmarshalFsRules k d rs.length j ((rs.flatMap marshalFsRule).flatten ++ r) =
      .ok ({ j with
        fs_rules := j.fs_rules ++ rs, fs_rules_count := j.fs_rules_count + rs.length, fs_rules_fd := fd,
        fs_rules_landlock_abi := if rs ≠ [] ∧ j.fs_rules = [] ∧ j.fs_rules_landlock_abi.toInt < 0 ∧ k.abi.toInt > 0 then k.abi
          else j.fs_rules_landlock_abi }, r) := by
  induction rs generalizing j with
  | nil => exact ⟨j.fs_rules_fd, by simp [unmarshalFsRules]⟩
  | cons x rs ih =>
    simp only [List.length_cons, unmarshalFsRules, List.flatMap_cons, List.flatten_append, List.append_assoc, marshalFsRule,
      List.flatten_cons, List.flatten_nil, List.append_nil]
    rw [consumestr_cstring (h x (by simp))]
    simp only [rdInt_enc64]
    obtain ⟨fd, hfd⟩ := ih (fun c hc => h c (by simp [hc])) (fun c hc => hr c (by simp [hc]))
      (addFsRestrictionPath k j x.path x.landlock_flags) (by
        simp only [addFsRestrictionPath]
        split <;> simp [setupFsRulesFd, fsReferSupported, hc]
        split <;> simp [hc])
    refine ⟨fd, fun d => ?_⟩
    rw [if_neg (hr x (by simp))]
    refine (hfd d).trans ?_
    congr 2
    simp only [addFsRestrictionPath]
    by_cases h0 : j.fs_rules_count = 0
    · have he : j.fs_rules = [] := List.length_eq_zero_iff.mp (by omega)
      by_cases ha : j.fs_rules_landlock_abi.toInt < 0 ∧ k.abi.toInt > 0
      · simp [h0, he, setupFsRulesFd, fsReferSupported, ha]
        omega
      · simp [h0, he, setupFsRulesFd, fsReferSupported, ha]
        omega
    · have he : j.fs_rules ≠ [] := by
        intro e; rw [e] at hc; exact h0 hc
      simp [h0, he, Nat.add_assoc, Nat.add_comm]
      omega

@[simp] theorem Unm.ofOption_some {α : Type} (d : Failure) (x : α) : Unm.ofOption d (some x) = .ok x := rfl
@[simp] theorem Unm.ofOption_none {α : Type} (d : Failure) : (Unm.ofOption d none : Unm α) = .err d := rfl
@[simp] theorem Unm.bind_ok {α β : Type} (x : α) (f : α → Unm β) : Unm.bind (.ok x) f = f x := rfl
@[simp] theorem Unm.bind_err {α β : Type} (d : Failure) (f : α → Unm β) : Unm.bind (.err d) f = .err d := rfl
@[simp] theorem Unm.bind_ub {α β : Type} (f : α → Unm β) : Unm.bind .ub f = .ub := rfl

/-- Deserialising a serialised jail. -/
theorem unmarshal_serialised (a : Addrs) (ha : ∀ n, a n ≠ 0#64) (k : LandlockKernel) (j : Jail) (h : Spec.GoodJail j)
    (ht : Spec.Transferable j) : unmarshalBuffer k (serialised a j) = .ok (Spec.received k j, []) := by
  have hser : serialised a j = encImage (j.image a) ++ ((marshalOpt j.user).flatten ++
      ((marshalGids j.suppl_gid_list).flatten ++
      ((marshalOpt j.chrootdir).flatten ++ ((marshalOpt j.hostname).flatten ++ ((marshalOpt j.alt_syscall_table).flatten ++
      ((marshalFilter j.flags.seccomp_filter j.filter_prog).flatten ++
      ((j.mounts.flatMap marshalMount).flatten ++ ((j.cgroups.map cstring).flatten ++
      ((j.fs_rules.flatMap marshalFsRule).flatten ++ (enc32 j.fs_rules_fd ++
      ((marshalOpt j.seccomp_policy_path).flatten ++ []))))))))))) := by
    simp [serialised, marshalPieces]
  have hmc : (BitVec.ofNat 64 j.mounts_count).toNat = j.mounts.length := by
    rw [BitVec.toNat_ofNat, ← h.mountsCount]; exact Nat.mod_eq_of_lt h.words.2.1
  have hcc : (BitVec.ofNat 64 j.cgroup_count).toNat = j.cgroups.length := by
    have := h.cgroupMax
    rw [BitVec.toNat_ofNat, ← h.cgroupCount]; exact Nat.mod_eq_of_lt (by omega)
  have hrc : (BitVec.ofNat 64 j.fs_rules_count).toNat = j.fs_rules.length := by
    rw [BitVec.toNat_ofNat, ← h.fsRulesCount]; exact Nat.mod_eq_of_lt h.words.2.2
  rw [hser]
  generalize hd : (if j.flags.seccomp_filter ∧ j.filter_len > 0 then j.filter_prog else none) = fp
  simp only [unmarshalBuffer]
  rw [rdImage_enc (image_sized a h)]
  simp only [Unm.ofOption_some, Unm.bind_ok]
  have e1 : (j.image a).user = ptr j.user.isSome (a 0) := rfl
  have e2 : (j.image a).suppl_gid_list = ptr j.suppl_gid_list.isSome (a 1) := rfl
  have e2' : (j.image a).suppl_gid_count = BitVec.ofNat 64 j.suppl_gid_count := rfl
  have e3 : (j.image a).chrootdir = ptr j.chrootdir.isSome (a 2) := rfl
  have e4 : (j.image a).hostname = ptr j.hostname.isSome (a 6) := rfl
  have e5 : (j.image a).alt_syscall_table = ptr j.alt_syscall_table.isSome (a 10) := rfl
  have e6 : (j.image a).flags = j.flags := rfl
  have e7 : (j.image a).filter_len = BitVec.ofNat 64 j.filter_len := rfl
  have e8 : (j.image a).mounts_count = BitVec.ofNat 64 j.mounts_count := rfl
  have e9 : (j.image a).cgroup_count = BitVec.ofNat 64 j.cgroup_count := rfl
  have e10 : (j.image a).fs_rules_count = BitVec.ofNat 64 j.fs_rules_count := rfl
  have e11 : (j.image a).seccomp_policy_path = ptr j.seccomp_policy_path.isSome (a 19) := rfl
  rw [e1, unmarshalOpt_ok (ha 0) _ h.strings.1]
  simp only [Unm.ofOption_some, Unm.bind_ok]
  rw [e2, e2', unmarshalGids_ok (ha 1) h ht.groups]
  simp only [Unm.ofOption_some, Unm.bind_ok]
  rw [e3, unmarshalOpt_ok (ha 2) _ h.strings.2.1]
  simp only [Unm.ofOption_some, Unm.bind_ok]
  rw [e4, unmarshalOpt_ok (ha 6) _ h.strings.2.2.1]
  simp only [Unm.ofOption_some, Unm.bind_ok]
  rw [e5, unmarshalOpt_ok (ha 10) _ h.strings.2.2.2.1]
  simp only [Unm.ofOption_some, Unm.bind_ok]
  rw [e6, e7, unmarshalFilter_ok h, hd]
  simp only [Unm.ofOption_some, Unm.bind_ok]
  rw [e8, hmc, unmarshalMounts_ok _ h.mounts _ (by simpa [Image.toJail, Jail.image] using h.mountsNs)]
  simp only [Unm.ofOption_some, Unm.bind_ok]
  rw [e9, hcc, unmarshalCgroups_ok _ _ h.cgroups _ (by
    have := h.cgroupMax; have := h.cgroupCount
    simp only [withMounts, Image.toJail]; omega)]
  simp only [Unm.ofOption_some, Unm.bind_ok]
  obtain ⟨fd, hfd⟩ := unmarshalFsRules_ok k j.fs_rules h.fsRules ht.rights
    { withMounts { (j.image a).toJail with
        user := j.user, suppl_gid_list := j.suppl_gid_list, chrootdir := j.chrootdir, hostname := j.hostname,
        alt_syscall_table := j.alt_syscall_table, filter_prog := fp } j.mounts with
      cgroups := [] ++ j.cgroups, cgroup_count := 0 + j.cgroups.length } (by simp [withMounts, Image.toJail])
    (enc32 j.fs_rules_fd ++ ((marshalOpt j.seccomp_policy_path).flatten ++ []))
  rw [e10, hrc]
  refine Eq.trans (congrArg (fun x => Unm.bind x _) (hfd _)) ?_
  simp only [Unm.bind_ok, unmarshalTail, rdInt_enc32]
  rw [if_neg ht.rulesFd, e11, unmarshalOpt_ok (ha 19) _ h.strings.2.2.2.2]
  simp only [Unm.ofOption_some, Unm.bind_ok]
  have hf : (BitVec.ofNat 64 j.filter_len).toNat = j.filter_len := by
    have : j.filter_len < 2 ^ 64 := by
      rcases filter_cases h with ⟨-, h⟩ | ⟨p, -, h, h'⟩ <;> omega
    rw [BitVec.toNat_ofNat]; exact Nat.mod_eq_of_lt this
  have hg : (BitVec.ofNat 64 j.suppl_gid_count).toNat = j.suppl_gid_count := by
    rw [BitVec.toNat_ofNat]; exact Nat.mod_eq_of_lt h.words.1
  have hrl : (BitVec.ofNat 64 j.rlimit_count).toNat = j.rlimit_count := by
    have := h.rlimitCount
    rw [BitVec.toNat_ofNat]; exact Nat.mod_eq_of_lt (by omega)
  have hpf : (BitVec.ofNat 64 j.preserved_fd_count).toNat = j.preserved_fd_count := by
    have := h.preservedCount
    rw [BitVec.toNat_ofNat]; exact Nat.mod_eq_of_lt (by omega)
  refine congrArg Unm.ok (Prod.ext ?_ rfl)
  simp only [Jail.mk.injEq, Spec.received, hd, withMounts, Image.toJail, Jail.image, hf, hg, hrl, hpf, List.nil_append, Nat.zero_add,
    ← h.mountsCount, ← h.cgroupCount, ← h.fsRulesCount, true_and]

/-- What **C19** needs beyond what the API guarantees: `Spec.Transferable`. Then the transfer succeeds and yields the
jail `Spec.received`: all fields except those that are not sent. -/
theorem C19_roundtrip_partial (a : Addrs) (ha : ∀ n, a n ≠ 0#64) (k : LandlockKernel) (j : Jail) (h : Spec.GoodJail j)
    (ht : Spec.Transferable j) :
    minijailUnmarshal k (minijailMarshal a j (minijailSize a j)).2 = .ok (Spec.received k j) := by
  rw [minijailMarshal_eq]
  simp only [minijailUnmarshal, unmarshal_serialised a ha k j h ht, Unm.bind_ok]

/-- The same for `minijail_copy_jail`. -/
theorem C19_copy_partial (a : Addrs) (ha : ∀ n, a n ≠ 0#64) (k : LandlockKernel) (j : Jail) (h : Spec.GoodJail j)
    (ht : Spec.Transferable j) : copyJail a k j = .ok (Spec.received k j) := by
  have h1 := C19_roundtrip_partial a ha k j h ht
  have h2 : minijailSize a j ≠ 0 := by
    rw [minijailSize_eq]
    intro h0
    have : (encImage (j.image a)).length ≤ (serialised a j).length := by
      simp [serialised, marshalPieces, List.length_append, -List.length_flatten]
    rw [length_encImage (image_sized a h), h0] at this
    simp [SIZEOF_MINIJAIL] at this
  simp only [copyJail, if_neg h2, (C19_size a j 0).1, Bool.false_eq_true, if_false]
  exact h1

/-- **C19 does not hold** for every jail built through the API: a path rule that grants nothing
(`minijail_add_fs_restriction_access_rights(j, "/tmp", 0)`) is recorded, but the receiver refuses the jail. -/
theorem C19_violated : ∃ (k : LandlockKernel) (j : Jail), j = addFsRestrictionPath k minijailNew (bstr "/tmp") 0#64 ∧
    Spec.GoodJail j ∧ ∀ j', copyJail (fun _ => 4096#64) k j ≠ .ok j' := by
  refine ⟨⟨3#32, 5#32⟩, _, rfl, ?_, ?_⟩
  · constructor <;> decide +kernel
  · intro j' h
    have : (match copyJail (fun _ => 4096#64) ⟨3#32, 5#32⟩
        (addFsRestrictionPath ⟨3#32, 5#32⟩ minijailNew (bstr "/tmp") 0#64) with | .ok _ => true | _ => false) = false := by
      decide +kernel
    rw [h] at this
    cases this

/-- **C19 does not hold** for `minijail_copy_jail` as documented ("two identical jails"): the list of mounts with their
own propagation mode is lost, so the copy leaves them with the general mode. -/
theorem C19_identical_violated : ∃ (k : LandlockKernel) (j : Jail), Spec.GoodJail j ∧ Spec.Transferable j ∧
    ∃ j', copyJail (fun _ => 4096#64) k j = .ok j' ∧ j.remounts ≠ [] ∧ j'.remounts = [] ∧ j' ≠ j := by
  let j : Jail := { minijailNew with remounts := [⟨0x80000#64, bstr "/mnt"⟩] }
  have hg : Spec.GoodJail j := by constructor <;> decide +kernel
  have ht : Spec.Transferable j := by constructor <;> decide +kernel
  refine ⟨⟨3#32, 5#32⟩, j, hg, ht, _, C19_copy_partial _ (by intro n; decide) _ j hg ht, by decide, rfl, ?_⟩
  intro h
  have := congrArg Jail.remounts h
  revert this
  decide

/-- A jail with every kind of transferred part meets the hypotheses. -/
def exampleJail : Jail :=
  { minijailNew with
    flags := { minijailNew.flags with seccomp_filter := true, vfs := true, uid := true, chroot := true, cgroups := true }
    uid := 1000#32, user := some (bstr "nobody"), suppl_gid_count := 2, suppl_gid_list := some [5#32, 6#32],
    chrootdir := some (bstr "/var/empty"), hostname := some (bstr "h"), alt_syscall_table := some (bstr "t"),
    filter_len := 1, filter_prog := some [⟨6#16, 0#8, 0#8, 0x7fff0000#32⟩],
    mounts := [⟨bstr "/a", bstr "/b", bstr "none", none, 4096#64⟩, ⟨bstr "none", bstr "/t", bstr "tmpfs", some (bstr "size=1M"), 14#64⟩],
    mounts_count := 2, fs_rules := [⟨bstr "/", 4#64⟩], fs_rules_count := 1, cgroups := [bstr "/sys/fs/cgroup/x/tasks"],
    cgroup_count := 1, fs_rules_fd := 7#32, seccomp_policy_path := some (bstr "/etc/p.policy") }

theorem exampleJail_good : Spec.GoodJail exampleJail := by constructor <;> decide +kernel

theorem exampleJail_transferable : Spec.Transferable exampleJail := by constructor <;> decide

example : copyJail (fun _ => 4096#64) ⟨3#32, 9#32⟩ exampleJail = .ok (Spec.received ⟨3#32, 9#32⟩ exampleJail) ∧
    (Spec.received ⟨3#32, 9#32⟩ exampleJail).filter_prog = exampleJail.filter_prog :=
  ⟨C19_copy_partial _ (by intro n; decide) _ _ exampleJail_good exampleJail_transferable, rfl⟩

end Minijail
