import Verif.Model.Cleanup
import Verif.Props.C20
/-! C43: a jail whose deserialisation failed can be destroyed. -/
set_option linter.unusedSimpArgs false
set_option autoImplicit false
namespace Minijail

namespace Spec

/-- Nothing that was allocated is still allocated. -/
def AllFreed (p : Ptrs) : Prop :=
  p.user ≠ .live ∧ p.gids ≠ .live ∧ p.chrootdir ≠ .live ∧ p.hostname ≠ .live ∧ p.alt ≠ .live ∧ p.filter ≠ .live ∧
    p.mounts ≠ .live ∧ p.cgroups ≠ .live ∧ p.fsRules ≠ .live ∧ p.policy ≠ .live

instance (p : Ptrs) : Decidable (AllFreed p) := inferInstanceAs (Decidable (_ ∧ _))

/-- When the error path reaches the statements that set pointers to NULL, none of these pointers is still allocated: an
address that is overwritten there is not lost. -/
def NothingLost (f : Failure) : Prop :=
  ∀ p, ((labels.dropWhile (· ≠ f.label)).takeWhile (· ≠ .clear_pointers)).foldl (fun p l => p.bind (cleanupAt l)) (some f.ptrs) =
    some p → p.user ≠ .live ∧ p.gids ≠ .live ∧ p.chrootdir ≠ .live ∧ p.hostname ≠ .live ∧ p.alt ≠ .live ∧ p.policy ≠ .live

end Spec

/-- Where and in which state `minijail_unmarshal` can jump to its error path. -/
inductive Shape : Failure → Prop
  | out : Shape ⟨.out, freshPtrs⟩
  | user (i : Image) : Shape ⟨.clear_pointers, i.ptrs⟩
  | gids (i : Image) (u : Option BStr) : Shape ⟨.bad_gid_list, { i.ptrs with user := got u }⟩
  | chrootdir (i : Image) (u : Option BStr) (g : Option (List (BitVec 32))) :
    Shape ⟨.bad_chrootdir, { i.ptrs with user := got u, gids := got g }⟩
  | hostname (i : Image) (u : Option BStr) (g : Option (List (BitVec 32))) (c : Option BStr) :
    Shape ⟨.bad_hostname, { i.ptrs with user := got u, gids := got g, chrootdir := got c }⟩
  | alt (i : Image) (u : Option BStr) (g : Option (List (BitVec 32))) (c h : Option BStr) :
    Shape ⟨.bad_syscall_table, { i.ptrs with user := got u, gids := got g, chrootdir := got c, hostname := got h }⟩
  | filter (i : Image) (u : Option BStr) (g : Option (List (BitVec 32))) (c h a : Option BStr) :
    Shape ⟨.bad_filters, { i.ptrs with user := got u, gids := got g, chrootdir := got c, hostname := got h, alt := got a }⟩
  | late (i : Image) (u : Option BStr) (g : Option (List (BitVec 32))) (c h a : Option BStr) (f : Option (List Insn)) (l : Label) (cg r : Ptr)
    (hl : l = .bad_mounts ∧ cg = .stale ∧ r = .null ∨ l = .bad_cgroups ∧ cg = .live ∧ r = .null ∨
      l = .bad_fs_rules ∧ cg = .live ∧ r = .live ∨ l = .bad_cgroups ∧ cg = .live ∧ r = .live) :
    Shape ⟨l, ⟨got u, got g, got c, got h, got a, got f, .live, cg, r, sent i.seccomp_policy_path⟩⟩

private theorem cgroups_err (p : Ptrs) (n : Nat) (j : Jail) (b : Bytes) (f : Failure) (h : unmarshalCgroups p n j b = .err f) :
    f = ⟨.bad_cgroups, p⟩ := by
  induction n generalizing j b with
  | zero => cases h
  | succ n ih =>
    unfold unmarshalCgroups at h
    cases hc : consumestr b with
    | none => rw [hc] at h; cases h; rfl
    | some q =>
      rw [hc] at h
      simp only at h
      split_ifs at h
      exact ih _ _ h

private theorem fsRules_err (k : LandlockKernel) (p : Ptrs) (n : Nat) (j : Jail) (b : Bytes) (f : Failure)
    (h : unmarshalFsRules k p n j b = .err f) : f = ⟨.bad_fs_rules, p⟩ := by
  induction n generalizing j b with
  | zero => cases h
  | succ n ih =>
    unfold unmarshalFsRules at h
    cases hc : consumestr b with
    | none => rw [hc] at h; cases h; rfl
    | some q =>
      rw [hc] at h
      simp only at h
      cases hi : rdInt 8 64 q.2 with
      | none => rw [hi] at h; cases h
      | some v =>
        rw [hi] at h
        simp only at h
        split_ifs at h
        · cases h; rfl
        · exact ih _ _ h

private theorem tail_err (p : Ptrs) (v : BitVec 64) (j : Jail) (b : Bytes) (f : Failure) (h : unmarshalTail p v j b = .err f) :
    f = ⟨.bad_cgroups, p⟩ := by
  unfold unmarshalTail at h
  cases hi : rdInt 4 32 b with
  | none => rw [hi] at h; cases h
  | some q =>
    rw [hi] at h
    simp only at h
    split_ifs at h
    · cases h; rfl
    · cases ho : unmarshalOpt v q.2 with
      | none => rw [ho] at h; cases h; rfl
      | some r => rw [ho] at h; cases h

private theorem bind_err_cases {α β : Type} {x : Unm α} {g : α → Unm β} {f : Failure} (h : Unm.bind x g = .err f) :
    x = .err f ∨ ∃ a, x = .ok a ∧ g a = .err f := by
  cases x with
  | ok a => exact .inr ⟨a, rfl, h⟩
  | err e => cases h; exact .inl rfl
  | ub => cases h

private theorem ofOption_err {α : Type} {e f : Failure} {o : Option α} (h : Unm.ofOption e o = .err f) : f = e := by
  cases o with
  | none => cases h; rfl
  | some => cases h

theorem unmarshal_err_shape (k : LandlockKernel) (b : Bytes) (f : Failure) (h : minijailUnmarshal k b = .err f) : Shape f := by
  rcases bind_err_cases h with h | ⟨a, -, h⟩
  swap
  · cases h
  rcases bind_err_cases h with h | ⟨⟨i, b0⟩, -, h⟩
  · rw [ofOption_err h]; exact .out
  rcases bind_err_cases h with h | ⟨⟨x1, b1⟩, -, h⟩
  · rw [ofOption_err h]; exact .user i
  rcases bind_err_cases h with h | ⟨⟨x2, b2⟩, -, h⟩
  · rw [ofOption_err h]; exact .gids i x1
  rcases bind_err_cases h with h | ⟨⟨x3, b3⟩, -, h⟩
  · rw [ofOption_err h]; exact .chrootdir i x1 x2
  rcases bind_err_cases h with h | ⟨⟨x4, b4⟩, -, h⟩
  · rw [ofOption_err h]; exact .hostname i x1 x2 x3
  rcases bind_err_cases h with h | ⟨⟨x5, b5⟩, -, h⟩
  · rw [ofOption_err h]; exact .alt i x1 x2 x3 x4
  rcases bind_err_cases h with h | ⟨⟨x6, b6⟩, -, h⟩
  · rw [ofOption_err h]; exact .filter i x1 x2 x3 x4 x5
  rcases bind_err_cases h with h | ⟨⟨x7, b7⟩, -, h⟩
  · rw [ofOption_err h]; exact .late i x1 x2 x3 x4 x5 x6 .bad_mounts .stale .null (by decide)
  rcases bind_err_cases h with h | ⟨⟨x8, b8⟩, -, h⟩
  · rw [cgroups_err _ _ _ _ _ h]; exact .late i x1 x2 x3 x4 x5 x6 .bad_cgroups .live .null (by decide)
  rcases bind_err_cases h with h | ⟨⟨x9, b9⟩, -, h⟩
  · rw [fsRules_err _ _ _ _ _ _ h]; exact .late i x1 x2 x3 x4 x5 x6 .bad_fs_rules .live .live (by decide)
  rw [tail_err _ _ _ _ _ h]; exact .late i x1 x2 x3 x4 x5 x6 .bad_cgroups .live .live (by decide)

/-- A received pointer, by presence. -/
private def lv (b : Bool) : Ptr := if b then .live else .null
/-- A sender's pointer, by presence. -/
private def st (b : Bool) : Ptr := if b then .stale else .null

private theorem got_lv {α : Type} (o : Option α) : got o = lv o.isSome := rfl
private theorem sent_st (p : BitVec 64) : ∃ b, sent p = st b := by
  by_cases h : p = 0#64
  · exact ⟨false, by simp [sent, st, h]⟩
  · exact ⟨true, by simp [sent, st, h]⟩

/-- A failure holds of a property if the property holds of all combinations of present and absent pointers. -/
private theorem shape_elim (P : Failure → Prop) (h0 : P ⟨.out, freshPtrs⟩)
    (h1 : ∀ u g c h a s, P ⟨.clear_pointers, ⟨st u, st g, st c, st h, st a, .null, .null, .stale, .null, st s⟩⟩)
    (h2 : ∀ u g c h a s, P ⟨.bad_gid_list, ⟨lv u, st g, st c, st h, st a, .null, .null, .stale, .null, st s⟩⟩)
    (h3 : ∀ u g c h a s, P ⟨.bad_chrootdir, ⟨lv u, lv g, st c, st h, st a, .null, .null, .stale, .null, st s⟩⟩)
    (h4 : ∀ u g c h a s, P ⟨.bad_hostname, ⟨lv u, lv g, lv c, st h, st a, .null, .null, .stale, .null, st s⟩⟩)
    (h5 : ∀ u g c h a s, P ⟨.bad_syscall_table, ⟨lv u, lv g, lv c, lv h, st a, .null, .null, .stale, .null, st s⟩⟩)
    (h6 : ∀ u g c h a s, P ⟨.bad_filters, ⟨lv u, lv g, lv c, lv h, lv a, .null, .null, .stale, .null, st s⟩⟩)
    (h7 : ∀ u g c h a s f, P ⟨.bad_mounts, ⟨lv u, lv g, lv c, lv h, lv a, lv f, .live, .stale, .null, st s⟩⟩)
    (h8 : ∀ u g c h a s f, P ⟨.bad_cgroups, ⟨lv u, lv g, lv c, lv h, lv a, lv f, .live, .live, .null, st s⟩⟩)
    (h9 : ∀ u g c h a s f, P ⟨.bad_fs_rules, ⟨lv u, lv g, lv c, lv h, lv a, lv f, .live, .live, .live, st s⟩⟩)
    (h10 : ∀ u g c h a s f, P ⟨.bad_cgroups, ⟨lv u, lv g, lv c, lv h, lv a, lv f, .live, .live, .live, st s⟩⟩)
    (f : Failure) (h : Shape f) : P f := by
  have key (i : Image) : ∃ u g c h a s, i.ptrs = ⟨st u, st g, st c, st h, st a, .null, .null, .stale, .null, st s⟩ := by
    obtain ⟨u, hu⟩ := sent_st i.user
    obtain ⟨g, hg⟩ := sent_st i.suppl_gid_list
    obtain ⟨c, hc⟩ := sent_st i.chrootdir
    obtain ⟨h, hh⟩ := sent_st i.hostname
    obtain ⟨a, ha⟩ := sent_st i.alt_syscall_table
    obtain ⟨s, hs⟩ := sent_st i.seccomp_policy_path
    exact ⟨u, g, c, h, a, s, by rw [Image.ptrs, hu, hg, hc, hh, ha, hs]⟩
  cases h with
  | out => exact h0
  | user i => obtain ⟨u, g, c, h, a, s, e⟩ := key i; rw [e]; exact h1 ..
  | gids i u => obtain ⟨_, g, c, h, a, s, e⟩ := key i; rw [e, got_lv]; exact h2 ..
  | chrootdir i u g => obtain ⟨_, _, c, h, a, s, e⟩ := key i; rw [e, got_lv, got_lv]; exact h3 ..
  | hostname i u g c => obtain ⟨_, _, _, h, a, s, e⟩ := key i; rw [e, got_lv, got_lv, got_lv]; exact h4 ..
  | alt i u g c h => obtain ⟨_, _, _, _, a, s, e⟩ := key i; rw [e, got_lv, got_lv, got_lv, got_lv]; exact h5 ..
  | filter i u g c h a => obtain ⟨_, _, _, _, _, s, e⟩ := key i; rw [e]; simp only [got_lv]; exact h6 (a := a.isSome) ..
  | late i u g c h a f l cg r hl =>
    obtain ⟨s, e⟩ := sent_st i.seccomp_policy_path
    rw [e]
    simp only [got_lv]
    rcases hl with ⟨rfl, rfl, rfl⟩ | ⟨rfl, rfl, rfl⟩ | ⟨rfl, rfl, rfl⟩ | ⟨rfl, rfl, rfl⟩
    · exact h7 ..
    · exact h8 ..
    · exact h9 ..
    · exact h10 ..

/-- **C43**, the error path itself: it frees only what was allocated for this jail, once. -/
theorem C43_cleanup (k : LandlockKernel) (b : Bytes) (f : Failure) (h : minijailUnmarshal k b = .err f) : cleanup f ≠ none := by
  refine shape_elim (fun f => cleanup f ≠ none) ?_ ?_ ?_ ?_ ?_ ?_ ?_ ?_ ?_ ?_ ?_ f (unmarshal_err_shape k b f h) <;> decide +kernel

/-- What holds of **C43**: if the failure came before a filter was received, or there was none to receive, the jail can be
destroyed after the failure, and unless the failure was in the list of path rules nothing stays allocated. -/
theorem C43_partial (k : LandlockKernel) (b : Bytes) (f : Failure) (h : minijailUnmarshal k b = .err f)
    (hf : f.ptrs.filter = .null) :
    ∃ p, cleanup f = some p ∧ ∃ q, destroyPtrs p = some q ∧ (f.label ≠ .bad_fs_rules → Spec.AllFreed q) := by
  have key : f.ptrs.filter = .null → (match (cleanup f).bind destroyPtrs with
      | some q => decide (f.label ≠ .bad_fs_rules → Spec.AllFreed q)
      | none => false) = true := by
    refine shape_elim (fun f => f.ptrs.filter = .null → (match (cleanup f).bind destroyPtrs with
      | some q => decide (f.label ≠ .bad_fs_rules → Spec.AllFreed q)
      | none => false) = true) ?_ ?_ ?_ ?_ ?_ ?_ ?_ ?_ ?_ ?_ ?_ f (unmarshal_err_shape k b f h) <;> decide +kernel
  have key := key hf
  cases hc : cleanup f with
  | none => simp [hc] at key
  | some p =>
    refine ⟨p, rfl, ?_⟩
    rw [hc, Option.bind_some] at key
    cases hd : destroyPtrs p with
    | none => rw [hd] at key; cases key
    | some q => rw [hd] at key; exact ⟨q, rfl, of_decide_eq_true key⟩

/-- **C43 does not hold**: whenever a failure comes after the filter was received, destroying the jail frees the filter a
second time. -/
theorem C43_filter_double_free (k : LandlockKernel) (b : Bytes) (f : Failure) (h : minijailUnmarshal k b = .err f)
    (hf : f.ptrs.filter ≠ .null) : ∃ p, cleanup f = some p ∧ destroyPtrs p = none := by
  have key : f.ptrs.filter ≠ .null → (cleanup f ≠ none ∧ (cleanup f).bind destroyPtrs = none) := by
    refine shape_elim (fun f => f.ptrs.filter ≠ .null → (cleanup f ≠ none ∧ (cleanup f).bind destroyPtrs = none))
      ?_ ?_ ?_ ?_ ?_ ?_ ?_ ?_ ?_ ?_ ?_ f (unmarshal_err_shape k b f h) <;> decide +kernel
  obtain ⟨h1, h2⟩ := key hf
  cases hc : cleanup f with
  | none => exact absurd hc h1
  | some p => rw [hc] at h2; exact ⟨p, rfl, h2⟩

/-- The error path overwrites no address of something still allocated, wherever the failure was. -/
theorem C43_nothing_lost (k : LandlockKernel) (b : Bytes) (f : Failure) (h : minijailUnmarshal k b = .err f) :
    Spec.NothingLost f := by
  let before (f : Failure) : Option Ptrs :=
    ((labels.dropWhile (· ≠ f.label)).takeWhile (· ≠ .clear_pointers)).foldl (fun p l => p.bind (cleanupAt l)) (some f.ptrs)
  let good (o : Option Ptrs) : Bool := o.all fun p =>
    decide (p.user ≠ .live ∧ p.gids ≠ .live ∧ p.chrootdir ≠ .live ∧ p.hostname ≠ .live ∧ p.alt ≠ .live ∧ p.policy ≠ .live)
  have key : good (before f) = true :=
    shape_elim (fun f => good (before f) = true) (by decide +kernel) (by decide +kernel) (by decide +kernel) (by decide +kernel)
      (by decide +kernel) (by decide +kernel) (by decide +kernel) (by decide +kernel) (by decide +kernel) (by decide +kernel)
      (by decide +kernel) f (unmarshal_err_shape k b f h)
  intro p hp
  have hp' : before f = some p := hp
  rw [hp'] at key
  simpa [good] using key

/-- **C43 does not hold**, an API-level witness: a jail with a filter and a path rule that grants nothing; copying it fails,
and then destroying the copy frees the filter twice. -/
theorem C43_violated : ∃ (k : LandlockKernel) (j : Jail) (f : Failure), Spec.GoodJail j ∧ copyJail (fun _ => 4096#64) k j = .err f ∧
    ∃ p, cleanup f = some p ∧ destroyPtrs p = none := by
  let j : Jail := addFsRestrictionPath ⟨3#32, 5#32⟩ { minijailNew with
    flags := { minijailNew.flags with seccomp_filter := true }, filter_len := 1,
    filter_prog := some [⟨6#16, 0#8, 0#8, 0x7fff0000#32⟩] } (bstr "/tmp") 0#64
  refine ⟨⟨3#32, 5#32⟩, j, ⟨.bad_fs_rules, ⟨.null, .null, .null, .null, .null, .live, .live, .live, .live, .null⟩⟩, ?_, ?_, ?_⟩
  · constructor <;> decide +kernel
  · decide +kernel
  · exact ⟨_, rfl, by decide⟩

/-- The hypotheses of `C43_partial` are met, by a prefix of the example jail that ends in the chroot path. -/
example : ∃ f, minijailUnmarshal ⟨3#32, 9#32⟩ ((minijailMarshal (fun _ => 4096#64) exampleJail
    (minijailSize (fun _ => 4096#64) exampleJail)).2.take 2200) = .err f ∧ f.ptrs.filter = .null :=
  ⟨⟨.bad_chrootdir, ⟨.live, .live, .stale, .stale, .stale, .null, .null, .stale, .null, .stale⟩⟩, by decide +kernel, rfl⟩

end Minijail
