import Verif.Model.Api
/-! C30: the mounts recorded by the API calls have safe defaults. -/
set_option autoImplicit false
set_option linter.unusedSimpArgs false
namespace Minijail

/-- The mount recorded for a request: no flags become nosuid, nodev and noexec (2, 4 and 8); a tmpfs without data gets a mode
and a size; everything else is as requested. -/
def Spec.RecordedAs (src dest type : BStr) (flags : BitVec 64) (data : Option BStr) (m : Mountpoint) : Prop :=
  m.src = src ∧ m.dest = dest ∧ m.type = type ∧
  (flags = 0#64 → m.flags = 14#64) ∧ (flags ≠ 0#64 → m.flags = flags) ∧
  (type = bstr "tmpfs" → (data = none ∨ data = some []) → m.data = some (bstr "mode=0755,size=10M")) ∧
  (type ≠ bstr "tmpfs" → m.data = data) ∧
  (∀ x, data = some x → x ≠ [] → m.data = some x)

theorem mountCall_appends (env : ApiEnv) (j j' : Jail) (s d t : BStr) (f : BitVec 64) (x : Option BStr)
    (h : mountCall env j s d t f x = .ret 0 j') : ∃ m, j'.mounts = j.mounts ++ [m] ∧ Spec.RecordedAs s d t f x m := by
  unfold mountCall mountWithData at h
  by_cases hd : d.head? = some 0x2f#8
  · simp only [hd, ne_eq, not_true_eq_false, if_false] at h
    by_cases ho : env.oom = true
    · rw [if_pos ho] at h
      simp [ENOMEM] at h
    · rw [if_neg ho] at h
      simp only [ApiRes.ok, ApiRes.ret.injEq, true_and] at h
      subst h
      refine ⟨⟨s, d, t, mountData t x, if f = 0#64 then MS_NODEV ||| MS_NOEXEC ||| MS_NOSUID else f⟩, ?_, rfl, rfl, rfl,
        ?_, ?_, ?_, ?_, ?_⟩
      · cases j.flags.enter_vfs <;> simp [namespaceVfs]
      · intro h0; simp only [h0, if_true]; decide
      · intro h0; simp only [h0, if_false]
      · intro ht hx; simp only [mountData, ht, hx, true_and, if_true, and_true]
      · intro ht; simp only [mountData, ht, and_false, if_false]
      · intro y hy hn
        subst hy
        simp [mountData, hn]
  · simp [hd, EINVAL] at h

/-- **C30**, requests: an accepted mount request appends exactly one mount, with safe defaults, and a bind
request one with the bind flag and, unless writeable, the read-only flag. `C30_bind` says what entering the jail makes of it. -/
theorem C30_recorded (env : ApiEnv) (j j' : Jail) (src dest : BStr) :
    (∀ type flags data, call env j (.mountWithData src dest type flags data) = .ret 0 j' →
      ∃ m, j'.mounts = j.mounts ++ [m] ∧ Spec.RecordedAs src dest type flags data m) ∧
    (∀ type flags, call env j (.mount src dest type flags) = .ret 0 j' →
      ∃ m, j'.mounts = j.mounts ++ [m] ∧ Spec.RecordedAs src dest type flags none m) ∧
    (∀ writeable, call env j (.bind src dest writeable) = .ret 0 j' →
      ∃ m, j'.mounts = j.mounts ++ [m] ∧ m.src = src ∧ m.dest = dest ∧ m.data = none ∧
        m.flags = if writeable then 0x1000#64 else 0x1001#64) := by
  refine ⟨fun t f x h => mountCall_appends env j j' _ _ _ _ _ h, fun t f h => mountCall_appends env j j' _ _ _ _ _ h,
    fun w h => ?_⟩
  have h1 : bindCall env j src dest w = .ret 0 j' := h
  unfold bindCall at h1
  split at h1
  · simp [ELOOP] at h1
  · obtain ⟨m, e, hs, hd, -, -, hf, -, hx, -⟩ := mountCall_appends env j j' _ _ _ _ _ h1
    refine ⟨m, e, hs, hd, hx (by decide), ?_⟩
    rw [hf (by cases w <;> decide)]
    cases w <;> decide

/-- A request with no flags and no data, one with both, and a read-only bind. -/
example : ((calls minijailNew [({}, .mount (bstr "none") (bstr "/tmp") (bstr "tmpfs") 0#64),
      ({}, .mountWithData (bstr "/dev/sda") (bstr "/data") (bstr "ext4") 1#64 (some (bstr "acl"))),
      ({}, .bind (bstr "/a") (bstr "/b") false)]).map (·.mounts)) =
    some [⟨bstr "none", bstr "/tmp", bstr "tmpfs", some (bstr "mode=0755,size=10M"), 14#64⟩,
      ⟨bstr "/dev/sda", bstr "/data", bstr "ext4", some (bstr "acl"), 1#64⟩,
      ⟨bstr "/a", bstr "/b", bstr "minijail_bind", none, 0x1001#64⟩] := by decide +kernel

end Minijail
