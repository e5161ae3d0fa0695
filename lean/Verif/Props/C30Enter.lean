import Verif.Props.C29
/-! C30, second part: what becomes of a bind mount when the jail is entered. -/
set_option autoImplicit false
set_option linter.unusedSimpArgs false
namespace Minijail
open Spec

variable {env : EnterEnv} {j : Jail} {k : Kernel} {t : List Ev}

/-- The first `n` mounts of the jail were made: either all, or the check of the source of the next one failed. -/
def Spec.Made (j : Jail) (t : List Ev) (n : Nat) : Prop :=
  n = j.mounts.length ∨ ∃ m, j.mounts[n]? = some m ∧ ((∃ o : Int, o < 0 ∧ (Sys.mountFlags m.src, o) ∈ t) ∨ (Sys.validBind m.src, 0) ∈ t)

/-- A mount made by the bind call is read-only exactly if it was asked for as read-only, and is not less restricted than its source in any of
nosuid, nodev and noexec: so says the sequence of mount requests for its target, which follow each other immediately. `o` are the options of
the source as the system gave them. -/
theorem C30_bind (h : Entered env j k t) : ∃ n, Made j t n ∧ ∀ m ∈ j.mounts.take n,
    m.flags &&& MS_BIND ≠ 0#64 → m.flags &&& MS_REMOUNT = 0#64 → m.type = bstr "minijail_bind" →
    ∃ (o : Int) (reqs : List Sys), 0 ≤ o ∧ (Sys.mountFlags m.src, o) ∈ t ∧ reqs ≠ [] ∧ reqs.map (fun c => (c, (0 : Int))) <:+: t ∧
      (∀ c ∈ reqs, ∃ type flags, c = .mount (some m.src) (target env j m) type flags m.data) ∧
      reqs.foldl (optionsAfter (BitVec.ofInt 64 o)) 0#64 &&& 1#64 = m.flags &&& 1#64 ∧
      reqs.foldl (optionsAfter (BitVec.ofInt 64 o)) 0#64 &&& BitVec.ofInt 64 o &&& 14#64 = BitVec.ofInt 64 o &&& 14#64 := by
  obtain ⟨E⟩ := trace_of h
  obtain ⟨a, b, c, e, hrun, _, _⟩ := mounts_split E
  have hsub : b <:+: t := ⟨a, c, e.symm⟩
  obtain ⟨n, _, hn, hsteps⟩ := mountRun_prefix hrun
  refine ⟨n, ?_, fun m hm hb hr ht => ?_⟩
  · rcases hn with hn | ⟨m, e1, _, hcc⟩
    · exact Or.inl hn
    · refine Or.inr ⟨m, e1, ?_⟩
      rcases hcc with ⟨o, ho, hmem⟩ | hmem
      · exact Or.inl ⟨o, ho, hsub.subset hmem⟩
      · exact Or.inr (hsub.subset hmem)
  obtain ⟨o, v, ho, hs⟩ := hsteps m hm
  have hw : wantsFlags m := ⟨hb, ht, by simp [hr]⟩
  have hib : isBind m := ⟨hb, by simp [hr]⟩
  have hst := hs.trans hsub
  have base : m.flags &&& 0x20#64 = 0#64 := hr
  have hbind : m.flags &&& 0x1000#64 ≠ 0#64 := hb
  have first : optionsAfter (BitVec.ofInt 64 o) 0#64 (.mount (some m.src) (target env j m) (some m.type) m.flags m.data) = BitVec.ofInt 64 o := by
    show (if _ then _ else if _ then _ else _) = _
    rw [if_neg (by simp [base]), if_pos hbind]
  unfold stepTrace at hst
  rw [if_pos hw, if_pos hib, target_eq] at hst
  by_cases hrm : wantsRemount m o
  · rw [if_pos hrm] at hst
    obtain ⟨b1, b2, b3⟩ := remount_bits m.flags (BitVec.ofInt 64 o)
    have second : ∀ now, optionsAfter (BitVec.ofInt 64 o) now (.mount (some m.src) (target env j m) none
        (m.flags ||| BitVec.ofInt 64 o &&& KEPT_MOUNT_FLAGS ||| MS_REMOUNT) m.data) =
        (m.flags ||| BitVec.ofInt 64 o &&& KEPT_MOUNT_FLAGS ||| MS_REMOUNT) &&& mountOptions := by
      intro now
      show (if _ then _ else if _ then _ else _) = _
      rw [if_pos b1]
    refine ⟨o, [.mount (some m.src) (target env j m) (some m.type) m.flags m.data, .mount (some m.src) (target env j m) none
        (m.flags ||| BitVec.ofInt 64 o &&& KEPT_MOUNT_FLAGS ||| MS_REMOUNT) m.data], ho hw, hst.subset (by simp), by simp, ?_, ?_, ?_, ?_⟩
    · refine List.IsInfix.trans ?_ hst
      exact ⟨[prepare j (if j.flags.mount_dev then some env.devPath else none) m, (.mountFlags m.src, o), (.validBind m.src, v)], [], by simp [done]⟩
    · intro c hc
      simp only [List.mem_cons, List.not_mem_nil, or_false] at hc
      rcases hc with rfl | rfl
      · exact ⟨_, _, rfl⟩
      · exact ⟨_, _, rfl⟩
    · rw [List.foldl_cons, List.foldl_cons, List.foldl_nil, second]; exact b2
    · rw [List.foldl_cons, List.foldl_cons, List.foldl_nil, second]; exact b3
  · rw [if_neg hrm] at hst
    have hro : m.flags &&& 1#64 = BitVec.ofInt 64 o &&& 1#64 :=
      Classical.byContradiction fun hne => hrm ⟨hb, ht, by simp [hr], hne⟩
    refine ⟨o, [.mount (some m.src) (target env j m) (some m.type) m.flags m.data], ho hw, hst.subset (by simp), by simp, ?_, ?_, ?_, ?_⟩
    · refine List.IsInfix.trans ?_ hst
      exact ⟨[prepare j (if j.flags.mount_dev then some env.devPath else none) m, (.mountFlags m.src, o), (.validBind m.src, v)], [], by simp [done]⟩
    · intro c hc
      simp only [List.mem_cons, List.not_mem_nil, or_false] at hc
      exact ⟨_, _, hc⟩
    · rw [List.foldl_cons, List.foldl_nil, first]; exact hro.symm
    · rw [List.foldl_cons, List.foldl_nil, first, BitVec.and_self]

/-- In the jail of the examples /usr is bound read-only from a source that is writable and nosuid: two requests are made, and the result is
read-only and nosuid. -/
example : (Sys.mount (some (bstr "/usr")) (bstr "/jail/usr") (some (bstr "minijail_bind")) 0x1001#64 none, 0) ∈ richTrace ∧
    (Sys.mount (some (bstr "/usr")) (bstr "/jail/usr") none 0x1023#64 none, 0) ∈ richTrace ∧
    [Sys.mount (some (bstr "/usr")) (bstr "/jail/usr") (some (bstr "minijail_bind")) 0x1001#64 none,
     Sys.mount (some (bstr "/usr")) (bstr "/jail/usr") none 0x1023#64 none].foldl (optionsAfter 2#64) 0#64 = 3#64 := by decide +kernel

end Minijail
