import Verif.Proof.EnterMounts
import Verif.Props.EnterExample
/-! C29: the mounts configured in a jail are made when it is entered. -/
set_option autoImplicit false
set_option linter.unusedSimpArgs false
namespace Minijail
open Spec

variable {env : EnterEnv} {j : Jail} {k : Kernel} {t : List Ev}

/-- If neither of the two checks of a bind source failed, the mounts made, between the preparation of the first target and the change of root,
are exactly those configured, in their order. (Missing: the two checks, see `C29_violated`.) -/
theorem C29_all_partial (h : Entered env j k t) (hc : ∀ e ∈ t, ¬ MountCheck e.1 e.2) : ∃ before during after, t = before ++ during ++ after ∧
    during.filter isNewMount = j.mounts.map (mounted env j) ∧
    (∀ e ∈ before ++ during, ¬ ChangesRoot e.1) ∧ (∀ e ∈ before ++ after, ¬ Prepares e.1) := by
  obtain ⟨E⟩ := trace_of h
  obtain ⟨a, b, c, e, hm, h1, h2⟩ := mounts_split E
  obtain ⟨n, hf, hn, _⟩ := mountRun_prefix hm
  refine ⟨a, b, c, e, ?_, h1, h2⟩
  rcases hn with hn | ⟨m, _, _, ⟨o, ho, hmem⟩ | hmem⟩
  · rw [hf, hn, List.take_length]
    unfold mounted
    simp only [target_eq]
  · exact absurd (Or.inl ⟨⟨_, rfl⟩, ho⟩) (hc _ (by rw [e]; simp only [List.mem_append]; exact Or.inl (Or.inr hmem)))
  · exact absurd (Or.inr ⟨⟨_, rfl⟩, rfl⟩) (hc _ (by rw [e]; simp only [List.mem_append]; exact Or.inl (Or.inr hmem)))

/-- In every case the mounts made are the first ones configured. If they are not all, a check of the source of the next one failed, and that one
is a bind mount. -/
theorem C29_first (h : Entered env j k t) : ∃ before during after n, t = before ++ during ++ after ∧
    during.filter isNewMount = (j.mounts.take n).map (mounted env j) ∧
    (∀ e ∈ before ++ during, ¬ ChangesRoot e.1) ∧ (∀ e ∈ before ++ after, ¬ Prepares e.1) ∧
    (n = j.mounts.length ∨ ∃ m, j.mounts[n]? = some m ∧ m.flags &&& MS_BIND ≠ 0#64 ∧
      ((∃ o : Int, o < 0 ∧ (Sys.mountFlags m.src, o) ∈ during) ∨ (Sys.validBind m.src, 0) ∈ during)) := by
  obtain ⟨E⟩ := trace_of h
  obtain ⟨a, b, c, e, hm, h1, h2⟩ := mounts_split E
  obtain ⟨n, hf, hn, _⟩ := mountRun_prefix hm
  refine ⟨a, b, c, n, e, ?_, h1, h2, ?_⟩
  · rw [hf]
    unfold mounted
    simp only [target_eq]
  · rcases hn with hn | ⟨m, e1, hb, hcc⟩
    · exact Or.inl hn
    · exact Or.inr ⟨m, e1, hb.1, hcc⟩

/-- A bind mount of /a and a tmpfs that hides /secret. -/
def twoMounts : Jail :=
  { minijailNew with
    flags := { vfs := true }
    mounts := [⟨bstr "/a", bstr "/a", bstr "minijail_bind", none, MS_BIND⟩, ⟨bstr "none", bstr "/secret", bstr "tmpfs", none, 6⟩] }

/-- A system that cannot tell how /a is mounted. -/
def unsure : Kernel := fun h c =>
  match c with
  | .mountFlags _ => -13
  | _ => obliging h c

/-- A failing check of a bind source makes entering go on without that mount and without all later ones: nothing hides /secret. -/
theorem C29_violated : ∃ t, Entered {} twoMounts unsure t ∧ ∀ e ∈ t, ∀ src type flags data, e.1 ≠ .mount src (bstr "/secret") type flags data := by
  have h : ∀ x : Out Unit × List Ev, x.1 = .ok () → x = (.ok (), x.2) := by
    rintro ⟨a, b⟩ h; simp only at h; rw [h]
  refine ⟨(minijailEnter {} twoMounts unsure []).2, h _ (by decide +kernel), ?_⟩
  have key : ∀ e ∈ (minijailEnter {} twoMounts unsure []).2, (match e.1 with | .mount _ d _ _ _ => d != bstr "/secret" | _ => true) = true := by
    decide +kernel
  intro e he src type flags data hc
  have := key e he
  rw [hc] at this
  simp at this

/-- The jail of the examples: both mounts are made, the second below the directory that becomes /dev. -/
example : (∀ e ∈ richTrace, ¬ MountCheck e.1 e.2) ∧ (∀ m ∈ richJail.mounts, mounted {} richJail m ∈ richTrace) ∧
    richJail.mounts.map (target {} richJail) = [bstr "/jail/usr", bstr "/tmp/minijail.dev.AAAAAA/shm"] := by
  refine ⟨?_, ?_, ?_⟩
  · have key : ∀ e ∈ richTrace, (match e.1 with | .mountFlags _ => decide (0 ≤ e.2) | .validBind _ => e.2 != 0 | _ => true) = true := by
      decide +kernel
    intro e he hm
    have := key e he
    rcases hm with ⟨⟨p, hp⟩, h0⟩ | ⟨⟨p, hp⟩, h0⟩ <;> rw [hp] at this <;> simp at this <;> omega
  · decide +kernel
  · decide +kernel

end Minijail
