import Verif.Proof.MkdirP
import Verif.Proof.SimpleFs
/-! C35: making the directories that lead to a path. -/
set_option linter.unusedSimpArgs false
set_option autoImplicit false
namespace Minijail
open Spec

variable {σ : Type} {ops : FsOps σ} {s s' : σ} {path q : BStr}

/-- For a path that is to be a directory, success means that everything on the way is a directory, and so is the path itself unless the system said that
it was there already. (Missing: what is there may be something else, `C35_violated_target`.) -/
theorem C35_made_partial (fs : FileSystem ops) (h : mkdirP ops s path true = .ok (s', 0)) :
    (∀ q, Ancestor q path → IsDir ops s' q) ∧ (IsDir ops s' path ∨ ∃ t, (ops.mkdir t path).2 = 17) := by
  have hp : path ≠ [] := by rintro rfl; simp [mkdirP] at h
  rw [mkdirP_eq s hp] at h
  simp only [if_true, Res.ok.injEq, Prod.mk.injEq, Int.neg_eq_zero, Int.natCast_eq_zero] at h
  obtain ⟨t, ht, k1, k2⟩ := all_asked fs _ s h.2 path (by simp)
  rw [h.1] at k1 k2
  refine ⟨fun q hq => k1 _ _ (fs.mkdir_in t path q ht hq), ?_⟩
  rcases ht with ht | ht
  · exact .inl (k2 _ _ (fs.made t path ht))
  · exact .inr ⟨t, ht⟩

/-- For a path that is to be a file, success means that everything that leads to its directory is a directory, and so is its directory unless the system
said that it was there already. (Missing: what is there may be something else, `C35_violated_parent`.) -/
theorem C35_parents_partial (fs : FileSystem ops) (h : mkdirP ops s path false = .ok (s', 0)) (hq : Ancestor q path) :
    (∀ a, Ancestor a q → IsDir ops s' a) ∧ (IsDir ops s' q ∨ ∃ t, (ops.mkdir t q).2 = 17) := by
  have hp : path ≠ [] := by rintro rfl; simp [mkdirP] at h
  rw [mkdirP_eq s hp] at h
  simp only [Bool.false_eq_true, if_false, List.append_nil, Res.ok.injEq, Prod.mk.injEq, Int.neg_eq_zero, Int.natCast_eq_zero] at h
  obtain ⟨t, ht, k1, k2⟩ := all_asked fs _ s h.2 q (ancestor_mem hq)
  rw [h.1] at k1 k2
  refine ⟨fun a ha => k1 _ _ (fs.mkdir_in t q a ht ha), ?_⟩
  rcases ht with ht | ht
  · exact .inl (k2 _ _ (fs.made t q ht))
  · exact .inr ⟨t, ht⟩

/-- What is asked for, and the report: the directories on the way, shortest first, and then the path if it is to be a directory. Each but the last asked
for was made or there; the last one too if success is reported, and then all were asked for; otherwise the report is its error number. -/
theorem C35_requests (hp : path ≠ []) (isdir : Bool) :
    ∃ (s' : σ) (asked : List (BStr × Nat)) (r : Int), mkdirP (recorded ops) (s, []) path isdir = .ok ((s', asked), r) ∧
      asked.map (·.1) <+: waypoints path ++ (if isdir then [path] else []) ∧
      (r = 0 → asked.map (·.1) = waypoints path ++ (if isdir then [path] else []) ∧ ∀ a ∈ asked, a.2 = 0 ∨ a.2 = 17) ∧
      (r ≠ 0 → ∃ (l : List (BStr × Nat)) (p : BStr) (e : Nat), asked = l ++ [(p, e)] ∧ (∀ a ∈ l, a.2 = 0 ∨ a.2 = 17) ∧ r = -(e : Int) ∧ e ≠ 17) := by
  rw [mkdirP_eq _ hp]
  generalize waypoints path ++ (if isdir then [path] else []) = ps
  suffices H : ∀ (ps : List BStr) (s : σ) (old : List (BStr × Nat)), ∃ (s' : σ) (asked : List (BStr × Nat)) (e : Nat), mkdirAll (recorded ops) (s, old) ps = ((s', old ++ asked), e) ∧
      asked.map (·.1) <+: ps ∧ (e = 0 → asked.map (·.1) = ps ∧ ∀ a ∈ asked, a.2 = 0 ∨ a.2 = 17) ∧
      (e ≠ 0 → ∃ (l : List (BStr × Nat)) (p : BStr), asked = l ++ [(p, e)] ∧ (∀ a ∈ l, a.2 = 0 ∨ a.2 = 17) ∧ e ≠ 17) by
    obtain ⟨s', asked, e, h, h1, h2, h3⟩ := H ps s []
    refine ⟨s', asked, -(e : Int), by rw [h]; rfl, h1, fun h0 => h2 (by omega), fun h0 => ?_⟩
    obtain ⟨l, p, a, b, c⟩ := h3 (by omega)
    exact ⟨l, p, e, a, b, rfl, c⟩
  clear ps
  intro ps
  induction ps with
  | nil => intro s old; exact ⟨s, [], 0, by simp [mkdirAll], by simp, by simp, by simp⟩
  | cons p ps ih =>
    intro s old
    have hm : (recorded ops).mkdir (s, old) p = (((ops.mkdir s p).1, old ++ [(p, (ops.mkdir s p).2)]), (ops.mkdir s p).2) := rfl
    by_cases hc : (ops.mkdir s p).2 ≠ 0 ∧ (ops.mkdir s p).2 ≠ E_EXIST
    · refine ⟨(ops.mkdir s p).1, [(p, (ops.mkdir s p).2)], (ops.mkdir s p).2, ?_, by simp, fun h0 => absurd h0 hc.1, fun _ => ⟨[], p, by simp, by simp, hc.2⟩⟩
      rw [mkdirAll, hm, if_pos hc]
    · obtain ⟨s', asked, e, h, h1, h2, h3⟩ := ih (ops.mkdir s p).1 (old ++ [(p, (ops.mkdir s p).2)])
      have hg : (ops.mkdir s p).2 = 0 ∨ (ops.mkdir s p).2 = 17 := by unfold E_EXIST at hc; omega
      refine ⟨s', (p, (ops.mkdir s p).2) :: asked, e, ?_, ?_, ?_, ?_⟩
      · rw [mkdirAll, hm, if_neg hc]; dsimp only; rw [h]; simp
      · simpa using h1
      · intro h0
        obtain ⟨a, b⟩ := h2 h0
        exact ⟨by simp [a], List.forall_mem_cons.2 ⟨hg, b⟩⟩
      · intro h0
        obtain ⟨l, x, a, b, c⟩ := h3 h0
        exact ⟨(p, (ops.mkdir s p).2) :: l, x, by simp [a], List.forall_mem_cons.2 ⟨hg, b⟩, c⟩

/-- The target of a mount: if success is reported, the target is there and everything on the way is a directory. -/
theorem C35_destination (fs : FileSystem ops) {src dest : BStr} {uid gid : BitVec 32} {bind : Bool}
    (h : setupMountDestination ops s src dest uid gid bind = .ok (s', 0)) : Present ops s' dest ∧ ∀ q, Ancestor q dest → IsDir ops s' q := by
  suffices hp : Present ops s' dest from ⟨hp, fun q hq => fs.stat_in s' dest q hp hq⟩
  have made : ∀ d, makeDestination ops s dest uid gid d = .ok (s', 0) → Present ops s' dest := by
    intro d h
    unfold makeDestination at h
    split at h
    · split at h
      · next h0 => simp only [Res.ok.injEq, Prod.mk.injEq] at h; exact absurd h.2 h0
      · dsimp only at h
        generalize (if d = true then (_, 0) else ops.create _ dest) = r1 at h
        split at h
        · next h0 => simp only [Res.ok.injEq, Prod.mk.injEq] at h; omega
        · split at h
          · next h0 => simp only [Res.ok.injEq, Prod.mk.injEq] at h; omega
          · next h0 =>
            simp only [Res.ok.injEq, Prod.mk.injEq] at h
            rw [← h.1]
            exact fs.chowned _ _ _ _ (by omega)
    all_goals simp at h
  unfold setupMountDestination at h
  split at h
  · next k hk => simp only [Res.ok.injEq, Prod.mk.injEq] at h; exact ⟨k, by rw [← h.1]; exact hk⟩
  · split at h
    · split at h
      · next e he =>
        simp only [Res.ok.injEq, Prod.mk.injEq] at h
        have := fs.stat_error _ _ _ he
        omega
      · exact made _ h
    · split at h
      · simp [E_INVAL] at h
      · exact made _ h

/-- Nothing that was there is removed or replaced, whatever the report is. -/
theorem C35_kept (fs : FileSystem ops) {src dest : BStr} {uid gid : BitVec 32} {bind : Bool} {r : Int}
    (h : setupMountDestination ops s src dest uid gid bind = .ok (s', r)) {k : FileKind} (hk : ops.stat s q = .ok k) : ops.stat s' q = .ok k := by
  have made : ∀ d, makeDestination ops s dest uid gid d = .ok (s', r) → ops.stat s' q = .ok k := by
    intro d h
    unfold makeDestination at h
    have hd : dest ≠ [] := by rintro rfl; simp [mkdirP] at h
    rw [mkdirP_eq s hd] at h
    dsimp only at h
    generalize hm : mkdirAll ops s _ = m at h
    have hk1 : ops.stat m.1 q = .ok k := by rw [← hm]; exact keeps_all fs _ s hk
    split at h
    · simp only [Res.ok.injEq, Prod.mk.injEq] at h; rw [← h.1]; exact hk1
    · generalize hr : (if d = true then (m.1, 0) else ops.create m.1 dest) = r1 at h
      have hk2 : ops.stat r1.1 q = .ok k := by
        rw [← hr]
        split
        · exact hk1
        · exact fs.create_keeps _ _ _ _ hk1
      split at h
      · simp only [Res.ok.injEq, Prod.mk.injEq] at h; rw [← h.1]; exact hk2
      · split at h <;>
        · simp only [Res.ok.injEq, Prod.mk.injEq] at h; rw [← h.1]; exact fs.chown_keeps _ _ _ _ _ _ hk2
  unfold setupMountDestination at h
  split at h
  · simp only [Res.ok.injEq, Prod.mk.injEq] at h; rw [← h.1]; exact hk
  · split at h
    · split at h
      · simp only [Res.ok.injEq, Prod.mk.injEq] at h; rw [← h.1]; exact hk
      · exact made _ h
    · split at h
      · simp only [Res.ok.injEq, Prod.mk.injEq] at h; rw [← h.1]; exact hk
      · exact made _ h

/-- A tree with a file /f. -/
def oneFile : Tree := fun cs => if cs = [bstr "f"] then some .other else none

/-- A target that was missing and is to be a directory is one if success is reported, unless the system said that it was there already, and it belongs to
the user and group given. -/
theorem C35_directory (fs : FileSystem ops) {src dest : BStr} {uid gid : BitVec 32} {bind : Bool} (hm : ¬ Present ops s dest)
    (hw : DirWanted ops s src bind) (h : setupMountDestination ops s src dest uid gid bind = .ok (s', 0)) :
    (IsDir ops s' dest ∨ ∃ t, (ops.mkdir t dest).2 = 17) ∧ ∃ t, ops.chown t dest uid gid = (s', 0) := by
  have made : makeDestination ops s dest uid gid true = .ok (s', 0) := by
    unfold setupMountDestination at h
    split at h
    · next k hk => exact absurd ⟨k, hk⟩ hm
    · split at h
      · next hs =>
        split at h
        · next e he =>
          simp only [Res.ok.injEq, Prod.mk.injEq] at h
          have := fs.stat_error _ _ _ he
          omega
        · next k hk =>
          rcases hw with hw | hw | ⟨hb, hw | hw⟩
          · exact absurd hs hw
          all_goals
            rw [hk] at hw
            simp only [Except.ok.injEq] at hw
            subst hw
            simpa [*] using h
      · split at h
        · simp [E_INVAL] at h
        · exact h
  unfold makeDestination at made
  split at made
  · next s1 rc h1 =>
    split at made
    · next h0 => simp only [Res.ok.injEq, Prod.mk.injEq] at made; exact absurd made.2 h0
    · next h0 =>
      have h0 : rc = 0 := by omega
      simp only [if_true, ne_eq, not_true, if_false] at made
      split at made
      · next h2 => simp only [Res.ok.injEq, Prod.mk.injEq] at made; omega
      · next h2 =>
        simp only [Res.ok.injEq, Prod.mk.injEq] at made
        rw [h0] at h1
        refine ⟨?_, s1, Prod.ext made.1 (by simpa using h2)⟩
        rcases (C35_made_partial fs h1).2 with h3 | h3
        · left
          rw [← made.1]
          exact fs.chown_keeps _ _ _ _ _ _ h3
        · exact .inr h3
  all_goals simp at made

/-- A target that was missing and is not to be a directory is made as a file: no directory is asked for at its place, and it belongs to the user and group
given. -/
theorem C35_file (fs : FileSystem ops) {src dest : BStr} {uid gid : BitVec 32} {bind : Bool} {asked : List (BStr × Nat)} (hm : ¬ Present ops s dest)
    (hw : ¬ DirWanted ops s src bind) (h : setupMountDestination (recorded ops) (s, []) src dest uid gid bind = .ok ((s', asked), 0)) :
    dest ∉ asked.map (·.1) ∧ ∃ t, (ops.create t dest).2 = 0 ∧ ops.chown (ops.create t dest).1 dest uid gid = (s', 0) := by
  have made : makeDestination (recorded ops) (s, []) dest uid gid false = .ok ((s', asked), 0) := by
    unfold setupMountDestination at h
    simp only [DirWanted, not_or, not_and, Classical.not_not] at hw
    split at h
    · next k hk => exact absurd ⟨k, hk⟩ hm
    · rw [if_pos hw.1] at h
      split at h
      · next e he =>
        simp only [Res.ok.injEq, Prod.mk.injEq] at h
        have := fs.stat_error _ _ _ he
        omega
      · next k hk =>
        change ops.stat s src = .ok k at hk
        rw [hk] at hw
        simp only [Except.ok.injEq] at hw
        have : (k == .dir || (!bind && (k == .block || k == .char))) = false := by
          cases bind <;> cases k <;> simp_all
        rw [this] at h
        exact h
  have hd : dest ≠ [] := by rintro rfl; simp [makeDestination, mkdirP] at made
  obtain ⟨s1, asked1, r, h1, h2, h3, _⟩ := C35_requests (ops := ops) (s := s) hd false
  unfold makeDestination at made
  rw [h1] at made
  dsimp only at made
  split at made
  · next h0 => simp only [Res.ok.injEq, Prod.mk.injEq] at made; omega
  · next h0 =>
    obtain ⟨h4, _⟩ := h3 (by omega)
    simp only [Bool.false_eq_true, if_false, recorded] at made
    split at made
    · next h5 => simp only [Res.ok.injEq, Prod.mk.injEq] at made; omega
    · next h5 =>
      split at made
      · next h6 => simp only [Res.ok.injEq, Prod.mk.injEq] at made; omega
      · next h6 =>
        simp only [Res.ok.injEq, Prod.mk.injEq] at made
        obtain ⟨⟨m1, m2⟩, _⟩ := made
        refine ⟨?_, s1, by simpa using h5, Prod.ext m1 (by simpa using h6)⟩
        rw [← m2, h4]
        simp only [Bool.false_eq_true, if_false, List.append_nil]
        intro hmem
        simp only [waypoints, List.mem_filterMap, List.mem_range] at hmem
        obtain ⟨i, hi, hh⟩ := hmem
        split at hh
        · simp only [Option.some.injEq] at hh
          have := congrArg List.length hh
          simp at this
          omega
        · simp at hh

/-- A bind mount from a path that is not absolute onto a target that is missing is refused with EINVAL, and nothing is made. -/
theorem C35_relative {src dest : BStr} {uid gid : BitVec 32} (hm : ¬ Present ops s dest) (hr : src.head? ≠ some 47#8) :
    setupMountDestination ops s src dest uid gid true = .ok (s, -22) := by
  unfold setupMountDestination
  split
  · next k hk => exact absurd ⟨k, hk⟩ hm
  · rw [if_neg hr]; rfl

/-- A file that is bound onto a missing target: a file is made there. -/
example : ¬ Present (simpleFs fun _ => false) oneFile (bstr "/a/b") ∧ ¬ DirWanted (simpleFs fun _ => false) oneFile (bstr "/f") true ∧
    ∃ s' asked, setupMountDestination (recorded (simpleFs fun _ => false)) (oneFile, []) (bstr "/f") (bstr "/a/b") 0#32 0#32 true = .ok ((s', asked), 0) := by
  have h : (simpleFs fun _ => false).stat oneFile (bstr "/f") = .ok .other := rfl
  have h' : (simpleFs fun _ => false).stat oneFile (bstr "/a/b") = .error 2 := rfl
  refine ⟨?_, ?_, _, _, rfl⟩
  · rintro ⟨k, hk⟩; rw [h'] at hk; simp at hk
  · rintro (h1 | h1 | ⟨h1, _⟩)
    · exact absurd rfl h1
    · rw [h] at h1; simp at h1
    · simp at h1

/-- No path but the empty one makes the code leave its buffers. -/
theorem C35_safe (hp : path ≠ []) (isdir : Bool) : ∃ r, mkdirP ops s path isdir = .ok r := ⟨_, mkdirP_eq s hp isdir⟩

/-- The empty path does. (The targets of mounts are absolute, so the library itself does not ask for it.) -/
theorem C35_violated_empty (isdir : Bool) : mkdirP ops s [] isdir = .ub := rfl

/-- Success is reported although the path that was to be a directory is a file. -/
theorem C35_violated_target : ∃ s', mkdirP (simpleFs fun _ => false) oneFile (bstr "/f") true = .ok (s', 0) ∧
    (simpleFs fun _ => false).stat s' (bstr "/f") = .ok .other :=
  ⟨oneFile, by rfl, by rfl⟩

/-- Success is reported although the directory for the file is itself a file. -/
theorem C35_violated_parent : ∃ s', mkdirP (simpleFs fun _ => false) oneFile (bstr "/f/x") false = .ok (s', 0) ∧
    (simpleFs fun _ => false).stat s' (bstr "/f") = .ok .other :=
  ⟨oneFile, by rfl, by rfl⟩

/-- A target below a directory that is missing. -/
example : ∃ s', setupMountDestination (simpleFs fun _ => false) oneFile (bstr "tmpfs") (bstr "/a//b") 0#32 0#32 false = .ok (s', 0) ∧
    Present (simpleFs fun _ => false) s' (bstr "/a//b") := by
  have h : ∃ s', setupMountDestination (simpleFs fun _ => false) oneFile (bstr "tmpfs") (bstr "/a//b") 0#32 0#32 false = .ok (s', 0) := ⟨_, rfl⟩
  obtain ⟨s', h⟩ := h
  exact ⟨s', h, (C35_destination (simple_is_fs _) h).1⟩

/-- A directory that may not be made: the report is EACCES. -/
example : ∃ s', mkdirP (simpleFs fun c => c == [bstr "a"]) oneFile (bstr "/a/b") true = .ok (s', -13) := ⟨_, rfl⟩

end Minijail
