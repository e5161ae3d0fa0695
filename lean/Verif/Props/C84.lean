import Verif.Proof.LineMem
/-! C84: lines of any length are read without misusing memory, and a file that was "read to its end" was read completely. -/
set_option linter.unusedSimpArgs false
set_option autoImplicit false
namespace Minijail
open LineMem
open Spec (LineRoom LineFreeable LineHolds LineOrdinary OtherMemory MemoryLasts EndsInNewline)

/-- **C84**, one line: whatever the file, however long its lines, and whichever requests for memory fail, no memory is misused. If a length is returned, the buffer holds the first line of
the file as it is to be joined, of that length and with a NUL behind it, and is as large as `*n` says; the rest of the file is still to be read. What else is allocated stays as it was. -/
theorem C84_line (luck : Luck) (line : Option Nat) (n : Nat) (st : Stream) (m : LMem) (hm : LineOrdinary m) (hr : LineRoom m line n) :
    ∃ r m', getmultilineMem luck (st.rest.length + 1) line n st m = .ok r m' ∧ LineOrdinary m' ∧ (∀ x, OtherMemory m' r.line x = OtherMemory m line x) ∧ LineFreeable m' r.line ∧
      ∀ k, r.ret = some k → ∃ text, k = text.length ∧ LineHolds m' r.line text ∧ LineRoom m' r.line r.n ∧
        Spec.logicalLines st.rest = text :: Spec.logicalLines r.st.rest := by
  obtain ⟨r, m', h, p⟩ := getmultilineMem_ok luck (st.rest.length + 1) line n st m hm hr (by omega)
  refine ⟨r, m', h, p.ord, p.other, p.free, ?_⟩
  intro k hk
  obtain ⟨text, h1, h2, h3, h4, _⟩ := p.got k hk
  exact ⟨text, h2, h3, h4, logical_of_some h1⟩

/-- If there is always memory, -1 is returned only when no line is left, and `feof` then says so. -/
theorem C84_end (luck : Luck) (hl : MemoryLasts luck) (line : Option Nat) (n : Nat) (st : Stream) (m : LMem) (hm : LineOrdinary m) (hr : LineRoom m line n) {r : LRet} {m' : LMem}
    (h : getmultilineMem luck (st.rest.length + 1) line n st m = .ok r m') : (r.ret = none ↔ Spec.logicalLines st.rest = []) ∧ (r.ret = none → r.st.eof = true) := by
  obtain ⟨r', m1, h', p⟩ := getmultilineMem_ok luck (st.rest.length + 1) line n st m hm hr (by omega)
  rw [h] at h'
  cases h'
  refine ⟨?_, fun hn => ?_⟩
  rotate_left
  · rcases p.gone hn with ⟨_, g⟩ | ⟨⟨i, hi⟩, _⟩
    · exact g
    · rw [hl i] at hi; cases hi
  constructor
  · intro hn
    rcases p.gone hn with ⟨g, _⟩ | ⟨⟨i, hi⟩, _⟩
    · exact logical_of_none g
    · rw [hl i] at hi; cases hi
  · intro he
    cases hret : r.ret with
    | none => rfl
    | some k =>
      obtain ⟨text, h1, _⟩ := p.got k hret
      rw [logical_of_some h1] at he
      cases he

/-- **C84**, a whole file: no memory is misused and when it has been read memory is as before, whichever requests fail and whatever is done to the bytes of the lines in their buffer. What
was read are the first lines of the file; and all of them if there is always memory. -/
theorem C84_file (luck : Luck) (used : List (Option Char) → List (Option Char)) (hu : ∀ o, (used o).length = o.length) (file : CStr) (m : LMem) (hm : LineOrdinary m) :
    ∃ ls done m', readAll luck used (file.length + 1) none 0 ⟨file, false⟩ m = .ok (ls, done) m' ∧ (∀ x, m'.cells x = m.cells x) ∧ ls <+: Spec.logicalLines file ∧
      (MemoryLasts luck → ls = Spec.logicalLines file ∧ done = true) := by
  obtain ⟨ls, done, m', h1, h2, h3, h4, _⟩ := readAll_ok luck used hu (file.length + 1) none 0 ⟨file, false⟩ m hm (fun a h => by cases h) (Nat.lt_succ_self _)
  exact ⟨ls, done, m', h1, fun x => by rw [h2 x]; simp [OtherMemory], h3, h4⟩

/-- The part of **C84** that holds of what is reported: if the file ends with a newline (or is empty) and is reported to have been read to its end, all of its lines have been read, whichever requests
for memory failed. Missing: files whose last line has no newline (`C84_violated`). -/
theorem C84_complete_partial (luck : Luck) (used : List (Option Char) → List (Option Char)) (hu : ∀ o, (used o).length = o.length) (file : CStr) (hf : EndsInNewline file) (m : LMem)
    (hm : LineOrdinary m) {ls : List CStr} {m' : LMem} (h : readAll luck used (file.length + 1) none 0 ⟨file, false⟩ m = .ok (ls, true) m') : ls = Spec.logicalLines file := by
  obtain ⟨ls', done, m1, h1, _, _, _, h5⟩ := readAll_ok luck used hu (file.length + 1) none 0 ⟨file, false⟩ m hm (fun a h => by cases h) (Nat.lt_succ_self _)
  rw [h] at h1
  cases h1
  exact h5 hf rfl rfl

/-- Memory in which nothing is allocated. -/
def noLines : LMem := ⟨fun _ => none, 0, 0⟩

theorem noLines_ordinary : LineOrdinary noLines := fun _ _ => rfl

/-- The request with this number fails; there are `slack` bytes more than needed. -/
def failsAt (i slack : Nat) : Luck := ⟨fun j => j == i, fun _ => slack, fun _ => 0⟩

/-- What was read of a file and whether it is reported to be complete, when a request fails; `none` if memory is misused. -/
def readWith (luck : Luck) (file : CStr) : Option (List CStr × Bool) :=
  match readAll luck id (file.length + 1) none 0 ⟨file, false⟩ noLines with
  | .ok x _ => some x
  | .ub => none

theorem readWith_some {luck : Luck} {file : CStr} {x : List CStr × Bool} (h : readWith luck file = some x) :
    ∃ m', readAll luck id (file.length + 1) none 0 ⟨file, false⟩ noLines = .ok x m' := by
  unfold readWith at h
  split at h
  · rename_i y m' e
    cases h
    exact ⟨m', e⟩
  · cases h

/-- **C84 does not hold** for a file without a newline at its end: when there is no memory to join its last lines, the file is taken for completely read although the last of its lines has
not been seen. -/
theorem C84_violated : ¬ ∀ (luck : Luck) (file : CStr) (m m' : LMem) (ls : List CStr), LineOrdinary m →
    readAll luck id (file.length + 1) none 0 ⟨file, false⟩ m = .ok (ls, true) m' → ls = Spec.logicalLines file := by
  intro h
  have hx : readWith (failsAt 2 119) "mount-dev\nseccomp-bpf-policy = \\\n/p".toList = some (["mount-dev".toList], true) := by decide +kernel
  obtain ⟨m', e⟩ := readWith_some hx
  have := h _ _ _ _ _ noLines_ordinary e
  revert this
  rw [← readLines_eq_logicalLines]
  decide +kernel

/-- Whether calling again after -1 misuses memory. -/
def againMisuses (luck : Luck) (file : CStr) : Bool :=
  match getmultilineMem luck (file.length + 1) none 0 ⟨file, false⟩ noLines with
  | .ok r m =>
    r.ret.isNone &&
    match getmultilineMem luck (r.st.rest.length + 1) r.line r.n r.st m with
    | .ok _ _ => false
    | .ub => true
  | .ub => false

/-- After -1 the buffer can be freed, but it cannot be used for another line as that of `getline` can: when there was no memory to join lines, `*n` is more than the buffer has. -/
theorem C84_violated_again : ¬ ∀ (luck : Luck) (st : Stream) (m m' : LMem) (r : LRet), LineOrdinary m →
    getmultilineMem luck (st.rest.length + 1) none 0 st m = .ok r m' → getmultilineMem luck (r.st.rest.length + 1) r.line r.n r.st m' ≠ .ub := by
  intro h
  have hx : againMisuses (failsAt 4 0) "a\\\nbbbbbbbb\ncccccccc\n".toList = true := by decide +kernel
  unfold againMisuses at hx
  split at hx
  · rename_i r m e
    have := h _ ⟨"a\\\nbbbbbbbb\ncccccccc\n".toList, false⟩ _ _ _ noLines_ordinary e
    cases e2 : getmultilineMem (failsAt 4 0) (r.st.rest.length + 1) r.line r.n r.st m with
    | ok x y => rw [e2] at hx; simp at hx
    | ub => exact this e2
  · cases hx

/-- The hypotheses can be met: a buffer of four bytes that is used again, and a file with joined lines and a newline at its end that is read when all requests but the third succeed. -/
example : LineOrdinary ⟨fun x => if x = 0 then some [none, none, none, none] else none, 1, 0⟩ ∧
    LineRoom ⟨fun x => if x = 0 then some [none, none, none, none] else none, 1, 0⟩ (some 0) 4 ∧ EndsInNewline "ab\\\ncd\nef\n".toList ∧
    readWith (failsAt 9 0) "ab\\\ncd\nef\n".toList = some (["ab cd".toList, "ef".toList], true) ∧ readWith (failsAt 4 0) "ab\\\ncd\nef\n".toList = some ([], false) := by
  refine ⟨?_, ?_, .inr (by decide), by decide +kernel, by decide +kernel⟩
  · intro x hx
    have hx : 1 ≤ x := hx
    show (if x = 0 then _ else none) = none
    rw [if_neg (by omega)]
  · intro a ha
    cases ha
    exact ⟨_, rfl, by decide⟩

end Minijail
