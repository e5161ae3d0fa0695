import Verif.Proof.Complaints
import Verif.Props.ExampleCtx
/-! C85: what is said of the lines of a policy is so, of the line that is named. -/
set_option linter.unusedSimpArgs false
set_option autoImplicit false
namespace Minijail
open Complaints
open Spec (LineOf IsRule Deserved Untold Fault NoContinuations logicalLines physicalLines)

theorem prev_empty (cx : Ctx) : PrevOk cx [] := by intro ind file n h; cases h

theorem seen_empty (cx : Ctx) : SeenOk ⟨⟨filterPrefix cx, [], [], []⟩, []⟩ := fun _ => rfl

/-- The messages go with the compiler of the other properties: a policy is compiled, refused or worse just as there. -/
theorem C85_outcome (cx : Ctx) (file content : CStr) : forget (sayFile0 cx file content).2 = compileFile0 cx content ⟨filterPrefix cx, [], [], []⟩ := file0_outcome cx file content

/-- **C85**, with lines counted as they are after joining: each message names a line of the policy or of an included file of which it is so; a message of a second rule
also names a line with a rule for the same name. -/
theorem C85_places (cx : Ctx) (file content : CStr) (hf : cx.fs file = some content) :
    ∀ s ∈ (sayFile0 cx file content).1, ∃ text, LineOf logicalLines cx.fs s.file s.line text ∧ Deserved logicalLines cx text s.what :=
  (sayFileWith_ok (level := 0) (inc1_ok cx) hf (prev_empty cx) (seen_empty cx)).1

theorem joinLines_self : ∀ (ls : List (List Char)), (∀ l ∈ ls, l.getLast? ≠ some '\\') → Spec.joinLines ls = ls := by
  intro ls
  induction ls with
  | nil => intro _; rfl
  | cons l ls ih =>
    intro h
    rw [Spec.joinLines, if_neg (h l (by simp)), ih (fun x hx => h x (by simp [hx]))]

theorem lineOf_physical {fs : CStr → Option CStr} (hn : NoContinuations fs) {file : CStr} {n : Nat} {text : CStr} (h : LineOf logicalLines fs file n text) :
    LineOf physicalLines fs file n text := by
  obtain ⟨content, h1, h2, h3⟩ := h
  refine ⟨content, h1, h2, ?_⟩
  rw [logicalLines, joinLines_self _ (hn file content h1)] at h3
  exact h3

/-- The part of **C85** that holds for the lines of the files: if no line is continued on the next one, each message names the line of the file that it is about. Missing: files with continued lines
(`C85_violated_line`). -/
theorem C85_places_partial (cx : Ctx) (file content : CStr) (hf : cx.fs file = some content) (hn : NoContinuations cx.fs) :
    ∀ s ∈ (sayFile0 cx file content).1, ∃ text, LineOf physicalLines cx.fs s.file s.line text ∧ Deserved physicalLines cx text s.what := by
  intro s hs
  obtain ⟨text, h1, h2⟩ := C85_places cx file content hf s hs
  refine ⟨text, lineOf_physical hn h1, ?_⟩
  cases hw : s.what with
  | redefined f n =>
    rw [hw] at h2
    obtain ⟨name, body, text', body', g1, g2, g3, g4⟩ := h2
    exact ⟨name, body, text', body', g1, g2, lineOf_physical hn g3, g4⟩
  | _ => rw [hw] at h2; exact h2

/-- The part of **C85** that holds of policies that are refused for their lines: there is a message with a place that is about a fault, or a line (no comment, no statement, not empty) is without a colon or has something other than `return`
behind its semicolon. Missing: messages with a place for the latter (`C85_violated_silent`). -/
theorem C85_told_partial (cx : Ctx) (file content : CStr) (hf : cx.fs file = some content) (h : compileFile0 cx content ⟨filterPrefix cx, [], [], []⟩ = .fail) :
    (∃ s ∈ (sayFile0 cx file content).1, Fault cx s.what) ∨ ∃ k text, LineOf logicalLines cx.fs file k text ∧ Untold text := by
  refine (sayFileWith_ok (level := 0) (inc1_ok cx) hf (prev_empty cx) (seen_empty cx)).2.2 ?_
  have := C85_outcome cx file content
  rw [h] at this
  show (sayFile0 cx file content).2 = .fail
  cases hr : (sayFile0 cx file content).2 with
  | fail => rfl
  | _ => rw [hr] at this; cases this

/-- A context with one policy in it. -/
def withPolicy (content : CStr) : Ctx := { exCx with fs := fun f => if f = "/p".toList then some content else none }

theorem withPolicy_fs (content : CStr) : (withPolicy content).fs "/p".toList = some content := rfl

/-- The lines of messages, for decisions. -/
def saidLines (cx : Ctx) (content : CStr) : List (Nat × What) := (sayFile0 cx "/p".toList content).1.map fun s => (s.line, s.what)

/-- **C85 does not hold** of files with continued lines: behind such a line, the number is that of an earlier one. Here the unknown name is on the third line, and line 2 is named. -/
theorem C85_violated_line : ¬ ∀ (cx : Ctx) (file content : CStr), cx.fs file = some content →
    ∀ s ∈ (sayFile0 cx file content).1, ∃ text, LineOf physicalLines cx.fs s.file s.line text ∧ Deserved physicalLines cx text s.what := by
  intro h
  have hx : (sayFile0 (withPolicy "read: \\\n1\nbogus: 1\n".toList) "/p".toList "read: \\\n1\nbogus: 1\n".toList).1 = [⟨"/p".toList, 2, .unknown⟩] := by decide +kernel
  obtain ⟨text, ⟨content, h1, -, h3⟩, name, body, h4, -⟩ := h _ _ _ (withPolicy_fs "read: \\\n1\nbogus: 1\n".toList) ⟨"/p".toList, 2, .unknown⟩ (by rw [hx]; simp)
  rw [withPolicy_fs] at h1
  cases h1
  have ht : (physicalLines "read: \\\n1\nbogus: 1\n".toList)[2 - 1]? = some "1".toList := by decide +kernel
  rw [ht] at h3
  cases h3
  obtain ⟨⟨n, b, e, -⟩, -⟩ := h4
  have : ':' ∈ Spec.trim "1".toList := by rw [e]; simp
  revert this
  decide +kernel

/-- Nor are all refusals told with a place: a missing colon is not, and neither is a misspelt `return` behind a semicolon. -/
theorem C85_violated_silent : ∃ cx content, cx.fs "/p".toList = some content ∧ compileFile0 cx content ⟨filterPrefix cx, [], [], []⟩ = .fail ∧ (sayFile0 cx "/p".toList content).1 = [] ∧
    ∃ cx' content', cx'.fs "/p".toList = some content' ∧ compileFile0 cx' content' ⟨filterPrefix cx', [], [], []⟩ = .fail ∧ (sayFile0 cx' "/p".toList content').1 = [] ∧ ':' ∈ content' :=
  ⟨withPolicy "read 1\n".toList, "read 1\n".toList, rfl, by decide +kernel, by decide +kernel,
    withPolicy "read: arg0 == 1; retrun 5\n".toList, "read: arg0 == 1; retrun 5\n".toList, rfl, by decide +kernel, by decide +kernel, by decide⟩

/-- The hypotheses can be met: a policy without continued lines in which a call has two rules and another one a wrong one, and what is said of it. -/
example : (withPolicy "read: 1\n# comment\nread: 1\nopen: arg0 = 1\n".toList).fs "/p".toList = some "read: 1\n# comment\nread: 1\nopen: arg0 = 1\n".toList ∧
    NoContinuations (withPolicy "read: 1\n# comment\nread: 1\nopen: arg0 = 1\n".toList).fs ∧
    compileFile0 (withPolicy "read: 1\n# comment\nread: 1\nopen: arg0 = 1\n".toList) "read: 1\n# comment\nread: 1\nopen: arg0 = 1\n".toList
      ⟨filterPrefix (withPolicy "read: 1\n# comment\nread: 1\nopen: arg0 = 1\n".toList), [], [], []⟩ = .fail ∧
    saidLines (withPolicy "read: 1\n# comment\nread: 1\nopen: arg0 = 1\n".toList) "read: 1\n# comment\nread: 1\nopen: arg0 = 1\n".toList =
      [(3, .redefined "/p".toList 1), (4, .body)] := by
  refine ⟨rfl, ?_, by decide +kernel, by decide +kernel⟩
  intro file content h
  have : content = "read: 1\n# comment\nread: 1\nopen: arg0 = 1\n".toList := by
    simp only [withPolicy] at h
    split at h
    · cases h; rfl
    · cases h
  subst this
  decide +kernel

end Minijail
