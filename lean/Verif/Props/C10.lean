import Verif.Proof.PolicyCompile
import Verif.Props.ExampleCtx
/-! C10: include statements. -/
set_option linter.unusedSimpArgs false
set_option autoImplicit false
namespace Minijail

/-! ### Reading a concatenation of files -/

/-- A file that ends in a newline (or is empty) and whose last line is not continued. -/
def Spec.Complete (s : List Char) : Prop :=
  s = [] ∨ ∃ t, s = t ++ ['\n'] ∧ t.getLast? ≠ some '\\'

private theorem fields_append (d : Char) (t b : List Char) :
    Spec.fields d (t ++ d :: b) = Spec.fields d t ++ Spec.fields d b := by
  induction t with
  | nil => simp [Spec.fields]
  | cons c t ih =>
    simp only [List.cons_append, Spec.fields]
    split
    · rw [ih]; rfl
    · rw [ih]
      cases h : Spec.fields d t with
      | nil => exact absurd h (fields_ne_nil d t)
      | cons f fs => rfl
where
  fields_ne_nil (d : Char) (t : List Char) : Spec.fields d t ≠ [] := by
    cases t with
    | nil => simp [Spec.fields]
    | cons c t =>
      simp only [Spec.fields]
      split
      · simp
      · cases Spec.fields d t <;> simp [Spec.consHead]

private theorem fields_ne (d : Char) (t : List Char) : Spec.fields d t ≠ [] := fields_append.fields_ne_nil d t

private theorem physicalLines_append (t b : List Char) :
    Spec.physicalLines (t ++ '\n' :: b) = Spec.fields '\n' t ++ Spec.physicalLines b := by
  unfold Spec.physicalLines
  rw [fields_append]
  have hb := fields_ne '\n' b
  simp only
  have key : (Spec.fields '\n' t ++ Spec.fields '\n' b).getLast? = (Spec.fields '\n' b).getLast? := by
    rw [List.getLast?_append]
    cases hg : (Spec.fields '\n' b).getLast? with
    | none => exact absurd (List.getLast?_eq_none_iff.1 hg) hb
    | some x => rfl
  rw [List.dropLast_append_of_ne_nil hb]
  by_cases hx : (Spec.fields '\n' b).getLast? = some []
  · rw [if_pos (by rw [key]; exact hx), if_pos hx]
  · rw [if_neg (by rw [key]; exact hx), if_neg hx]

private theorem fields_last (t : List Char) (f : List Char) (h : (Spec.fields '\n' t).getLast? = some f)
    (hb : t.getLast? ≠ some '\\') : f.getLast? ≠ some '\\' := by
  induction t generalizing f with
  | nil => simp [Spec.fields] at h; subst h; simp
  | cons c t ih =>
    simp only [Spec.fields] at h
    split at h
    · rw [List.getLast?_cons_of_ne_nil (fields_ne _ _)] at h
      refine ih f h ?_
      cases t with
      | nil => simp
      | cons x xs => simpa [List.getLast?_cons_cons] using hb
    · next hc =>
      cases hf : Spec.fields '\n' t with
      | nil => exact absurd hf (fields_ne _ _)
      | cons g gs =>
        rw [hf] at h ih
        simp only [Spec.consHead] at h
        cases gs with
        | cons g' gs =>
          rw [List.getLast?_cons_cons] at h
          refine ih f (by rw [List.getLast?_cons_cons]; exact h) ?_
          cases t with
          | nil => simp
          | cons x xs => simpa [List.getLast?_cons_cons] using hb
        | nil =>
          simp only [List.getLast?_singleton, Option.some.injEq] at h
          subst h
          cases t with
          | nil =>
            simp only [Spec.fields, List.cons.injEq, and_true] at hf
            subst hf
            simpa using hb
          | cons x xs =>
            have := ih g (by simp) (by simpa [List.getLast?_cons_cons] using hb)
            cases g with
            | nil => 
              -- the only field is empty but the text is not
              exfalso
              simp only [Spec.fields] at hf
              split at hf
              · simp at hf; exact fields_ne _ _ hf
              · cases hx : Spec.fields '\n' xs <;> rw [hx] at hf <;> simp [Spec.consHead] at hf
            | cons y ys => simpa [List.getLast?_cons_cons] using this

private theorem joinLines_append (as bs : List (List Char)) (h : ∀ f, as.getLast? = some f → f.getLast? ≠ some '\\') :
    Spec.joinLines (as ++ bs) = Spec.joinLines as ++ Spec.joinLines bs ∧ (as ≠ [] → Spec.joinLines as ≠ []) := by
  induction as with
  | nil => simp [Spec.joinLines]
  | cons a as ih =>
    cases as with
    | nil =>
      have := h a rfl
      simp [Spec.joinLines, this]
    | cons a' as =>
      have ih := ih (fun f hf => h f (by rw [List.getLast?_cons_cons]; exact hf))
      rw [List.cons_append, Spec.joinLines, Spec.joinLines.eq_2 a (a' :: as), ih.1]
      have hne := ih.2 (by simp)
      cases hj : Spec.joinLines (a' :: as) with
      | nil => exact absurd hj hne
      | cons m ms => split <;> simp

/-- Reading two complete files one after the other. -/
theorem readLines_append (a b : CStr) (ha : Spec.Complete a) : readLines (a ++ b) = readLines a ++ readLines b := by
  rw [readLines_eq_logicalLines, readLines_eq_logicalLines, readLines_eq_logicalLines]
  unfold Spec.logicalLines
  rcases ha with rfl | ⟨t, rfl, ht⟩
  · simp [Spec.physicalLines, Spec.fields, Spec.joinLines]
  · rw [List.append_assoc, List.singleton_append, physicalLines_append]
    have e : Spec.physicalLines (t ++ ['\n']) = Spec.fields '\n' t := by
      rw [physicalLines_append]; simp [Spec.physicalLines, Spec.fields]
    rw [e]
    exact (joinLines_append _ _ (fun f hf => fields_last t f hf ht)).1

private theorem fields_single (d : Char) (l : List Char) (h : d ∉ l) : Spec.fields d l = [l] := by
  induction l with
  | nil => rfl
  | cons c l ih =>
    simp only [List.mem_cons, not_or] at h
    simp only [Spec.fields, if_neg (Ne.symm h.1), ih h.2, Spec.consHead]

/-- Reading a file of one line. -/
private theorem readLines_line (l : CStr) (h : '\n' ∉ l) (hb : l.getLast? ≠ some '\\') : readLines (l ++ ['\n']) = [l] := by
  rw [readLines_eq_logicalLines]
  unfold Spec.logicalLines
  rw [physicalLines_append, fields_single _ _ h]
  simp [Spec.physicalLines, Spec.fields, Spec.joinLines, hb]

/-! ### Compiling -/

private theorem fileWith_iff (cx : Ctx) (lvl : Nat) (inc : CStr → CState → Res CState) (c : CStr) (st st' : CState) :
    compileFileWith cx lvl inc c st = .ok st' ↔ compileLines cx lvl inc (readLines c) st false = .ok (st', false) := by
  unfold compileFileWith
  cases h : compileLines cx lvl inc (readLines c) st false with
  | ok x =>
    obtain ⟨s, b⟩ := x
    cases b <;> simp
  | _ => simp

private theorem lines_append (cx : Ctx) (lvl : Nat) (inc : CStr → CState → Res CState) (as bs : List CStr) (st : CState) (bad : Bool)
    (x : CState × Bool) :
    compileLines cx lvl inc (as ++ bs) st bad = .ok x ↔
      ∃ y, compileLines cx lvl inc as st bad = .ok y ∧ compileLines cx lvl inc bs y.1 y.2 = .ok x := by
  induction as generalizing st bad with
  | nil => simp [compileLines]
  | cons a as ih =>
    simp only [List.cons_append, compileLines]
    cases h : compileLine cx lvl inc a st bad with
    | ok z => obtain ⟨s, b⟩ := z; simp only [ih]
    | _ => simp

/-- A line that is not an include statement. -/
def Spec.NoInclude (l : List Char) : Prop := (Spec.trim l).head? = some '@' → "@frequency".toList <+: Spec.trim l

private theorem line_level (cx : Ctx) (lvl lvl' : Nat) (inc inc' : CStr → CState → Res CState) (l : CStr) (h : Spec.NoInclude l)
    (st : CState) (bad : Bool) : compileLine cx lvl inc l st bad = compileLine cx lvl' inc' l st bad := by
  unfold compileLine
  have ht : strip l = Spec.trim l := rfl
  simp only
  split
  · rfl
  · next c r he =>
    by_cases h1 : c = '#'
    · simp [h1]
    · by_cases h2 : c = '@'
      · have h3 := h (by rw [← ht, he, h2]; rfl)
        rw [← ht] at h3
        have h4 : (strip l).take 10 = "@frequency".toList := take_of_prefix h3
        simp only [h1, h2, if_true, if_false]
        rw [if_pos h4, if_pos h4]
      · simp [h1, h2]

private theorem lines_level (cx : Ctx) (lvl lvl' : Nat) (inc inc' : CStr → CState → Res CState) (ls : List CStr)
    (h : ∀ l ∈ ls, Spec.NoInclude l) (st : CState) (bad : Bool) :
    compileLines cx lvl inc ls st bad = compileLines cx lvl' inc' ls st bad := by
  induction ls generalizing st bad with
  | nil => rfl
  | cons l ls ih =>
    simp only [compileLines]
    rw [line_level cx lvl lvl' inc inc' l (h l (by simp))]
    split
    · exact ih (fun x hx => h x (List.mem_cons_of_mem _ hx)) _ _
    all_goals rfl

private theorem strip_include (line path : CStr) (hl : Spec.trim line = "@include ".toList ++ path) :
    strip line = '@' :: ("include ".toList ++ path) := hl

/-- What an include statement does in the initial file. -/
private theorem include_line (cx : Ctx) (line path : CStr) (hl : Spec.trim line = "@include ".toList ++ path)
    (inc : CStr → CState → Res CState) (st : CState) (bad : Bool) (x : CState × Bool) :
    compileLine cx 0 inc line st bad = .ok x ↔
      ("/".toList <+: path ∨ "./".toList <+: path) ∧ ∃ content st', cx.fs path = some content ∧ inc content st = .ok st' ∧
        x = (st', bad) := by
  have hp : parseIncludeStatement (strip line) 0 =
      if isImplicitRelativePath path then .fail else .ok path := by
    rw [strip_include line path hl]
    simp [parseIncludeStatement, strsep]
  have hrel : isImplicitRelativePath path = false ↔ ("/".toList <+: path ∨ "./".toList <+: path) := by
    unfold isImplicitRelativePath
    cases path with
    | nil => simp
    | cons c r =>
      cases r with
      | nil =>
        simp [List.prefix_cons_iff]
        exact eq_comm
      | cons c' r =>
        simp only [List.head?_cons, List.tail_cons, Bool.and_eq_false_iff, Bool.or_eq_false_iff, bne_eq_false_iff_eq,
          Option.some.injEq]
        constructor
        · rintro (rfl | ⟨rfl, rfl⟩) <;> simp
        · rintro (h | h)
          · left; have : '/' = c := by simpa using h
            exact this.symm
          · right
            have : '.' = c ∧ '/' = c' := by simpa using h
            exact ⟨this.1.symm, this.2.symm⟩
  unfold compileLine
  have hf : ¬ (strip line).take 10 = "@frequency".toList := by
    rw [strip_include line path hl]; simp
  simp only
  split
  · next he => rw [strip_include line path hl] at he; simp at he
  · next c r he =>
    have hc : c = '@' := by
      rw [strip_include line path hl] at he
      simp only [List.cons.injEq] at he
      exact he.1.symm
    subst hc
    simp only [if_neg hf, hp]
    simp only [show ¬ ('@' = '#') by decide, if_false, if_true]
    cases hi : isImplicitRelativePath path with
    | true =>
      have : ¬ ("/".toList <+: path ∨ "./".toList <+: path) := fun h => by rw [hrel.2 h] at hi; simp at hi
      simp only [if_true, this, false_and, iff_false]
      simp
    | false =>
      have := hrel.1 hi
      simp only [this, true_and, Bool.false_eq_true, if_false]
      cases hfs : cx.fs path with
      | none => simp
      | some content =>
        cases hc : inc content st with
        | ok s =>
          simp only [hc, Res.ok.injEq]
          constructor
          · intro h; exact ⟨content, s, rfl, hc, h.symm⟩
          · rintro ⟨c', s', h0, h1, h2⟩
            rw [Option.some.injEq] at h0
            subst h0
            rw [hc, Res.ok.injEq] at h1
            rw [h2, h1]
        | _ =>
          simp only [hc, reduceCtorEq, false_iff]
          rintro ⟨c', s', h0, h1, _⟩
          rw [Option.some.injEq] at h0
          subst h0
          rw [hc] at h1
          simp at h1

/-- Including a file has exactly the effect of its lines in place of the include line: the same programs result (and
success in the same cases), for every include line between complete lines and every complete file without include
statements of its own. -/
theorem C10_splice (cx : Ctx) (before line after path file : CStr) (prog : List Insn)
    (hb : Spec.Complete before) (hnl : '\n' ∉ line) (hbs : line.getLast? ≠ some '\\')
    (hline : Spec.trim line = "@include ".toList ++ path) (habs : "/".toList <+: path ∨ "./".toList <+: path)
    (hfs : cx.fs path = some file) (hfile : Spec.Complete file) (hno : ∀ l ∈ readLines file, Spec.NoInclude l) :
    compileFilter cx (before ++ (line ++ ['\n']) ++ after) = .ok prog ↔
      compileFilter cx (before ++ file ++ after) = .ok prog := by
  have hl := readLines_line line hnl hbs
  have hlc : Spec.Complete (line ++ ['\n']) := .inr ⟨line, rfl, hbs⟩
  have key : ∀ st st', compileFile0 cx (before ++ (line ++ ['\n']) ++ after) st = .ok st' ↔
      compileFile0 cx (before ++ file ++ after) st = .ok st' := by
    intro st st'
    unfold compileFile0
    rw [fileWith_iff, fileWith_iff, List.append_assoc before, List.append_assoc before, readLines_append _ _ hb, readLines_append _ _ hlc,
      readLines_append _ _ hb, readLines_append _ _ hfile, hl, lines_append, lines_append]
    refine exists_congr fun y => and_congr_right fun _ => ?_
    rw [lines_append, lines_append]
    have hone : ∀ z, compileLines cx 0 (compileFile1 cx) [line] y.1 y.2 = .ok z ↔
        ∃ s, compileFile1 cx file y.1 = .ok s ∧ z = (s, y.2) := by
      intro z
      simp only [compileLines]
      have h := include_line cx line path hline (compileFile1 cx) y.1 y.2 z
      have h' : (∃ s, compileFile1 cx file y.1 = .ok s ∧ z = (s, y.2)) ↔
          compileLine cx 0 (compileFile1 cx) line y.1 y.2 = .ok z := by
        rw [h]
        constructor
        · rintro ⟨s, h1, h2⟩; exact ⟨habs, file, s, hfs, h1, h2⟩
        · rintro ⟨_, c, s, h0, h1, h2⟩
          rw [hfs, Option.some.injEq] at h0
          subst h0
          exact ⟨s, h1, h2⟩
      rw [h']
      cases compileLine cx 0 (compileFile1 cx) line y.1 y.2 <;> simp
    constructor
    · rintro ⟨z, h1, h2⟩
      obtain ⟨s, h3, rfl⟩ := (hone z).1 h1
      have hbad : y.2 = false := bad_mono cx 0 _ _ _ _ _ h2
      unfold compileFile1 at h3
      rw [fileWith_iff] at h3
      refine ⟨(s, false), ?_, by simpa [hbad] using h2⟩
      rw [hbad, ← lines_level cx 1 0 _ _ _ hno]
      exact h3
    · rintro ⟨z, h1, h2⟩
      obtain ⟨s, b⟩ := z
      have hb2 : b = false := bad_mono cx 0 _ _ _ _ _ h2
      subst hb2
      have hbad : y.2 = false := bad_mono cx 0 _ _ _ _ _ h1
      refine ⟨(s, false), (hone _).2 ⟨s, ?_, by rw [hbad]⟩, h2⟩
      unfold compileFile1
      rw [fileWith_iff, lines_level cx 1 0 _ (compileFile1 cx) _ hno, ← hbad]
      rw [hbad] at h1 ⊢
      exact h1
  unfold compileFilter
  generalize hst0 : (⟨filterPrefix cx, [], [], []⟩ : CState) = st0
  have key := key st0
  cases h1 : compileFile0 cx (before ++ (line ++ ['\n']) ++ after) st0 with
  | ok s => rw [(key s).1 h1]
  | _ =>
    have : ∀ s, compileFile0 cx (before ++ file ++ after) st0 ≠ .ok s := by
      intro s hs; rw [(key s).2 hs] at h1; simp at h1
    cases h2 : compileFile0 cx (before ++ file ++ after) st0 with
    | ok s => exact absurd h2 (this s)
    | _ => simp

private theorem line_fails (cx : Ctx) (content : CStr) (line : CStr) (hl : line ∈ readLines content)
    (hfail : ∀ st bad x, compileLine cx 0 (compileFile1 cx) line st bad ≠ .ok x) (prog : List Insn) :
    compileFilter cx content ≠ .ok prog := by
  unfold compileFilter
  generalize hst0 : (⟨filterPrefix cx, [], [], []⟩ : CState) = st0
  have : ∀ s, compileFile0 cx content st0 ≠ .ok s := by
    intro s hs
    unfold compileFile0 at hs
    rw [fileWith_iff] at hs
    obtain ⟨a, b, e⟩ := List.append_of_mem hl
    rw [e, lines_append] at hs
    obtain ⟨y, _, h2⟩ := hs
    simp only [compileLines] at h2
    split at h2
    · next h3 => exact hfail _ _ _ h3
    all_goals simp at h2
  cases h2 : compileFile0 cx content st0 with
  | ok s => exact absurd h2 (this s)
  | _ => simp

/-- An include statement whose path is neither absolute nor starts with "./", or whose file cannot be read, makes
compilation fail, wherever it stands. -/
theorem C10_bad_path_fails (cx : Ctx) (content line path : CStr) (hl : line ∈ readLines content)
    (hline : Spec.trim line = "@include ".toList ++ path)
    (hbad : ¬ ("/".toList <+: path ∨ "./".toList <+: path) ∨ cx.fs path = none) (prog : List Insn) :
    compileFilter cx content ≠ .ok prog := by
  refine line_fails cx content line hl ?_ prog
  intro st bad x hx
  obtain ⟨h1, c, s, h2, _⟩ := (include_line cx line path hline _ st bad x).1 hx
  rcases hbad with h | h
  · exact h h1
  · rw [h] at h2; simp at h2

private theorem nested_line (cx : Ctx) (line : CStr) (hat : (Spec.trim line).head? = some '@')
    (hf : ¬ "@frequency".toList <+: Spec.trim line) (inc : CStr → CState → Res CState) (st : CState) (bad : Bool) (x : CState × Bool) :
    compileLine cx 1 inc line st bad ≠ .ok x := by
  have ht : strip line = Spec.trim line := rfl
  rw [← ht] at hat hf
  have hp : ∀ y, parseIncludeStatement (strip line) 1 ≠ .ok y := by
    intro y hy
    have := (parseInclude_ok hy).2.2
    omega
  unfold compileLine
  simp only
  split
  · next he => rw [he] at hat; simp at hat
  · next c r he =>
    rw [he] at hat
    simp only [List.head?_cons, Option.some.injEq] at hat
    subst hat
    simp only [show ¬ ('@' = '#') by decide, if_false, if_true]
    have h4 : ¬ (strip line).take 10 = "@frequency".toList :=
      fun h => hf (prefix_of_take (p := "@frequency".toList) h)
    rw [if_neg h4]
    simp

/-- An include statement inside an included file makes compilation fail; in particular a file that includes
itself. -/
theorem C10_nested_fails (cx : Ctx) (content line path file inner : CStr) (hl : line ∈ readLines content)
    (hline : Spec.trim line = "@include ".toList ++ path) (hfs : cx.fs path = some file)
    (hinner : inner ∈ readLines file) (hi : "@include".toList <+: Spec.trim inner) (prog : List Insn) :
    compileFilter cx content ≠ .ok prog := by
  refine line_fails cx content line hl ?_ prog
  intro st bad x hx
  obtain ⟨_, c, s, h2, h3, _⟩ := (include_line cx line path hline _ st bad x).1 hx
  rw [hfs, Option.some.injEq] at h2
  subst h2
  unfold compileFile1 at h3
  rw [fileWith_iff] at h3
  obtain ⟨a, b, e⟩ := List.append_of_mem hinner
  rw [e, lines_append] at h3
  obtain ⟨y, _, h4⟩ := h3
  obtain ⟨r, hr⟩ := hi
  simp only [compileLines] at h4
  split at h4
  · next h5 =>
    refine nested_line cx inner ?_ ?_ _ _ _ _ h5
    · rw [← hr]; rfl
    · rw [← hr]; simp
  all_goals simp at h4

private theorem compileLine_inc (cx : Ctx) (inc inc' : CStr → CState → Res CState) (l : CStr) (st : CState) (bad : Bool)
    (lvl : Nat) (h : 0 < lvl) : compileLine cx lvl inc l st bad = compileLine cx lvl inc' l st bad := by
  unfold compileLine
  have : parseIncludeStatement (strip l) lvl = .fail := by
    cases hp : parseIncludeStatement (strip l) lvl with
    | ok y => have := (parseInclude_ok hp).2.2; omega
    | fail => rfl
    | die => unfold parseIncludeStatement at hp; repeat' split at hp; all_goals simp at hp
    | ub => unfold parseIncludeStatement at hp; repeat' split at hp; all_goals simp at hp
  simp only [this]

private theorem compileLines_inc (cx : Ctx) (inc inc' : CStr → CState → Res CState) (ls : List CStr) (st : CState) (bad : Bool)
    (lvl : Nat) (h : 0 < lvl) : compileLines cx lvl inc ls st bad = compileLines cx lvl inc' ls st bad := by
  induction ls generalizing st bad with
  | nil => rfl
  | cons l ls ih =>
    simp only [compileLines]
    rw [compileLine_inc cx inc inc' l st bad lvl h]
    split
    · exact ih _ _
    all_goals rfl

/-- Compilation terminates, whatever the files contain and however they include each other: the recursion of
`compile_file` is never deeper than two calls, so any bound from two on gives the result of the model. -/
theorem C10_terminates (cx : Ctx) (fuel : Nat) (h : 2 ≤ fuel) : compileFileRec cx fuel 0 = compileFile0 cx := by
  obtain ⟨n, rfl⟩ : ∃ n, fuel = n + 2 := ⟨fuel - 2, by omega⟩
  have h1 : compileFileRec cx (n + 1) 1 = compileFile1 cx := by
    funext c st
    unfold compileFileRec compileFile1 compileFileWith
    rw [compileLines_inc cx _ (fun _ _ => .fail) _ _ _ 1 (by omega)]
  funext c st
  unfold compileFileRec compileFile0
  rw [h1]

private def exLine : CStr := "  @include /inc ".toList

/-- The example include: the hypotheses of `C10_splice` hold. -/
example (prog : List Insn) :
    compileFilter exCx ("read: 1\n".toList ++ (exLine ++ ['\n']) ++ "open: 1\n".toList) = .ok prog ↔
      compileFilter exCx ("read: 1\n".toList ++ "prctl: arg0 == PR_A; return 5\n".toList ++ "open: 1\n".toList) = .ok prog := by
  refine C10_splice exCx _ exLine _ "/inc".toList _ prog (.inr ⟨"read: 1".toList, by decide, by decide⟩) (by decide)
    (by decide) (by decide) (.inl (by decide)) (by decide) (.inr ⟨"prctl: arg0 == PR_A; return 5".toList, by decide, by decide⟩) ?_
  · rw [readLines_eq_logicalLines]; unfold Spec.NoInclude; decide

/-- A file that includes itself. -/
example : compileFilter { exCx with fs := fun _ => some "@include /a\n".toList } "@include /a\n".toList = .fail := by
  decide +kernel

end Minijail
