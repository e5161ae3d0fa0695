import Verif.Model.Res
import Verif.Model.CString
/-! util.c: string helpers, constant expressions, sizes and lines. -/
set_option linter.unusedVariables false
set_option autoImplicit false
namespace Minijail

/-- `strip`, util.c:440-450. -/
def strip (s : CStr) : CStr :=
  ((s.dropWhile isblank).reverse.dropWhile (fun c => isblank c || c == '\n')).reverse

/-- `tokenize`, util.c:452-486: `none` is NULL; otherwise the token and the new `*stringp`. -/
def tokenize (stringp : Option CStr) (delim : CStr) : Option (CStr × Option CStr) :=
  match stringp with
  | none => none
  | some s =>
    if delim = [] then some (s, none)
    else match strstr delim s with
      | none => some (s, none)
      | some (a, b) => some (a, some b)

theorem strstr_length {needle s a b : CStr} (h : strstr needle s = some (a, b)) :
    s.length = a.length + needle.length + b.length := by
  induction s generalizing a b with
  | nil =>
    simp only [strstr] at h
    split at h
    · next hn => simp at h; obtain ⟨rfl, rfl⟩ := h; simp [hn]
    · simp at h
  | cons c s ih =>
    simp only [strstr] at h
    split at h
    · next hp =>
      simp only [Option.some.injEq, Prod.mk.injEq] at h
      obtain ⟨rfl, rfl⟩ := h
      have := (List.isPrefixOf_iff_prefix.1 hp).length_le
      simp only [List.length_nil, List.length_drop]; omega
    · cases h1 : strstr needle s with
      | none => simp [h1] at h
      | some x =>
        obtain ⟨a', b'⟩ := x
        simp only [h1, Option.map_some, Option.some.injEq, Prod.mk.injEq] at h
        obtain ⟨rfl, rfl⟩ := h
        have := ih h1
        simp only [List.length_cons]; omega

/-- The loops `while ((tok = tokenize(&str, delim)) != NULL)` at syscall_filter.c:447 and 450: all tokens. -/
def tokenizeAll (delim : CStr) (s : CStr) : List CStr :=
  if hd : delim = [] then [s]
  else match h : strstr delim s with
    | none => [s]
    | some (a, b) => a :: tokenizeAll delim b
termination_by s.length
decreasing_by
  have := strstr_length h
  have : 0 < delim.length := List.length_pos_iff.2 hd
  omega

/-- `tokenize_parenthesized_expression`, util.c:268-301, after the opening parenthesis (the scanning loop,
util.c:282-296): the text inside the parentheses and the text after the matching one; `none` is NULL. -/
def closeParen : (parenCount : Nat) → CStr → Option (CStr × CStr)
  | _, [] => none
  | n, c :: s =>
    if c = '(' then (closeParen (n + 1) s).map fun (a, b) => (c :: a, b)
    else if c = ')' then
      if n - 1 = 0 then some ([], s) else (closeParen (n - 1) s).map fun (a, b) => (c :: a, b)
    else (closeParen n s).map fun (a, b) => (c :: a, b)

theorem closeParen_length {n : Nat} {s a b : CStr} (h : closeParen n s = some (a, b)) :
    s.length = a.length + 1 + b.length := by
  induction s generalizing a b n with
  | nil => simp [closeParen] at h
  | cons c s ih =>
    simp only [closeParen] at h
    have key : ∀ m, (closeParen m s).map (fun (x : CStr × CStr) => (c :: x.1, x.2)) = some (a, b) →
        (c :: s).length = a.length + 1 + b.length := by
      intro m hm
      cases h1 : closeParen m s with
      | none => simp [h1] at hm
      | some x =>
        obtain ⟨a', b'⟩ := x
        simp only [h1, Option.map_some, Option.some.injEq, Prod.mk.injEq] at hm
        obtain ⟨rfl, rfl⟩ := hm
        have := ih h1
        simp only [List.length_cons]; omega
    split at h
    · exact key _ h
    · split at h
      · split at h
        · simp only [Option.some.injEq, Prod.mk.injEq] at h
          obtain ⟨rfl, rfl⟩ := h
          simp only [List.length_cons, List.length_nil]; omega
        · exact key _ h
      · exact key _ h

/-- The generated constant table (libconstants.h:8-13): names and `unsigned long` values of `w` bits. -/
abbrev ConstTable (w : Nat) := List (CStr × BitVec w)

/-- `parse_single_constant`, util.c:222-266, with a `w`-bit `long`. `none` is the error convention
`*endptr == constant_str`. -/
def parseSingleConstant {w : Nat} (tbl : ConstTable w) (s : CStr) : Option (BitVec w) :=
  match tbl.find? (fun e => e.1 == s) with
  | some e => if s = [] then none else some e.2
  | none =>
    match strtol w 0 s with
    | none => none
    | some r =>
      if r.erange then
        if r.val = 2 ^ (w - 1) - 1 then
          match strtoul w 0 s with
          | none => none
          | some r' => if r'.erange then none else if r'.rest ≠ [] then none else some (BitVec.ofInt w r'.val)
        else none
      else if r.rest ≠ [] then none
      else some (BitVec.ofInt w r.val)

/-- The loop of `parse_constant`, util.c:335-386. `acc` is `none` before the first iteration (then
`lastpos == constant_str`, the error convention) and the value so far afterwards. `none` is an error. -/
def parseConstantLoop {w : Nat} (tbl : ConstTable w) (s : CStr) (acc : Option (BitVec w)) : Option (BitVec w) :=
  if hs : s = [] then acc
  else
    let negate := s.head? = some '~'
    let s1 := if negate then s.tail else s
    let fin (v : BitVec w) : BitVec w := (acc.getD 0) ||| (if negate then ~~~v else v)
    if hp : s1.head? = some '(' then
      match hc : closeParen 1 s1.tail with
      | none => none
      | some (group, rest) =>
        match parseConstantLoop tbl group none with
        | none => none
        | some v =>
          if hr : rest = [] then some (fin v)
          else if rest.head? ≠ some '|' then none
          else if rest.tail = [] then none
          else parseConstantLoop tbl rest.tail (some (fin v))
    else
      match ht : strstr ['|'] s1 with
      | none => (parseSingleConstant tbl s1).map fin
      | some (tok, rest) =>
        match parseSingleConstant tbl tok with
        | none => none
        | some v => parseConstantLoop tbl rest (some (fin v))
termination_by s.length
decreasing_by
  all_goals
    have hs' : 0 < s.length := List.length_pos_iff.2 hs
    have h1 : s1.length ≤ s.length := by
      simp only [s1]; split <;> simp
  · have := closeParen_length hc
    simp only [List.length_tail] at this
    omega
  · have := closeParen_length hc
    have h0 : 0 < rest.length := List.length_pos_iff.2 hr
    simp only [List.length_tail] at this ⊢
    omega
  · have := strstr_length ht
    simp only [List.length_cons, List.length_nil] at this
    omega

/-- `parse_constant`, util.c:303-390. `none` is the error convention `*endptr == constant_str`. -/
def parseConstant {w : Nat} (tbl : ConstTable w) (s : CStr) : Option (BitVec w) := parseConstantLoop tbl s none

theorem getline_length {s l rest : CStr} (h : getline s = some (l, rest)) :
    s.length = l.length + rest.length ∧ 0 < l.length := by
  induction s generalizing l rest with
  | nil => simp [getline] at h
  | cons c s ih =>
    simp only [getline] at h
    split at h
    · simp at h; obtain ⟨rfl, rfl⟩ := h; simp; omega
    · split at h
      · next h1 =>
        simp at h; obtain ⟨rfl, rfl⟩ := h
        cases s with
        | nil => simp
        | cons d s =>
          simp only [getline] at h1
          split at h1
          · simp at h1
          · split at h1 <;> simp at h1
      · next l' rest' h1 =>
        simp at h; obtain ⟨rfl, rfl⟩ := h
        have := ih h1
        simp only [List.length_cons]; omega

/-- "Eat the newline", util.c:652-653. -/
def eatNewline (l : CStr) : CStr := if l.getLast? = some '\n' then l.dropLast else l

/-- `getmultiline`, util.c:644-678, on the unread part of a stream: the logical line and what remains;
`none` is -1. When the continuation of a line cannot be read, everything was consumed, so the stream is at its
end (`feof`). -/
def getmultiline (s : CStr) : Option (CStr × CStr) :=
  match h : getline s with
  | none => none
  | some (l, rest) =>
    let line := eatNewline l
    if line.getLast? = some '\\' then
      match getmultiline rest with
      | none => none
      | some (next, rest') => some (line.dropLast ++ ' ' :: next, rest')
    else some (line, rest)
termination_by s.length
decreasing_by have := getline_length h; omega

theorem getmultiline_length (n : Nat) : ∀ {s l rest : CStr}, s.length ≤ n → getmultiline s = some (l, rest) →
    rest.length < s.length := by
  induction n with
  | zero =>
    intro s l rest hn h
    have : s = [] := List.eq_nil_of_length_eq_zero (by omega)
    subst this
    rw [getmultiline] at h; simp [getline] at h
  | succ n ih =>
    intro s l rest hn h
    rw [getmultiline] at h
    split at h
    · simp at h
    · next l0 rest0 hg =>
      have hl := getline_length hg
      simp only at h
      split at h
      · split at h
        · simp at h
        · next next rest' hm =>
          simp only [Option.some.injEq, Prod.mk.injEq] at h
          obtain ⟨-, rfl⟩ := h
          have := ih (by omega) hm
          omega
      · simp only [Option.some.injEq, Prod.mk.injEq] at h
        obtain ⟨-, rfl⟩ := h
        omega

/-- The reading loop `while (getmultiline(...) != -1)` (syscall_filter.c:595, config_parser.c:105): all lines
delivered for a file with the given content. -/
def readLines (s : CStr) : List CStr :=
  match h : getmultiline s with
  | none => []
  | some (l, rest) => l :: readLines rest
termination_by s.length
decreasing_by exact getmultiline_length s.length (Nat.le_refl _) h

end Minijail
