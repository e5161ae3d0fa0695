import Verif.Proof.CommonPy
import Verif.Spec.OfflineMeaning
import Verif.Proof.Lex
/-! The offline compiler reads the common policies as they are written: rules, lines, files. -/
set_option autoImplicit false
set_option linter.unusedSimpArgs false
namespace Minijail
open Spec Offline

theorem joined_becomes {α β : Type} {sep : Token} {R : List Char → α → Prop} {P : List Token → β → Prop} {f : α → β}
    (hsep : TokShape sep) (hs1 : sep.type ≠ .op) (hs2 : sep.type ≠ .bitOr) (hend : ∀ s, WordEnds (sep.value ++ s)) (hstop : ∀ s, Stops sep s)
    (hR : ∀ s x, R s x → ∃ ts, P ts (f x) ∧ Becomes s ts) {s : List Char} {l : List α} (h : Joined sep.value R s l) :
    ∃ ts, SepBy sep.type P ts (l.map f) ∧ Becomes s ts := by
  induction h with
  | one h =>
    obtain ⟨ts, h1, h2⟩ := hR _ _ h
    exact ⟨ts, .one h1, h2⟩
  | @more s x r xs n m h _ ih =>
    obtain ⟨ts, h1, h2⟩ := hR _ _ h
    obtain ⟨us, h3, h4⟩ := ih
    refine ⟨ts ++ sep :: us, .more h1 rfl h3, ?_⟩
    intro vs rest hr hl
    have h5 := laid_gaps (spaces_blanks m) (h4 vs rest hr hl)
    have h6 := laid_gaps (spaces_blanks n) (Laid.tok hsep (hstop _) h5)
    have := h2 _ _ (wordEnds_gaps (spaces_blanks n) (hend _)) h6
    simpa using this

/-- The condition and the action of a rule. -/
def pyGuard : Rule → Guarded
  | .allow => (none, .allow)
  | .block (.errno v) => (none, .returnErrno v)
  | .block _ => (none, .allow)
  | .filter f _ => (some (f.map (List.map pyAtom)), .allow)

theorem rule_becomes {T : CommonTables} {g : Settings} (ha : ArchFits T g.arch) (hd : g.denylist = false) (hr : g.retLog = false) {dflt : Spec.Action} {s : List Char} {r : Rule}
    (h : CommonRule T dflt s r) : ∃ ts, SingleFilterT g ts (pyGuard r) ∧ Becomes s ts := by
  cases h with
  | allow =>
    have hl : Literal "1".toList 1 := .dec (by decide) ((digits_iff 10 (by decide) _ _).2 ⟨by decide, by decide⟩)
    have hlt : 1 < 2 ^ T.bits := by
      have := Nat.pow_lt_pow_right (a := 2) (by decide) ha.wide
      simpa using this
    have hlt' : ((1 : Nat) : Int) < 2 ^ g.arch.bits := by rw [ha.bits]; exact_mod_cast hlt
    refine ⟨[⟨.numeric, "1".toList⟩], .always (.one hd rfl ?_), becomes_tok (.number hl) (by simp) (by simp)⟩
    refine ⟨(1 : Nat), .inr ⟨rfl, .plain (literal_numeral hl)⟩, ?_, hlt', ?_⟩
    · have : (0 : Int) ≤ 2 ^ (g.arch.bits - 1) := Int.pow_nonneg (by decide)
      omega
    · rw [Int.emod_eq_of_lt (by omega) hlt']
  | @errno c v n hc hv =>
    obtain ⟨t, h1, h2⟩ := single_becomes ha hc
    refine ⟨[⟨.ret, "return".toList⟩, t], .always (.errno rfl hr h1), ?_⟩
    intro us rest hw hl
    have h3 := laid_gaps (spaces_blanks (n + 1)) (h2 us rest hw hl)
    have h4 := Laid.tok (t := ⟨.ret, "return".toList⟩) .ret
      ⟨fun _ => by
        rw [show spaces (n + 1) = ' ' :: spaces n from rfl]
        exact wordEnds_blank (.inl rfl) _, by simp, by simp⟩ h3
    simpa using h4
  | @filter s f hj =>
    obtain ⟨ts, h1, h2⟩ := joined_becomes (sep := ⟨.or, "||".toList⟩) (P := ClauseT g.arch) (f := List.map pyAtom) .or (by simp) (by simp)
      (fun s => wordEnds_char (by decide) _) (fun s => ⟨by simp, by simp, by simp⟩)
      (fun s x hx => joined_becomes (sep := ⟨.and, "&&".toList⟩) (P := AtomT g.arch) (f := pyAtom) .and (by simp) (by simp)
        (fun s => wordEnds_char (by decide) _) (fun s => ⟨by simp, by simp, by simp⟩) (fun s x hx => atom_becomes ha hx) hx) hj
    exact ⟨ts, .allow h1, h2⟩

/-! ### Statements -/

/-- A statement of the offline compiler. -/
def pyEntry (T : CommonTables) (x : List Char × Rule) : PyEntry := .rule [⟨x.1, (T.syscall x.1).getD 0⟩] [pyGuard x.2]

theorem statement_laid {T : CommonTables} {g : Settings} (ha : ArchFits T g.arch) (hd : g.denylist = false) (hr : g.retLog = false) {dflt : Spec.Action} {s : List Char}
    {x : List Char × Rule} {nr : Nat} (h : CommonStatement T dflt s x) (hn : T.syscall x.1 = some nr) :
    ∃ ts, Laid ts s ∧ ts ≠ [] ∧ StatementT g ts [⟨x.1, nr⟩] [pyGuard x.2] := by
  cases h with
  | @mk b0 name b1 b2 rhs r b3 h0 hw hres h1 h2 hrule h3 =>
    obtain ⟨us, hu, hb⟩ := rule_becomes ha hd hr hrule
    have hname : ∃ t : Token, t.value = name ∧ (t.type = .identifier ∨ t.value = "kill".toList) ∧ Becomes name [t] := by
      by_cases hk : name = "kill".toList
      · subst hk
        exact ⟨⟨.action, "kill".toList⟩, rfl, .inr rfl, becomes_tok .kill (by simp) (by simp)⟩
      · exact ⟨⟨.identifier, name⟩, rfl, .inl rfl, becomes_tok (.identifier hw hres hk) (by simp) (by simp)⟩
    obtain ⟨t, hv, ht, htb⟩ := hname
    have hend : Laid [] b3 := by simpa using laid_gaps h3 Laid.nil
    have hwe : WordEnds b3 := by simpa using wordEnds_gaps h3 wordEnds_nil
    have l1 := laid_gaps h2 (hb [] b3 hwe hend)
    have l2 : Laid (⟨.colon, ":".toList⟩ :: (us ++ [])) (':' :: (b2 ++ (rhs ++ b3))) := Laid.tok (t := ⟨.colon, ":".toList⟩) .colon ⟨by simp, by simp, by simp⟩ l1
    have l3 := laid_gaps h1 l2
    have l4 := laid_gaps h0 (htb _ _ (wordEnds_gaps h1 (wordEnds_char (by decide) _)) l3)
    refine ⟨t :: ⟨.colon, ":".toList⟩ :: us, by simpa using l4, by simp, ?_⟩
    refine StatementT.mk (ts := [t]) (.one (.plain ht (.inl ⟨?_, nr, ?_, ?_⟩))) rfl (.one hu)
    · rw [hv]; exact word_not hw (by decide)
    · rw [hv]; exact ha.syscall _ _ hn
    · rw [hv]

/-! ### Lines -/

theorem pyLines_cons {a : List Char} (h : '\n' ∉ a) (h' : '\r' ∉ a) (x : List Char) : pyLines (a ++ '\n' :: x) = a :: pyLines x := by
  induction a with
  | nil => simp [pyLines]
  | cons c a ih =>
    simp only [List.mem_cons, not_or] at h h'
    rw [List.cons_append, pyLines]
    · rw [ih h.2 h'.2]
    · intro hc; exact h.1 hc.symm
    · intro s hc; exact fun _ => h'.1 hc.symm
    · intro hc; exact h'.1 hc.symm

theorem laid_split {ts : List Token} {s : List Char} (h : Laid ts s) : ∀ a b, s = a ++ ' ' :: b → ∃ ts1 ts2, ts = ts1 ++ ts2 ∧ Laid ts1 (a ++ ['\\']) ∧ Laid ts2 b := by
  induction h with
  | nil => intro a b h; simp at h
  | backslash =>
    intro a b h
    cases a with
    | nil => simp at h
    | cons c a => simp at h
  | @gap c ts s hc h ih =>
    intro a b e
    cases a with
    | nil =>
      simp at e
      refine ⟨[], ts, rfl, .backslash, ?_⟩
      rw [← e.2]; exact h
    | cons x a =>
      simp at e
      obtain ⟨ts1, ts2, h1, h2, h3⟩ := ih a b e.2
      refine ⟨ts1, ts2, h1, ?_, h3⟩
      rw [← e.1]
      exact .gap hc h2
  | @tok t ts s ht hs h ih =>
    intro a b e
    have hsp := (shape_facts ht).2.1
    rcases List.append_eq_append_iff.1 e with ⟨a', e1, e2⟩ | ⟨c', e1, e2⟩
    · obtain ⟨ts1, ts2, h1, h2, h3⟩ := ih a' b e2
      refine ⟨t :: ts1, ts2, by rw [h1]; rfl, ?_, h3⟩
      rw [e1, List.append_assoc]
      refine .tok ht ?_ h2
      rw [e2] at hs
      cases a' with
      | nil =>
        refine ⟨fun _ => wordEnds_char (by decide) _, fun _ c hc => ?_, fun _ => by simp⟩
        simp at hc; exact .inr (.inr hc.symm)
      | cons c a' =>
        exact ⟨fun h => by
          intro x hx
          exact hs.1 h x (by simpa using hx), fun h x hx => hs.2.1 h x (by simpa using hx), fun h hx => hs.2.2 h (by simpa using hx)⟩
    · cases c' with
      | nil =>
        simp at e2
        obtain ⟨ts1, ts2, h1, h2, h3⟩ := ih [] b (by simpa using e2.symm)
        refine ⟨t :: ts1, ts2, by rw [h1]; rfl, ?_, h3⟩
        rw [List.append_nil] at e1
        rw [← e1]
        refine .tok ht ?_ h2
        refine ⟨fun _ => wordEnds_char (by decide) _, fun _ c hc => ?_, fun _ => by simp⟩
        simp at hc; exact .inr (.inr hc.symm)
      | cons c c' =>
        simp at e2
        exfalso
        apply hsp
        rw [e1, ← e2.1]
        simp

/-- A statement gives its tokens, on how many lines it may be written. -/
theorem tokenize_written {s p : List Char} (h : Written s p) : ∀ ts acc, Laid ts s → '\n' ∉ s → '\r' ∉ s → '\\' ∉ s → ∀ text,
    tokenizeLines acc (pyLines (p ++ '\n' :: text)) =
      (tokenizeLines [] (pyLines text)).map fun rest => if acc ++ ts = [] then rest else (acc ++ ts) :: rest := by
  induction h with
  | @plain s =>
    intro ts acc hl h1 h2 h3 text
    rw [pyLines_cons h1 h2]
    simp only [tokenizeLines]
    rw [lex_laid _ ts s false (Nat.le_refl _) hl (by simp)]
    simp only [Option.bind_eq_bind, Option.bind_some]
    rw [if_neg (fun h => h3 (List.mem_of_getLast? h))]
    cases tokenizeLines [] (pyLines text) <;> simp
  | @cut a s p _ ih =>
    intro ts acc hl h1 h2 h3 text
    simp only [List.mem_append, List.mem_cons, not_or] at h1 h2 h3
    obtain ⟨ts1, ts2, e, l1, l2⟩ := laid_split hl a s rfl
    rw [show a ++ '\\' :: '\n' :: p ++ '\n' :: text = (a ++ ['\\']) ++ '\n' :: (p ++ '\n' :: text) by simp]
    rw [pyLines_cons (by simp [h1.1]) (by simp [h2.1])]
    simp only [tokenizeLines]
    rw [lex_laid _ ts1 _ false (Nat.le_refl _) l1 (by simp)]
    simp only [Option.bind_eq_bind, Option.bind_some]
    rw [if_pos (by simp), ih ts2 _ l2 h1.2.2 h2.2.2 h3.2.2, e, List.append_assoc]

/-- A line that gives `ts` alone. -/
theorem tokenize_line {line : List Char} {ts : List Token} (hl : lexLine line.length false line = some ts) (h1 : '\n' ∉ line) (h2 : '\r' ∉ line)
    (h3 : line.getLast? ≠ some '\\') (text : List Char) :
    tokenizeLines [] (pyLines (line ++ '\n' :: text)) = (tokenizeLines [] (pyLines text)).map fun rest => if ts = [] then rest else ts :: rest := by
  rw [pyLines_cons h1 h2]
  simp only [tokenizeLines]
  rw [hl]
  simp only [Option.bind_eq_bind, Option.bind_some, List.nil_append]
  rw [if_neg h3]
  cases tokenizeLines [] (pyLines text) <;> simp

theorem tokenAt_hash (prev : Bool) {s : List Char} (h : '\n' ∉ s) : tokenAt prev ('#' :: s) = some (none, s.length + 1) := by
  simp [tokenAt, h]

theorem lex_hash (n : Nat) (prev : Bool) {s : List Char} (h : '\n' ∉ s) : lexLine (n + 1) prev ('#' :: s) = some [] := by
  rw [lexLine]
  · rw [tokenAt_hash prev h]
    simp [lexLine]
  all_goals simp

theorem blank_space {c : Char} (h : isBlank c) : isPySpace c = true := by rcases h with rfl | rfl <;> decide

/-- Blanks in front of something. -/
theorem lex_blanks {b s : List Char} {ts : List Token} (hb : Blanks b) (hs : ∀ c, s.head? = some c → isPySpace c = false)
    {n : Nat} (h : ∀ prev, lexLine (n + 1) prev s = some ts) (hmono : ∀ prev, lexLine n prev s = some ts) (prev : Bool) : lexLine (n + 1) prev (b ++ s) = some ts := by
  cases b with
  | nil => exact h prev
  | cons c b =>
    have ht : (c :: b ++ s).takeWhile isPySpace = c :: b := takeWhile_run (fun c hc => blank_space (hb c hc)) hs
    rw [List.cons_append, lexLine]
    · rw [tokenAt_blank (hb c (by simp)), ← List.cons_append, ht]
      simp only [Option.bind_eq_bind, Option.bind_some, List.length_cons]
      rw [show b.length + 1 = (c :: b).length from rfl, List.drop_left, hmono]
      rfl
    all_goals simp

theorem lex_comment {b s : List Char} (hb : Blanks b) (hn : '\n' ∉ s) : lexLine (b ++ '#' :: s).length false (b ++ '#' :: s) = some [] := by
  cases b with
  | nil => exact lex_hash _ _ hn
  | cons c b =>
    rw [show (c :: b ++ '#' :: s).length = (b.length + s.length + 1) + 1 by simp; omega]
    exact lex_blanks hb (by simp; decide) (fun prev => lex_hash _ _ hn) (fun prev => lex_hash _ _ hn) false

/-! ### Included files -/

theorem splitSlash_part {p : List Char} (h : '/' ∉ p) (x : List Char) : splitSlash (p ++ '/' :: x) = p :: splitSlash x := by
  induction p with
  | nil => simp [splitSlash]
  | cons c p ih =>
    simp only [List.mem_cons, not_or] at h
    rw [List.cons_append, splitSlash, if_neg (fun e => h.1 e.symm), ih h.2]

theorem splitSlash_all {p : List Char} (h : '/' ∉ p) : splitSlash p = [p] := by
  induction p with
  | nil => rfl
  | cons c p ih =>
    simp only [List.mem_cons, not_or] at h
    rw [splitSlash, if_neg (fun e => h.1 e.symm), ih h.2]

theorem splitSlash_parts : ∀ parts : List (List Char), (∀ p ∈ parts, '/' ∉ p) → parts ≠ [] → splitSlash (parts.map ('/' :: ·)).flatten = [] :: parts := by
  intro parts h hne
  have key : ∀ (p : List Char) (ps : List (List Char)), (∀ q ∈ p :: ps, '/' ∉ q) → splitSlash (p ++ (ps.map ('/' :: ·)).flatten) = p :: ps := by
    intro p ps
    induction ps generalizing p with
    | nil => intro h; simpa using splitSlash_all (h p (by simp))
    | cons q qs ih =>
      intro h
      simp only [List.map_cons, List.flatten_cons, List.cons_append]
      rw [splitSlash_part (h p (by simp)), ih q fun x hx => h x (by simp at hx ⊢; tauto)]
  cases parts with
  | nil => simp at hne
  | cons p ps =>
    simp only [List.map_cons, List.flatten_cons, List.cons_append]
    rw [splitSlash, if_pos rfl, key p ps h]

theorem intercalate_parts : ∀ (p : List Char) (ps : List (List Char)), '/' :: List.intercalate ['/'] (p :: ps) = ((p :: ps).map ('/' :: ·)).flatten := by
  intro p ps
  induction ps generalizing p with
  | nil => simp [List.intercalate]
  | cons q qs ih =>
    have := ih q
    simp only [List.intercalate, List.intersperse, List.map_cons, List.flatten_cons, List.cons_append, List.nil_append] at this ⊢
    rw [this]

theorem resolve_straight {path : List Char} (h : StraightPath path) (filename : List Char) : resolve filename path = path := by
  obtain ⟨parts, hne, e, hp⟩ := h
  cases parts with
  | nil => simp at hne
  | cons p ps =>
    have hhead : path = '/' :: (p ++ (ps.map ('/' :: ·)).flatten) := by rw [e]; simp
    have hjoin : pathJoin (dirname filename) path = path := by
      unfold pathJoin
      rw [if_pos (by rw [hhead]; rfl)]
    unfold resolve
    rw [hjoin]
    obtain ⟨hp1, hp2, hp3, hp4⟩ := hp p (by simp)
    cases p with
    | nil => simp at hp1
    | cons c p =>
      have hc := (hp4 c (by simp)).1
      have hsl : (if path.head? ≠ some '/' then 0 else if path.take 2 = ['/', '/'] ∧ path.take 3 ≠ ['/', '/', '/'] then 2 else 1) = 1 := by
        rw [hhead]
        simp [hc]
      have hfold : ∀ (l acc : List (List Char)), (∀ q ∈ l, q ≠ [] ∧ q ≠ ".".toList ∧ q ≠ "..".toList) →
          l.foldl (fun (l : List CStr) comp =>
            if comp = [] ∨ comp = ['.'] then l
            else if comp ≠ ['.', '.'] ∨ ((1 : Nat) = 0 ∧ l = []) ∨ l.getLast? = some ['.', '.'] then l ++ [comp]
            else l.dropLast) acc = acc ++ l := by
        intro l
        induction l with
        | nil => intro acc _; simp
        | cons q l ih =>
          intro acc h
          obtain ⟨h1, h2, h3⟩ := h q (by simp)
          rw [List.foldl_cons, if_neg (by rintro (h | h); exact h1 h; exact h2 h), if_pos (.inl h3), ih _ fun x hx => h x (by simp [hx])]
          simp
      unfold normpath
      rw [if_neg (by rw [hhead]; simp)]
      simp only []
      rw [hsl]
      rw [e, splitSlash_parts _ (fun q hq hm => ((hp q hq).2.2.2 _ hm).1 rfl) (by simp), List.foldl_cons, if_pos (show ([] : List Char) = [] ∨ ([] : List Char) = ['.'] from .inl rfl), hfold _ _ fun q hq => ⟨(hp q hq).1, (hp q hq).2.1, (hp q hq).2.2.1⟩]
      rw [List.nil_append]
      show (if '/' :: List.intercalate ['/'] ((c :: p) :: ps) = [] then ['.'] else '/' :: List.intercalate ['/'] ((c :: p) :: ps)) = _
      rw [if_neg (by simp), intercalate_parts]

/-! ### Files -/

theorem printable_space {c : Char} (h : 33 ≤ c.toNat) : isPySpace c = false := by
  cases hsp : isPySpace c with
  | false => rfl
  | true =>
    simp [isPySpace] at hsp
    rcases hsp with rfl | rfl | rfl | rfl | rfl | rfl | rfl | rfl | rfl | rfl <;> revert h <;> decide

theorem lex_include {path b : List Char} (h : StraightPath path) (hb : Blanks b) :
    lexLine ("@include ".toList ++ path ++ b).length false ("@include ".toList ++ path ++ b) = some [⟨.include, "@include".toList⟩, ⟨.path, path⟩] := by
  obtain ⟨⟨q, hq⟩, hchars⟩ := straight_facts h
  have hq' : path = '/' :: q := hq.symm
  have hqne : q ≠ [] := by
    rintro rfl
    obtain ⟨parts, hne, e, hp⟩ := h
    cases parts with
    | nil => simp at hne
    | cons x xs =>
      rw [hq'] at e
      simp at e
      exact (hp x (by simp)).1 e.1
  have hsp : ∀ c ∈ path, isPySpace c = false := fun c hc => printable_space (hchars c hc).2.1
  have hbs : ∀ c, b.head? = some c → isPySpace c = true := fun c hc => blank_space (hb c (List.mem_of_mem_head? hc))
  have e1 : tokenAt false ("@include ".toList ++ path ++ b) = some (some .include, 8) := by
    simp [tokenAt, literalAt, runAt, isPySpace, List.isPrefixOf, boundary, isPyWord]
  have e2 : ∀ prev, tokenAt prev (' ' :: (path ++ b)) = some (none, 1) := by
    intro prev
    rw [tokenAt_blank (.inl rfl)]
    rw [show ' ' :: (path ++ b) = [' '] ++ (path ++ b) from rfl, takeWhile_run (by simp; decide)]
    · rfl
    · rw [hq']
      simp; decide
  have e3 : ∀ prev, tokenAt prev (path ++ b) = some (some .path, path.length) := by
    intro prev
    have hrun : runAt (fun c => !isPySpace c) (q ++ b) = some q.length :=
      runAt_run hqne (fun c hc => by simpa using hsp c (by rw [hq']; simp [hc])) (fun c hc => by simpa using hbs c hc)
    have h0 : runAt isPySpace ('/' :: (q ++ b)) = none := by simp [runAt, isPySpace]
    rw [hq', List.cons_append]
    simp [tokenAt, literalAt, List.isPrefixOf, pathAt, hrun, h0]
  have e4 : ∀ n prev, b.length ≤ n → lexLine n prev b = some [] := by
    intro n prev hn
    refine lex_laid _ _ _ _ hn (by simpa using laid_gaps hb Laid.nil) fun _ => ?_
    simpa using wordEnds_gaps hb wordEnds_nil
  have e5 : ∀ n prev, b.length ≤ n → lexLine (n + 1) prev (path ++ b) = some [⟨.path, path⟩] := by
    intro n prev hn
    rw [lexLine]
    · rw [e3]
      simp only [Option.bind_eq_bind, Option.bind_some]
      rw [List.drop_left, List.take_left, e4 _ _ hn]
      rfl
    · rw [hq']; simp
  have e6 : ∀ n prev, b.length ≤ n → lexLine (n + 2) prev (' ' :: (path ++ b)) = some [⟨.path, path⟩] := by
    intro n prev hn
    rw [lexLine]
    · rw [e2]
      simp only [Option.bind_eq_bind, Option.bind_some, List.drop_succ_cons, List.drop_zero]
      rw [e5 _ _ hn]
      rfl
    · simp
  rw [show ("@include ".toList ++ path ++ b).length = (6 + path.length + b.length + 2) + 1 by simp; omega]
  rw [lexLine]
  · rw [e1]
    simp only [Option.bind_eq_bind, Option.bind_some]
    rw [show ("@include ".toList ++ path ++ b).drop 8 = ' ' :: (path ++ b) by simp, e6 _ _ (by omega)]
    simp
  · simp

/-- A file means to the offline compiler what it is written for. -/
theorem lines_py {T : CommonTables} {g : Settings} (ha : ArchFits T g.arch) (hd : g.denylist = false) (hr : g.retLog = false) {dflt : Spec.Action}
    {fs : List Char → Option (List Char)} {incl : List Char → List (List Char × Rule) → Prop} {incl' : List Char → List PyEntry → Prop} {filename : List Char}
    {text : List Char} {rules : List (List Char × Rule)} (h : CommonLines T dflt incl text rules) (hs : ∀ x ∈ rules, (T.syscall x.1).isSome)
    (hi : ∀ path content added, T.files path = some content → incl content added → (∀ x ∈ added, (T.syscall x.1).isSome) → incl' path (added.map (pyEntry T))) :
    ∃ lines parts, Offline.tokenize text = some lines ∧ All₂ (fun l (p : List PyEntry × Bool) => PyLineT fs g false incl' filename l p.1 p.2) lines parts ∧
      rules.map (pyEntry T) = (parts.map Prod.fst).flatten := by
  induction h with
  | nil => exact ⟨[], [], rfl, .nil, rfl⟩
  | @statement s p x text rest hst hw _ ih =>
    obtain ⟨h1, h2, h3, -⟩ := statement_not hst
    obtain ⟨lines, parts, ht, hp, e⟩ := ih fun y hy => hs y (by simp [hy])
    obtain ⟨nr, hnr⟩ := Option.isSome_iff_exists.1 (hs x (by simp))
    obtain ⟨ts, hl, hne, hS⟩ := statement_laid ha hd hr hst hnr
    refine ⟨ts :: lines, ([.rule [⟨x.1, nr⟩] [pyGuard x.2]], false) :: parts, ?_, .cons (.rule hS (by simp)) hp, ?_⟩
    · unfold Offline.tokenize
      rw [tokenize_written hw ts [] hl h1 h3 h2]
      unfold Offline.tokenize at ht
      rw [ht]
      simp [hne]
    · simp only [List.map_cons, List.flatten_cons, List.cons_append, List.nil_append, pyEntry, hnr, Option.getD_some]
      rw [← e]
  | @blank b text rest hb _ ih =>
    obtain ⟨lines, parts, ht, hp, e⟩ := ih hs
    refine ⟨lines, parts, ?_, hp, e⟩
    have hl : lexLine b.length false b = some [] := lex_laid _ _ _ _ (Nat.le_refl _) (by simpa using laid_gaps hb Laid.nil) (by simp)
    unfold Offline.tokenize at ht ⊢
    rw [tokenize_line hl (blanks_not hb (by unfold isBlank; decide)) (blanks_not hb (by unfold isBlank; decide))
      (fun h => blanks_not hb (by unfold isBlank; decide) (List.mem_of_getLast? h)), ht]
    rfl
  | @comment b s text rest hb hn hr' hl _ ih =>
    obtain ⟨lines, parts, ht, hp, e⟩ := ih hs
    refine ⟨lines, parts, ?_, hp, e⟩
    unfold Offline.tokenize at ht ⊢
    rw [tokenize_line (lex_comment hb hn), ht]
    · rfl
    · simp only [List.mem_append, List.mem_cons, not_or]
      exact ⟨blanks_not hb (by unfold isBlank; decide), by decide, hn⟩
    · simp only [List.mem_append, List.mem_cons, not_or]
      exact ⟨blanks_not hb (by unfold isBlank; decide), by decide, hr'⟩
    · rw [getLast?_app (by simp)]
      cases s with
      | nil => simp
      | cons c s => simpa using hl
  | @include_ path content added b text rest hp hf hin hb _ ih =>
    obtain ⟨lines, parts, ht, hpp, e⟩ := ih fun y hy => hs y (by simp [hy])
    obtain ⟨hslash, hchars⟩ := straight_facts hp
    refine ⟨[⟨.include, "@include".toList⟩, ⟨.path, path⟩] :: lines, (added.map (pyEntry T), false) :: parts, ?_, .cons (.include_ rfl rfl ?_) hpp, ?_⟩
    · unfold Offline.tokenize at ht ⊢
      rw [tokenize_line (lex_include hp hb), ht]
      · rfl
      · simp only [List.mem_append, not_or]
        refine ⟨⟨by decide, fun h => ?_⟩, blanks_not hb (by unfold isBlank; decide)⟩
        have := (hchars _ h).2.1
        revert this; decide
      · simp only [List.mem_append, not_or]
        refine ⟨⟨by decide, fun h => ?_⟩, blanks_not hb (by unfold isBlank; decide)⟩
        have := (hchars _ h).2.1
        revert this; decide
      · intro h
        have hm := List.mem_of_getLast? h
        simp only [List.mem_append] at hm
        rcases hm with (hm | hm) | hm
        · revert hm; decide
        · exact (hchars _ hm).1 rfl
        · exact blanks_not hb (by unfold isBlank; decide) hm
    · rw [resolve_straight hp]
      exact hi _ _ _ hf hin fun y hy => hs y (by simp [hy])
    · simp [e]

/-- A policy means to the offline compiler what it is written for. -/
theorem policy_py {T : CommonTables} {g : Settings} (ha : ArchFits T g.arch) (hd : g.denylist = false) (hr : g.retLog = false) {dflt : Spec.Action}
    {fs : List Char → Option (List Char)} (hfs : ∀ p c, T.files p = some c → fs p = some c) {filename : List Char} {text : List Char} (hf : fs filename = some text)
    {rules : List (List Char × Rule)} (h : CommonPolicy T dflt text rules) (depth : Nat) : PyFileT fs g false (depth + 1) filename (rules.map (pyEntry T)) := by
  obtain ⟨h1, h2, h3⟩ := h
  unfold PyFileT
  obtain ⟨lines, parts, a, b, c⟩ := lines_py (fs := fs) (filename := filename) (incl' := PyFileT fs g false depth) ha hd hr h1 h3 (by
    intro path content added hp hin hs
    obtain ⟨lines, parts, a, b, c⟩ := lines_py (fs := fs) (filename := path) (incl' := match depth with
      | 0 => fun _ _ => False
      | depth + 1 => PyFileT fs g false depth) ha hd hr hin hs (fun _ _ _ _ h => h.elim)
    unfold PyFileT
    exact ⟨content, lines, parts, hfs _ _ hp, (tokenize_iff _ _).1 a, b, c, by simp [hd]⟩)
  exact ⟨text, lines, parts, hf, (tokenize_iff _ _).1 a, b, c, by simp [hd]⟩

end Minijail
