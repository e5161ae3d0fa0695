import Verif.Proof.OfflineUnique
import Verif.Proof.OfflineAccept
/-! Files of the language are accepted. -/
set_option linter.unusedSimpArgs false
set_option autoImplicit false
namespace Minijail.Offline
open Minijail.Spec

theorem frequencyNumber_complete {v : CStr} (h : FrequencyNumberT v) : ∃ n, frequencyNumber v = some n := by
  obtain ⟨s, k, hv, hn, hp⟩ := h
  have hp' := (plainNumeral_iff s).2 hp
  unfold frequencyNumber
  rcases hv with rfl | ⟨rfl, rfl⟩
  · rw [numericValue_of (.plain hn)]
    simp only [Option.bind_eq_bind, Option.bind_some]
    rw [if_neg (pyNumeral_head hn), if_pos ⟨hp', by omega⟩]
    exact ⟨_, rfl⟩
  · rw [numericValue_of (.minus hn)]
    simp only [Option.bind_eq_bind, Option.bind_some, List.head?_cons, if_true, List.tail_cons]
    rw [if_pos ⟨hp', by omega⟩]
    exact ⟨_, rfl⟩

theorem frequencyFile_complete {a : Arch} {text : CStr} (h : FrequencyT false a text) : ∃ l, parseFrequencyFile a text = some l := by
  obtain ⟨lines, ht, h⟩ := h
  unfold parseFrequencyFile
  rw [(tokenize_iff _ _).2 ht]
  simp only [Option.bind_eq_bind, Option.bind_some]
  clear ht
  induction lines with
  | nil => exact ⟨[], rfl⟩
  | cons l ls ih =>
    obtain ⟨y, hy⟩ := ih (fun l hl => h l (by simp [hl]))
    obtain ⟨ts, cs, c, n, extra, rfl, h1, h2, h3, h4, h5⟩ := h _ List.mem_cons_self
    obtain ⟨d, n', e, hd⟩ := (descriptor_reads h1).2 (c :: n :: extra) 0 (notIn_cons.2 (by rw [h2]; decide))
    obtain ⟨v, hv⟩ := frequencyNumber_complete h4
    unfold parseFrequencyLines parseFrequencyLine
    rw [e]
    simp [expect_cons h2, expect_cons h3, hv, hy]

/-- A reader of a file takes what means something, and returns its rules and its default. -/
def TakesFile (p : FState → Option (List Statement × FState)) (M : List PyEntry → Prop) : Prop :=
  ∀ es, M es → ∀ st, ∃ x, p st = some x ∧ rulesOf es = x.1.map entryOf

theorem line_accepts {fs : PyFiles} {g : Settings} {includes : CStr → FState → Option (List Statement × FState)} {incl : CStr → List PyEntry → Prop}
    (hi : ∀ f, TakesFile (includes f) (incl f)) {filename : CStr} {toks : List Token} {es : List PyEntry} {b : Bool} (hk : KillIsWord toks)
    (h : PyLineT fs g false incl filename toks es b) (st : FState) :
    ∃ x, parseLine fs g includes filename toks st = some x ∧ x.1.header = b ∧ rulesOf es = x.1.statements.map entryOf := by
  have stmt : ∀ {ts : List Token} {cs l}, StatementT g ts cs l → KillIsWord ts → ∃ t r y n', ts = t :: r ∧
      parseStatement g ⟨t :: r, st.next⟩ = some (y, ⟨[], n'⟩) ∧ y.syscalls = cs ∧ y.filters.map view = l ∧
      t.type ≠ .default ∧ t.type ≠ .include ∧ t.type ≠ .frequency ∧ t.type ≠ .denylist := by
    intro ts cs l h hk
    obtain ⟨t, r, rfl, ht⟩ := statement_head h hk
    obtain ⟨y, n', e, hv⟩ := (statement_reads h hk).2 [] st.next (notIn_nil _)
    rw [List.append_nil] at e
    simp only [Prod.mk.injEq] at hv
    refine ⟨t, r, y, n', rfl, e, hv.1, hv.2, ?_⟩
    rcases ht with ht | ht | ht <;> rw [ht] <;> decide
  cases h with
  | rule h hne =>
    obtain ⟨t, r, y, n', rfl, e, h1, h2, t1, t2, t3, t4⟩ := stmt h hk
    refine ⟨(⟨[y], false⟩, { st with next := n' }), ?_, rfl, ?_⟩
    · unfold parseLine
      simp only
      rw [if_neg t2, if_neg t3, if_neg t1, if_neg t4, e]
      simp [h1, hne]
    · simp [rulesOf, entryOf, h1, h2]
  | @skipped ts extra l h hx =>
    have hx : extra = [] := by simpa using hx
    subst hx
    rw [List.append_nil] at hk ⊢
    obtain ⟨t, r, y, n', rfl, e, h1, h2, t1, t2, t3, t4⟩ := stmt h hk
    refine ⟨(⟨[], false⟩, { st with next := n' }), ?_, rfl, rfl⟩
    unfold parseLine
    simp only
    rw [if_neg t2, if_neg t3, if_neg t1, if_neg t4, e]
    simp [h1]
  | @default t ts act ht h =>
    obtain ⟨y, n', e, hv⟩ := (default_reads h).2 [] st.next trivial
    rw [List.append_nil] at e
    refine ⟨(⟨[], false⟩, { st with next := n', default := y }), ?_, rfl, rfl⟩
    unfold parseLine
    simp only
    rw [if_neg (by rw [ht]; decide), if_neg (by rw [ht]; decide), if_pos ht, e]
    simp
  | @include_ t p es ht hp h =>
    obtain ⟨x, hx, hr⟩ := hi _ _ h st
    refine ⟨(⟨x.1, false⟩, x.2), ?_, rfl, hr⟩
    unfold parseLine
    simp only
    rw [if_pos ht]
    simp [pathStatement, hp, hx]
  | @frequency t p text ht hp hf h =>
    obtain ⟨l, hl⟩ := frequencyFile_complete h
    refine ⟨(⟨[], false⟩, { st with frequency := l.foldl (fun f x => addFrequency f x.1 x.2) st.frequency }), ?_, rfl, rfl⟩
    unfold parseLine
    simp only
    rw [if_neg (by rw [ht]; decide), if_pos ht]
    simp [pathStatement, hp, hf, hl]
  | @denylist t ht hd =>
    refine ⟨(⟨[], true⟩, st), ?_, rfl, rfl⟩
    unfold parseLine
    simp only
    rw [if_neg (by rw [ht]; decide), if_neg (by rw [ht]; decide), if_neg (by rw [ht]; decide), if_pos ht, if_pos (by simp [hd])]

theorem lines_accepts {fs : PyFiles} {g : Settings} {includes : CStr → FState → Option (List Statement × FState)} {incl : CStr → List PyEntry → Prop}
    (hi : ∀ f, TakesFile (includes f) (incl f)) {filename : CStr} {ls : List (List Token)} {parts : List (List PyEntry × Bool)} (hk : ∀ l ∈ ls, KillIsWord l)
    (h : All₂ (fun l (p : List PyEntry × Bool) => PyLineT fs g false incl filename l p.1 p.2) ls parts) (st : FState) :
    ∃ x, parseLines fs g includes filename ls st = some x ∧ ((∃ p ∈ parts, p.2 = true) → x.1.header = true) ∧
      rulesOf (parts.map Prod.fst).flatten = x.1.statements.map entryOf := by
  induction h generalizing st with
  | nil => exact ⟨_, rfl, by simp, rfl⟩
  | @cons l p ls parts h _ ih =>
    obtain ⟨x, hx, h1, h2⟩ := line_accepts hi (hk _ List.mem_cons_self) h st
    obtain ⟨y, hy, h3, h4⟩ := ih (fun l hl => hk l (List.mem_cons_of_mem _ hl)) x.2
    refine ⟨(⟨x.1.statements ++ y.1.statements, x.1.header || y.1.header⟩, y.2), ?_, ?_, ?_⟩
    · unfold parseLines
      rw [hx]
      simp [hy]
    · rintro ⟨q, hq, hb⟩
      rcases List.mem_cons.1 hq with rfl | hq
      · simp [h1, hb]
      · simp [h3 ⟨q, hq, hb⟩]
    · simp only [List.map_cons, List.flatten_cons, List.map_append]
      rw [← h2, ← h4]
      simp [rulesOf, List.filter_append]

theorem policyFile_accepts (fs : PyFiles) (g : Settings) (depth : Nat) : ∀ filename, TakesFile (parsePolicyFile fs g depth filename) (PyFileT fs g false depth filename) := by
  have step : ∀ (includes : CStr → FState → Option (List Statement × FState)) (incl : CStr → List PyEntry → Prop) (filename : CStr),
      (∀ f, TakesFile (includes f) (incl f)) → ∀ es, (∃ text lines parts, fs filename = some text ∧ TokensT text lines ∧
          All₂ (fun l (p : List PyEntry × Bool) => PyLineT fs g false incl filename l p.1 p.2) lines parts ∧
          es = (parts.map Prod.fst).flatten ∧ (g.denylist = true → ∃ p ∈ parts, p.2 = true)) → ∀ st, ∃ x,
      (do
        let text ← fs filename
        let ls ← tokenize text
        let x ← parseLines fs g includes filename ls st
        if g.denylist ∧ ¬x.1.header then none else return (x.1.statements, x.2) : Option (List Statement × FState)) = some x ∧ rulesOf es = x.1.map entryOf := by
    rintro includes incl filename hi es ⟨text, lines, parts, h1, h2, h3, rfl, h4⟩ st
    have h2 := (tokenize_iff _ _).2 h2
    obtain ⟨x, hx, h5, h6⟩ := lines_accepts hi (tokenize_kill h2) h3 st
    refine ⟨(x.1.statements, x.2), ?_, h6⟩
    rw [h1]
    simp only [Option.bind_eq_bind, Option.bind_some]
    rw [h2]
    simp only [Option.bind_some]
    rw [hx]
    simp only [Option.bind_some]
    rw [if_neg (fun hh => hh.2 (h5 (h4 hh.1)))]
    rfl
  induction depth with
  | zero =>
    intro filename es h st
    unfold PyFileT at h
    unfold parsePolicyFile
    exact step (fun _ _ => none) (fun _ _ => False) filename (fun f es h => h.elim) es h st
  | succ depth ih =>
    intro filename es h st
    unfold PyFileT at h
    unfold parsePolicyFile
    exact step (parsePolicyFile fs g depth) (PyFileT fs g false depth) filename ih es h st

theorem line_lax {fs : PyFiles} {g : Settings} {incl incl' : CStr → List PyEntry → Prop} (hi : ∀ f es, incl f es → incl' f es) {filename : CStr} {ts : List Token}
    {es : List PyEntry} {b : Bool} (h : PyLineT fs g false incl filename ts es b) : PyLineT fs g true incl' filename ts es b := by
  cases h with
  | rule h hne => exact .rule h hne
  | skipped h _ => exact .skipped h (.inr rfl)
  | default ht h => exact .default ht h
  | include_ ht hp h => exact .include_ ht hp (hi _ _ h)
  | frequency ht hp hf h =>
    obtain ⟨lines, h1, h2⟩ := h
    refine .frequency ht hp hf ⟨lines, h1, fun l hl => ?_⟩
    obtain ⟨ts, cs, c, n, extra, h⟩ := h2 l hl
    exact ⟨ts, cs, c, n, extra, h.1, h.2.1, h.2.2.1, h.2.2.2.1, h.2.2.2.2.1, .inr rfl⟩
  | denylist ht hd => exact .denylist ht hd

theorem all₂_mono {α β : Type} {R S : α → β → Prop} {l : List α} {m : List β} (hrs : ∀ x y, R x y → S x y) (h : All₂ R l m) : All₂ S l m := by
  induction h with
  | nil => exact .nil
  | cons h _ ih => exact .cons (hrs _ _ h) ih

theorem file_lax (fs : PyFiles) (g : Settings) (depth : Nat) : ∀ filename es, PyFileT fs g false depth filename es → PyFileT fs g true depth filename es := by
  induction depth with
  | zero =>
    intro filename es h
    unfold PyFileT at h ⊢
    obtain ⟨text, lines, parts, h1, h2, h3, h4⟩ := h
    exact ⟨text, lines, parts, h1, h2, all₂_mono (fun _ _ h => line_lax (fun _ _ h => h.elim) h) h3, h4⟩
  | succ depth ih =>
    intro filename es h
    unfold PyFileT at h ⊢
    obtain ⟨text, lines, parts, h1, h2, h3, h4⟩ := h
    exact ⟨text, lines, parts, h1, h2, all₂_mono (fun _ _ h => line_lax ih h) h3, h4⟩

/-- The filters the parser collects for a system call are those of the file. -/
theorem gather_filtersFor (c : Syscall) (l : List Statement) (ha : ∀ s ∈ l, ∀ c' ∈ s.syscalls, c'.number = c.number → c' = c)
    (hn : ∀ s ∈ l, s.syscalls.Nodup) : (gather c (pairs l)).map view = filtersFor c.number (l.map entryOf) := by
  have one : ∀ (fs : List PFilter) (cs : List Syscall), cs.Nodup → gather c (cs.map fun c' => (c', fs)) = if c ∈ cs then fs else [] := by
    intro fs cs
    induction cs with
    | nil => intro _; rfl
    | cons c' cs ih =>
      intro hn
      rw [List.nodup_cons] at hn
      have hi := ih hn.2
      unfold gather at hi ⊢
      by_cases e : c' = c
      · subst e
        rw [if_neg hn.1] at hi
        simp only [List.map_cons, List.filter_cons, decide_true, if_true, List.flatMap_cons, hi, List.append_nil, List.mem_cons, true_or]
      · have e' : ¬c = c' := fun h => e h.symm
        simp only [List.map_cons, List.filter_cons, e, decide_false, List.mem_cons, e', false_or]
        exact hi
  induction l with
  | nil => rfl
  | cons s l ih =>
    have hi := ih (fun s hs => ha s (List.mem_cons_of_mem _ hs)) (fun s hs => hn s (List.mem_cons_of_mem _ hs))
    have e1 : gather c (pairs (s :: l)) = gather c (s.syscalls.map fun c' => (c', s.filters)) ++ gather c (pairs l) := by
      simp [gather, pairs, List.flatMap_cons, List.filter_append]
    rw [e1, one _ _ (hn s List.mem_cons_self), List.map_append, hi]
    have e2 : (∃ c' ∈ s.syscalls, c'.number = c.number) ↔ c ∈ s.syscalls := by
      constructor
      · rintro ⟨c', h1, h2⟩; rw [← ha s List.mem_cons_self c' h1 h2]; exact h1
      · intro h; exact ⟨c, h, rfl⟩
    unfold filtersFor
    simp only [List.map_cons, List.flatMap_cons, entryOf]
    by_cases h : c ∈ s.syscalls
    · rw [if_pos h, if_pos (e2.2 h)]
    · rw [if_neg h, if_neg (fun hh => h (e2.1 hh))]; simp

theorem finish_complete (default : ActObj) {fs : List PFilter} (h : ∀ pre f post, fs = pre ++ f :: post → f.expression = none → post = []) :
    ∃ l, finish default fs = some l := by
  unfold finish
  have hsplit : fs = fs.takeWhile (fun f => f.expression.isSome) ++ fs.dropWhile (fun f => f.expression.isSome) := List.takeWhile_append_dropWhile.symm
  split
  · exact ⟨_, rfl⟩
  · exact ⟨_, rfl⟩
  · next hno hno' =>
    exfalso
    cases e : fs.dropWhile (fun f => f.expression.isSome) with
    | nil => exact hno e
    | cons f post =>
      have hf : f.expression = none := by
        have := List.head?_dropWhile_not (fun f : PFilter => f.expression.isSome) fs
        rw [e] at this
        simpa using this
      rw [e] at hsplit
      have := h _ f post hsplit hf
      subst this
      exact hno' f e

theorem finishAll_complete (default : ActObj) (frequency : Syscall → Option Nat) {m : List (Syscall × List PFilter)}
    (h : ∀ x ∈ m, ∃ l, finish default x.2 = some l) : ∃ l, finishAll default frequency m = some l := by
  induction m with
  | nil => exact ⟨[], rfl⟩
  | cons x m ih =>
    obtain ⟨c, fs⟩ := x
    obtain ⟨l, hl⟩ := ih (fun x hx => h x (List.mem_cons_of_mem _ hx))
    obtain ⟨y, hy⟩ := h _ List.mem_cons_self
    dsimp only at hy
    exact ⟨_, by unfold finishAll; rw [hy]; simp [hl]; rfl⟩

theorem parse_accepts {fs : PyFiles} {g : Settings} {depth n : Nat} {override : Option ActObj} {filename : CStr} {es : List PyEntry}
    (h : PyFileT fs g false depth filename es) (ht : GoodArch g.arch) (hr : Reachable es) : ∃ x, parseFile fs g depth override filename n = some x := by
  obtain ⟨x, hx, hrules⟩ := policyFile_accepts fs g depth filename es h (if g.denylist then ⟨n + 1, ⟨n, .allow⟩, fun _ => none⟩ else ⟨n, g.kill, fun _ => none⟩)
  have hl := file_lax fs g depth filename es h
  have hmem : ∀ s ∈ x.1, PyEntry.rule s.syscalls (s.filters.map view) ∈ es := by
    intro s hs
    have : entryOf s ∈ rulesOf es := by rw [hrules]; exact List.mem_map.2 ⟨s, hs, rfl⟩
    exact (List.mem_filter.1 this).1
  have hcalls : ∀ s ∈ x.1, ∀ c ∈ s.syscalls, g.arch.syscalls c.name = some c.number := fun s hs => by
    obtain ⟨ts, hts⟩ := file_rules depth filename es hl _ _ (hmem s hs)
    exact statement_calls hts
  have hcol := collapse_collapsed x.1
  obtain ⟨l, hl⟩ := finishAll_complete (override.getD x.2.default) x.2.frequency (m := collapse x.1) (by
    intro y hy
    have hy1 : y.1 ∈ (pairs x.1).map Prod.fst := (hcol.keys y.1).1 (List.mem_map.2 ⟨y, hy, rfl⟩)
    obtain ⟨z, hz, e⟩ := List.mem_map.1 hy1
    obtain ⟨s, hs, hz⟩ := List.mem_flatMap.1 hz
    obtain ⟨c, hc, rfl⟩ := List.mem_map.1 hz
    have hcy : g.arch.syscalls y.1.name = some y.1.number := by rw [← e]; exact hcalls s hs c hc
    rw [hcol.values y hy]
    refine finish_complete _ ?_
    intro pre f post e hf
    have hg := gather_filtersFor y.1 x.1 (fun s' hs' c' hc' en => calls_apart ht (hcalls s' hs' c' hc') hcy en) (fun s' hs' => hr.2 _ _ (hmem s' hs'))
    rw [e, ← hrules, ← filtersFor_rules] at hg
    have := hr.1 y.1.number (pre.map view) (view f) (post.map view) (by rw [← hg]; simp) (by simp [view, hf])
    simpa using this)
  refine ⟨(⟨override.getD x.2.default, l⟩, x.2.next), ?_⟩
  unfold parseFile
  dsimp only
  rw [hx]
  simp [hl]

end Minijail.Offline
