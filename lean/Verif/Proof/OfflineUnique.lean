import Verif.Proof.OfflineComplete
import Verif.Proof.OfflineEnd
/-! A file means one thing only. -/
set_option linter.unusedSimpArgs false
set_option autoImplicit false
namespace Minijail.Offline
open Minijail.Spec

theorem tokenAt_k {prev : Bool} {s : CStr} {x : Option TokType × Nat} (h : tokenAt prev ('k' :: s) = some x) :
    x.1 = some .action ∨ x.1 = some .identifier := by
  have hop : (operators.findSome? fun x => literalAt x.1 x.2 x.2 prev ('k' :: s)) = none := by
    simp [operators, literalAt]
  have hnum : numericAt ('k' :: s) = none := by
    have : isDigitIn 10 'k' = false := by decide
    simp [numericAt, numeralAt, runAt, this]
  have hsp : runAt isPySpace ('k' :: s) = none := by
    have : isPySpace 'k' = false := by decide
    simp [runAt, this]
  unfold tokenAt at h
  obtain ⟨y, hy, h⟩ := List.exists_of_findSome?_eq_some h
  obtain ⟨k, hk, rfl⟩ := Option.map_eq_some_iff.1 h
  obtain ⟨ty, o⟩ := y
  dsimp only at hk ⊢
  subst hk
  simp only [hop, hnum, hsp, List.mem_cons, Prod.mk.injEq, List.not_mem_nil, or_false] at hy
  simp [literalAt, pathAt, argumentAt] at hy
  rcases hy with h | h
  · exact .inl h.1
  · exact .inr h.1

theorem lexLine_kill (fuel : Nat) : ∀ prev s ts, lexLine fuel prev s = some ts → KillIsWord ts := by
  induction fuel with
  | zero =>
    intro prev s ts h
    cases s with
    | nil => simp [lexLine] at h; subst h; intro t ht; simp at ht
    | cons c s => simp [lexLine] at h
  | succ fuel ih =>
    intro prev s ts h
    cases s with
    | nil => simp [lexLine] at h; subst h; intro t ht; simp at ht
    | cons c s =>
      unfold lexLine at h
      obtain ⟨m, hm, h⟩ := Option.bind_eq_some_iff.1 h
      obtain ⟨rest, hr, h⟩ := Option.bind_eq_some_iff.1 h
      simp only [Option.pure_def, Option.some.injEq] at h
      have hi := ih _ _ _ hr
      cases e : m.1 with
      | none => rw [e] at h; rw [← h]; exact hi
      | some ty =>
        rw [e] at h
        rw [← h]
        intro t ht hv
        rcases List.mem_cons.1 ht with rfl | ht
        · dsimp only at hv ⊢
          have hc : c = 'k' := by
            cases hk : m.2 with
            | zero => rw [hk] at hv; simp at hv
            | succ k => rw [hk, List.take_succ_cons] at hv; simp at hv; exact hv.1
          subst hc
          rcases tokenAt_k hm with h | h <;> rw [e] at h <;> simp at h <;> simp [h]
        · exact hi t ht hv

theorem tokenizeLines_kill : ∀ (lines : List CStr) (acc : List Token) (out : List (List Token)), tokenizeLines acc lines = some out → KillIsWord acc →
    ∀ l ∈ out, KillIsWord l := by
  intro lines
  induction lines with
  | nil => intro acc out h _; simp [tokenizeLines] at h; subst h; simp
  | cons line lines ih =>
    intro acc out h ha
    unfold tokenizeLines at h
    obtain ⟨ts, ht, h⟩ := Option.bind_eq_some_iff.1 h
    have hk : KillIsWord (acc ++ ts) := by
      intro t htm
      rcases List.mem_append.1 htm with h | h
      · exact ha t h
      · exact lexLine_kill _ _ _ _ ht t h
    split at h
    · exact ih _ _ h hk
    · obtain ⟨rest, hr, h⟩ := Option.bind_eq_some_iff.1 h
      have hi := ih _ _ hr (by intro t ht; simp at ht)
      simp only [Option.pure_def, Option.some.injEq] at h
      rw [← h]
      split
      · exact hi
      · intro l hl
        rcases List.mem_cons.1 hl with rfl | hl
        · exact hk
        · exact hi l hl

theorem tokenize_kill {text : CStr} {lines : List (List Token)} (h : tokenize text = some lines) : ∀ l ∈ lines, KillIsWord l :=
  tokenizeLines_kill _ _ _ h (by intro t ht; simp at ht)

theorem statement_head {g : Settings} {ts : List Token} {cs : List Syscall} {fs : List Guarded} (h : StatementT g ts cs fs) (hk : KillIsWord ts) :
    ∃ t r, ts = t :: r ∧ (t.type = .identifier ∨ t.type = .action ∨ t.type = .lbrace) := by
  cases h with
  | mk h _ _ =>
    obtain ⟨t, r, rfl, ht⟩ := subjects_head h (fun t ht => hk t (by simp [ht]))
    exact ⟨t, _, rfl, ht⟩

theorem line_unique {fs : PyFiles} {g : Settings} {lax : Bool} {incl : CStr → List PyEntry → Prop} (hi : ∀ f es es', incl f es → incl f es' → es = es') {filename : CStr} {ts : List Token}
    {es es' : List PyEntry} {b b' : Bool} (hk : KillIsWord ts) (h : PyLineT fs g lax incl filename ts es b) (h' : PyLineT fs g lax incl filename ts es' b') :
    es = es' ∧ b = b' := by
  -- a statement against another kind of line
  have other : ∀ {ts : List Token} {cs fs}, StatementT g ts cs fs → KillIsWord ts → ∀ {t rest extra}, t :: rest = ts ++ extra →
      t.type ≠ .default ∧ t.type ≠ .include ∧ t.type ≠ .frequency ∧ t.type ≠ .denylist := by
    intro ts cs fs h hk t rest extra e
    obtain ⟨t', r, rfl, ht⟩ := statement_head h hk
    simp only [List.cons_append, List.cons.injEq] at e
    rw [e.1]
    rcases ht with ht | ht | ht <;> rw [ht] <;> decide
  have ruleRead : ∀ {ts : List Token} {cs fs}, StatementT g ts cs fs → KillIsWord ts →
      ∃ y n', parseStatement g ⟨ts, 0⟩ = some (y, ⟨[], n'⟩) ∧ y.syscalls = cs ∧ y.filters.map view = fs := by
    intro ts cs fs h hk
    obtain ⟨y, n', e, hv⟩ := (statement_reads h hk).2 [] 0 (notIn_nil _)
    rw [List.append_nil] at e
    simp only [Prod.mk.injEq] at hv
    exact ⟨y, n', e, hv.1, hv.2⟩
  have clash : ∀ {ts extra : List Token} {cs fs fs'}, StatementT g (ts ++ extra) cs fs → StatementT g ts [] fs' → KillIsWord (ts ++ extra) → cs = [] := by
    intro ts extra cs fs fs' h h' hk
    obtain ⟨y, n', e, h1, h2⟩ := ruleRead h hk
    rw [← h1]
    exact statement_syscalls h' (fun t ht => hk t (by simp [ht])) e
  cases h with
  | rule h hne =>
    generalize hts : ts = ts' at h'
    cases h' with
    | rule h' hne' =>
      subst hts
      obtain ⟨y, n', e, h1, h2⟩ := ruleRead h hk
      obtain ⟨y', n'', e', h1', h2'⟩ := ruleRead h' hk
      rw [e, Option.some.injEq, Prod.mk.injEq] at e'
      rw [← h1, ← h2, ← h1', ← h2', e'.1]
      exact ⟨rfl, rfl⟩
    | skipped h' _ => subst hts; exact absurd (clash h h' hk) hne
    | default ht _ => exact absurd ht (other h hk (extra := []) (by rw [List.append_nil, hts])).1
    | include_ ht _ _ => exact absurd ht (other h hk (extra := []) (by rw [List.append_nil, hts])).2.1
    | frequency ht _ _ _ => exact absurd ht (other h hk (extra := []) (by rw [List.append_nil, hts])).2.2.1
    | denylist ht _ => exact absurd ht (other h hk (extra := []) (by rw [List.append_nil, hts])).2.2.2
  | @skipped ts1 extra1 fs1 h _ =>
    have hk1 : KillIsWord ts1 := fun t ht => hk t (by simp [ht])
    generalize hts : ts1 ++ extra1 = ts' at h'
    cases h' with
    | rule h' hne' => subst hts; exact absurd (clash h' h hk) hne'
    | skipped h' _ => exact ⟨rfl, rfl⟩
    | default ht _ => exact absurd ht (other h hk1 hts.symm).1
    | include_ ht _ _ => exact absurd ht (other h hk1 hts.symm).2.1
    | frequency ht _ _ _ => exact absurd ht (other h hk1 hts.symm).2.2.1
    | denylist ht _ => exact absurd ht (other h hk1 hts.symm).2.2.2
  | @default t ts1 act ht h =>
    generalize hts : t :: ts1 = ts' at h'
    cases h' with
    | rule h' hne' => subst hts; exact absurd ht (other h' hk (extra := []) (by rw [List.append_nil])).1
    | skipped h' _ => exact absurd ht (other h' (fun t ht => hk t (by rw [hts]; simp [ht])) hts).1
    | default ht' h' =>
      simp only [List.cons.injEq] at hts
      obtain ⟨rfl, rfl⟩ := hts
      obtain ⟨y, n', e, hv⟩ := (default_reads h).2 [] 0 trivial
      obtain ⟨y', n'', e', hv'⟩ := (default_reads h').2 [] 0 trivial
      rw [e, Option.some.injEq, Prod.mk.injEq] at e'
      rw [← hv, ← hv', e'.1]
      exact ⟨rfl, rfl⟩
    | include_ ht' _ _ => simp only [List.cons.injEq] at hts; rw [← hts.1, ht] at ht'; simp at ht'
    | frequency ht' _ _ _ => simp only [List.cons.injEq] at hts; rw [← hts.1, ht] at ht'; simp at ht'
    | denylist ht' _ => simp only [List.cons.injEq] at hts; rw [← hts.1, ht] at ht'; simp at ht'
  | @include_ t p es1 ht hp h =>
    generalize hts : [t, p] = ts' at h'
    cases h' with
    | rule h' hne' => subst hts; exact absurd ht (other h' hk (extra := []) (by rw [List.append_nil])).2.1
    | skipped h' _ => exact absurd ht (other h' (fun t ht => hk t (by rw [hts]; simp [ht])) hts).2.1
    | default ht' h' => simp only [List.cons.injEq] at hts; rw [← hts.1, ht] at ht'; simp at ht'
    | include_ ht' _ h' =>
      simp only [List.cons.injEq] at hts
      obtain ⟨rfl, rfl, -⟩ := hts
      exact ⟨hi _ _ _ h h', rfl⟩
    | frequency ht' _ _ _ => simp only [List.cons.injEq] at hts; rw [← hts.1, ht] at ht'; simp at ht'
    | denylist ht' _ => simp only [List.cons.injEq] at hts; rw [← hts.1, ht] at ht'; simp at ht'
  | @frequency t p text ht hp _ _ =>
    generalize hts : [t, p] = ts' at h'
    cases h' with
    | rule h' hne' => subst hts; exact absurd ht (other h' hk (extra := []) (by rw [List.append_nil])).2.2.1
    | skipped h' _ => exact absurd ht (other h' (fun t ht => hk t (by rw [hts]; simp [ht])) hts).2.2.1
    | default ht' h' => simp only [List.cons.injEq] at hts; rw [← hts.1, ht] at ht'; simp at ht'
    | include_ ht' _ h' => simp only [List.cons.injEq] at hts; rw [← hts.1, ht] at ht'; simp at ht'
    | frequency ht' _ _ _ => exact ⟨rfl, rfl⟩
    | denylist ht' _ => simp only [List.cons.injEq] at hts; rw [← hts.1, ht] at ht'; simp at ht'
  | @denylist t ht hd =>
    generalize hts : [t] = ts' at h'
    cases h' with
    | rule h' hne' => subst hts; exact absurd ht (other h' hk (extra := []) (by rw [List.append_nil])).2.2.2
    | skipped h' _ => exact absurd ht (other h' (fun t ht => hk t (by rw [hts]; simp [ht])) hts).2.2.2
    | default ht' h' => simp only [List.cons.injEq] at hts; rw [← hts.1, ht] at ht'; simp at ht'
    | include_ ht' _ h' => simp only [List.cons.injEq] at hts; rw [← hts.1, ht] at ht'; simp at ht'
    | frequency ht' _ _ _ => simp only [List.cons.injEq] at hts; rw [← hts.1, ht] at ht'; simp at ht'
    | denylist ht' _ => exact ⟨rfl, rfl⟩

theorem all₂_unique {α β : Type} {R : α → β → Prop} {l : List α} {m m' : List β} (hu : ∀ x ∈ l, ∀ y y', R x y → R x y' → y = y') (h : All₂ R l m)
    (h' : All₂ R l m') : m = m' := by
  induction h generalizing m' with
  | nil => cases h'; rfl
  | cons h1 _ ih =>
    cases h' with
    | cons h1' h2' => rw [hu _ (by simp) _ _ h1 h1', ih (fun x hx => hu x (by simp [hx])) h2']

/-- A file has at most one meaning. -/
theorem file_unique (fs : PyFiles) (g : Settings) (lax : Bool) (depth : Nat) : ∀ filename es es', PyFileT fs g lax depth filename es → PyFileT fs g lax depth filename es' → es = es' := by
  have step : ∀ (incl : CStr → List PyEntry → Prop), (∀ f es es', incl f es → incl f es' → es = es') → ∀ filename es es',
      (∃ text lines parts, fs filename = some text ∧ TokensT text lines ∧
          All₂ (fun l (p : List PyEntry × Bool) => PyLineT fs g lax incl filename l p.1 p.2) lines parts ∧
          es = (parts.map Prod.fst).flatten ∧ (g.denylist = true → ∃ p ∈ parts, p.2 = true)) →
      (∃ text lines parts, fs filename = some text ∧ TokensT text lines ∧
          All₂ (fun l (p : List PyEntry × Bool) => PyLineT fs g lax incl filename l p.1 p.2) lines parts ∧
          es' = (parts.map Prod.fst).flatten ∧ (g.denylist = true → ∃ p ∈ parts, p.2 = true)) → es = es' := by
    rintro incl hi filename es es' ⟨text, lines, parts, h1, h2, h3, rfl, -⟩ ⟨text', lines', parts', h1', h2', h3', rfl, -⟩
    rw [h1, Option.some.injEq] at h1'
    subst h1'
    have h2 := (tokenize_iff _ _).2 h2
    have h2' := (tokenize_iff _ _).2 h2'
    rw [h2, Option.some.injEq] at h2'
    subst h2'
    have : parts = parts' := all₂_unique (fun l hl y y' hy hy' => by
      obtain ⟨e1, e2⟩ := line_unique hi (tokenize_kill h2 l hl) hy hy'
      exact Prod.ext e1 e2) h3 h3'
    rw [this]
  induction depth with
  | zero =>
    intro filename es es' h h'
    unfold PyFileT at h h'
    exact step _ (fun _ _ _ h => h.elim) filename es es' h h'
  | succ depth ih =>
    intro filename es es' h h'
    unfold PyFileT at h h'
    exact step _ ih filename es es' h h'

end Minijail.Offline
