import Verif.Proof.OfflineCollapse
/-! What `parse_file` of tools/parser.py returns is a policy that the compiler can take, and means what the file says. -/
set_option linter.unusedSimpArgs false
set_option autoImplicit false
namespace Minijail.Offline
open Minijail.Spec

theorem sepBy_all {α : Type} {sep : TokType} {Item : List Token → α → Prop} {P : α → Prop} (h : ∀ ts x, Item ts x → P x) {ts : List Token} {l : List α}
    (hl : SepBy sep Item ts l) : ∀ x ∈ l, P x := by
  induction hl with
  | one h1 => intro x hx; rw [List.mem_singleton] at hx; subst hx; exact h _ _ h1
  | more h1 _ _ ih =>
    intro x hx
    rcases List.mem_cons.1 hx with rfl | hx
    · exact h _ _ h1
    · exact ih x hx

theorem descriptor_calls {a : Arch} {ts : List Token} {cs : List Syscall} (h : DescriptorT a ts cs) : ∀ c ∈ cs, a.syscalls c.name = some c.number := by
  have key : ∀ v, NamedT a v cs → ∀ c ∈ cs, a.syscalls c.name = some c.number := by
    rintro v (⟨-, n, hn, rfl⟩ | ⟨_, _, _, _, -, -, -, -, -, -, h⟩)
    · intro c hc; rw [List.mem_singleton] at hc; subst hc; exact hn
    · exact h
  cases h with
  | plain _ h => exact key _ h
  | here _ _ _ h => exact key _ h
  | elsewhere _ _ _ => simp

theorem statement_calls {g : Settings} {ts : List Token} {cs : List Syscall} {fs : List Guarded} (h : StatementT g ts cs fs) :
    ∀ c ∈ cs, g.arch.syscalls c.name = some c.number := by
  cases h with
  | mk h _ _ =>
    cases h with
    | one h => exact descriptor_calls h
    | braces _ h _ =>
      intro c hc
      obtain ⟨l, hl, hc⟩ := List.mem_flatten.1 hc
      exact sepBy_all (P := fun l => ∀ c ∈ l, g.arch.syscalls c.name = some c.number) (fun _ _ h => descriptor_calls h) h l hl c hc

theorem expression_values {a : Arch} {ts : List Token} {e : List (List PAtom)} (h : ExpressionT a ts e) : ∀ c ∈ e, ∀ x ∈ c, x.value < 2 ^ a.bits := by
  refine sepBy_all (P := fun c => ∀ x ∈ c, x.value < 2 ^ a.bits) (fun _ _ h => ?_) h
  refine sepBy_all (P := fun x : PAtom => x.value < 2 ^ a.bits) (fun _ _ h => ?_) h
  cases h with | mk _ _ _ _ _ _ _ h => exact value_lt h

theorem statement_values {g : Settings} {ts : List Token} {cs : List Syscall} {fs : List Guarded} (h : StatementT g ts cs fs) :
    ∀ f ∈ fs, ∀ e, f.1 = some e → ∀ c ∈ e, ∀ x ∈ c, x.value < 2 ^ g.arch.bits := by
  have one : ∀ ts f, SingleFilterT g ts f → ∀ e, f.1 = some e → ∀ c ∈ e, ∀ x ∈ c, x.value < 2 ^ g.arch.bits := by
    intro ts f h e he
    cases h with
    | always _ => simp at he
    | allow h => simp only [Option.some.injEq] at he; subst he; exact expression_values h
    | act h _ _ => simp only [Option.some.injEq] at he; subst he; exact expression_values h
  cases h with
  | mk _ _ h =>
    cases h with
    | one h => intro f hf; rw [List.mem_singleton] at hf; subst hf; exact one _ _ h
    | braces _ h _ => exact sepBy_all one h

theorem file_rules {fs : PyFiles} {g : Settings} (depth : Nat) : ∀ filename es, PyFileT fs g true depth filename es →
    ∀ cs l, PyEntry.rule cs l ∈ es → ∃ ts, StatementT g ts cs l := by
  have step : ∀ (incl : CStr → List PyEntry → Prop), (∀ f es, incl f es → ∀ cs l, PyEntry.rule cs l ∈ es → ∃ ts, StatementT g ts cs l) →
      ∀ filename es, (∃ text lines parts, fs filename = some text ∧ TokensT text lines ∧
          All₂ (fun l (p : List PyEntry × Bool) => PyLineT fs g true incl filename l p.1 p.2) lines parts ∧
          es = (parts.map Prod.fst).flatten ∧ (g.denylist = true → ∃ p ∈ parts, p.2 = true)) →
        ∀ cs l, PyEntry.rule cs l ∈ es → ∃ ts, StatementT g ts cs l := by
    rintro incl hi filename es ⟨text, lines, parts, -, -, hp, rfl, -⟩ cs l h
    obtain ⟨es, he, h⟩ := List.mem_flatten.1 h
    obtain ⟨p, hpm, rfl⟩ := List.mem_map.1 he
    obtain ⟨ts, -, hl⟩ := all₂_mem_right hp p hpm
    generalize p.1 = es at h hl
    generalize p.2 = b at hl
    cases hl with
    | rule h1 _ =>
      rw [List.mem_singleton, PyEntry.rule.injEq] at h
      obtain ⟨rfl, rfl⟩ := h
      exact ⟨_, h1⟩
    | skipped _ _ => simp at h
    | default _ _ => simp at h
    | include_ _ _ h1 => exact hi _ _ h1 cs l h
    | frequency _ _ _ _ => simp at h
    | denylist _ _ => simp at h
  induction depth with
  | zero =>
    intro filename es h
    unfold PyFileT at h
    exact step _ (fun _ _ h => h.elim) filename es h
  | succ depth ih =>
    intro filename es h
    unfold PyFileT at h
    exact step _ ih filename es h

/-- The options that fit the settings of the parser. -/
structure SameOptions (o : Options) (g : Settings) : Prop where
  bits : o.bits = g.arch.bits
  kill : o.kill = g.kill
  denylist : o.denylist = g.denylist

theorem parse_means {fs : PyFiles} {g : Settings} {depth n : Nat} {override : Option ActObj} {filename : CStr} {x : ParsedPolicy × Nat}
    (h : parseFile fs g depth override filename n = some x) :
    ∃ es l st, PyFileT fs g true depth filename es ∧ rulesOf es = l.map entryOf ∧
      parsePolicyFile fs g depth filename (if g.denylist then ⟨n + 1, ⟨n, .allow⟩, fun _ => none⟩ else ⟨n, g.kill, fun _ => none⟩) = some (l, st) ∧
      st.default.act = lastDefault (if g.denylist then .allow else g.kill.act) es ∧ x.2 = st.next ∧ x.1.defaultAction = override.getD st.default ∧
      finishAll (override.getD st.default) st.frequency (collapse l) = some x.1.statements := by
  unfold parseFile at h
  dsimp only at h
  obtain ⟨y, hy, h⟩ := Option.bind_eq_some_iff.1 h
  obtain ⟨l, hl, h⟩ := Option.bind_eq_some_iff.1 h
  simp only [Option.pure_def, Option.some.injEq] at h
  obtain ⟨es, h1, h2, h3⟩ := policyFile_means fs g depth filename _ y hy
  refine ⟨es, y.1, y.2, h1, h2, hy, ?_, by rw [← h], by rw [← h], by rw [← h]; exact hl⟩
  rw [h3]
  cases g.denylist <;> rfl

/-- The numbers of the system calls of statements determine them. -/
theorem calls_apart {g : Settings} (ht : GoodArch g.arch) {c c' : Syscall} (h : g.arch.syscalls c.name = some c.number)
    (h' : g.arch.syscalls c'.name = some c'.number) (e : c.number = c'.number) : c = c' := by
  have := ht.apart c.name c'.name c.number h (by rw [e]; exact h')
  cases c; cases c'; simp_all

theorem firstTrue_default (bits : Nat) (d : SeccompData) (a : ActObj) : firstTrue bits d [view ⟨none, a⟩] = some a.act := by
  unfold firstTrue
  exact if_pos trivial

theorem parse_good {fs : PyFiles} {g : Settings} {depth n : Nat} {override : Option ActObj} {filename : CStr} {x : ParsedPolicy × Nat} {o : Options}
    (h : parseFile fs g depth override filename n = some x) (ho : SameOptions o g) (ht : GoodArch g.arch) (hk : Known (g.kill :: override.toList) n) :
    ∃ es, PyFileT fs g true depth filename es ∧ x.1.defaultAction.act = (override.map ActObj.act).getD (lastDefault (if g.denylist then .allow else g.kill.act) es) ∧
      (SixArguments es → GoodPolicy o x.1 x.2) ∧
      (NoDroppedFilters o x.1.defaultAction.act es → NoDroppedConditions o x.1) ∧
      ∀ d, prescribed o x.1 d = verdict o x.1.defaultAction.act es d := by
  obtain ⟨es, l, st, hf, hr, hp, hd, hn, hdef, hfin⟩ := parse_means h
  have hstm : ∀ s ∈ l, ∃ ts, StatementT g ts s.syscalls (s.filters.map view) := by
    intro s hs
    refine file_rules depth filename es hf s.syscalls (s.filters.map view) ?_
    have : entryOf s ∈ rulesOf es := by rw [hr]; exact List.mem_map.2 ⟨s, hs, rfl⟩
    exact (List.mem_filter.1 this).1
  have hcalls : ∀ s ∈ l, ∀ c ∈ s.syscalls, g.arch.syscalls c.name = some c.number := fun s hs => by
    obtain ⟨ts, hs⟩ := hstm s hs
    exact statement_calls hs
  have hcol := collapse_collapsed l
  have hall := finishAll_some hfin
  have hkeys : ∀ y ∈ collapse l, g.arch.syscalls y.1.name = some y.1.number := by
    intro y hy
    have : y.1 ∈ (pairs l).map Prod.fst := (hcol.keys y.1).1 (List.mem_map.2 ⟨y, hy, rfl⟩)
    obtain ⟨z, hz, e⟩ := List.mem_map.1 this
    obtain ⟨s, hs, hz⟩ := List.mem_flatMap.1 hz
    obtain ⟨c, hc, rfl⟩ := List.mem_map.1 hz
    rw [← e]; exact hcalls s hs c hc
  -- the filters of a statement
  have hst : ∀ s ∈ x.1.statements, ∃ c : Syscall, c ∈ (pairs l).map Prod.fst ∧ s.number = c.number ∧ g.arch.syscalls c.name = some c.number ∧
      finish (override.getD st.default) (gather c (pairs l)) = some s.filters := by
    intro s hs
    obtain ⟨y, hy, h1, h2⟩ := all₂_mem_right hall s hs
    exact ⟨y.1, (hcol.keys y.1).1 (List.mem_map.2 ⟨y, hy, rfl⟩), h1, hkeys y hy, by rw [← hcol.values y hy]; exact h2⟩
  have hdistinct : x.1.statements.Pairwise fun a b => a.number ≠ b.number := by
    have hnd : (collapse l).Pairwise fun y z => y ∈ collapse l ∧ z ∈ collapse l ∧ y.1 ≠ z.1 := by
      have := hcol.nodup
      rw [List.nodup_iff_pairwise_ne, List.pairwise_map] at this
      rw [List.Pairwise.and_mem] at this
      exact this
    refine all₂_pairwise ?_ hall hnd
    rintro y z a b ⟨h1, -⟩ ⟨h2, -⟩ ⟨hy, hz, hne⟩ e
    exact hne (calls_apart ht (hkeys y hy) (hkeys z hz) (by rw [← h1, ← h2]; exact e))
  have hgather : ∀ c p, p ∈ gather c (pairs l) → ∀ e, p.expression = some e → ∀ q ∈ e, ∀ a ∈ q, a.value < 2 ^ g.arch.bits := by
    intro c p hp' e he
    obtain ⟨s, hs, hc, hps⟩ := mem_gather.1 hp'
    obtain ⟨ts, hts⟩ := hstm s hs
    exact statement_values hts (view p) (List.mem_map.2 ⟨p, hps, rfl⟩) e he
  refine ⟨es, hf, ?_, ?_, ?_, ?_⟩
  · rw [hdef]
    cases override with
    | none => simp [hd]
    | some a => rfl
  · intro h6
    have hgood : ∀ s ∈ x.1.statements, GoodFilters o.bits s.filters := by
      intro s hs
      obtain ⟨c, hc, h1, h2, h3⟩ := hst s hs
      obtain ⟨init, last, e1, e2, e3, e4⟩ := finish_some h3
      refine ⟨init, last, e1, e2, ?_⟩
      intro f hf'
      obtain ⟨e, he⟩ := Option.isSome_iff_exists.1 (e3 f hf')
      refine ⟨e, he, ?_⟩
      have hg : f ∈ gather c (pairs l) := by
        rcases e4 with e4 | ⟨e4, -⟩
        · rw [← e4, e1]; exact List.mem_append_left _ hf'
        · rw [← e4]; exact hf'
      intro q hq a ha
      rw [ho.bits]
      refine ⟨?_, hgather c f hg e he q hq a ha⟩
      obtain ⟨s', hs', hc', hfs⟩ := mem_gather.1 hg
      have : entryOf s' ∈ rulesOf es := by rw [hr]; exact List.mem_map.2 ⟨s', hs', rfl⟩
      exact h6 s'.syscalls (s'.filters.map view) (List.mem_filter.1 this).1 (view f) (List.mem_map.2 ⟨f, hfs, rfl⟩) e he q hq a ha
    have hobj : ∀ a ∈ actObjs o x.1, a.id < x.2 ∧ ∀ b ∈ actObjs o x.1, a.id = b.id → a = b := by
      have hmk := makes_policyFile (K := g.kill :: override.toList) (fs := fs) (g := g) List.mem_cons_self depth filename _ (l, st) hp n [] hk (by
        cases hgd : g.denylist with
        | false => exact .known (Nat.le_refl _) List.mem_cons_self
        | true => exact .fresh n .allow)
      rw [List.nil_append] at hmk
      have hobjs : ObjsIn (g.kill :: override.toList) n x.2 ((g.kill :: override.toList) ++ fileObjs l st.default) := by
        rw [hn]
        refine ObjsIn.append hk (mid := n) ⟨Nat.le_refl _, fun a ha => .inl ha, hk.apart⟩ ?_
        exact hmk
      have hsub : ∀ a ∈ actObjs o x.1, a ∈ (g.kill :: override.toList) ++ fileObjs l st.default := by
        have hdf : override.getD st.default ∈ (g.kill :: override.toList) ++ fileObjs l st.default := by
          cases override with
          | none => simp [fileObjs]
          | some a => simp
        intro a ha
        simp only [actObjs, List.mem_cons, List.mem_flatMap, List.mem_map] at ha
        rcases ha with rfl | rfl | ⟨s, hs, f, hf', rfl⟩
        · rw [ho.kill]; simp
        · rw [hdef]; exact hdf
        · obtain ⟨c, hc, h1, h2, h3⟩ := hst s hs
          obtain ⟨init, last, e1, e2, e3, e4⟩ := finish_some h3
          have hg : f ∈ gather c (pairs l) ∨ f = ⟨none, override.getD st.default⟩ := by
            rcases e4 with e4 | ⟨e4, e5⟩
            · rw [← e4]; exact .inl hf'
            · rw [e1] at hf'
              rcases List.mem_append.1 hf' with hf' | hf'
              · rw [← e4]; exact .inl hf'
              · rw [List.mem_singleton] at hf'; rw [hf']; exact .inr e5
          rcases hg with hg | rfl
          · obtain ⟨s', hs', hc', hfs⟩ := mem_gather.1 hg
            refine List.mem_append_right _ (List.mem_cons_of_mem _ (List.mem_flatMap.2 ⟨s', hs', List.mem_map.2 ⟨f, hfs, rfl⟩⟩))
          · exact hdf
      intro a ha
      refine ⟨?_, fun b hb e => hobjs.apart a (hsub a ha) b (hsub b hb) e⟩
      rcases hobjs.from_ a (hsub a ha) with h | h
      · have := hk.below a h
        have := hobjs.le
        omega
      · exact h.2
    refine ⟨by rw [ho.bits]; exact ht.bits, hdistinct, ?_, hgood, hobj⟩
    intro s hs
    obtain ⟨c, hc, h1, h2, h3⟩ := hst s hs
    rw [h1]; exact ht.small c.name _ h2
  · intro hnd hden s hs last hlast hact f hf'
    obtain ⟨c, hc, h1, h2, h3⟩ := hst s hs
    obtain ⟨init, last', e1, e2, e3, e4⟩ := finish_some h3
    have hll : last' = last := by rw [e1] at hlast; simpa using hlast
    subst hll
    have hff : ∀ p, p ∈ gather c (pairs l) → view p ∈ filtersFor c.number es := by
      intro p hp'
      obtain ⟨s', hs', hc', hps⟩ := mem_gather.1 hp'
      rw [filtersFor_rules, hr]
      exact mem_filtersFor.2 ⟨s', hs', ⟨c, hc', rfl⟩, p, hps, rfl⟩
    have hback : ∀ q ∈ filtersFor c.number es, ∃ p ∈ gather c (pairs l), view p = q := by
      intro q hq
      rw [filtersFor_rules, hr] at hq
      obtain ⟨s', hs', ⟨c', hc', hn'⟩, p, hps, hv⟩ := mem_filtersFor.1 hq
      have : c' = c := calls_apart ht (hcalls s' hs' c' hc') h2 hn'
      subst this
      exact ⟨p, mem_gather.2 ⟨s', hs', hc', hps⟩, hv⟩
    have key : ∀ q ∈ filtersFor c.number es, q.2 = .allow := by
      refine hnd hden c.number ?_
      rcases e4 with e4 | ⟨e4, e5⟩
      · refine .inl ?_
        have : last' ∈ gather c (pairs l) := by rw [← e4, e1]; simp
        have := hff _ this
        rw [view, e2, hact] at this
        exact this
      · refine .inr ⟨?_, ?_⟩
        · intro q hq hne
          obtain ⟨p, hp', rfl⟩ := hback q hq
          rw [← e4] at hp'
          have := e3 p hp'
          rw [show p.expression = none from hne] at this
          simp at this
        · rw [hdef, ← hact, e5]
    rw [e1] at hf'
    rcases List.mem_append.1 hf' with hf' | hf'
    · have hg : f ∈ gather c (pairs l) := by
        rcases e4 with e4 | ⟨e4, -⟩
        · rw [← e4, e1]; exact List.mem_append_left _ hf'
        · rw [← e4]; exact hf'
      exact key _ (hff f hg)
    · rw [List.mem_singleton] at hf'
      rw [hf']; exact hact
  · intro d
    unfold prescribed verdict
    rw [ho.denylist]
    by_cases harch : d.arch.toNat ≠ o.archNr
    · rw [if_pos harch, if_pos harch]
    · rw [if_neg harch, if_neg harch]
      have hm : Mentioned d.nr.toNat es ↔ ∃ c ∈ (pairs l).map Prod.fst, c.number = d.nr.toNat := by
        rw [mentioned_rules, hr, mentioned_iff]
      cases hfind : x.1.statements.find? (fun s => s.number = d.nr.toNat) with
      | none =>
        have hnm : ¬Mentioned d.nr.toNat es := by
          rw [hm]
          rintro ⟨c, hc, hcn⟩
          have := (hcol.keys c).2 hc
          obtain ⟨y, hy, rfl⟩ := List.mem_map.1 this
          obtain ⟨s, hs, h1, -⟩ := all₂_mem_left hall y hy
          have := List.find?_eq_none.1 hfind s hs
          simp only [decide_eq_true_eq] at this
          exact this (by rw [h1, hcn])
        rw [if_neg hnm]
        unfold otherwise
        rw [ho.denylist]
      | some s =>
        have hs := List.mem_of_find?_eq_some hfind
        have hsn : s.number = d.nr.toNat := by simpa using List.find?_some hfind
        obtain ⟨c, hc, h1, h2, h3⟩ := hst s hs
        rw [if_pos (hm.2 ⟨c, hc, by rw [← h1, hsn]⟩)]
        obtain ⟨init, last, e1, e2, e3, e4⟩ := finish_some h3
        have hg := firstTrue_gather o.bits d c l (fun s' hs' c' hc' e => calls_apart ht (hcalls s' hs' c' hc') h2 e)
        rw [filtersFor_rules, hr, ← hsn, h1, ← hg]
        dsimp only
        rw [firstMatch_view]
        obtain ⟨a, ha⟩ := firstTrue_uncond o.bits d (l := s.filters.map view) (f := view last) (List.mem_map.2 ⟨last, by rw [e1]; simp, rfl⟩) e2
        rw [ha, Option.getD_some]
        rcases e4 with e4 | ⟨e4, e5⟩
        · rw [← e4, ha, Option.getD_some]
        · rw [e1, List.map_append, firstTrue_append, e4, e5] at ha
          rw [List.map_cons, List.map_nil, firstTrue_default] at ha
          rw [hdef]
          cases hq : firstTrue o.bits d ((gather c (pairs l)).map view) with
          | none => rw [hq] at ha; simpa using ha.symm
          | some b => rw [hq] at ha; simpa using ha.symm

end Minijail.Offline
