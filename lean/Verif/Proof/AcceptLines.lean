import Verif.Proof.Accept
/-! Files of the language are compiled to pieces. -/
set_option linter.unusedSimpArgs false
set_option autoImplicit false
namespace Minijail
open Spec

/-- What compiling adds to the state. -/
structure Grown (cx : Ctx) (st st' : CState) (ps : List (Piece cx)) (rules : List (BitVec 32 × Rule)) : Prop where
  labels : st.labels <+: st'.labels
  room : st'.labels.length ≤ st.labels.length + labelDemand rules
  names : ∀ p ∈ ps, ∀ n ∈ p.names, n ∈ st'.labels
  head : ∀ Lf, st'.labels <+: Lf → st'.head = st.head ++ ps.flatMap (Piece.head Lf)
  args : ∀ Lf, st'.labels <+: Lf → st'.argBlocks = st.argBlocks ++ ps.flatMap (Piece.args Lf)
  seen : ∀ i ∈ st'.seen, i ∈ st.seen ∨ ∃ e, cx.syscalls[i]? = some e ∧ BitVec.ofNat 32 e.2 ∈ rules.map Prod.fst
  pieces : All₂ Piece.For ps rules

theorem Grown.refl (cx : Ctx) (st : CState) : Grown cx st st [] [] :=
  ⟨List.prefix_refl _, by simp, by simp, by simp, by simp, fun i h => .inl h, .nil⟩

theorem labelDemand_append (a b : List (BitVec 32 × Rule)) : labelDemand (a ++ b) = labelDemand a + labelDemand b := by
  simp [labelDemand]

theorem all₂_append {α β : Type} {R : α → β → Prop} {as cs : List α} {bs ds : List β} (h : All₂ R as bs) (h' : All₂ R cs ds) : All₂ R (as ++ cs) (bs ++ ds) := by
  induction h with
  | nil => exact h'
  | cons hr _ ih => exact .cons hr ih

theorem Grown.trans {cx : Ctx} {a b c : CState} {ps qs : List (Piece cx)} {r s : List (BitVec 32 × Rule)} (h : Grown cx a b ps r) (h' : Grown cx b c qs s) :
    Grown cx a c (ps ++ qs) (r ++ s) := by
  refine ⟨h.labels.trans h'.labels, ?_, ?_, ?_, ?_, ?_, all₂_append h.pieces h'.pieces⟩
  · have := h.room
    have := h'.room
    rw [labelDemand_append]
    omega
  · intro p hp n hn
    rcases List.mem_append.1 hp with hp | hp
    · exact h'.labels.subset (h.names p hp n hn)
    · exact h'.names p hp n hn
  · intro Lf hLf
    rw [h'.head Lf hLf, h.head Lf (h'.labels.trans hLf)]
    simp
  · intro Lf hLf
    rw [h'.args Lf hLf, h.args Lf (h'.labels.trans hLf)]
    simp
  · intro i hi
    simp only [List.map_append, List.mem_append]
    rcases h'.seen i hi with hi | ⟨e, h1, h2⟩
    · rcases h.seen i hi with hi | ⟨e, h1, h2⟩
      · exact .inl hi
      · exact .inr ⟨e, h1, .inl h2⟩
    · exact .inr ⟨e, h1, .inr h2⟩

/-- The calls were not met before, unless that is allowed. -/
def Fresh (cx : Ctx) (st : CState) (rules : List (BitVec 32 × Rule)) : Prop :=
  cx.opts.allowDuplicateSyscalls = false → (rules.map Prod.fst).Nodup ∧
    ∀ i ∈ st.seen, ∀ e, cx.syscalls[i]? = some e → BitVec.ofNat 32 e.2 ∉ rules.map Prod.fst

theorem Fresh.left {cx : Ctx} {st : CState} {r s : List (BitVec 32 × Rule)} (h : Fresh cx st (r ++ s)) : Fresh cx st r := by
  intro ho
  obtain ⟨h1, h2⟩ := h ho
  rw [List.map_append] at h1 h2
  exact ⟨(List.nodup_append.1 h1).1, fun i hi e he hm => h2 i hi e he (List.mem_append_left _ hm)⟩

theorem Fresh.right {cx : Ctx} {st st' : CState} {ps : List (Piece cx)} {r s : List (BitVec 32 × Rule)} (h : Fresh cx st (r ++ s)) (g : Grown cx st st' ps r) :
    Fresh cx st' s := by
  intro ho
  obtain ⟨h1, h2⟩ := h ho
  rw [List.map_append] at h1 h2
  obtain ⟨-, n2, n3⟩ := List.nodup_append.1 h1
  refine ⟨n2, fun i hi e he hm => ?_⟩
  rcases g.seen i hi with hi | ⟨e', h4, h5⟩
  · exact h2 i hi e he (List.mem_append_right _ hm)
  · rw [he] at h4
    cases h4
    exact n3 _ h5 _ hm rfl

theorem lookupGo_index (name : CStr) (tbl : List (CStr × Nat)) (k nr ind : Nat) (h : lookupSyscall.go name tbl k = some (nr, ind)) :
    k ≤ ind ∧ tbl[ind - k]? = some (name, nr) := by
  induction tbl generalizing k with
  | nil => simp [lookupSyscall.go] at h
  | cons e tbl ih =>
    simp only [lookupSyscall.go] at h
    split at h
    · next he =>
      simp only [Option.some.injEq, Prod.mk.injEq] at h
      obtain ⟨h1, rfl⟩ := h
      refine ⟨Nat.le_refl _, ?_⟩
      rw [Nat.sub_self, List.getElem?_cons_zero, ← he, ← h1]
    · obtain ⟨h1, h2⟩ := ih _ h
      refine ⟨by omega, ?_⟩
      have : ind - k = (ind - (k + 1)) + 1 := by omega
      rw [this, List.getElem?_cons_succ]
      exact h2

theorem lookup_of_lang (cx : Ctx) {name : CStr} {nr : Nat} (h : cx.lang.syscall name = some nr) :
    ∃ ind, lookupSyscall cx.syscalls name = some (nr, ind) ∧ cx.syscalls[ind]? = some (name, nr) := by
  have h1 := lookup_eq cx name
  rw [h] at h1
  cases h2 : lookupSyscall cx.syscalls name with
  | none => rw [h2] at h1; cases h1
  | some x =>
    obtain ⟨n, ind⟩ := x
    rw [h2] at h1
    simp only [Option.map_some, Option.some.injEq] at h1
    subst h1
    have := (lookupGo_index name cx.syscalls 0 n ind h2).2
    exact ⟨ind, rfl, by simpa using this⟩

theorem bpfLabelId_total {labels : Labels} {name : CStr} (h : labels.length + 1 ≤ 512) (hn : name.length ≤ 32) :
    ∃ id labels', bpfLabelId labels name = (some id, labels') ∧ name ∈ labels' ∧ ∀ Lf, labels' <+: Lf → BitVec.ofNat 32 id = lblOf Lf name := by
  have m := miss_le_one labels name
  obtain ⟨id, labels', e, hm⟩ := getLabelId_total (labels := labels) (name := name) (by omega) hn
  have e' := e
  unfold getLabelId at e'
  cases hb : bpfLabelId labels name with
  | mk o l =>
    cases o with
    | none => rw [hb] at e'; cases e'
    | some k =>
      rw [hb] at e'
      simp only [Res.ok.injEq, Prod.mk.injEq] at e'
      obtain ⟨rfl, rfl⟩ := e'
      exact ⟨k, l, rfl, hm, (getLabelId_ok e).2 hn⟩

theorem ruleText_ne_nil {L : Lang} {s : List Char} {r : Rule} (h : RuleText L s r) : s ≠ [] := by
  rintro rfl
  cases h with
  | block h _ => simp at h
  | filter _ _ h _ => simp [words_nil] at h
  | filterReturn _ _ h _ _ => simp [words_nil] at h
  | never h _ => exact h rfl

theorem ruleText_one {L : Lang} {r : Rule} (h : RuleText L "1".toList r) : r = .allow := by
  cases h with
  | allow => rfl
  | block h _ => simp at h
  | filter h _ _ _ => exact absurd rfl h
  | filterReturn h _ _ _ _ => exact absurd rfl h
  | never _ h => simp [words, fields, consHead] at h

section lines
variable (cx : Ctx) (hcx : NamesFit cx)
include hcx

theorem compileRule_total (name rhs : CStr) (nr : Nat) (r : Rule) (hcol : ':' ∉ name) (hsys : cx.lang.syscall (trim name) = some nr)
    (hr : RuleText cx.lang (trim rhs) r) (st : CState) (bad : Bool) (hf : Fresh cx st [(BitVec.ofNat 32 nr, r)])
    (hroom : st.labels.length + labelDemand [(BitVec.ofNat 32 nr, r)] ≤ 512) :
    ∃ st' ps, compileRule cx (name ++ ':' :: rhs) st bad = .ok (st', bad) ∧ Grown cx st st' ps [(BitVec.ofNat 32 nr, r)] := by
  have hroom' : st.labels.length + r.labels ≤ 512 := by simpa [labelDemand] using hroom
  obtain ⟨ind, hl, hind⟩ := lookup_of_lang cx hsys
  have hmem : (trim name, nr) ∈ cx.syscalls := List.mem_of_getElem? hind
  have hnr : nr < 2 ^ 31 := hcx.small _ hmem
  have hlen : (trim name).length ≤ 32 := hcx.short _ hmem
  have hdup : (bad || (st.seen.contains ind && !cx.opts.allowDuplicateSyscalls)) = bad := by
    cases ho : cx.opts.allowDuplicateSyscalls with
    | true => simp
    | false =>
      have : st.seen.contains ind = false := by
        rw [Bool.eq_false_iff]
        intro hc
        exact (hf ho).2 ind (by simpa using hc) _ hind (by simp)
      rw [this]; simp
  have hseen : ∀ i ∈ (if st.seen.contains ind then st.seen else ind :: st.seen), i ∈ st.seen ∨
      ∃ e, cx.syscalls[i]? = some e ∧ BitVec.ofNat 32 e.2 ∈ [(BitVec.ofNat 32 nr, r)].map Prod.fst := by
    intro i hi
    split at hi
    · exact .inl hi
    · rcases List.mem_cons.1 hi with rfl | hi
      · exact .inr ⟨_, hind, by simp⟩
      · exact .inl hi
  unfold compileRule
  rw [strsep_of hcol]
  have hne : strip rhs ≠ [] := ruleText_ne_nil hr
  simp only
  rw [if_neg hne, show lookupSyscall cx.syscalls (strip name) = some (nr, ind) from hl]
  simp only
  by_cases h1 : strip rhs = "1".toList
  · rw [if_pos h1, hdup]
    have hra : r = .allow := ruleText_one (by rw [← h1]; exact hr)
    subst hra
    refine ⟨_, [⟨nr, trim name, .allow⟩], rfl, List.prefix_refl _, by simp, by simp [Piece.names, Body.has], ?_, ?_, hseen, .cons ?_ .nil⟩
    · intro Lf _; simp [Piece.head, Body.has]
    · intro Lf _; simp [Piece.args, Body.has]
    · exact ⟨rfl, hmem, hsys, by simp [Body.has], fun Lf => by simp [Piece.head, Piece.args, Body.has, bpfAllowSyscall, Rule.size]⟩
  · rw [if_neg h1]
    have hrl : 1 ≤ r.labels := by
      cases hr' : r with
      | allow =>
        subst hr'
        exfalso
        generalize ht : trim rhs = t at hr
        cases hr with
        | allow => exact h1 ht
      | block a => simp [Rule.labels]
      | filter f o => simp [Rule.labels]; omega
    obtain ⟨id, labels, e1, mem1, id1⟩ := bpfLabelId_total (labels := st.labels) (name := trim name) (by omega) hlen
    obtain ⟨q1, l1, -⟩ := bpfLabelId_len st.labels (trim name)
    rw [e1] at q1 l1
    simp only at q1 l1
    obtain ⟨body, code, labels', e2, b1, b2, q2, l2, b3, b4, b5⟩ := compilePolicyLine_total cx nr hnr (strip rhs) h1 (BitVec.ofNat 32 id) labels hr (by omega)
    rw [show bpfLabelId st.labels (strip name) = _ from e1]
    simp only [e2, hdup]
    refine ⟨_, [⟨nr, trim name, body⟩], rfl, q1.trans q2, ?_, ?_, ?_, ?_, hseen, .cons ?_ .nil⟩
    · simp only [labelDemand, List.map_cons, List.map_nil, List.sum_cons, List.sum_nil]; omega
    · intro p hp n hn
      simp only [List.mem_singleton] at hp
      subst hp
      simp only [Piece.names, b1, if_true, List.mem_cons] at hn
      rcases hn with rfl | hn
      · exact q2.subset mem1
      · exact b3 n hn
    · intro Lf hLf
      simp [Piece.head, b1, id1 Lf (q2.trans hLf)]
    · intro Lf hLf
      have := b4 Lf hLf
      simp [Piece.args, b1, this, id1 Lf (q2.trans hLf)]
    · refine ⟨rfl, hmem, hsys, by simp [b1, b2], fun Lf => ?_⟩
      have := b5 Lf
      simp [Piece.head, Piece.args, b1, bpfAllowSyscallArgs]
      omega

/-- Included files are compiled. -/
def IncTotal (inc : CStr → CState → Res CState) (incl : List Char → List (BitVec 32 × Rule) → Prop) : Prop :=
  ∀ content rules st, incl content rules → Fresh cx st rules → st.labels.length + labelDemand rules ≤ 512 →
    ∃ st' ps, inc content st = .ok st' ∧ Grown cx st st' ps rules

omit hcx in
theorem parseInclude_total {path : CStr} (h : "/".toList <+: path ∨ "./".toList <+: path) :
    parseIncludeStatement ("@include ".toList ++ path) 0 = .ok path := by
  have hrel : isImplicitRelativePath path = false := by
    rcases h with ⟨t, rfl⟩ | ⟨t, rfl⟩ <;> simp [isImplicitRelativePath]
  have hs : (strsep ' ' ("@include ".toList ++ path)).2 = some path := by simp [strsep]
  unfold parseIncludeStatement
  rw [if_neg (by simp), if_neg (by simp), if_neg (by simp), hs]
  simp [hrel]

theorem compileLine_total (lvl : Nat) (inc : CStr → CState → Res CState) (incl : List Char → List (BitVec 32 × Rule) → Prop)
    (hinc : (lvl = 0 ∧ IncTotal cx inc incl) ∨ ∀ c r, ¬ incl c r) (line : CStr) (rules : List (BitVec 32 × Rule))
    (h : LineText cx.lang incl (trim line) rules) (st : CState) (bad : Bool) (hf : Fresh cx st rules)
    (hroom : st.labels.length + labelDemand rules ≤ 512) :
    ∃ st' ps, compileLine cx lvl inc line st bad = .ok (st', bad) ∧ Grown cx st st' ps rules := by
  unfold compileLine
  have ht : strip line = trim line := rfl
  simp only [ht]
  generalize trim line = l at h
  cases h with
  | blank => exact ⟨st, [], rfl, Grown.refl cx st⟩
  | comment => exact ⟨st, [], by simp, Grown.refl cx st⟩
  | frequency => exact ⟨st, [], by simp, Grown.refl cx st⟩
  | @include_ path content _ hp hfile hi =>
    rcases hinc with ⟨rfl, hinc⟩ | hno
    · obtain ⟨st', ps, e, g⟩ := hinc content rules st hi hf hroom
      refine ⟨st', ps, ?_, g⟩
      have hfile' : cx.fs path = some content := hfile
      have hpi := parseInclude_total hp
      have h2 : ¬ ("@include ".toList ++ path).take 10 = "@frequency".toList := by simp
      simp only [hpi, hfile', e, if_neg h2]
      simp
    · exact absurd hi (hno _ _)
  | @rule name rhs nr r h1 h2 h3 h4 h5 =>
    obtain ⟨st', ps, e, g⟩ := compileRule_total cx hcx name rhs nr r h3 h4 h5 st bad hf hroom
    refine ⟨st', ps, ?_, g⟩
    cases name with
    | nil => simpa using e
    | cons c t =>
      simp only [List.head?_cons, ne_eq, Option.some.injEq] at h1 h2
      simpa [h1, h2] using e
  | @unknown name rhs h1 h2 h3 h4 h5 h6 =>
    refine ⟨st, [], ?_, Grown.refl cx st⟩
    have e : compileRule cx (name ++ ':' :: rhs) st bad = .ok (st, bad) := by
      unfold compileRule
      rw [strsep_of h3]
      simp only
      have hlk := lookup_eq cx (strip name)
      rw [show cx.lang.syscall (strip name) = none from h4, Option.map_eq_none_iff] at hlk
      rw [if_neg (show strip rhs ≠ [] from h5), hlk]
      simp only
      rw [if_pos (show cx.opts.allowLogging = true from h6)]
    cases name with
    | nil => simpa using e
    | cons c t =>
      simp only [List.head?_cons, ne_eq, Option.some.injEq] at h1 h2
      simpa [h1, h2] using e

theorem compileLines_total (lvl : Nat) (inc : CStr → CState → Res CState) (incl : List Char → List (BitVec 32 × Rule) → Prop)
    (hinc : (lvl = 0 ∧ IncTotal cx inc incl) ∨ ∀ c r, ¬ incl c r) {ls : List CStr} {parts : List (List (BitVec 32 × Rule))}
    (h : All₂ (fun l rs => LineText cx.lang incl (trim l) rs) ls parts) : ∀ (st : CState) (bad : Bool), Fresh cx st parts.flatten →
    st.labels.length + labelDemand parts.flatten ≤ 512 →
    ∃ st' ps, compileLines cx lvl inc ls st bad = .ok (st', bad) ∧ Grown cx st st' ps parts.flatten := by
  induction h with
  | nil => intro st bad _ _; exact ⟨st, [], rfl, Grown.refl cx st⟩
  | @cons l rs ls parts hl _ ih =>
    intro st bad hf hroom
    rw [List.flatten_cons] at hf hroom ⊢
    rw [labelDemand_append] at hroom
    obtain ⟨st1, ps1, e1, g1⟩ := compileLine_total cx hcx lvl inc incl hinc l rs hl st bad hf.left (by omega)
    have := g1.room
    obtain ⟨st2, ps2, e2, g2⟩ := ih st1 bad (hf.right g1) (by omega)
    refine ⟨st2, ps1 ++ ps2, ?_, g1.trans g2⟩
    simp only [compileLines, e1, e2]

theorem compileFileWith_total (lvl : Nat) (inc : CStr → CState → Res CState) (incl : List Char → List (BitVec 32 × Rule) → Prop)
    (hinc : (lvl = 0 ∧ IncTotal cx inc incl) ∨ ∀ c r, ¬ incl c r) : IncTotal cx (compileFileWith cx lvl inc) (FileText cx.lang incl) := by
  rintro content rules st ⟨parts, h1, rfl⟩ hf hroom
  obtain ⟨st', ps, e, g⟩ := compileLines_total cx hcx lvl inc incl hinc h1 st false hf hroom
  refine ⟨st', ps, ?_, g⟩
  unfold compileFileWith
  rw [readLines_eq_logicalLines, e]
  simp

theorem compileFile0_total : IncTotal cx (compileFile0 cx) (PolicyText cx.lang) :=
  compileFileWith_total cx hcx 0 _ _ (.inl ⟨rfl, compileFileWith_total cx hcx 1 _ _ (.inr fun _ _ h => h)⟩)

end lines
end Minijail
