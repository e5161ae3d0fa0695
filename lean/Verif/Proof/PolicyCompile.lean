import Verif.Proof.PolicyParse
import Verif.Proof.KernelSeg
import Verif.Proof.LabelDemand
/-! The whole compiler: what a successful compilation means, and what the produced code does. -/
set_option linter.unusedSimpArgs false
set_option autoImplicit false
namespace Minijail

/-- The block of a rule does what the rule says, in front of any further code; it has the shape that the kernel
accepts and ends in a return. -/
def BodyOk (cx : Ctx) (rule : Spec.Rule) (body : List Insn) : Prop :=
  (body.length ≤ 4096 → rule.valid → ∀ (d : SeccompData) (rest : List Insn) (r : Regs), UniqueLbl (body ++ rest) →
    execL false d (body ++ rest) (.skip 0) r = .ret (rule.action cx.t.longBits d).word) ∧
  (rule.valid → ∃ pre k, body = pre ++ [bpfStmt RET k] ∧ Sg pre)

theorem groupsCode_sg (cx : Ctx) (Lf : Labels) (nr : Nat) (gs : List (List (PAtom cx))) :
    ∀ idx, (∀ g ∈ gs, ∀ a ∈ g, a.1.toNat < 6) → Sg (groupsCode cx Lf nr idx gs) := by
  induction gs with
  | nil => intro _ _; exact Sg.nil
  | cons g gs ih =>
    intro idx h
    rw [groupsCode]
    refine Sg.append (Sg.flatMap _ _ fun a ha => Sg.atom _ _ _ (h g (by simp) a ha) _ _) ?_
    exact (Sg.jump _).append ((Sg.label _).append (ih _ fun g hg => h g (List.mem_cons_of_mem _ hg)))

theorem filter_body (cx : Ctx) (nr : Nat) (Lf : Labels) (ps : List (List (PAtom cx))) (f : Spec.Dnf) (a : Spec.Action)
    (h : Spec.All₂ (Spec.All₂ (AtomRel cx)) ps f) :
    BodyOk cx (.filter f a) (groupsCode cx Lf nr 0 ps ++ [bpfStmt RET a.word] ++
      [bpfLbl (lblOf Lf (successName nr)), bpfRetAllow]) := by
  refine ⟨?_, fun hv => ⟨groupsCode cx Lf nr 0 ps ++ [bpfStmt RET a.word] ++ [bpfLbl (lblOf Lf (successName nr))], _,
    by simp [bpfRetAllow]; rfl, (Sg.append (groupsCode_sg cx Lf nr ps 0 (groups_valid cx ps f h hv)) (Sg.ret _)).append (Sg.label _)⟩⟩
  intro _ hv d rest r hu
  have e : groupsCode cx Lf nr 0 ps ++ [bpfStmt RET a.word] ++ [bpfLbl (lblOf Lf (successName nr)), bpfRetAllow] ++ rest =
    groupsCode cx Lf nr 0 ps ++ [bpfStmt RET a.word] ++ bpfLbl (lblOf Lf (successName nr)) :: (bpfRetAllow :: rest) := by simp
  rw [e] at hu ⊢
  obtain ⟨r', h1, h2⟩ := execL_groups (d := d) cx Lf nr [bpfStmt RET a.word] (bpfRetAllow :: rest) ps 0 r
    (groups_valid cx ps f h hv) hu
  rw [groups_holds cx ps f h hv d] at h1 h2
  by_cases hh : Spec.dnfHolds cx.t.longBits d f
  · rw [h1 hh, Spec.Rule.action, if_pos hh]
    exact execL_ret _ _ _
  · rw [h2 hh, Spec.Rule.action, if_neg hh]
    exact execL_ret _ _ _

theorem prefix_of_take {p s : CStr} (h : s.take p.length = p) : p <+: s := by
  rw [← h]; exact List.take_prefix _ _

theorem take_of_prefix {p s : CStr} (h : p <+: s) : s.take p.length = p := by
  obtain ⟨t, rfl⟩ := h; simp

theorem all₂_length {α β : Type} {R : α → β → Prop} {as : List α} {bs : List β} (h : Spec.All₂ R as bs) :
    as.length = bs.length := by
  induction h with
  | nil => rfl
  | cons _ _ ih => simp [ih]

/-- `compile_policy_line`: the text is a rule, and its code does what the rule says. -/
theorem compilePolicyLine_ok (cx : Ctx) (nr : Nat) (hnr : nr < 2 ^ 31) (line : CStr) (hline : line ≠ "1".toList)
    (id : BitVec 32) (labels labels' : Labels) (code : List Insn)
    (h : compilePolicyLine cx nr line id labels = .ok (code, labels')) :
    ∃ body, code = bpfLbl id :: body ∧ (body.length ≤ 4096 → ∃ rule, Spec.RuleText cx.lang line rule ∧ BodyOk cx rule body ∧
      labels.length ≤ labels'.length ∧ labels'.length + 1 ≤ labels.length + rule.labels ∧
      ∀ l, bpfLbl l ∈ body → l.toNat < labels'.length) := by
  unfold compilePolicyLine at h
  split at h
  · simp at h
  · next hne =>
    split at h
    · next hr =>
      simp only [Res.bind_eq_ok, Res.pure_eq, Res.ok.injEq, Prod.mk.injEq] at h
      obtain ⟨c, hc, rfl, rfl⟩ := h
      obtain ⟨a, hat, rfl⟩ := compileErrno_ok cx line c hc
      refine ⟨_, rfl, fun _ => ⟨.block a, .block (prefix_of_take hr) hat, ?_, Nat.le_refl _, Nat.le_refl _, ?_⟩⟩
      rotate_left
      · intro l hl
        simp only [List.mem_singleton] at hl
        exact absurd hl (by simp [bpfLbl, bpfStmt, bpfJump, RET, JA])
      refine ⟨?_, fun _ => ⟨[], _, rfl, Sg.nil⟩⟩
      intro _ _ d rest r _
      exact execL_ret _ _ _
    · next hr =>
      have hr : ¬ "return".toList <+: line := fun hp => hr (take_of_prefix hp)
      simp only [Res.bind_eq_ok, Res.pure_eq, Res.ok.injEq] at h
      obtain ⟨⟨gcode, labels1⟩, hg, ret, hret, ⟨sid, labels2⟩, hs, h⟩ := h
      simp only [Prod.mk.injEq] at h
      obtain ⟨rfl, rfl⟩ := h
      simp only at hret hs
      refine ⟨_, rfl, fun hlen => ?_⟩
      simp only [List.length_append] at hlen
      have hgl := compileGroups_length cx nr _ _ _ _ _ hg
      obtain ⟨p1, ps, hps, hcode⟩ := compileGroups_ok cx nr hnr _ 0 _ _ _ (by omega) hg
      obtain ⟨p2, hid⟩ := getLabelId_ok hs
      obtain ⟨q1, e1, n1⟩ := compileGroups_len cx nr hnr _ 0 _ _ _ (by omega) hg
      obtain ⟨q2, e2, n2⟩ := getLabelId_len hs (successName_length nr hnr)
      have hle : labels.length ≤ labels2.length := (p1.trans p2).length_le
      have hms := miss_le_one labels (successName nr)
      have hlb : ∀ a, ret = [bpfStmt RET a] → ∀ l, bpfLbl l ∈ gcode ++ ret ++ [bpfLbl sid, bpfRetAllow] → l.toNat < labels2.length := by
        rintro a rfl l hl
        simp only [List.append_assoc, List.mem_append, List.mem_cons, List.not_mem_nil, or_false] at hl
        rcases hl with hl | hl | hl | hl
        · exact Nat.lt_of_lt_of_le (n1 l hl) p2.length_le
        · exact absurd hl (by simp [bpfLbl, bpfStmt, bpfJump, RET, JA])
        · obtain rfl := label_inj hl; exact n2
        · exact absurd hl (by simp [bpfLbl, bpfRetAllow, bpfStmt, bpfJump, RET, JA])
      have hsid := hid (successName_length nr hnr) labels2 (List.prefix_refl _)
      have hgc := hcode labels2 p2
      cases ht1 : strtok ';' line with
      | none =>
        simp only [ht1, Option.bind_none, Option.map_none, compileRet] at hret hps
        have : ps = [] := by cases hps; rfl
        subst this
        simp only [Res.ok.injEq] at hret
        subst hret
        refine ⟨.filter [] cx.opts.action.act, .never hne (strtok_none ht1), ?_, hle, ?_, hlb _ (by rw [retAction_eq])⟩
        rotate_left
        · simp only [ht1, List.length_nil] at e1
          simp only [Spec.Rule.labels, List.length_nil]; omega
        rw [retAction_eq, hsid, hgc]
        exact filter_body cx nr labels2 [] [] _ .nil
      | some x =>
        obtain ⟨t, p⟩ := x
        simp only [ht1, Option.bind_some] at hret hps
        obtain ⟨f, hf1, hf2⟩ := groups_text cx t ps hps
        have hfl : labels2.length + 1 ≤ labels.length + (2 + f.length) := by
          have := all₂_length hps
          have := all₂_length hf2
          simp only [ht1] at e1
          omega
        cases ht2 : strtok ';' p with
        | none =>
          simp only [ht2, Option.map_none, compileRet] at hret
          simp only [Res.ok.injEq] at hret
          subst hret
          refine ⟨.filter f cx.opts.action.act, .filter hline hr ?_ hf1, ?_, hle, hfl, hlb _ (by rw [retAction_eq])⟩
          · rw [strtok_some ht1, strtok_none ht2]
          · rw [retAction_eq, hsid, hgc]
            exact filter_body cx nr labels2 ps f _ hf2
        | some y =>
          obtain ⟨re, p'⟩ := y
          simp only [ht2, Option.map_some, compileRet] at hret
          obtain ⟨a, hat, rfl⟩ := compileErrno_ok cx re ret hret
          refine ⟨.filter f a, .filterReturn (rest := Spec.words ';' p') hline hr ?_ hf1 hat, ?_, hle, hfl, hlb _ rfl⟩
          · rw [strtok_some ht1, strtok_some ht2]
          · rw [hsid, hgc]
            exact filter_body cx nr labels2 ps f _ hf2

/-- A compiled rule. -/
structure Item where
  nr : BitVec 32
  rule : Spec.Rule
  head : List Insn
  args : List Insn

/-- The code of a compiled rule has one of the two shapes and does what the rule says. -/
def Item.Ok (cx : Ctx) (x : Item) : Prop :=
  (x.rule = .allow ∧ x.head = bpfAllowSyscall x.nr ∧ x.args = []) ∨
  (∃ id body, x.head = bpfAllowSyscallArgs x.nr id ∧ x.args = bpfLbl id :: body ∧ BodyOk cx x.rule body)

/-- The rules of compiled items. -/
def Item.rules (items : List Item) : List (BitVec 32 × Spec.Rule) := items.map fun x => (x.nr, x.rule)

theorem demand_append (xs ys : List Item) : Spec.labelDemand (Item.rules (xs ++ ys)) =
    Spec.labelDemand (Item.rules xs) + Spec.labelDemand (Item.rules ys) := by
  simp [Spec.labelDemand, Item.rules]

/-- The label table grows by at most the labels that the rules need, and all label definitions are in it unless it
was full. -/
structure LblOk (st st' : CState) (items : List Item) : Prop where
  mono : st.labels.length ≤ st'.labels.length
  bound : st'.labels.length ≤ st.labels.length + Spec.labelDemand (Item.rules items)
  known : ∀ x ∈ items, ∀ l, bpfLbl l ∈ x.args → l.toNat < st'.labels.length ∨
    512 < st.labels.length + Spec.labelDemand (Item.rules items)

theorem LblOk.trans {a b c : CState} {xs ys : List Item} (h1 : LblOk a b xs) (h2 : LblOk b c ys) : LblOk a c (xs ++ ys) := by
  have m1 := h1.mono
  have m2 := h2.mono
  have b1 := h1.bound
  have b2 := h2.bound
  refine ⟨by omega, by rw [demand_append]; omega, ?_⟩
  intro x hx l hl
  rw [demand_append]
  rcases List.mem_append.1 hx with h | h
  · rcases h1.known x h l hl with h | h
    · left; omega
    · right; omega
  · rcases h2.known x h l hl with h | h
    · left; omega
    · right; omega

/-- The state after compiling `items` in state `st`. -/
def StepOk (cx : Ctx) (st st' : CState) (items : List Item) : Prop :=
  st'.head = st.head ++ items.flatMap Item.head ∧ st'.argBlocks = st.argBlocks ++ items.flatMap Item.args ∧
    (∀ x ∈ items, x.Ok cx) ∧ LblOk st st' items

theorem StepOk.refl (cx : Ctx) (st : CState) : StepOk cx st st [] :=
  ⟨by simp, by simp, by simp, Nat.le_refl _, by simp, by simp⟩

theorem StepOk.trans {cx : Ctx} {a b c : CState} {xs ys : List Item} (h1 : StepOk cx a b xs) (h2 : StepOk cx b c ys) :
    StepOk cx a c (xs ++ ys) := by
  obtain ⟨h11, h12, h13, h14⟩ := h1
  obtain ⟨h21, h22, h23, h24⟩ := h2
  refine ⟨by simp [h21, h11], by simp [h22, h12], ?_, h14.trans h24⟩
  intro x hx
  rcases List.mem_append.1 hx with h | h
  · exact h13 x h
  · exact h23 x h

theorem lookup_lt (tbl : List (CStr × Nat)) (h : ∀ e ∈ tbl, e.2 < 2 ^ 31) (name : CStr) (k nr ind : Nat)
    (hl : lookupSyscall.go name tbl k = some (nr, ind)) : nr < 2 ^ 31 := by
  induction tbl generalizing k with
  | nil => simp [lookupSyscall.go] at hl
  | cons e tbl ih =>
    simp only [lookupSyscall.go] at hl
    split at hl
    · simp only [Option.some.injEq, Prod.mk.injEq] at hl
      rw [← hl.1]; exact h e (by simp)
    · exact ih (fun e he => h e (List.mem_cons_of_mem _ he)) _ hl

section lines
variable (cx : Ctx) (hnr : ∀ e ∈ cx.syscalls, e.2 < 2 ^ 31)
include hnr

/-- The invariant that a longer program does not lose code: lengths only grow. -/
theorem compileRule_ok (line : CStr) (st st' : CState) (bad bad' : Bool) (hc : line.head? ≠ some '#') (hc' : line.head? ≠ some '@')
    (incl : List Char → List (BitVec 32 × Spec.Rule) → Prop)
    (h : compileRule cx line st bad = .ok (st', bad')) (hlen : st'.argBlocks.length ≤ 4096) :
    ∃ items, Spec.LineText cx.lang incl line (Item.rules items) ∧ StepOk cx st st' items := by
  unfold compileRule at h
  cases hs : strsep ':' line with
  | mk name o =>
    cases o with
    | none => simp [hs] at h
    | some rhs =>
      obtain ⟨rfl, hcol⟩ := strsep_some hs
      have hn1 : name.head? ≠ some '#' := by
        intro hh; apply hc; cases name <;> simp_all
      have hn2 : name.head? ≠ some '@' := by
        intro hh; apply hc'; cases name <;> simp_all
      simp only [hs] at h
      by_cases hr : strip rhs = []
      · rw [if_pos hr] at h; simp at h
      · rw [if_neg hr] at h
        have hlk := lookup_eq cx (strip name)
        cases hl : lookupSyscall cx.syscalls (strip name) with
        | none =>
          simp only [hl] at h hlk
          split at h
          · next hal =>
            simp only [Res.ok.injEq, Prod.mk.injEq] at h
            obtain ⟨rfl, rfl⟩ := h
            exact ⟨[], .unknown hn1 hn2 hcol hlk.symm hr hal, StepOk.refl cx _⟩
          · simp at h
        | some x =>
          obtain ⟨nr, ind⟩ := x
          simp only [hl] at h hlk
          have hnr' : nr < 2 ^ 31 := lookup_lt _ hnr _ _ _ _ hl
          by_cases h1 : strip rhs = "1".toList
          · rw [if_pos h1] at h
            simp only [Res.ok.injEq, Prod.mk.injEq] at h
            obtain ⟨rfl, _⟩ := h
            refine ⟨[⟨BitVec.ofNat 32 nr, .allow, bpfAllowSyscall (BitVec.ofNat 32 nr), []⟩], ?_, ?_⟩
            · exact .rule hn1 hn2 hcol hlk.symm (by rw [← strip_eq_trim, h1]; exact .allow)
            · refine ⟨by simp, by simp, ?_, Nat.le_refl _, by simp, by simp⟩
              intro x hx
              simp only [List.mem_singleton] at hx
              subst hx
              exact .inl ⟨rfl, rfl, rfl⟩
          · rw [if_neg h1] at h
            split at h
            · next block labels hb =>
              simp only [Res.ok.injEq, Prod.mk.injEq] at h
              obtain ⟨rfl, _⟩ := h
              obtain ⟨body, rfl, hbody⟩ := compilePolicyLine_ok cx nr hnr' _ h1 _ _ _ _ hb
              simp only [List.length_append, List.length_cons] at hlen
              obtain ⟨rule, hrt, hbo, hm1, hm2, hm3⟩ := hbody (by omega)
              obtain ⟨hi1, hi2, hi3⟩ := bpfLabelId_len st.labels (strip name)
              refine ⟨[⟨BitVec.ofNat 32 nr, rule, bpfAllowSyscallArgs (BitVec.ofNat 32 nr) (match (bpfLabelId st.labels (strip name)).1 with
                | some id => BitVec.ofNat 32 id
                | none => BitVec.ofInt 32 (-1)), bpfLbl (match (bpfLabelId st.labels (strip name)).1 with
                | some id => BitVec.ofNat 32 id
                | none => BitVec.ofInt 32 (-1)) :: body⟩], ?_, ?_⟩
              · exact .rule hn1 hn2 hcol hlk.symm hrt
              · refine ⟨by simp; rfl, by simp; rfl, ?_, hi1.length_le.trans hm1, ?_, ?_⟩
                rotate_left
                · simp only [Item.rules, Spec.labelDemand, List.map_cons, List.map_nil, List.sum_cons, List.sum_nil]
                  omega
                · intro x hx l hl
                  simp only [List.mem_singleton] at hx
                  subst hx
                  simp only [Item.rules, Spec.labelDemand, List.map_cons, List.map_nil, List.sum_cons, List.sum_nil]
                  rcases List.mem_cons.1 hl with hl | hl
                  · obtain rfl := label_inj hl
                    revert hi3
                    cases hid : (bpfLabelId st.labels (strip name)).1 with
                    | some id => intro hi3; left; simp only at hi3 ⊢; omega
                    | none =>
                      intro hi3; right; simp only at hi3
                      have := hi1.length_le
                      omega
                  · exact .inl (hm3 l hl)
                intro x hx
                simp only [List.mem_singleton] at hx
                subst hx
                exact .inr ⟨_, _, rfl, rfl, hbo⟩
            all_goals simp at h

omit hnr in
theorem compileRule_mono (line : CStr) (st st' : CState) (bad bad' : Bool)
    (h : compileRule cx line st bad = .ok (st', bad')) : st.argBlocks.length ≤ st'.argBlocks.length := by
  unfold compileRule at h
  split at h
  · simp at h
  · simp only at h
    split at h
    · simp at h
    · split at h
      · split at h
        · simp only [Res.ok.injEq, Prod.mk.injEq] at h
          rw [h.1]
        · simp at h
      · split at h
        · simp only [Res.ok.injEq, Prod.mk.injEq] at h
          rw [← h.1]
        · split at h
          · simp only [Res.ok.injEq, Prod.mk.injEq] at h
            rw [← h.1]; simp
          all_goals simp at h

omit hnr in
theorem compileLine_mono (lvl : Nat) (inc : CStr → CState → Res CState)
    (hinc : ∀ c a b, inc c a = .ok b → a.argBlocks.length ≤ b.argBlocks.length)
    (line : CStr) (st st' : CState) (bad bad' : Bool)
    (h : compileLine cx lvl inc line st bad = .ok (st', bad')) : st.argBlocks.length ≤ st'.argBlocks.length := by
  unfold compileLine at h
  simp only at h
  split at h
  · simp only [Res.ok.injEq, Prod.mk.injEq] at h
    rw [h.1]
  · split at h
    · simp only [Res.ok.injEq, Prod.mk.injEq] at h
      rw [h.1]
    · split at h
      · split at h
        · simp only [Res.ok.injEq, Prod.mk.injEq] at h
          rw [h.1]
        · split at h
          · split at h
            · simp at h
            · split at h
              · next hi =>
                simp only [Res.ok.injEq, Prod.mk.injEq] at h
                rw [← h.1]; exact hinc _ _ _ hi
              all_goals simp at h
          · simp at h
      · exact compileRule_mono cx _ _ _ _ _ h

omit hnr in
theorem compileLines_mono (lvl : Nat) (inc : CStr → CState → Res CState)
    (hinc : ∀ c a b, inc c a = .ok b → a.argBlocks.length ≤ b.argBlocks.length)
    (ls : List CStr) (st st' : CState) (bad bad' : Bool)
    (h : compileLines cx lvl inc ls st bad = .ok (st', bad')) : st.argBlocks.length ≤ st'.argBlocks.length := by
  induction ls generalizing st bad with
  | nil =>
    simp only [compileLines, Res.ok.injEq, Prod.mk.injEq] at h
    rw [h.1]
  | cons l ls ih =>
    simp only [compileLines] at h
    split at h
    · next hl => exact (compileLine_mono cx lvl inc hinc _ _ _ _ _ hl).trans (ih _ _ h)
    all_goals simp at h

omit hnr in
theorem compileFileWith_mono (lvl : Nat) (inc : CStr → CState → Res CState)
    (hinc : ∀ c a b, inc c a = .ok b → a.argBlocks.length ≤ b.argBlocks.length)
    (content : CStr) (st st' : CState)
    (h : compileFileWith cx lvl inc content st = .ok st') : st.argBlocks.length ≤ st'.argBlocks.length := by
  unfold compileFileWith at h
  split at h
  · next hl =>
    split at h
    · simp at h
    · simp only [Res.ok.injEq] at h
      subst h
      exact compileLines_mono cx lvl inc hinc _ _ _ _ _ hl
  all_goals simp at h

/-- What is known about compiling an included file. -/
def IncOk (inc : CStr → CState → Res CState) (incl : List Char → List (BitVec 32 × Spec.Rule) → Prop) : Prop :=
  (∀ c a b, inc c a = .ok b → a.argBlocks.length ≤ b.argBlocks.length) ∧
  ∀ c a b, inc c a = .ok b → b.argBlocks.length ≤ 4096 →
    ∃ items, incl c (Item.rules items) ∧ StepOk cx a b items

omit hnr in
theorem parseInclude_ok {line : CStr} {lvl : Nat} {path : CStr} (h : parseIncludeStatement line lvl = .ok path) :
    line = "@include ".toList ++ path ∧ ("/".toList <+: path ∨ "./".toList <+: path) ∧ lvl = 0 := by
  unfold parseIncludeStatement at h
  split at h
  · simp at h
  split at h
  · simp at h
  split at h
  · simp at h
  next h1 h2 h3 =>
  split at h
  · simp at h
  next fn hs =>
  split at h
  · simp at h
  next hrel =>
  simp only [Res.ok.injEq] at h
  subst h
  have hl : line = "@include ".toList ++ line.drop 9 := by
    have h1' : line.take 8 = "@include".toList := by simpa using h1
    have e := List.take_append_drop 8 line
    rw [h1'] at e
    have h2' : (line.drop 8).head? = some ' ' := by simpa using h2
    cases hd : line.drop 8 with
    | nil => simp [hd] at h2'
    | cons c r =>
      rw [hd] at h2' e
      simp only [List.head?_cons, Option.some.injEq] at h2'
      subst h2'
      rw [← e]; simp
  have hfn : fn = line.drop 9 := by
    rw [hl] at hs
    have : strsep ' ' ("@include ".toList ++ line.drop 9) = ("@include".toList, some (line.drop 9)) := by
      simp [strsep]
    rw [this] at hs
    simpa using hs.symm
  refine ⟨by rw [hfn]; exact hl, ?_, by omega⟩
  generalize fn = p at hrel
  simp only [isImplicitRelativePath, Bool.and_eq_true, Bool.or_eq_true, bne_iff_ne, ne_eq, not_and, not_or, not_not] at hrel
  by_cases hp : p.head? = some '/'
  · left
    cases p with
    | nil => simp at hp
    | cons c r => simp only [List.head?_cons, Option.some.injEq] at hp; subst hp; simp
  · right
    obtain ⟨a, b⟩ := hrel hp
    cases p with
    | nil => simp at a
    | cons c r =>
      simp only [List.head?_cons, Option.some.injEq] at a
      subst a
      cases r with
      | nil => simp at b
      | cons c r => simp only [List.tail_cons, List.head?_cons, Option.some.injEq] at b; subst b; simp

theorem compileLine_ok (lvl : Nat) (inc : CStr → CState → Res CState)
    (incl : List Char → List (BitVec 32 × Spec.Rule) → Prop) (hinc : lvl = 0 → IncOk cx inc incl)
    (line : CStr) (st st' : CState) (bad bad' : Bool)
    (h : compileLine cx lvl inc line st bad = .ok (st', bad')) (hlen : st'.argBlocks.length ≤ 4096) :
    ∃ items, Spec.LineText cx.lang incl (Spec.trim line) (Item.rules items) ∧ StepOk cx st st' items := by
  unfold compileLine at h
  simp only at h
  have ht : strip line = Spec.trim line := rfl
  rw [← ht]
  split at h
  · next he =>
    simp only [Res.ok.injEq, Prod.mk.injEq] at h
    rw [← h.1, he]
    exact ⟨[], .blank, StepOk.refl cx st⟩
  · next c r he =>
    split at h
    · next hc =>
      simp only [Res.ok.injEq, Prod.mk.injEq] at h
      rw [← h.1, he, hc]
      exact ⟨[], .comment, StepOk.refl cx st⟩
    · next hc =>
      split at h
      · split at h
        · next hf =>
          simp only [Res.ok.injEq, Prod.mk.injEq] at h
          rw [← h.1, ← List.take_append_drop 10 (strip line), hf]
          exact ⟨[], .frequency, StepOk.refl cx st⟩
        · split at h
          · next path hp =>
            obtain ⟨e, hpath, hlvl⟩ := parseInclude_ok hp
            split at h
            · simp at h
            · next content hfs =>
              split at h
              · next hi =>
                simp only [Res.ok.injEq, Prod.mk.injEq] at h
                obtain ⟨rfl, _⟩ := h
                obtain ⟨items, hit, hst⟩ := (hinc hlvl).2 _ _ _ hi hlen
                refine ⟨items, ?_, hst⟩
                rw [e]
                exact .include_ hpath hfs hit
              all_goals simp at h
          · simp at h
      · next hc' =>
        refine compileRule_ok cx hnr _ st st' bad bad' ?_ ?_ incl h hlen
        · rw [he]; simpa using hc
        · rw [he]; simpa using hc'

theorem compileLines_ok (lvl : Nat) (inc : CStr → CState → Res CState)
    (incl : List Char → List (BitVec 32 × Spec.Rule) → Prop)
    (hmono : ∀ c a b, inc c a = .ok b → a.argBlocks.length ≤ b.argBlocks.length)
    (hinc : lvl = 0 → IncOk cx inc incl)
    (ls : List CStr) (st st' : CState) (bad bad' : Bool)
    (h : compileLines cx lvl inc ls st bad = .ok (st', bad')) (hlen : st'.argBlocks.length ≤ 4096) :
    ∃ items parts, Spec.All₂ (fun l rs => Spec.LineText cx.lang incl (Spec.trim l) rs) ls parts ∧
      Item.rules items = parts.flatten ∧ StepOk cx st st' items := by
  induction ls generalizing st bad with
  | nil =>
    simp only [compileLines, Res.ok.injEq, Prod.mk.injEq] at h
    rw [← h.1]
    exact ⟨[], [], .nil, rfl, StepOk.refl cx st⟩
  | cons l ls ih =>
    simp only [compileLines] at h
    split at h
    · next st1 bad1 hl =>
      obtain ⟨items2, parts, h1, h2, h3⟩ := ih _ _ h
      have hm := compileLines_mono cx lvl inc hmono _ _ _ _ _ h
      obtain ⟨items1, h4, h5⟩ := compileLine_ok cx hnr lvl inc incl hinc _ _ _ _ _ hl (hm.trans hlen)
      refine ⟨items1 ++ items2, Item.rules items1 :: parts, .cons h4 h1, ?_, h5.trans h3⟩
      simp [← h2, Item.rules]
    all_goals simp at h

theorem compileFileWith_ok (lvl : Nat) (inc : CStr → CState → Res CState)
    (incl : List Char → List (BitVec 32 × Spec.Rule) → Prop)
    (hmono : ∀ c a b, inc c a = .ok b → a.argBlocks.length ≤ b.argBlocks.length)
    (hinc : lvl = 0 → IncOk cx inc incl)
    (content : CStr) (st st' : CState)
    (h : compileFileWith cx lvl inc content st = .ok st') (hlen : st'.argBlocks.length ≤ 4096)
    (hlines : readLines content = Spec.logicalLines content) :
    ∃ items, Spec.FileText cx.lang incl content (Item.rules items) ∧ StepOk cx st st' items := by
  unfold compileFileWith at h
  split at h
  · next hl =>
    split at h
    · simp at h
    · simp only [Res.ok.injEq] at h
      subst h
      obtain ⟨items, parts, h1, h2, h3⟩ := compileLines_ok cx hnr lvl inc incl hmono hinc _ _ _ _ _ hl hlen
      rw [hlines] at h1
      exact ⟨items, ⟨parts, h1, h2⟩, h3⟩
  all_goals simp at h

omit hnr in
theorem rule_bad (line : CStr) (st st' : CState) (bad : Bool)
    (h : compileRule cx line st bad = .ok (st', false)) : bad = false := by
  unfold compileRule at h
  split at h
  · simp at h
  · simp only at h
    split at h
    · simp at h
    · split at h
      · split at h
        · simp only [Res.ok.injEq, Prod.mk.injEq] at h
          exact h.2
        · simp at h
      · split at h
        · simp only [Res.ok.injEq, Prod.mk.injEq, Bool.or_eq_false_iff] at h
          exact h.2.1
        · split at h
          · simp only [Res.ok.injEq, Prod.mk.injEq, Bool.or_eq_false_iff] at h
            exact h.2.1
          all_goals simp at h

omit hnr in
theorem line_bad (lvl : Nat) (inc : CStr → CState → Res CState) (line : CStr) (st st' : CState) (bad : Bool)
    (h : compileLine cx lvl inc line st bad = .ok (st', false)) : bad = false := by
  unfold compileLine at h
  simp only at h
  split at h
  · simp only [Res.ok.injEq, Prod.mk.injEq] at h
    exact h.2
  · split at h
    · simp only [Res.ok.injEq, Prod.mk.injEq] at h
      exact h.2
    · split at h
      · split at h
        · simp only [Res.ok.injEq, Prod.mk.injEq] at h
          exact h.2
        · split at h
          · split at h
            · simp at h
            · split at h
              · simp only [Res.ok.injEq, Prod.mk.injEq] at h
                exact h.2
              all_goals simp at h
          · simp at h
      · exact rule_bad cx _ _ _ _ h

omit hnr in
theorem bad_mono (lvl : Nat) (inc : CStr → CState → Res CState) (ls : List CStr) (st st' : CState) (bad : Bool)
    (h : compileLines cx lvl inc ls st bad = .ok (st', false)) : bad = false := by
  induction ls generalizing st bad with
  | nil =>
    simp only [compileLines, Res.ok.injEq, Prod.mk.injEq] at h
    exact h.2
  | cons l ls ih =>
    simp only [compileLines] at h
    split at h
    · next hl =>
      have := ih _ _ h
      subst this
      exact line_bad cx lvl inc _ _ _ _ hl
    all_goals simp at h

end lines
end Minijail
