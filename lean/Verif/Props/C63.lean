import Verif.Proof.Lint
import Verif.Proof.Generate
import Verif.Props.C58
/-! C63: what tools/seccomp_policy_lint.py finds, and what a policy that it finds nothing wrong with allows. -/
set_option autoImplicit false
set_option linter.unusedSimpArgs false
namespace Minijail
open Spec Lint
open Offline (pyLines offlineMain)

/-- **C63**, the errors: a line is said to repeat a system call exactly if a line before it names the same one, and to need a comment (or, where
there are such rules, one of the harmless rules) exactly if it is the first to name a dangerous system call, there is no comment between it and the
line before it that names a system call, and its rule is not harmless. -/
theorem C63_errors (text : List Char) (dangerous : List (List Char)) (i : Nat) (name : List Char) :
    (.duplicate i name ∈ (checkSeccompPolicy text dangerous).2 ↔ Again (pyLines text) i name) ∧
    (.useRules i name ∈ (checkSeccompPolicy text dangerous).2 ↔ Unexplained dangerous (pyLines text) i name ∧ HasRules name) ∧
    (.needsComment i name ∈ (checkSeccompPolicy text dangerous).2 ↔ Unexplained dangerous (pyLines text) i name ∧ ¬ HasRules name) := by
  have h := (lintLines_after (pyLines text) (after_start dangerous)).errors
  exact ⟨h _, h _, h _⟩

/-- **C63**, the message: it says that there are dangerous system calls exactly if a line names one. -/
theorem C63_message (text : List Char) (dangerous : List (List Char)) :
    (checkSeccompPolicy text dangerous).1 = true ↔ ∃ l ∈ pyLines text, ∃ name rule, Names l name rule ∧ name ∈ dangerous :=
  (lintLines_after (pyLines text) (after_start dangerous)).risky

/-- **C63**, the status: 0 exactly if each system call is named once and every line that names a dangerous one is documented or harmless. -/
theorem C63_status (denylist : Bool) (text : List Char) (dangerous : List (List Char)) :
    (lintMain denylist dangerous text).1 = 0 ↔
      (∀ before l name rule, ComesAfter (pyLines text) before l → Names l name rule →
        (∀ l' ∈ before, ∀ rule', ¬ Names l' name rule') ∧ (name ∈ dangerous → Documented before ∨ Harmless name rule)) := by
  have herr := fun i n => C63_errors text dangerous i n
  have hs : (lintMain denylist dangerous text).1 = 0 ↔ (checkSeccompPolicy text dangerous).2 = [] := by
    unfold lintMain
    simp only
    by_cases h : (checkSeccompPolicy text dangerous).2 = []
    · simp [h]
    · simp [h]
  rw [hs]
  constructor
  · intro h before l name rule hc hn
    have hfirst : ∀ l' ∈ before, ∀ rule', ¬ Names l' name rule' := by
      intro l' hl' r' hn'
      have := (herr before.length name).1.2 ⟨before, l, rule, hc, rfl, hn, l', hl', r', hn'⟩
      rw [h] at this
      cases this
    refine ⟨hfirst, fun hd => ?_⟩
    by_contra hx
    rw [not_or] at hx
    have hu : Unexplained dangerous (pyLines text) before.length name := ⟨before, l, rule, hc, rfl, hn, hfirst, hd, hx.1, hx.2⟩
    by_cases hr : HasRules name
    · have := (herr before.length name).2.1.2 ⟨hu, hr⟩
      rw [h] at this
      cases this
    · have := (herr before.length name).2.2.2 ⟨hu, hr⟩
      rw [h] at this
      cases this
  · intro h
    rw [List.eq_nil_iff_forall_not_mem]
    intro e he
    cases e with
    | duplicate i n =>
      obtain ⟨before, l, r, hc, -, hn, l', hl', r', hn'⟩ := (herr i n).1.1 he
      exact (h before l n r hc hn).1 l' hl' r' hn'
    | useRules i n =>
      obtain ⟨before, l, r, hc, -, hn, -, hd, h1, h2⟩ := ((herr i n).2.1.1 he).1
      exact ((h before l n r hc hn).2 hd).elim h1 h2
    | needsComment i n =>
      obtain ⟨before, l, r, hc, -, hn, -, hd, h1, h2⟩ := ((herr i n).2.2.1 he).1
      exact ((h before l n r hc hn).2 hd).elim h1 h2

/-- The tables of a machine, as far as the tool relies on them. -/
structure LintTables (L : Lang) : Prop where
  bits : L.bits = 32 ∨ L.bits = 64
  words : ∀ n k, L.syscall n = some k → ∀ c ∈ n, c.isAlphanum = true ∨ c = '_'
  distinct : ∀ n n' k, L.syscall n = some k → L.syscall n' = some k → n = n'
  small : ∀ n k, L.syscall n = some k → k < 2 ^ 32
  read : L.named "PROT_READ".toList = some 1
  write : L.named "PROT_WRITE".toList = some 2
  exec : L.named "PROT_EXEC".toList = some 4
  none_ : L.named "PROT_NONE".toList = some 0
  random : L.named "GRND_RANDOM".toList = some 2

theorem plain_const {named : List Char → Option Nat} {bits : Nat} {neg : Bool} {tok : List Char} {v : Nat} (h1 : '|' ∉ tok)
    (h2 : tok.head? ≠ some '(') (h3 : tok.head? ≠ some '~') (h4 : tok ≠ []) (h5 : named tok = some v) :
    ConstExpr named bits (tilde neg ++ tok) (Spec.compl bits neg v) :=
  .plain ⟨h1, h2, fun _ => h3⟩ ⟨h4, .inl h5⟩

theorem arg2_signed : Signed (fun s n => s ≠ [] ∧ Digits 10 s n) "2".toList 2 :=
  .plain (ws := []) (s := "2".toList) (n := 2) (by simp) ⟨by decide, Digits.snoc (s := []) (c := '2') (n := 0) (v := 2) .nil (by decide) (by decide)⟩

theorem compl_bit {bits v bit : Nat} (h : v < 2 ^ bits) (hb : v.testBit bit = true) : (Spec.compl bits true v).testBit bit = false := by
  have : Spec.compl bits true v = 2 ^ bits - (v + 1) := by simp only [Spec.compl, if_true]; omega
  rw [this, Nat.testBit_two_pow_sub_succ h, hb]
  simp

/-- What the rule of a harmless line does. -/
theorem harmless_rule (cx : Ctx) (ht : LintTables cx.lang) {s rest : List Char} {r : Rule} (h : RuleText cx.lang rest r) (hh : Harmless s rest)
    (d : SeccompData) : r.valid ∧ (r.action cx.lang.bits d = .allow → Tame cx.lang.bits d s) := by
  have hdf : cx.lang.dflt ≠ .allow := by
    show cx.opts.action.act ≠ .allow
    cases cx.opts.action <;> simp [BlockAction.act]
  have hbits : 8 ≤ 2 ^ cx.lang.bits := by rcases ht.bits with h | h <;> rw [h] <;> decide
  have filt : ∀ (t : List Char) (f : Dnf), t = rest → t ≠ "1".toList → ¬ "return".toList <+: t → words ';' t = [t] → DnfText cx.lang t f →
      r = .filter f cx.lang.dflt := by
    rintro t f rfl h1 h2 h3 h4
    exact ruleText_unique cx h (.filter h1 h2 h3 h4)
  have act : ∀ f : Dnf, (Rule.filter f cx.lang.dflt).action cx.lang.bits d = .allow → dnfHolds cx.lang.bits d f := by
    intro f hf
    by_contra hn
    simp only [Rule.action] at hf
    rw [if_neg hn] at hf
    exact hdf hf
  have nothing : ∀ t : List Char, t = rest → t ≠ "1".toList → ¬ "return".toList <+: t → words ';' t = [t] →
      (∃ x, fields2 '|' '|' t = [x] ∧ fields2 '&' '&' x = [x] ∧ words ' ' x = [x]) → False := by
    rintro t rfl h1 h2 h3 ⟨x, hx1, hx2, hx3⟩
    have bad : ∀ f, ¬ DnfText cx.lang t f := by
      intro f hf
      unfold DnfText at hf
      rw [hx1] at hf
      cases hf with
      | cons ha hb =>
        simp only [hx2] at ha
        cases ha with
        | cons ha' _ =>
          obtain ⟨hw, -⟩ := ha'
          rw [hx3] at hw
          simp at hw
    cases h with
    | allow => exact h1 rfl
    | block hp _ => exact h2 hp
    | filter _ _ hw hf => rw [h3] at hw; cases hw; exact bad _ hf
    | filterReturn _ _ hw hf _ => rw [h3] at hw; simp at hw
    | never _ hw => rw [h3] at hw; simp at hw
  have one : ∀ {c : List Char} {v : Nat}, ConstExpr cx.lang.named cx.lang.bits c v → ∀ {g op : List Char} {cmp : Cmp}, OpText op cmp →
      words ' ' g = ["arg2".toList, op, c] → AtomText cx.lang g ⟨2, cmp, v⟩ := by
    intro c v hc g op cmp hop hw
    exact .mk (idx := "2".toList) hw arg2_signed hop hc
  rcases hh with hg | ⟨rfl, rfl⟩ | ⟨hs, hm⟩
  · simp only [List.mem_cons, List.not_mem_nil, or_false] at hg
    rcases hg with rfl | rfl | rfl | rfl
    · exact (nothing _ rfl (by decide) (by decide) (by decide) ⟨"kill".toList, by decide, by decide, by decide⟩).elim
    · exact (nothing _ rfl (by decide) (by decide) (by decide) ⟨"kill-process".toList, by decide, by decide, by decide⟩).elim
    · exact (nothing _ rfl (by decide) (by decide) (by decide) ⟨"kill-thread".toList, by decide, by decide, by decide⟩).elim
    · generalize ht0 : "return 1".toList = t at h
      cases h with
      | allow => exact absurd ht0 (by decide)
      | block hp ha =>
        refine ⟨trivial, fun hx => ?_⟩
        simp only [Rule.action] at hx
        subst hx
        generalize hz : Action.allow = z at ha
        cases ha with
        | errno => cases hz
        | dflt => exact absurd hz.symm hdf
      | filter _ hn => exact absurd (by rw [← ht0]; decide) hn
      | filterReturn _ hn => exact absurd (by rw [← ht0]; decide) hn
      | never _ hw => rw [← ht0] at hw; exact absurd hw (by decide)
  · have hd : DnfText cx.lang "arg2 in ~GRND_RANDOM".toList [[⟨2, .subset, Spec.compl cx.lang.bits true 2⟩]] :=
      .cons (.cons (one (plain_const (neg := true) (tok := "GRND_RANDOM".toList) (by decide) (by decide) (by decide) (by decide) ht.random) .subset
        (by decide)) .nil) .nil
    have hr := filt _ _ rfl (by decide) (by decide) (by decide) hd
    subst hr
    refine ⟨?_, fun ha => ?_⟩
    · intro conj hconj a ha
      simp only [List.mem_singleton] at hconj
      subst hconj
      simp only [List.mem_singleton] at ha
      subst ha
      exact ⟨show (0 : Int) ≤ 2 by decide, show (2 : Int) < 6 by decide⟩
    · obtain ⟨conj, hc, hall⟩ := act _ ha
      simp only [List.mem_singleton] at hc
      subst hc
      have := hall _ (List.mem_singleton.2 rfl) 1
      refine .inr ⟨rfl, ?_⟩
      rw [Bool.eq_false_iff]
      intro hb
      have hx := this hb
      rw [compl_bit (by omega) (by decide)] at hx
      cases hx
  · simp only [List.mem_cons, List.not_mem_nil, or_false] at hm
    have hexec : ConstExpr cx.lang.named cx.lang.bits "~PROT_EXEC".toList (Spec.compl cx.lang.bits true 4) :=
      plain_const (neg := true) (tok := "PROT_EXEC".toList) (by decide) (by decide) (by decide) (by decide) ht.exec
    have hwrite : ConstExpr cx.lang.named cx.lang.bits "~PROT_WRITE".toList (Spec.compl cx.lang.bits true 2) :=
      plain_const (neg := true) (tok := "PROT_WRITE".toList) (by decide) (by decide) (by decide) (by decide) ht.write
    have hread : ConstExpr cx.lang.named cx.lang.bits "PROT_READ".toList 1 :=
      plain_const (neg := false) (tok := "PROT_READ".toList) (by decide) (by decide) (by decide) (by decide) ht.read
    have hnone : ConstExpr cx.lang.named cx.lang.bits "PROT_NONE".toList 0 :=
      plain_const (neg := false) (tok := "PROT_NONE".toList) (by decide) (by decide) (by decide) (by decide) ht.none_
    have sub : ∀ v bit, v < 8 → v.testBit bit = true → (∀ b, (argValue cx.lang.bits d 2).testBit b = true → (Spec.compl cx.lang.bits true v).testBit b = true) →
        (argValue cx.lang.bits d 2).testBit bit = false := by
      intro v bit hv hb hall
      rw [Bool.eq_false_iff]
      intro hx
      have := hall bit hx
      rw [compl_bit (by omega) hb] at this
      cases this
    have valid : ∀ f : Dnf, (∀ conj ∈ f, ∀ a ∈ conj, a.arg = 2) → (Rule.filter f cx.lang.dflt).valid := by
      intro f hf conj hc a ha
      show Atom.valid _
      unfold Atom.valid
      rw [hf conj hc a ha]
      decide
    rcases hm with rfl | rfl | rfl
    · have hd : DnfText cx.lang "arg2 == PROT_READ || arg2 == PROT_NONE".toList [[⟨2, .eq, 1⟩], [⟨2, .eq, 0⟩]] :=
        .cons (.cons (one hread .eq (by decide)) .nil) (.cons (.cons (one hnone .eq (by decide)) .nil) .nil)
      have hr := filt _ _ rfl (by decide) (by decide) (by decide) hd
      subst hr
      refine ⟨valid _ (by decide), fun ha => ?_⟩
      obtain ⟨conj, hc, hall⟩ := act _ ha
      simp only [List.mem_cons, List.not_mem_nil, or_false] at hc
      refine .inl ⟨hs, ?_⟩
      rcases hc with rfl | rfl
      · have : argValue cx.lang.bits d 2 = 1 := hall _ (List.mem_singleton.2 rfl)
        rw [this]; decide
      · have : argValue cx.lang.bits d 2 = 0 := hall _ (List.mem_singleton.2 rfl)
        rw [this]; decide
    · have hd : DnfText cx.lang "arg2 in ~PROT_EXEC".toList [[⟨2, .subset, Spec.compl cx.lang.bits true 4⟩]] :=
        .cons (.cons (one hexec .subset (by decide)) .nil) .nil
      have hr := filt _ _ rfl (by decide) (by decide) (by decide) hd
      subst hr
      refine ⟨valid _ (by simp), fun ha => ?_⟩
      obtain ⟨conj, hc, hall⟩ := act _ ha
      simp only [List.mem_singleton] at hc
      subst hc
      have := sub 4 2 (by decide) (by decide) (hall _ (List.mem_singleton.2 rfl))
      exact .inl ⟨hs, fun hx => by rw [this] at hx; exact absurd hx.2 (by decide)⟩
    · have hd : DnfText cx.lang "arg2 in ~PROT_EXEC || arg2 in ~PROT_WRITE".toList
          [[⟨2, .subset, Spec.compl cx.lang.bits true 4⟩], [⟨2, .subset, Spec.compl cx.lang.bits true 2⟩]] :=
        .cons (.cons (one hexec .subset (by decide)) .nil) (.cons (.cons (one hwrite .subset (by decide)) .nil) .nil)
      have hr := filt _ _ rfl (by decide) (by decide) (by decide) hd
      subst hr
      refine ⟨valid _ (by simp), fun ha => ?_⟩
      obtain ⟨conj, hc, hall⟩ := act _ ha
      simp only [List.mem_cons, List.not_mem_nil, or_false] at hc
      refine .inl ⟨hs, ?_⟩
      rcases hc with rfl | rfl
      · have := sub 4 2 (by decide) (by decide) (hall _ (List.mem_singleton.2 rfl))
        exact fun hx => by rw [this] at hx; exact absurd hx.2 (by decide)
      · have := sub 2 1 (by decide) (by decide) (hall _ (List.mem_singleton.2 rfl))
        exact fun hx => by rw [this] at hx; exact absurd hx.1 (by decide)

theorem lint_fields_chars (d : Char) (s : List Char) : ∀ l ∈ fields d s, ∀ c ∈ l, c ∈ s ∧ c ≠ d := by
  induction s with
  | nil => simp [fields]
  | cons a s ih =>
    intro l hl c hc
    rw [fields] at hl
    split_ifs at hl with ha
    · rcases List.mem_cons.1 hl with rfl | hl
      · cases hc
      · exact ⟨by simp [(ih l hl c hc).1], (ih l hl c hc).2⟩
    · cases hf : fields d s with
      | nil =>
        rw [hf] at hl
        simp [consHead] at hl
        subst hl
        simp at hc
        exact ⟨by simp [hc], by rw [hc]; exact ha⟩
      | cons f fs =>
        rw [hf] at hl ih
        simp only [consHead] at hl
        rcases List.mem_cons.1 hl with rfl | hl
        · rcases List.mem_cons.1 hc with rfl | hc
          · exact ⟨by simp, ha⟩
          · exact ⟨by simp [(ih f (by simp) c hc).1], (ih f (by simp) c hc).2⟩
        · exact ⟨by simp [(ih l (by simp [hl]) c hc).1], (ih l (by simp [hl]) c hc).2⟩

theorem physical_chars (s l : List Char) (hl : l ∈ physicalLines s) : ∀ c ∈ l, c ∈ s ∧ c ≠ '\n' := by
  refine lint_fields_chars '\n' s l ?_
  unfold physicalLines at hl
  simp only at hl
  split_ifs at hl
  · exact List.dropLast_subset _ hl
  · exact hl

theorem all₂_mem {α β : Type} {R : α → β → Prop} {as : List α} {bs : List β} (h : All₂ R as bs) : ∀ b ∈ bs, ∃ a ∈ as, R a b := by
  induction h with
  | nil => simp
  | cons hab _ ih =>
    intro b hb
    rcases List.mem_cons.1 hb with rfl | hb
    · exact ⟨_, by simp, hab⟩
    · obtain ⟨a, ha, hr⟩ := ih b hb
      exact ⟨a, by simp [ha], hr⟩

theorem joinLines_whole (ls : List (List Char)) (h : ∀ l ∈ ls, l.getLast? ≠ some '\\') : joinLines ls = ls := by
  induction ls with
  | nil => rfl
  | cons l ls ih => rw [joinLines, if_neg (h l (by simp)), ih fun x hx => h x (by simp [hx])]

/-- The rules that a policy has for a system call come from lines that name it. -/
theorem line_of_rule (cx : Ctx) (ht : LintTables cx.lang) (text : List Char) (h1 : OneFile text) (rules : List (BitVec 32 × Rule))
    (hp : PolicyText cx.lang text rules) (s : List Char) (k : Nat) (hk : cx.lang.syscall s = some k) (x : BitVec 32 × Rule) (hx : x ∈ rules)
    (hnr : x.1 = BitVec.ofNat 32 k) :
    ∃ before l rest, ComesAfter (physicalLines text) before l ∧ Names l s rest ∧ (Harmless s rest → RuleText cx.lang rest x.2) := by
  obtain ⟨parts, hall, rfl⟩ := hp
  obtain ⟨rs, hrs, hxr⟩ := List.mem_flatten.1 hx
  obtain ⟨l, hl, hline⟩ := all₂_mem hall rs hrs
  rw [logicalLines, joinLines_whole _ h1.whole] at hl
  generalize htl : trim l = tl at hline
  cases hline with
  | blank => cases hxr
  | comment => cases hxr
  | frequency => cases hxr
  | unknown => cases hxr
  | include_ => exact absurd (by rw [htl]; exact ⟨' ' :: _, rfl⟩) (h1.alone l hl)
  | @rule name rhs nr r hn1 hn2 hn3 hsys hrule =>
    simp only [List.mem_singleton] at hxr
    subst hxr
    simp only at hnr
    have hnk : nr = k := by
      have := congrArg BitVec.toNat hnr
      rw [BitVec.toNat_ofNat, BitVec.toNat_ofNat, Nat.mod_eq_of_lt (ht.small _ _ hsys), Nat.mod_eq_of_lt (ht.small _ _ hk)] at this
      exact this
    subst hnk
    have hname : trim name = s := ht.distinct _ _ _ hsys hk
    obtain ⟨b, b', hlb, hb, hb'⟩ := trim_split l
    obtain ⟨n1, n2, hnb, hn1', hn2'⟩ := trim_split name
    have hwhite : ∀ c, isBlank c ∨ c = '\n' → White c := by
      rintro c ((rfl | rfl) | rfl) <;> unfold White <;> decide
    have hnames : Names l s ((rhs ++ b').dropWhile Offline.isPySpace) := by
      refine ⟨b ++ n1, n2, (rhs ++ b').takeWhile Offline.isPySpace, ?_, ?_, ?_, ?_⟩
      · rw [hlb, htl, hnb, hname]
        have := List.takeWhile_append_dropWhile (p := Offline.isPySpace) (l := rhs ++ b')
        simp only [List.append_assoc, List.cons_append, this]
      · intro c hc
        simp only [List.mem_append] at hc
        rcases hc with ((hc | hc) | hc) | hc
        · exact hwhite c (.inl (hb c hc))
        · exact hwhite c (.inl (hn1' c hc))
        · exact hwhite c (hn2' c hc)
        · exact (pySpace_iff c).1 (takeWhile_all c hc)
      · exact ht.words s nr hk
      · intro c hc
        rw [← pySpace_iff, dropWhile_head hc]
        simp
    obtain ⟨before, after, hba⟩ := List.append_of_mem hl
    refine ⟨before, l, _, ⟨after, hba⟩, hnames, ?_⟩
    · intro hharm
      have hw : ∀ c ∈ (rhs ++ b').takeWhile Offline.isPySpace, c = ' ' ∨ c = '\t' := by
        intro c hc
        have h2 := (pySpace_iff c).1 (takeWhile_all c hc)
        have hcl : c ∈ l := by
          rw [hlb, htl]
          have : c ∈ rhs ++ b' := List.takeWhile_subset _ hc
          rcases List.mem_append.1 this with h | h <;> simp [h]
        obtain ⟨h3, h4⟩ := physical_chars text l hl c hcl
        rcases h1.printable c h3 with h | h | h
        · exact .inr h
        · exact absurd h h4
        · left
          unfold White at h2
          rcases h2 with h2 | h2 | h2
          · exact h2
          · omega
          · omega
      generalize hrest : (rhs ++ b').dropWhile Offline.isPySpace = rest at hharm
      have hsplit : rhs ++ b' = (rhs ++ b').takeWhile Offline.isPySpace ++ rest := by
        rw [← hrest, List.takeWhile_append_dropWhile]
      generalize (rhs ++ b').takeWhile Offline.isPySpace = w at hw hsplit
      have key : ∀ t : List Char, t ≠ [] → (t.getLast?.all fun c => c != ' ' && c != '\t' && c != '\n') = true → trim t = t → t = rest → trim rhs = rest := by
        rintro t ht1 ht2 ht3 rfl
        have hb0 : b' = [] := by
          rcases List.eq_nil_or_concat b' with h | ⟨q, c, rfl⟩
          · exact h
          · exfalso
            rcases List.eq_nil_or_concat t with h | ⟨q', c', rfl⟩
            · exact ht1 h
            · rw [List.concat_eq_append, List.concat_eq_append, ← List.append_assoc, ← List.append_assoc] at hsplit
              obtain ⟨-, h⟩ := List.append_inj' hsplit rfl
              cases h
              simp at ht2
              have hc := hb' c (by simp)
              unfold isBlank at hc
              tauto
        subst hb0
        rw [List.append_nil] at hsplit
        rw [hsplit]
        unfold trim at ht3 ⊢
        simp only at ht3 ⊢
        rw [List.dropWhile_append_of_pos (fun c hc => by rcases hw c hc with rfl | rfl <;> decide)]
        exact ht3
      have hval : trim rhs = rest := by
        rcases hharm with hg | ⟨-, hg⟩ | ⟨-, hg⟩
        · simp only [List.mem_cons, List.not_mem_nil, or_false] at hg
          rcases hg with hg | hg | hg | hg <;> exact key _ (by decide) (by decide) (by decide) hg.symm
        · exact key _ (by decide) (by decide) (by decide) hg.symm
        · simp only [List.mem_cons, List.not_mem_nil, or_false] at hg
          rcases hg with hg | hg | hg <;> exact key _ (by decide) (by decide) (by decide +kernel) hg.symm
      rw [← hval]
      exact hrule

theorem lines_same {text : List Char} (h1 : OneFile text) : pyLines text = physicalLines text := by
  refine pyLines_physical text fun hx => ?_
  rcases h1.printable _ hx with h | h | h
  · exact absurd h (by decide)
  · exact absurd h (by decide)
  · exact absurd h (by decide)

/-- The rules that a policy has for a dangerous system call come from lines that are documented or harmless. -/
theorem rule_of_line (cx : Ctx) (ht : LintTables cx.lang) (text : List Char) (h1 : OneFile text) (denylist : Bool) (dangerous : List (List Char))
    (hok : (lintMain denylist dangerous text).1 = 0) (rules : List (BitVec 32 × Rule)) (hp : PolicyText cx.lang text rules) (s : List Char)
    (hs : s ∈ dangerous) (k : Nat) (hk : cx.lang.syscall s = some k) (x : BitVec 32 × Rule) (hx : x ∈ rules) (hnr : x.1 = BitVec.ofNat 32 k)
    (d : SeccompData) :
    (∃ before l rule, ComesAfter (physicalLines text) before l ∧ Names l s rule ∧ Documented before) ∨
      (x.2.valid ∧ (x.2.action cx.lang.bits d = .allow → Tame cx.lang.bits d s)) := by
  obtain ⟨before, l, rest, hc, hn, hrule⟩ := line_of_rule cx ht text h1 rules hp s k hk x hx hnr
  rcases ((C63_status denylist text dangerous).1 hok before l s rest (by rw [lines_same h1]; exact hc) hn).2 hs with hdoc | hharm
  · exact .inl ⟨before, l, rest, hc, hn, hdoc⟩
  · exact .inr (harmless_rule cx ht (hrule hharm) hharm d)

theorem action_of_rule {bits : Nat} {d : SeccompData} {dflt : Action} (hd : dflt ≠ .allow) {rules : List (BitVec 32 × Rule)}
    (h : policyAction bits d dflt rules = .allow) : ∃ x ∈ rules, x.1 = d.nr ∧ x.2.action bits d = .allow := by
  induction rules with
  | nil => exact absurd h hd
  | cons x rules ih =>
    obtain ⟨nr, r⟩ := x
    rw [policyAction] at h
    split_ifs at h with hn
    · exact ⟨(nr, r), by simp, hn.symm, h⟩
    · obtain ⟨y, hy, h'⟩ := ih h
      exact ⟨y, by simp [hy], h'⟩

theorem lint_word_allow {a : Action} (h : a.word = 0x7fff0000#32) : a = .allow := by
  cases a with
  | allow => rfl
  | errno e =>
    exfalso
    have := congrArg BitVec.toNat h
    simp only [Action.word, BitVec.toNat_ofNat] at this
    have h2 : e % 65536 < 65536 := Nat.mod_lt _ (by decide)
    omega
  | killThread => exact absurd h (by decide)
  | killProcess => exact absurd h (by decide)
  | trap => exact absurd h (by decide)
  | log => exact absurd h (by decide)

/-- **C63**, minijail, for a policy of one file without continued lines: if the tool has found nothing wrong with it and its filter allows a
dangerous system call, then a line that names the system call is documented, or the arguments are such that no comment is needed. -/
theorem C63_minijail_partial (cx : Ctx) (hbe : cx.t.be = false) (hnr : ∀ e ∈ cx.syscalls, e.2 < 2 ^ 31) (ht : LintTables cx.lang)
    (text : List Char) (h1 : OneFile text) (denylist : Bool) (dangerous : List (List Char)) (hok : (lintMain denylist dangerous text).1 = 0)
    (prog : List Insn) (h : compileFilter cx text = .ok prog) (s : List Char) (hs : s ∈ dangerous) (k : Nat) (hk : cx.lang.syscall s = some k)
    (d : SeccompData) (harch : d.arch = cx.t.archNr) (hd : d.nr = BitVec.ofNat 32 k) (hb : ∀ x ∈ cx.builtin, x.1 ≠ d.nr)
    (hallow : runFilter cx.t.be prog d = .ret Action.allow.word) :
    (∃ before l rule, ComesAfter (physicalLines text) before l ∧ Names l s rule ∧ Documented before) ∨ Tame cx.t.longBits d s := by
  by_contra hcon
  rw [not_or] at hcon
  obtain ⟨rules, hrules⟩ := C01_compiles_meaningful cx text prog hnr h
  have hr : ∀ x ∈ rules, x.1 = d.nr → x.2.valid ∧ (x.2.action cx.lang.bits d = .allow → Tame cx.lang.bits d s) := fun x hx hxd =>
    (rule_of_line cx ht text h1 denylist dangerous hok rules hrules s hs k hk x hx (hxd.trans hd) d).resolve_left hcon.1
  rw [C01_filter_means_policy cx text prog hbe hnr h rules hrules d harch fun x hx hxd => (hr x hx hxd).1] at hallow
  have hdf : cx.opts.action.act ≠ .allow := by cases cx.opts.action <;> simp [BlockAction.act]
  obtain ⟨x, hx, hxd, hxa⟩ := action_of_rule hdf (lint_word_allow (by simpa [Action.word] using hallow))
  rcases List.mem_append.1 hx with hx | hx
  · exact hb x hx hxd
  · exact hcon.2 ((hr x hx hxd).2 hxa)

/-- **C63**, the offline compiler, likewise. -/
theorem C63_offline_partial {T : CommonTables} {cx : Ctx} {fs : Offline.PyFiles} {c : Offline.Command} {text : List Char}
    {rules : List (List Char × Rule)} {prog : List Insn} (htask : SameTask T cx fs c text) (hp : CommonPolicy T cx.opts.action.act text rules)
    (h : offlineMain fs c = some prog) (ht : LintTables cx.lang) (h1 : OneFile text) (denylist : Bool) (dangerous : List (List Char))
    (hok : (lintMain denylist dangerous text).1 = 0) (s : List Char) (hs : s ∈ dangerous) (k : Nat) (hk : cx.lang.syscall s = some k)
    (d : SeccompData) (harch : d.arch = cx.t.archNr) (hd : d.nr = BitVec.ofNat 32 k) (hallow : runFilter false prog d = .ret Action.allow.word) :
    (∃ before l rule, ComesAfter (physicalLines text) before l ∧ Names l s rule ∧ Documented before) ∨ Tame T.bits d s := by
  rw [C58_offline htask hp h d harch] at hallow
  have hdf : cx.opts.action.act ≠ .allow := by cases cx.opts.action <;> simp [BlockAction.act]
  obtain ⟨x, hx, hxd, hxa⟩ := action_of_rule hdf (lint_word_allow (by simpa [Action.word] using hallow))
  have hm := policy_means (L := cx.lang) htask.lang hp
  have hb := htask.lang.bits
  rcases rule_of_line cx ht text h1 denylist dangerous hok _ hm s hs k hk x hx (hxd.trans hd) d with h' | h'
  · exact .inl h'
  · right
    rw [hb] at h'
    exact h'.2 hxa

/-- **C63**, the message, for a policy of one file without continued lines: if it says that there are no dangerous system calls, the filter
allows none. -/
theorem C63_none_partial (cx : Ctx) (hbe : cx.t.be = false) (hnr : ∀ e ∈ cx.syscalls, e.2 < 2 ^ 31) (ht : LintTables cx.lang)
    (text : List Char) (h1 : OneFile text) (dangerous : List (List Char)) (hmsg : (checkSeccompPolicy text dangerous).1 = false)
    (prog : List Insn) (h : compileFilter cx text = .ok prog) (s : List Char) (hs : s ∈ dangerous) (k : Nat) (hk : cx.lang.syscall s = some k)
    (d : SeccompData) (harch : d.arch = cx.t.archNr) (hd : d.nr = BitVec.ofNat 32 k) (hb : ∀ x ∈ cx.builtin, x.1 ≠ d.nr) :
    runFilter cx.t.be prog d ≠ .ret Action.allow.word := by
  intro hallow
  obtain ⟨rules, hrules⟩ := C01_compiles_meaningful cx text prog hnr h
  have hr : ∀ x ∈ rules, x.1 ≠ d.nr := by
    intro x hx hxd
    obtain ⟨before, l, rest, ⟨after, hc⟩, hn, -⟩ := line_of_rule cx ht text h1 rules hrules s k hk x hx (hxd.trans hd)
    have := (C63_message text dangerous).2 ⟨l, by rw [lines_same h1, hc]; simp, s, rest, hn, hs⟩
    rw [hmsg] at this
    cases this
  rw [C01_filter_means_policy cx text prog hbe hnr h rules hrules d harch fun x hx hxd => absurd hxd (hr x hx)] at hallow
  have hdf : cx.opts.action.act ≠ .allow := by cases cx.opts.action <;> simp [BlockAction.act]
  obtain ⟨x, hx, hxd, -⟩ := action_of_rule hdf (lint_word_allow (by simpa [Action.word] using hallow))
  rcases List.mem_append.1 hx with hx | hx
  · exact hb x hx hxd
  · exact hr x hx hxd

/-! ### A case -/

/-- A machine with some dangerous system calls. -/
def lintCx : Ctx where
  t := ⟨true, false, 0xc000003e⟩
  syscalls := [("read".toList, 0), ("mmap".toList, 9), ("mprotect".toList, 10), ("clone".toList, 56), ("kill".toList, 62)]
  constants := [("PROT_NONE".toList, 0#64), ("PROT_READ".toList, 1#64), ("PROT_WRITE".toList, 2#64), ("PROT_EXEC".toList, 4#64), ("GRND_RANDOM".toList, 2#64)]
  logSyscalls := []
  libcCompatibilitySyscalls := []
  fs := fun p => if p = "/etc/q".toList then some "kill: 1\n".toList else none
  opts := ⟨.kill, false, false, false, false⟩

theorem lint_tables : LintTables lintCx.lang where
  bits := .inr rfl
  words n k h c hc := by
    obtain ⟨e, he, -⟩ := Option.map_eq_some_iff.1 (show (lintCx.syscalls.find? fun e => e.1 == n).map _ = some k from h)
    have h1 := List.mem_of_find?_eq_some he
    have h2 := List.find?_some he
    simp only [beq_iff_eq] at h2
    subst h2
    have : ∀ e ∈ lintCx.syscalls, ∀ c ∈ e.1, c.isAlphanum = true ∨ c = '_' := by decide
    exact this e h1 c hc
  distinct n n' k h h' := by
    obtain ⟨e, he, hv⟩ := Option.map_eq_some_iff.1 (show (lintCx.syscalls.find? fun e => e.1 == n).map _ = some k from h)
    obtain ⟨e', he', hv'⟩ := Option.map_eq_some_iff.1 (show (lintCx.syscalls.find? fun e => e.1 == n').map _ = some k from h')
    have h1 := List.mem_of_find?_eq_some he
    have h2 := List.find?_some he
    have h1' := List.mem_of_find?_eq_some he'
    have h2' := List.find?_some he'
    simp only [beq_iff_eq] at h2 h2'
    have : ∀ e ∈ lintCx.syscalls, ∀ e' ∈ lintCx.syscalls, e.2 = e'.2 → e.1 = e'.1 := by decide
    rw [← h2, ← h2']
    exact this e h1 e' h1' (hv.trans hv'.symm)
  small n k h := by
    obtain ⟨e, he, hv⟩ := Option.map_eq_some_iff.1 (show (lintCx.syscalls.find? fun e => e.1 == n).map _ = some k from h)
    have : ∀ e ∈ lintCx.syscalls, e.2 < 2 ^ 32 := by decide
    rw [← hv]
    exact this e (List.mem_of_find?_eq_some he)
  read := by decide
  write := by decide
  exec := by decide
  none_ := by decide
  random := by decide

/-- Two harmless rules, and a documented one. -/
def lintText : List Char :=
  "read: 1\nmmap: arg2 in ~PROT_EXEC || arg2 in ~PROT_WRITE\nclone: return 1\n# To end the others.\n\n kill : 1\n".toList

/-- The hypotheses of `C63_minijail_partial` are met: `kill` is allowed and documented, `mmap` is allowed with PROT_READ (1), and not with 6. -/
example : OneFile lintText ∧ (lintMain false dangerousSyscalls lintText).1 = 0 ∧
    (∃ prog, compileFilter lintCx lintText = .ok prog ∧
      runFilter false prog (amd64Call 62#32 1#64) = .ret Action.allow.word ∧
      runFilter false prog ⟨9#32, 0xc000003e#32, 0#64, 0#64, 0#64, 1#64, 0#64, 0#64, 0#64⟩ = .ret Action.allow.word ∧
      runFilter false prog ⟨9#32, 0xc000003e#32, 0#64, 0#64, 0#64, 6#64, 0#64, 0#64, 0#64⟩ = .ret Action.killThread.word) :=
  ⟨⟨by decide +kernel, by decide +kernel, by decide +kernel⟩, by decide +kernel, _, ok_of_ne_nil (by decide +kernel), by decide +kernel, by decide +kernel,
    by decide +kernel⟩

/-! ### Violations -/

/-- **C63 does not hold** for continued lines: the tool says that there are no dangerous system calls, and `kill` is allowed. -/
theorem C63_continued_violated : (lintMain false dangerousSyscalls "kill\\\n: 1\n".toList) = (0, false, []) ∧
    ∃ prog, compileFilter lintCx "kill\\\n: 1\n".toList = .ok prog ∧ runFilter false prog (amd64Call 62#32 1#64) = .ret Action.allow.word :=
  ⟨by decide +kernel, _, ok_of_ne_nil (by decide +kernel), by decide +kernel⟩

/-- **C63 does not hold** for included files: the same. -/
theorem C63_include_violated : (lintMain false dangerousSyscalls "@include /etc/q\n".toList) = (0, false, []) ∧
    ∃ prog, compileFilter lintCx "@include /etc/q\n".toList = .ok prog ∧ runFilter false prog (amd64Call 62#32 1#64) = .ret Action.allow.word :=
  ⟨by decide +kernel, _, ok_of_ne_nil (by decide +kernel), by decide +kernel⟩

/-- **C63 does not hold** for groups of system calls, which the offline compiler knows: the same. -/
theorem C63_group_violated : (lintMain false dangerousSyscalls "{read, kill}: 1\n".toList) = (0, false, []) ∧
    (offlineMain (bothFiles "{read, kill}: 1\n".toList) (bothCommand false)).map (fun p => runFilter false p (amd64Call 62#32 1#64)) =
      some (.ret Action.allow.word) := ⟨by decide +kernel, by decide +kernel⟩

/-- **C63 does not hold** for denylists, although there is an option for them: a policy that does not deny `kill` allows it. -/
theorem C63_denylist_violated : (lintMain true dangerousSyscalls "@denylist\nread: return EPERM\n".toList) = (0, false, []) ∧
    (offlineMain (bothFiles "@denylist\nread: return EPERM\n".toList) { bothCommand false with denylist := true }).map (fun p => runFilter false p (amd64Call 62#32 1#64)) =
      some (.ret Action.allow.word) := ⟨by decide +kernel, by decide +kernel⟩

/-- **C63 does not hold** for the comment "on the preceding line" that the message asks for: one at the head of the file will do. -/
theorem C63_comment_violated : ∃ text : List Char, physicalLines text = ["# Copyright".toList, "@include /etc/q".toList, "clone: 1".toList] ∧
    lintMain false dangerousSyscalls text = (0, true, []) :=
  ⟨"# Copyright\n@include /etc/q\nclone: 1\n".toList, by decide +kernel, by decide +kernel⟩

end Minijail
