import Verif.Proof.PolicyRun
import Verif.Props.C11
/-! The policy language is unambiguous. -/
set_option linter.unusedSimpArgs false
set_option autoImplicit false
namespace Minijail

theorem opText_unique {s : List Char} {a b : Spec.Cmp} (h1 : Spec.OpText s a) (h2 : Spec.OpText s b) : a = b := by
  cases h1 <;> generalize hs : String.toList _ = s at h2 <;> cases h2 <;> first | rfl | (exact absurd hs (by decide))

theorem all₂_unique {α β : Type} {R : α → β → Prop} (hR : ∀ a b c, R a b → R a c → b = c) {as : List α} {bs cs : List β}
    (h1 : Spec.All₂ R as bs) (h2 : Spec.All₂ R as cs) : bs = cs := by
  induction h1 generalizing cs with
  | nil => cases h2; rfl
  | cons h _ ih =>
    cases h2 with
    | cons h' h2 => rw [hR _ _ _ h h', ih h2]

theorem signed_unique {s : List Char} {i j : Int} (h1 : Spec.Signed (fun s n => s ≠ [] ∧ Spec.Digits 10 s n) s i)
    (h2 : Spec.Signed (fun s n => s ≠ [] ∧ Spec.Digits 10 s n) s j) : i = j := by
  rw [signed_decimal_iff] at h1 h2
  obtain ⟨n1, m1, h1, rfl⟩ := h1
  obtain ⟨n2, m2, h2, rfl⟩ := h2
  rw [h1] at h2
  simp only [Option.some.injEq, Prod.mk.injEq] at h2
  obtain ⟨rfl, rfl, _⟩ := h2
  rfl

theorem const_unique (cx : Ctx) {s : List Char} {u v : Nat} (hu : Spec.ConstExpr cx.lang.named cx.lang.bits s u)
    (hv : Spec.ConstExpr cx.lang.named cx.lang.bits s v) : u = v :=
  C11_value_unique (longBits_pos cx.t) cx.constants s u v hu hv

theorem atomText_unique (cx : Ctx) {s : List Char} {a b : Spec.Atom} (h1 : Spec.AtomText cx.lang s a)
    (h2 : Spec.AtomText cx.lang s b) : a = b := by
  obtain ⟨w1, s1, o1, c1⟩ := h1
  obtain ⟨w2, s2, o2, c2⟩ := h2
  rw [w1] at w2
  simp only [List.cons.injEq, List.append_cancel_left_eq, and_true] at w2
  obtain ⟨rfl, rfl, rfl⟩ := w2
  rw [signed_unique s1 s2, opText_unique o1 o2, const_unique cx c1 c2]

theorem dnfText_unique (cx : Ctx) {s : List Char} {f g : Spec.Dnf} (h1 : Spec.DnfText cx.lang s f)
    (h2 : Spec.DnfText cx.lang s g) : f = g :=
  all₂_unique (R := fun g conj => Spec.All₂ (Spec.AtomText cx.lang) (Spec.fields2 '&' '&' g) conj)
    (fun _ _ _ => all₂_unique (R := Spec.AtomText cx.lang) (fun _ _ _ => atomText_unique cx)) h1 h2

theorem returnText_unique (cx : Ctx) {s : List Char} {a b : Spec.Action} (h1 : Spec.ReturnText cx.lang s a)
    (h2 : Spec.ReturnText cx.lang s b) : a = b := by
  cases h1 with
  | errno w1 _ c1 _ =>
    cases h2 with
    | errno w2 _ c2 _ =>
      rw [w1] at w2
      simp only [List.cons.injEq] at w2
      obtain ⟨_, rfl, _⟩ := w2
      rw [const_unique cx c1 c2]
    | dflt w2 _ _ => rw [w1] at w2; simp at w2
  | dflt w1 _ _ =>
    cases h2 with
    | errno w2 _ _ _ => rw [w1] at w2; simp at w2
    | dflt _ _ _ => rfl

theorem ruleText_unique (cx : Ctx) {s : List Char} {a b : Spec.Rule} (h1 : Spec.RuleText cx.lang s a)
    (h2 : Spec.RuleText cx.lang s b) : a = b := by
  cases h1 with
  | allow =>
    generalize hs : "1".toList = s at h2
    cases h2 with
    | allow => rfl
    | block p _ => subst hs; exact absurd p (by decide)
    | filter n _ _ _ => exact absurd hs.symm n
    | filterReturn n _ _ _ _ => exact absurd hs.symm n
    | never _ w => subst hs; exact absurd w (by decide)
  | block p r =>
    cases h2 with
    | allow => exact absurd p (by decide)
    | block _ r' => rw [returnText_unique cx r r']
    | filter _ n _ _ => exact absurd p n
    | filterReturn _ n _ _ _ => exact absurd p n
    | never _ w => cases r with
      | errno w' _ _ _ => exact absurd w (never_return p)
      | dflt w' _ _ => exact absurd w (never_return p)
  | filter n1 n2 w f =>
    cases h2 with
    | allow => exact absurd rfl n1
    | block p _ => exact absurd p n2
    | filter _ _ w' f' =>
      rw [w] at w'; simp only [List.cons.injEq, and_true] at w'; subst w'
      rw [dnfText_unique cx f f']
    | filterReturn _ _ w' _ _ => rw [w] at w'; simp at w'
    | never _ w' => rw [w] at w'; simp at w'
  | filterReturn n1 n2 w f r =>
    cases h2 with
    | allow => exact absurd rfl n1
    | block p _ => exact absurd p n2
    | filter _ _ w' f' => rw [w] at w'; simp at w'
    | filterReturn _ _ w' f' r' =>
      rw [w] at w'; simp only [List.cons.injEq] at w'; obtain ⟨rfl, rfl, _⟩ := w'
      rw [dnfText_unique cx f f', returnText_unique cx r r']
    | never _ w' => rw [w] at w'; simp at w'
  | never n1 w =>
    cases h2 with
    | allow => exact absurd w (by decide)
    | block p _ => exact absurd w (never_return p)
    | filter _ _ w' f' => rw [w] at w'; simp at w'
    | filterReturn _ _ w' f' r' => rw [w] at w'; simp at w'
    | never _ w' => rfl
where
  never_return {s : List Char} (p : "return".toList <+: s) : Spec.words ';' s ≠ [] := by
    obtain ⟨t, rfl⟩ := p
    show Spec.words ';' ('r' :: ("eturn".toList ++ t)) ≠ []
    unfold Spec.words Spec.fields
    rw [if_neg (by decide)]
    cases Spec.fields ';' ("eturn".toList ++ t) <;> simp [Spec.consHead]

theorem split_colon_unique {a b a' b' : List Char} (h : a ++ ':' :: b = a' ++ ':' :: b') (ha : ':' ∉ a) (ha' : ':' ∉ a') :
    a = a' ∧ b = b' := by
  induction a generalizing a' with
  | nil =>
    cases a' with
    | nil => simpa using h
    | cons c a' =>
      simp only [List.nil_append, List.cons_append, List.cons.injEq] at h
      rw [← h.1] at ha'
      simp at ha'
  | cons c a ih =>
    cases a' with
    | nil =>
      simp only [List.nil_append, List.cons_append, List.cons.injEq] at h
      rw [h.1] at ha
      simp at ha
    | cons c' a' =>
      simp only [List.cons_append, List.cons.injEq] at h
      simp only [List.mem_cons, not_or] at ha ha'
      obtain ⟨rfl, h⟩ := h
      obtain ⟨rfl, rfl⟩ := ih h ha.2 ha'.2
      exact ⟨rfl, rfl⟩

theorem head_of_rule {c : Char} {t name rhs : List Char} (h : c :: t = name ++ ':' :: rhs) (hc : c ≠ ':') :
    name.head? = some c := by
  cases name with
  | nil => simp only [List.nil_append, List.cons.injEq] at h; exact absurd h.1 hc
  | cons a n => simp only [List.cons_append, List.cons.injEq] at h; simp [h.1]

theorem lineText_unique (cx : Ctx) {incl : List Char → List (BitVec 32 × Spec.Rule) → Prop}
    (hincl : ∀ c r r', incl c r → incl c r' → r = r') {s : List Char} {a b : List (BitVec 32 × Spec.Rule)}
    (h1 : Spec.LineText cx.lang incl s a) (h2 : Spec.LineText cx.lang incl s b) : a = b := by
  cases h1 with
  | blank =>
    generalize hs : ([] : List Char) = s at h2
    cases h2 with
    | blank | comment | frequency | unknown => rfl
    | include_ => simp at hs
    | rule => simp at hs
  | comment =>
    generalize hs : '#' :: _ = s at h2
    cases h2 with
    | blank | comment | frequency | unknown => rfl
    | include_ => simp at hs
    | rule hn => exact absurd (head_of_rule hs (by decide)) hn
  | frequency =>
    generalize hs : "@frequency".toList ++ _ = s at h2
    cases h2 with
    | blank | comment | frequency | unknown => rfl
    | include_ => simp at hs
    | rule _ hn => exact absurd (head_of_rule (c := '@') hs (by decide)) hn
  | @include_ path content _ _ hf hi =>
    generalize hs : "@include ".toList ++ path = s at h2
    cases h2 with
    | blank => simp at hs
    | comment => simp at hs
    | frequency => simp at hs
    | include_ _ hf' hi' =>
      rw [List.append_cancel_left_eq] at hs
      subst hs
      rw [hf, Option.some.injEq] at hf'
      subst hf'
      exact hincl _ _ _ hi hi'
    | rule _ hn => exact absurd (head_of_rule (c := '@') hs (by decide)) hn
    | unknown _ hn => exact absurd (head_of_rule (c := '@') hs (by decide)) hn
  | @rule name rhs nr r n1 n2 n3 hl hr =>
    generalize hs : name ++ ':' :: rhs = s at h2
    cases h2 with
    | blank => simp at hs
    | comment => exact absurd (head_of_rule hs.symm (by decide)) n1
    | frequency => exact absurd (head_of_rule (c := '@') hs.symm (by decide)) n2
    | include_ => exact absurd (head_of_rule (c := '@') hs.symm (by decide)) n2
    | rule _ _ n3' hl' hr' =>
      obtain ⟨rfl, rfl⟩ := split_colon_unique hs n3 n3'
      rw [hl, Option.some.injEq] at hl'
      subst hl'
      rw [ruleText_unique cx hr hr']
    | unknown _ _ n3' hl' =>
      obtain ⟨rfl, rfl⟩ := split_colon_unique hs n3 n3'
      rw [hl] at hl'; simp at hl'
  | @unknown name rhs n1 n2 n3 hl hr =>
    generalize hs : name ++ ':' :: rhs = s at h2
    cases h2 with
    | blank | comment | frequency | unknown => rfl
    | include_ => exact absurd (head_of_rule (c := '@') hs.symm (by decide)) n2
    | rule _ _ n3' hl' hr' =>
      obtain ⟨rfl, rfl⟩ := split_colon_unique hs n3 n3'
      rw [hl] at hl'; simp at hl'

theorem fileText_unique (cx : Ctx) {incl : List Char → List (BitVec 32 × Spec.Rule) → Prop}
    (hincl : ∀ c r r', incl c r → incl c r' → r = r') {s : List Char} {a b : List (BitVec 32 × Spec.Rule)}
    (h1 : Spec.FileText cx.lang incl s a) (h2 : Spec.FileText cx.lang incl s b) : a = b := by
  obtain ⟨p1, h1, rfl⟩ := h1
  obtain ⟨p2, h2, rfl⟩ := h2
  rw [all₂_unique (R := fun l rs => Spec.LineText cx.lang incl (Spec.trim l) rs) (fun _ _ _ => lineText_unique cx hincl) h1 h2]

theorem policyText_unique (cx : Ctx) {s : List Char} {a b : List (BitVec 32 × Spec.Rule)}
    (h1 : Spec.PolicyText cx.lang s a) (h2 : Spec.PolicyText cx.lang s b) : a = b :=
  fileText_unique cx (incl := Spec.FileText cx.lang fun _ _ => False)
    (fun _ _ _ => fileText_unique cx (fun _ _ _ h => h.elim)) h1 h2

end Minijail
