import Verif.Spec.CtxLang
import Verif.Proof.Groups
import Verif.Proof.Text
import Verif.Proof.Const
/-! The compiler's parsing against the policy language. -/
set_option linter.unusedSimpArgs false
set_option autoImplicit false
namespace Minijail

theorem longBits_pos (t : Target) : 0 < t.longBits := by
  rcases longBits_cases t with h | h <;> rw [h] <;> omega

theorem lookupGo_eq (name : CStr) (tbl : List (CStr × Nat)) (ind : Nat) :
    (lookupSyscall.go name tbl ind).map Prod.fst = (tbl.find? (fun e => e.1 == name)).map (·.2) := by
  induction tbl generalizing ind with
  | nil => simp [lookupSyscall.go]
  | cons e tbl ih =>
    simp only [lookupSyscall.go, List.find?_cons]
    by_cases h : e.1 = name
    · simp [h]
    · have h' : (e.1 == name) = false := by simpa using h
      simp [h, h', ih]

theorem lookup_eq (cx : Ctx) (name : CStr) : (lookupSyscall cx.syscalls name).map Prod.fst = cx.lang.syscall name :=
  lookupGo_eq name cx.syscalls 0

theorem retAction_eq (a : BlockAction) : retAction a = bpfStmt RET a.act.word := by cases a <;> rfl

theorem strToOp_text {s : CStr} {op : Op} (h : strToOp s = some op) : Spec.OpText s op.cmp := by
  unfold strToOp at h
  repeat' split at h
  all_goals simp only [Option.some.injEq, reduceCtorEq] at h
  all_goals subst h
  all_goals subst_vars
  all_goals constructor

theorem take_arg {s : CStr} (h : s.take 3 = "arg".toList) : s = "arg".toList ++ s.drop 3 := by
  rw [← h, List.take_append_drop]

/-- A parsed atom is the meaning of its text. -/
theorem parseAtom_ok (cx : Ctx) (s : CStr) (p : PAtom cx) (h : parseAtom cx s = .ok p) :
    ∃ a, Spec.AtomText cx.lang s a ∧
      (a.valid → p.1.toNat < 6 ∧ ∀ d, p.holds cx d ↔ a.holds cx.t.longBits d) := by
  unfold parseAtom at h
  simp only [Res.bind_eq_ok, Res.ofOption_eq_ok] at h
  obtain ⟨⟨s1, p1⟩, h1, ⟨s2, p2⟩, h2, ⟨s3, p3⟩, h3, h⟩ := h
  simp only at h2 h3 h
  split at h
  · simp at h
  · next h4 =>
    split at h
    · simp at h
    · next h5 =>
      have h4 : Spec.words ' ' p3 = [] := by
        apply strtok_none
        simpa using h4
      have hw : Spec.words ' ' s = [s1, s2, s3] := by
        rw [strtok_some h1, strtok_some h2, strtok_some h3, h4]
      have h5 := take_arg (by simpa using h5 : s1.take 3 = "arg".toList)
      cases hst : strtol cx.t.longBits 10 (s1.drop 3) with
      | none => simp [hst] at h
      | some r =>
        simp only [hst] at h
        split at h
        · simp at h
        · next hrest =>
          simp only [ne_eq, Decidable.not_not] at hrest
          cases hop : strToOp s2 with
          | none => simp [hop] at h
          | some op =>
            simp only [hop] at h
            cases hc : parseConstant cx.constants s3 with
            | none => simp [hc] at h
            | some c =>
              simp only [hc, Res.ok.injEq] at h
              subst h
              have hscan : ∃ neg m, strtolScan 10 (s1.drop 3) = some (neg, m, []) ∧
                  ((0 ≤ (if neg then -(m : Int) else m) ∧ (if neg then -(m : Int) else m) < 6) →
                    r.val = if neg then -(m : Int) else m) := by
                unfold strtol at hst
                have hb : 3 < 2 ^ (cx.t.longBits - 1) := by
                  rcases longBits_cases cx.t with h | h <;> rw [h] <;> norm_num
                have hb6 : 6 < 2 ^ (cx.t.longBits - 1) := by
                  rcases longBits_cases cx.t with h | h <;> rw [h] <;> norm_num
                split at hst
                · simp at hst
                · next m rest hs =>
                  split at hst
                  · simp only [Option.some.injEq] at hst
                    subst hst
                    simp only at hrest
                    subst hrest
                    exact ⟨true, m, hs, by simp⟩
                  · next hm =>
                    simp only [Option.some.injEq] at hst
                    subst hst
                    simp only at hrest
                    subst hrest
                    refine ⟨true, m, hs, ?_⟩
                    simp only [if_true]
                    intro hh
                    omega
                · next m rest hs =>
                  split at hst
                  · simp only [Option.some.injEq] at hst
                    subst hst
                    simp only at hrest
                    subst hrest
                    exact ⟨false, m, hs, by simp⟩
                  · next hm =>
                    simp only [Option.some.injEq] at hst
                    subst hst
                    simp only at hrest
                    subst hrest
                    refine ⟨false, m, hs, ?_⟩
                    simp only [Bool.false_eq_true, if_false]
                    intro hh
                    omega
              obtain ⟨neg, m, hscan, hval⟩ := hscan
              have hsig := (signed_decimal_iff (s1.drop 3) _).2 ⟨neg, m, hscan, rfl⟩
              refine ⟨⟨if neg then -(m : Int) else m, op.cmp, c.toNat⟩, ?_, ?_⟩
              · refine .mk (idx := s1.drop 3) (op := s2) (c := s3) ?_ hsig (strToOp_text hop) ?_
                · rw [← h5]; exact hw
                · exact (parseConstant_iff cx.constants (longBits_pos cx.t) s3 c).1 hc
              · rintro ⟨hv1, hv2⟩
                simp only at hv1 hv2
                have hval := hval ⟨hv1, hv2⟩
                have hn : (BitVec.ofInt 32 r.val).toNat = (if neg then -(m : Int) else m).toNat := by
                  rw [BitVec.toNat_ofInt, hval]
                  omega
                constructor
                · simp only; rw [hn]; omega
                · intro d
                  simp only [PAtom.holds, Spec.Atom.holds, hn]

theorem all₂_imp {α β : Type} {R S : α → β → Prop} {as : List α} {bs : List β} (h : Spec.All₂ R as bs)
    (hi : ∀ a b, R a b → S a b) : Spec.All₂ S as bs := by
  induction h with
  | nil => exact .nil
  | cons h _ ih => exact .cons (hi _ _ h) ih

/-- Chaining of `All₂` through an intermediate list. -/
theorem all₂_exists {α β γ : Type} {R : α → β → Prop} {S : α → γ → Prop} {T : β → γ → Prop} {as : List α} {bs : List β}
    (h : Spec.All₂ R as bs) (hi : ∀ a b, R a b → ∃ c, S a c ∧ T b c) :
    ∃ cs, Spec.All₂ S as cs ∧ Spec.All₂ T bs cs := by
  induction h with
  | nil => exact ⟨[], .nil, .nil⟩
  | cons h _ ih =>
    obtain ⟨c, h1, h2⟩ := hi _ _ h
    obtain ⟨cs, h3, h4⟩ := ih
    exact ⟨c :: cs, .cons h1 h3, .cons h2 h4⟩

theorem all₂_forall {α β : Type} {R : α → β → Prop} {P : α → Prop} {Q : β → Prop} {as : List α} {bs : List β}
    (h : Spec.All₂ R as bs) (hi : ∀ a b, R a b → (P a ↔ Q b)) : (∀ a ∈ as, P a) ↔ ∀ b ∈ bs, Q b := by
  induction h with
  | nil => simp
  | cons h _ ih => simp [hi _ _ h, ih]

theorem all₂_exists_iff {α β : Type} {R : α → β → Prop} {P : α → Prop} {Q : β → Prop} {as : List α} {bs : List β}
    (h : Spec.All₂ R as bs) (hi : ∀ a b, b ∈ bs → R a b → (P a ↔ Q b)) : (∃ a ∈ as, P a) ↔ ∃ b ∈ bs, Q b := by
  induction h with
  | nil => simp
  | cons h _ ih =>
    have ih := ih (fun a b hb => hi a b (List.mem_cons_of_mem _ hb))
    simp [hi _ _ (List.mem_cons_self) h, ih]

/-- The relation between a parsed atom and its meaning. -/
def AtomRel (cx : Ctx) (p : PAtom cx) (a : Spec.Atom) : Prop :=
  a.valid → p.1.toNat < 6 ∧ ∀ d, p.holds cx d ↔ a.holds cx.t.longBits d

/-- Parsed groups are the meaning of the text of the disjunction. -/
theorem groups_text (cx : Ctx) (s : CStr) (ps : List (List (PAtom cx)))
    (h : Spec.All₂ (fun g p => Spec.All₂ (fun a p => parseAtom cx a = .ok p) (tokenizeAll "&&".toList g) p)
      (tokenizeAll "||".toList s) ps) :
    ∃ f, Spec.DnfText cx.lang s f ∧ Spec.All₂ (Spec.All₂ (AtomRel cx)) ps f := by
  have h1 : tokenizeAll "||".toList s = Spec.fields2 '|' '|' s := tokenizeAll_two '|' '|' s
  rw [h1] at h
  apply all₂_exists h
  intro g p hg
  have h2 : tokenizeAll "&&".toList g = Spec.fields2 '&' '&' g := tokenizeAll_two '&' '&' g
  rw [h2] at hg
  exact all₂_exists hg (fun a p hp => parseAtom_ok cx a p hp)

theorem all₂_mem_left {α β : Type} {R : α → β → Prop} {as : List α} {bs : List β} (h : Spec.All₂ R as bs) {a : α}
    (ha : a ∈ as) : ∃ b ∈ bs, R a b := by
  induction h with
  | nil => simp at ha
  | cons h _ ih =>
    rcases List.mem_cons.1 ha with rfl | ha
    · exact ⟨_, List.mem_cons_self, h⟩
    · obtain ⟨b, hb, hr⟩ := ih ha
      exact ⟨b, List.mem_cons_of_mem _ hb, hr⟩

theorem groups_valid (cx : Ctx) (ps : List (List (PAtom cx))) (f : Spec.Dnf) (h : Spec.All₂ (Spec.All₂ (AtomRel cx)) ps f)
    (hv : ∀ conj ∈ f, ∀ a ∈ conj, a.valid) : ∀ g ∈ ps, ∀ a ∈ g, a.1.toNat < 6 := by
  intro g hg a ha
  obtain ⟨conj, hc, hr⟩ := all₂_mem_left h hg
  obtain ⟨b, hb, hr'⟩ := all₂_mem_left hr ha
  exact (hr' (hv conj hc b hb)).1

theorem groups_holds (cx : Ctx) (ps : List (List (PAtom cx))) (f : Spec.Dnf) (h : Spec.All₂ (Spec.All₂ (AtomRel cx)) ps f)
    (hv : ∀ conj ∈ f, ∀ a ∈ conj, a.valid) (d : SeccompData) :
    (∃ g ∈ ps, ∀ a ∈ g, PAtom.holds cx d a) ↔ Spec.dnfHolds cx.t.longBits d f := by
  unfold Spec.dnfHolds
  apply all₂_exists_iff h
  intro g conj hconj hg
  have hv := hv conj hconj
  clear hconj
  induction hg with
  | nil => simp
  | @cons a b as bs h _ ih =>
    have h1 := (h (hv b (by simp))).2 d
    have h2 := ih (fun x hx => hv x (List.mem_cons_of_mem _ hx))
    rw [List.forall_mem_cons, List.forall_mem_cons]
    exact and_congr h1 h2

theorem errno_word (v : Nat) (w : Nat) (c : BitVec w) (h : c.toNat = v) :
    (RET_ERRNO ||| (c.setWidth 32 &&& RET_DATA)) = (Spec.Action.errno v).word := by
  apply BitVec.eq_of_toNat_eq
  have h1 : (c.setWidth 32 &&& RET_DATA).toNat = v % 65536 := by
    rw [BitVec.toNat_and]
    have : RET_DATA.toNat = 2 ^ 16 - 1 := rfl
    rw [this, Nat.and_two_pow_sub_one_eq_mod, BitVec.toNat_setWidth, h]
    omega
  rw [BitVec.toNat_or, h1]
  simp only [Spec.Action.word, BitVec.toNat_ofNat]
  have h2 : RET_ERRNO.toNat = 2 ^ 16 * 5 := rfl
  have h3 : v % 65536 < 2 ^ 16 := Nat.mod_lt _ (by decide)
  rw [h2, ← Nat.two_pow_add_eq_or_of_lt h3]
  omega

/-- `compile_errno`: a single return instruction with the action the text means. -/
theorem compileErrno_ok (cx : Ctx) (s : CStr) (code : List Insn) (h : compileErrno cx s = .ok code) :
    ∃ a, Spec.ReturnText cx.lang s a ∧ code = [bpfStmt RET a.word] := by
  unfold compileErrno at h
  simp only [Res.bind_eq_ok, Res.ofOption_eq_ok] at h
  obtain ⟨⟨s1, p1⟩, h1, h⟩ := h
  simp only at h
  split at h
  · simp at h
  · next hr =>
    have hr : "return".toList <+: s1 := by
      simp only [ne_eq, Decidable.not_not] at hr
      rw [← hr]; exact List.take_prefix _ _
    split at h
    · next s2 p2 h2 =>
      cases hc : parseConstant cx.constants s2 with
      | none => simp [hc] at h
      | some v =>
        simp only [hc] at h
        split at h
        · simp at h
        · next hv =>
          simp only [Res.ok.injEq] at h
          subst h
          have hce := (parseConstant_iff cx.constants (longBits_pos cx.t) s2 v).1 hc
          refine ⟨.errno v.toNat, .errno (rest := Spec.words ' ' p2) ?_ hr hce ?_, ?_⟩
          · rw [strtok_some h1, strtok_some h2]
          · intro hh
            apply hv
            apply BitVec.eq_of_toNat_eq
            rw [BitVec.toNat_setWidth, hh]; rfl
          · have := errno_word v.toNat cx.t.longBits v rfl
            rw [← this]; rfl
    · next h2 =>
      have hw : Spec.words ' ' s = [s1] := by rw [strtok_some h1, strtok_none h2]
      have key : cx.opts.action ≠ .log → Spec.ReturnText cx.lang s cx.opts.action.act := by
        intro hne
        refine .dflt hw hr ?_
        show cx.opts.action.act ≠ .log
        cases ha : cx.opts.action <;> simp_all [BlockAction.act]
      cases ha : cx.opts.action <;> simp only [ha, Res.ok.injEq, reduceCtorEq] at h
      all_goals
        subst h
        rw [ha] at key
        exact ⟨_, key (by simp), rfl⟩

end Minijail
