import Verif.Props.C01
/-! C08: which arguments a filter inspects. -/
set_option linter.unusedSimpArgs false
set_option autoImplicit false
namespace Minijail

/-- The rule compares argument `i`. -/
def Spec.Rule.mentions : Spec.Rule → Nat → Prop
  | .filter f _, i => ∃ conj ∈ f, ∃ a ∈ conj, a.arg.toNat = i
  | _, _ => False

private theorem action_congr (bits : Nat) (d d' : SeccompData) (r : Spec.Rule)
    (h : ∀ i, r.mentions i → Spec.argValue bits d i = Spec.argValue bits d' i) :
    r.action bits d = r.action bits d' := by
  cases r with
  | allow => rfl
  | block a => rfl
  | filter f o =>
    have : Spec.dnfHolds bits d f ↔ Spec.dnfHolds bits d' f := by
      unfold Spec.dnfHolds
      refine exists_congr fun conj => and_congr_right fun hc => forall₂_congr fun a ha => ?_
      unfold Spec.Atom.holds
      rw [h a.arg.toNat ⟨conj, hc, a, ha, rfl⟩]
    simp only [Spec.Rule.action]
    by_cases hh : Spec.dnfHolds bits d f
    · rw [if_pos hh, if_pos (this.1 hh)]
    · rw [if_neg hh, if_neg (fun h' => hh (this.2 h'))]

private theorem policyAction_congr (bits : Nat) (d d' : SeccompData) (hnr : d.nr = d'.nr) (dflt : Spec.Action)
    (rules : List (BitVec 32 × Spec.Rule))
    (h : ∀ x ∈ rules, x.1 = d.nr → ∀ i, x.2.mentions i → Spec.argValue bits d i = Spec.argValue bits d' i) :
    Spec.policyAction bits d dflt rules = Spec.policyAction bits d' dflt rules := by
  induction rules with
  | nil => rfl
  | cons x rules ih =>
    obtain ⟨nr, r⟩ := x
    simp only [Spec.policyAction, ← hnr]
    split
    · next e => exact action_congr bits d d' r (h (nr, r) (by simp) e.symm)
    · exact ih (fun y hy => h y (List.mem_cons_of_mem _ hy))

/-- Two calls that agree on the arguments which the rules for them compare get the same verdict, as long as those are
arguments 0 to 5: `argN` inspects argument N and nothing else (not the instruction pointer, not another argument).
Missing from the full statement: other indices are accepted too, see `C08_violated`. -/
theorem C08_inspects_only_named_partial (cx : Ctx) (content : CStr) (prog : List Insn) (hbe : cx.t.be = false)
    (hnr : ∀ e ∈ cx.syscalls, e.2 < 2 ^ 31) (h : compileFilter cx content = .ok prog)
    (rules : List (BitVec 32 × Spec.Rule)) (hrules : Spec.PolicyText cx.lang content rules)
    (d d' : SeccompData) (ha : d.arch = d'.arch) (hn : d.nr = d'.nr)
    (hvalid : ∀ x ∈ rules, x.1 = d.nr → x.2.valid)
    (hargs : ∀ x ∈ rules, x.1 = d.nr → ∀ i, x.2.mentions i →
      Spec.argValue cx.t.longBits d i = Spec.argValue cx.t.longBits d' i) :
    runFilter cx.t.be prog d = runFilter cx.t.be prog d' := by
  by_cases harch : d.arch = cx.t.archNr
  · rw [C01_filter_means_policy cx content prog hbe hnr h rules hrules d harch hvalid,
      C01_filter_means_policy cx content prog hbe hnr h rules hrules d' (ha ▸ harch) (by rw [← hn]; exact hvalid)]
    congr 2
    apply policyAction_congr _ _ _ hn
    intro x hx hxn i hi
    rcases List.mem_append.1 hx with hx | hx
    · have : x.2 = .allow := by
        unfold Ctx.builtin Spec.allowNames at hx
        rcases List.mem_append.1 hx with hx | hx <;> split at hx <;> simp at hx <;> obtain ⟨_, _, rfl⟩ := hx <;> rfl
      rw [this] at hi; exact hi.elim
    · exact hargs x hx hxn i hi
  · obtain ⟨_, _, h2, _⟩ := runFilter_compiled cx content prog hnr h
    rw [h2 _ d harch, h2 _ d' (ha ▸ harch)]

/-- `i` limited to the range of a `bits`-bit `long`. -/
def Spec.clampLong (bits : Nat) (i : Int) : Int := max (-2 ^ (bits - 1)) (min i (2 ^ (bits - 1) - 1))

/-- What happens to the index of any accepted atom, exactly: the written number is limited to the range of `long` and
then taken modulo 2^32. -/
theorem C08_index_exact (cx : Ctx) (s : CStr) (i : BitVec 32) (op : Op) (c : BitVec cx.t.longBits)
    (h : parseAtom cx s = .ok (i, op, c)) :
    ∃ a, Spec.AtomText cx.lang s a ∧ i = BitVec.ofInt 32 (Spec.clampLong cx.t.longBits a.arg) := by
  obtain ⟨a, ha, _⟩ := parseAtom_ok cx s (i, op, c) h
  refine ⟨a, ha, ?_⟩
  unfold parseAtom at h
  simp only [Res.bind_eq_ok, Res.ofOption_eq_ok] at h
  obtain ⟨⟨s1, p1⟩, h1, ⟨s2, p2⟩, h2, ⟨s3, p3⟩, h3, h⟩ := h
  simp only at h2 h3 h
  split at h
  · simp at h
  next h4 =>
  split at h
  · simp at h
  next h5 =>
  have h4 : Spec.words ' ' p3 = [] := by
    apply strtok_none
    simpa using h4
  have hw : Spec.words ' ' s = [s1, s2, s3] := by
    rw [strtok_some h1, strtok_some h2, strtok_some h3, h4]
  have h5 := take_arg (by simpa using h5 : s1.take 3 = "arg".toList)
  obtain ⟨w, sg, _, _⟩ := ha
  rw [hw] at w
  simp only [List.cons.injEq, and_true] at w
  obtain ⟨w, rfl, rfl⟩ := w
  have hidx : ∀ idx, s1 = "arg".toList ++ idx → s1.drop 3 = idx := by rintro idx rfl; exact List.drop_left' rfl
  cases hst : strtol cx.t.longBits 10 (s1.drop 3) with
  | none => simp [hst] at h
  | some r =>
    simp only [hst] at h
    split at h
    · simp at h
    next hrest =>
    simp only [ne_eq, Decidable.not_not] at hrest
    have hi : i = BitVec.ofInt 32 r.val := by
      split at h
      · simp at h
      · split at h
        · simp at h
        · simp only [Res.ok.injEq, Prod.mk.injEq] at h
          exact h.1.symm
    rw [hi]
    congr 1
    rw [signed_decimal_iff] at sg
    obtain ⟨neg, m, hs, rfl⟩ := sg
    rw [hidx _ w] at hst
    unfold strtol at hst
    rw [hs] at hst
    have hp : (1 : Int) ≤ 2 ^ (cx.t.longBits - 1) := by
      have : (0 : Int) < 2 ^ (cx.t.longBits - 1) := by positivity
      omega
    have hcast : ((2 ^ (cx.t.longBits - 1) : Nat) : Int) = 2 ^ (cx.t.longBits - 1) := by norm_cast
    unfold Spec.clampLong
    generalize (2 : Int) ^ (cx.t.longBits - 1) = B at *
    generalize (2 : Nat) ^ (cx.t.longBits - 1) = N at *
    subst hcast
    cases neg
    · simp only at hst ⊢
      split at hst <;> simp only [Option.some.injEq] at hst <;> subst hst <;> simp <;> omega
    · simp only at hst ⊢
      split at hst <;> simp only [Option.some.injEq] at hst <;> subst hst <;> simp <;> omega

private theorem exBad_text : Spec.PolicyText exCx.lang "read: arg4294967296 == 1\n".toList
    [(0#32, .filter [[⟨4294967296, .eq, 1⟩]] .killThread)] := by
  refine ⟨[[(0#32, .filter [[⟨4294967296, .eq, 1⟩]] .killThread)]], ?_, rfl⟩
  rw [show Spec.logicalLines "read: arg4294967296 == 1\n".toList = ["read: arg4294967296 == 1".toList] by decide]
  refine .cons ?_ .nil
  refine .rule (name := "read".toList) (rhs := " arg4294967296 == 1".toList) (nr := 0) (by decide) (by decide) (by decide)
    (by decide) ?_
  refine .filter (t := "arg4294967296 == 1".toList) (by decide) (by decide) (by decide) ?_
  unfold Spec.DnfText
  rw [show Spec.fields2 '|' '|' "arg4294967296 == 1".toList = ["arg4294967296 == 1".toList] by decide]
  refine .cons ?_ .nil
  rw [show Spec.fields2 '&' '&' "arg4294967296 == 1".toList = ["arg4294967296 == 1".toList] by decide]
  refine .cons ?_ .nil
  refine .mk (idx := "4294967296".toList) (op := "==".toList) (c := "1".toList) (by decide) ?_ .eq ?_
  · rw [signed_decimal_iff]
    exact ⟨false, 4294967296, by decide +kernel, rfl⟩
  · exact (parseConstant_iff exCx.constants (by decide) "1".toList 1#64).1 (by decide +kernel)

/-- The full statement is false: `arg4294967296 == 1` is accepted, and the filter it gives is the one for
`arg0 == 1`; `arg6` and `arg-1` are accepted too, the latter reads the instruction pointer. -/
theorem C08_violated :
    (¬ ∀ (cx : Ctx) (content : CStr) (prog : List Insn), compileFilter cx content = .ok prog →
      ∀ rules, Spec.PolicyText cx.lang content rules → ∀ x ∈ rules, x.2.valid) ∧
    compileFilter exCx "read: arg4294967296 == 1\n".toList = compileFilter exCx "read: arg0 == 1\n".toList ∧
    (∃ p, compileFilter exCx "read: arg6 == 1\n".toList = .ok p ∧
      runFilter false p ⟨0, 0xc000003e, 0, 0, 0, 0, 0, 0, 0⟩ = .bad) ∧
    (∃ p, compileFilter exCx "read: arg-1 == 7\n".toList = .ok p ∧
      runFilter false p ⟨0, 0xc000003e, 7, 0, 0, 0, 0, 0, 0⟩ = .ret RET_ALLOW ∧
      runFilter false p ⟨0, 0xc000003e, 8, 0, 0, 0, 0, 0, 0⟩ = .ret RET_KILL) := by
  refine ⟨?_, by decide +kernel, ⟨_, ok_of_ne_nil (by decide +kernel), by decide +kernel⟩,
    ⟨_, ok_of_ne_nil (by decide +kernel), by decide +kernel, by decide +kernel⟩⟩
  intro hall
  have hv := hall exCx _ _ (ok_of_ne_nil (by decide +kernel)) _ exBad_text
    (0#32, .filter [[⟨4294967296, .eq, 1⟩]] .killThread) (by simp)
  have := (hv [⟨4294967296, .eq, 1⟩] (by simp) ⟨4294967296, .eq, 1⟩ (by simp)).2
  simp at this

/-- A case for `C08_index_exact`. -/
example : ∃ a, Spec.AtomText exCx.lang "arg3 & PR_A".toList a ∧
    (3#32) = BitVec.ofInt 32 (Spec.clampLong exCx.t.longBits a.arg) :=
  C08_index_exact exCx _ 3 .set 1 (by decide +kernel)

end Minijail
