import Verif.Props.C01
/-! C09: one rule per system call. -/
set_option linter.unusedSimpArgs false
set_option autoImplicit false
namespace Minijail

section
variable (cx : Ctx)

/-- Every rule number so far is recorded, and none occurs twice. -/
private def Inv (st : CState) (rules : List (BitVec 32 × Spec.Rule)) : Prop :=
  (∀ p ∈ rules, ∃ name nr ind, lookupSyscall cx.syscalls name = some (nr, ind) ∧ ind ∈ st.seen ∧ p.1 = BitVec.ofNat 32 nr) ∧
  (rules.map Prod.fst).Nodup

private theorem go_mem (name : CStr) (tbl : List (CStr × Nat)) (k nr ind : Nat)
    (h : lookupSyscall.go name tbl k = some (nr, ind)) : (name, nr) ∈ tbl := by
  induction tbl generalizing k with
  | nil => simp [lookupSyscall.go] at h
  | cons e tbl ih =>
    simp only [lookupSyscall.go] at h
    split at h
    · next he =>
      simp only [Option.some.injEq, Prod.mk.injEq] at h
      obtain ⟨a, b⟩ := e
      simp_all
    · exact List.mem_cons_of_mem _ (ih _ h)

private theorem lookup_inj (hnr : ∀ e ∈ cx.syscalls, e.2 < 2 ^ 31)
    (hinj : ∀ e ∈ cx.syscalls, ∀ e' ∈ cx.syscalls, e.2 = e'.2 → e.1 = e'.1)
    {n n' : CStr} {nr nr' ind ind' : Nat} (h : lookupSyscall cx.syscalls n = some (nr, ind))
    (h' : lookupSyscall cx.syscalls n' = some (nr', ind')) (he : BitVec.ofNat 32 nr = BitVec.ofNat 32 nr') : ind = ind' := by
  have m := go_mem _ _ _ _ _ h
  have m' := go_mem _ _ _ _ _ h'
  have h1 := hnr _ m
  have h2 := hnr _ m'
  have h3 := congrArg BitVec.toNat he
  simp only [BitVec.toNat_ofNat] at h3 h1 h2
  have h4 : nr = nr' := by omega
  subst h4
  have := hinj _ m _ m' rfl
  simp only at this
  subst this
  rw [h] at h'
  simp only [Option.some.injEq, Prod.mk.injEq, true_and] at h'
  exact h'

variable (hd : cx.opts.allowDuplicateSyscalls = false) (hnr : ∀ e ∈ cx.syscalls, e.2 < 2 ^ 31)
  (hinj : ∀ e ∈ cx.syscalls, ∀ e' ∈ cx.syscalls, e.2 = e'.2 → e.1 = e'.1)
include hd hnr hinj

private theorem rule_inv (incl : List Char → List (BitVec 32 × Spec.Rule) → Prop) (line : CStr) (st st' : CState) (bad : Bool)
    (h : compileRule cx line st bad = .ok (st', false)) (hc : line.head? ≠ some '#') (hc' : line.head? ≠ some '@')
    (rules rs : List (BitVec 32 × Spec.Rule)) (ht : Spec.LineText cx.lang incl line rs) (hi : Inv cx st rules) :
    bad = false ∧ Inv cx st' (rules ++ rs) := by
  cases ht with
  | blank => simp [compileRule, strsep] at h
  | comment => simp at hc
  | frequency => simp at hc'
  | include_ => simp at hc'
  | @unknown name rhs n1 n2 n3 hl hr hk =>
    unfold compileRule at h
    cases hs : strsep ':' (name ++ ':' :: rhs) with
    | mk name' o =>
      cases o with
      | none => simp [hs] at h
      | some rhs' =>
        obtain ⟨e, hcol⟩ := strsep_some hs
        obtain ⟨rfl, rfl⟩ := split_colon_unique e n3 hcol
        simp only [hs] at h
        have hlk := lookup_eq cx (strip name)
        rw [show cx.lang.syscall (strip name) = none from hl] at hlk
        have hlk : lookupSyscall cx.syscalls (strip name) = none := by simpa using hlk
        rw [hlk] at h
        simp only at h
        split at h
        · simp at h
        · split at h
          · simp only [Res.ok.injEq, Prod.mk.injEq] at h
            obtain ⟨rfl, rfl⟩ := h
            simpa using hi
          · simp at h
  | @rule name rhs nr r n1 n2 n3 hl hr =>
    unfold compileRule at h
    cases hs : strsep ':' (name ++ ':' :: rhs) with
    | mk name' o =>
      cases o with
      | none => simp [hs] at h
      | some rhs' =>
        obtain ⟨e, hcol⟩ := strsep_some hs
        obtain ⟨rfl, rfl⟩ := split_colon_unique e n3 hcol
        simp only [hs] at h
        have hlk := lookup_eq cx (strip name)
        rw [show cx.lang.syscall (strip name) = some nr from hl] at hlk
        obtain ⟨ind, hlk⟩ : ∃ ind, lookupSyscall cx.syscalls (strip name) = some (nr, ind) := by
          cases hx : lookupSyscall cx.syscalls (strip name) with
          | none => rw [hx] at hlk; simp at hlk
          | some y => rw [hx] at hlk; obtain ⟨a, b⟩ := y; simp at hlk; exact ⟨b, by rw [hlk]⟩
        rw [hlk] at h
        simp only [hd, Bool.not_false, Bool.and_true] at h
        have key : bad = false ∧ st.seen.contains ind = false ∧ st'.seen = ind :: st.seen := by
          split at h
          · simp at h
          · split at h
            · simp only [Res.ok.injEq, Prod.mk.injEq, Bool.or_eq_false_iff] at h
              obtain ⟨rfl, hb, hs⟩ := h
              refine ⟨hb, hs, ?_⟩
              simpa using hs
            · split at h
              · simp only [Res.ok.injEq, Prod.mk.injEq, Bool.or_eq_false_iff] at h
                obtain ⟨rfl, hb, hs⟩ := h
                refine ⟨hb, hs, ?_⟩
                simpa using hs
              all_goals simp at h
        obtain ⟨k1, k2, k3⟩ := key
        refine ⟨k1, ?_, ?_⟩
        · intro p hp
          rcases List.mem_append.1 hp with hp | hp
          · obtain ⟨n, nr, i, h1, h2, h3⟩ := hi.1 p hp
            exact ⟨n, nr, i, h1, by rw [k3]; exact List.mem_cons_of_mem _ h2, h3⟩
          · simp only [List.mem_singleton] at hp
            subst hp
            exact ⟨_, _, _, hlk, by rw [k3]; simp, rfl⟩
        · rw [List.map_append, List.nodup_append]
          refine ⟨hi.2, by simp, ?_⟩
          intro a ha b hb hab
          simp only [List.map_cons, List.map_nil, List.mem_singleton] at hb
          subst hb
          obtain ⟨p, hp, rfl⟩ := List.mem_map.1 ha
          obtain ⟨n, nr', i, h1, h2, h3⟩ := hi.1 p hp
          rw [h3] at hab
          have := lookup_inj cx hnr hinj h1 hlk hab
          subst this
          simp only [List.contains_eq_mem, decide_eq_false_iff_not] at k2
          exact k2 h2

private theorem lines_inv (lvl : Nat) (inc : CStr → CState → Res CState) (incl : List Char → List (BitVec 32 × Spec.Rule) → Prop)
    (hincl : ∀ c r r', incl c r → incl c r' → r = r')
    (hinc : lvl = 0 → ∀ c st st' rules rs, inc c st = .ok st' → incl c rs → Inv cx st rules → Inv cx st' (rules ++ rs))
    (ls : List CStr) (st st' : CState) (bad : Bool) (rules : List (BitVec 32 × Spec.Rule)) (parts : List (List (BitVec 32 × Spec.Rule)))
    (h : compileLines cx lvl inc ls st bad = .ok (st', false))
    (ht : Spec.All₂ (fun l rs => Spec.LineText cx.lang incl (Spec.trim l) rs) ls parts) (hi : Inv cx st rules) :
    bad = false ∧ Inv cx st' (rules ++ parts.flatten) := by
  induction ht generalizing st bad rules with
  | nil =>
    simp only [compileLines, Res.ok.injEq, Prod.mk.injEq] at h
    obtain ⟨rfl, rfl⟩ := h
    simpa using hi
  | @cons l rs ls parts hl _ ih =>
    simp only [compileLines] at h
    split at h
    · next st1 bad1 hc =>
      have key : bad1 = false → bad = false ∧ Inv cx st1 (rules ++ rs) := by
        rintro rfl
        have htr : Spec.trim l = strip l := rfl
        unfold compileLine at hc
        simp only at hc
        rw [htr] at hl
        split at hc
        · next he =>
          simp only [Res.ok.injEq, Prod.mk.injEq] at hc
          obtain ⟨rfl, rfl⟩ := hc
          rw [he] at hl
          have : rs = [] := lineText_unique cx hincl hl .blank
          subst this
          simpa using hi
        · next c r he =>
          split at hc
          · next hcc =>
            simp only [Res.ok.injEq, Prod.mk.injEq] at hc
            obtain ⟨rfl, rfl⟩ := hc
            rw [he, hcc] at hl
            have : rs = [] := lineText_unique cx hincl hl .comment
            subst this
            simpa using hi
          · next hc1 =>
            split at hc
            · split at hc
              · next hf =>
                simp only [Res.ok.injEq, Prod.mk.injEq] at hc
                obtain ⟨rfl, rfl⟩ := hc
                rw [← List.take_append_drop 10 (strip l), hf] at hl
                have : rs = [] := lineText_unique cx hincl hl .frequency
                subst this
                simpa using hi
              · split at hc
                · next path hp =>
                  obtain ⟨e, hpath, hlvl⟩ := parseInclude_ok hp
                  split at hc
                  · simp at hc
                  · next content hfs =>
                    split at hc
                    · next hinc1 =>
                      simp only [Res.ok.injEq, Prod.mk.injEq] at hc
                      obtain ⟨rfl, rfl⟩ := hc
                      rw [e] at hl
                      generalize hs : "@include ".toList ++ path = s at hl
                      cases hl with
                      | blank => simp at hs
                      | comment => simp at hs
                      | frequency => simp at hs
                      | include_ _ hf hi' =>
                        rw [List.append_cancel_left_eq] at hs
                        subst hs
                        rw [show cx.lang.files path = some content from hfs, Option.some.injEq] at hf
                        subst hf
                        exact ⟨rfl, hinc hlvl _ _ _ _ _ hinc1 hi' hi⟩
                      | rule _ hn => exact absurd (head_of_rule (c := '@') hs (by decide)) hn
                      | unknown _ hn => exact absurd (head_of_rule (c := '@') hs (by decide)) hn
                    all_goals simp at hc
                · simp at hc
            · next hc2 =>
              exact rule_inv cx hd hnr hinj incl _ _ _ _ hc (by rw [he]; simpa using hc1) (by rw [he]; simpa using hc2) _ _ hl hi
      have h2 := fun hb => ih _ _ (rules ++ rs) h (key hb).2
      have hb1 : bad1 = false := by
        have := bad_mono cx lvl inc _ _ _ _ h
        exact this
      refine ⟨(key hb1).1, ?_⟩
      have := (h2 hb1).2
      simpa using this
    all_goals simp at h

/-- Both files of an include. -/
private theorem file_inv (lvl : Nat) (inc : CStr → CState → Res CState) (incl : List Char → List (BitVec 32 × Spec.Rule) → Prop)
    (hincl : ∀ c r r', incl c r → incl c r' → r = r')
    (hinc : lvl = 0 → ∀ c st st' rules rs, inc c st = .ok st' → incl c rs → Inv cx st rules → Inv cx st' (rules ++ rs))
    (content : CStr) (st st' : CState) (rules rs : List (BitVec 32 × Spec.Rule))
    (h : compileFileWith cx lvl inc content st = .ok st') (ht : Spec.FileText cx.lang incl content rs) (hi : Inv cx st rules) :
    Inv cx st' (rules ++ rs) := by
  obtain ⟨parts, hp, rfl⟩ := ht
  unfold compileFileWith at h
  rw [readLines_eq_logicalLines] at h
  split at h
  · next st1 bad hl =>
    split at h
    · simp at h
    · next hb =>
      simp only [Res.ok.injEq] at h
      subst h
      have hb : bad = false := by simpa using hb
      subst hb
      exact (lines_inv cx hd hnr hinj lvl inc incl hincl hinc _ _ _ _ _ _ hl hp hi).2
  all_goals simp at h

/-- With duplicates disabled, a policy that compiles has at most one rule per system call, counting the rules of all
included files. (`hinj`: the generated table does not give two names the same number.) -/
theorem C09_no_duplicates (content : CStr) (prog : List Insn) (h : compileFilter cx content = .ok prog)
    (rules : List (BitVec 32 × Spec.Rule)) (hrules : Spec.PolicyText cx.lang content rules) :
    (rules.map Prod.fst).Nodup := by
  unfold compileFilter at h
  split at h
  · simp at h
  · simp at h
  · simp at h
  next st hst =>
  have hu : ∀ c r r', Spec.FileText cx.lang (fun _ _ => False) c r → Spec.FileText cx.lang (fun _ _ => False) c r' → r = r' :=
    fun _ _ _ => fileText_unique cx (fun _ _ _ h => h.elim)
  have := file_inv cx hd hnr hinj 0 _ _ hu
    (fun _ c st st' rules rs hc ht hi => file_inv cx hd hnr hinj 1 _ _ (fun _ _ _ h => h.elim) (by simp) c st st' rules rs hc ht hi)
    content _ st [] rules hst hrules ⟨by simp, by simp⟩
  simpa using this.2

end

/-- With duplicates enabled (or not), a rule behind an earlier one for the same call has no effect. -/
theorem C09_first_wins (cx : Ctx) (content : CStr) (prog : List Insn) (hbe : cx.t.be = false)
    (hnr : ∀ e ∈ cx.syscalls, e.2 < 2 ^ 31) (h : compileFilter cx content = .ok prog)
    (before after : List (BitVec 32 × Spec.Rule)) (r : Spec.Rule) (d : SeccompData) (harch : d.arch = cx.t.archNr)
    (hrules : Spec.PolicyText cx.lang content (before ++ (d.nr, r) :: after))
    (hb : ∀ x ∈ cx.builtin ++ before, x.1 ≠ d.nr) (hr : r.valid) (ha : ∀ x ∈ after, x.1 = d.nr → x.2.valid) :
    runFilter cx.t.be prog d = .ret (r.action cx.t.longBits d).word := by
  rw [C01_filter_means_policy cx content prog hbe hnr h _ hrules d harch, ← List.append_assoc, C01_first_rule_decides _ _ _ _ _ _ hb]
  intro x hx hn
  rcases List.mem_append.1 hx with hx | hx
  · exact absurd hn (hb x (List.mem_append_right _ hx))
  · rcases List.mem_cons.1 hx with rfl | hx
    · exact hr
    · exact ha x hx hn

/-- The example policy meets the hypotheses of `C09_no_duplicates`. -/
example : ∃ rules, Spec.PolicyText exCx.lang exPolicy rules ∧ (rules.map Prod.fst).Nodup := by
  obtain ⟨rules, hr⟩ := C01_compiles_meaningful exCx exPolicy _ exCx_numbers exPolicy_compiles
  exact ⟨rules, hr, C09_no_duplicates exCx rfl exCx_numbers (by decide) exPolicy _ exPolicy_compiles rules hr⟩

/-- A second rule is refused, also when it comes from an included file; it is accepted when duplicates are enabled. -/
example : compileFilter exCx "read: 1\nread: 1\n".toList = .fail ∧
    compileFilter exCx "prctl: 1\n@include /inc\n".toList = .fail ∧
    compileFilter { exCx with opts := ⟨.kill, false, false, true, true⟩ } "prctl: 1\n@include /inc\n".toList ≠ .fail := by
  decide +kernel

end Minijail
