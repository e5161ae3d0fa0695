import Verif.Proof.CommonPyFile
/-! What the common policies prescribe, as minijail and as the offline compiler put it. -/
set_option autoImplicit false
set_option linter.unusedSimpArgs false
namespace Minijail
open Spec Offline

/-- The rules of common policies. -/
inductive CommonShape (dflt : Spec.Action) : Rule → Prop
  | allow : CommonShape dflt .allow
  | errno (v : Nat) : CommonShape dflt (.block (.errno v))
  | filter {f : Dnf} : (∀ c ∈ f, ∀ a ∈ c, a.valid) → CommonShape dflt (.filter f dflt)

theorem joined_all {α : Type} {sep : List Char} {R : List Char → α → Prop} {Q : α → Prop} (hR : ∀ s x, R s x → Q x) {s : List Char} {l : List α} (h : Joined sep R s l) :
    ∀ x ∈ l, Q x := by
  induction h with
  | one h => intro x hx; simp at hx; subst hx; exact hR _ _ h
  | more n m h _ ih =>
    intro x hx
    rcases List.mem_cons.1 hx with rfl | hx
    · exact hR _ _ h
    · exact ih x hx

theorem rule_shape {T : CommonTables} {dflt : Spec.Action} {s : List Char} {r : Rule} (h : CommonRule T dflt s r) : CommonShape dflt r := by
  cases h with
  | allow => exact .allow
  | errno n hc hv => exact .errno _
  | filter h =>
    refine .filter (joined_all (fun s x hx => joined_all (Q := Atom.valid) (fun s a ha => ?_) hx) h)
    cases ha with
    | mk n m hi _ _ => exact ⟨by simp, by simp; omega⟩

theorem lines_shape {T : CommonTables} {dflt : Spec.Action} {incl : List Char → List (List Char × Rule) → Prop} {text : List Char} {rules : List (List Char × Rule)}
    (h : CommonLines T dflt incl text rules) (hi : ∀ c a, incl c a → ∀ x ∈ a, CommonShape dflt x.2) : ∀ x ∈ rules, CommonShape dflt x.2 := by
  induction h with
  | nil => intro x hx; simp at hx
  | statement hs _ _ ih =>
    intro y hy
    rcases List.mem_cons.1 hy with rfl | hy
    · cases hs with
      | mk _ _ _ _ _ hr _ => exact rule_shape hr
    · exact ih y hy
  | blank _ _ ih => exact ih
  | comment _ _ _ _ _ ih => exact ih
  | include_ _ _ h _ _ ih =>
    intro y hy
    rcases List.mem_append.1 hy with hy | hy
    · exact hi _ _ h y hy
    · exact ih y hy

theorem policy_shape {T : CommonTables} {dflt : Spec.Action} {text : List Char} {rules : List (List Char × Rule)} (h : CommonPolicy T dflt text rules) :
    ∀ x ∈ rules, CommonShape dflt x.2 := lines_shape h.1 fun _ _ hc => lines_shape hc fun _ _ h => h.elim

/-! ### One rule -/

theorem patom_same (bits : Nat) (d : SeccompData) (a : Atom) : patomHolds bits d (pyAtom a) ↔ a.holds bits d := by
  unfold patomHolds Atom.holds pyAtom
  simp only [opCmp_cmpOp]

theorem condition_same (bits : Nat) (d : SeccompData) (f : Dnf) : condition bits d (some (f.map (List.map pyAtom))) ↔ dnfHolds bits d f := by
  unfold condition dnfHolds
  simp only [List.mem_map, exists_exists_and_eq_and, forall_exists_index, and_imp, forall_apply_eq_imp_iff₂, patom_same]

theorem rule_same {bits : Nat} {d : SeccompData} {dflt : Spec.Action} {D : Offline.Action} (hD : dflt.word = actionWord D) {r : Rule} (h : CommonShape dflt r) :
    (r.action bits d).word = actionWord ((firstTrue bits d [pyGuard r]).getD D) := by
  cases h with
  | allow => simp [Rule.action, pyGuard, firstTrue, condition, Action.word, actionWord]
  | errno v => simp [Rule.action, pyGuard, firstTrue, condition, Action.word, actionWord]
  | @filter f hf =>
    rw [Rule.action, firstTrue]
    by_cases h : dnfHolds bits d f
    · rw [if_pos h, if_pos (show condition bits d (pyGuard (.filter f dflt)).1 from (condition_same bits d f).2 h)]; rfl
    · rw [if_neg h, if_neg (show ¬condition bits d (pyGuard (.filter f dflt)).1 from fun h' => h ((condition_same bits d f).1 h'))]; simpa [firstTrue] using hD

/-! ### All rules -/

/-- The number of a rule. -/
def numberOf (T : CommonTables) (x : List Char × Rule) : Nat := (T.syscall x.1).getD 0

theorem filters_cons (T : CommonTables) (nr : Nat) (x : List Char × Rule) (rules : List (List Char × Rule)) :
    filtersFor nr ((x :: rules).map (pyEntry T)) = (if numberOf T x = nr then [pyGuard x.2] else []) ++ filtersFor nr (rules.map (pyEntry T)) := by
  unfold filtersFor
  simp only [List.map_cons, List.flatMap_cons, pyEntry]
  congr 1
  by_cases h : numberOf T x = nr
  · rw [if_pos h, if_pos]
    exact ⟨_, List.mem_singleton.2 rfl, h⟩
  · rw [if_neg h, if_neg]
    rintro ⟨c, hc, e⟩
    rw [List.mem_singleton] at hc
    subst hc
    exact h e

theorem filters_none {T : CommonTables} {nr : Nat} {rules : List (List Char × Rule)} (h : ∀ x ∈ rules, numberOf T x ≠ nr) : filtersFor nr (rules.map (pyEntry T)) = [] := by
  induction rules with
  | nil => rfl
  | cons x rules ih => rw [filters_cons, if_neg (h x (by simp)), ih fun y hy => h y (by simp [hy])]; rfl

theorem filters_cases {T : CommonTables} {nr : Nat} {rules : List (List Char × Rule)} (h : (rules.map (numberOf T)).Nodup) :
    filtersFor nr (rules.map (pyEntry T)) = [] ∨ ∃ x ∈ rules, filtersFor nr (rules.map (pyEntry T)) = [pyGuard x.2] := by
  induction rules with
  | nil => exact .inl rfl
  | cons x rules ih =>
    rw [List.map_cons, List.nodup_cons] at h
    rw [filters_cons]
    by_cases hx : numberOf T x = nr
    · right
      refine ⟨x, by simp, ?_⟩
      rw [if_pos hx, filters_none]
      · rfl
      · intro y hy e
        exact h.1 (List.mem_map.2 ⟨y, hy, by rw [e, hx]⟩)
    · rw [if_neg hx, List.nil_append]
      rcases ih h.2 with h | ⟨y, hy, h⟩
      · exact .inl h
      · exact .inr ⟨y, by simp [hy], h⟩

theorem policy_same {T : CommonTables} {bits : Nat} {d : SeccompData} {dflt : Spec.Action} {D : Offline.Action} (hD : dflt.word = actionWord D)
    {rules : List (List Char × Rule)} (hs : ∀ x ∈ rules, CommonShape dflt x.2) (hn : (rules.map (numberOf T)).Nodup) (hlt : ∀ x ∈ rules, numberOf T x < 2 ^ 32) :
    (policyAction bits d dflt (numbered T rules)).word = actionWord ((firstTrue bits d (filtersFor d.nr.toNat (rules.map (pyEntry T)))).getD D) := by
  induction rules with
  | nil => simpa [numbered, policyAction, filtersFor, firstTrue] using hD
  | cons x rules ih =>
    rw [List.map_cons, List.nodup_cons] at hn
    rw [filters_cons]
    have hx := hlt x (by simp)
    have hiff : d.nr = BitVec.ofNat 32 (numberOf T x) ↔ numberOf T x = d.nr.toNat := by
      constructor
      · intro e; rw [e, BitVec.toNat_ofNat, Nat.mod_eq_of_lt hx]
      · intro e; rw [e]; simp
    have hdef : numbered T (x :: rules) = (BitVec.ofNat 32 (numberOf T x), x.2) :: numbered T rules := rfl
    rw [hdef, policyAction]
    by_cases e : numberOf T x = d.nr.toNat
    · rw [if_pos (hiff.2 e), if_pos e, filters_none]
      · rw [List.append_nil]; exact rule_same hD (hs x (by simp))
      · intro y hy e'
        exact hn.1 (List.mem_map.2 ⟨y, hy, by rw [e', e]⟩)
    · rw [if_neg (fun h => e (hiff.1 h)), if_neg e, List.nil_append]
      exact ih (fun y hy => hs y (by simp [hy])) hn.2 fun y hy => hlt y (by simp [hy])

theorem verdict_same {T : CommonTables} {o : Options} {D : Offline.Action} {d : SeccompData} (ha : d.arch.toNat = o.archNr) (hd : o.denylist = false)
    (rules : List (List Char × Rule)) :
    verdict o D (rules.map (pyEntry T)) d = (firstTrue o.bits d (filtersFor d.nr.toNat (rules.map (pyEntry T)))).getD D := by
  unfold verdict
  rw [if_neg (by simp [ha])]
  by_cases h : Mentioned d.nr.toNat (rules.map (pyEntry T))
  · rw [if_pos h]
  · rw [if_neg h, if_neg (by simp [hd]), filters_none]
    · rfl
    · intro x hx e
      exact h ⟨_, _, List.mem_map.2 ⟨x, hx, rfl⟩, _, List.mem_singleton.2 rfl, e⟩

/-! ### What the parser asks for -/

theorem numbers_nodup {T : CommonTables} {a : Arch} (ha : ArchFits T a) (hg : GoodArch a) {rules : List (List Char × Rule)} (hn : (rules.map Prod.fst).Nodup)
    (hs : ∀ x ∈ rules, (T.syscall x.1).isSome) : (rules.map (numberOf T)).Nodup := by
  induction rules with
  | nil => simp
  | cons x rules ih =>
    rw [List.map_cons, List.nodup_cons] at hn ⊢
    refine ⟨fun hm => ?_, ih hn.2 fun y hy => hs y (by simp [hy])⟩
    obtain ⟨y, hy, e⟩ := List.mem_map.1 hm
    obtain ⟨n, h1⟩ := Option.isSome_iff_exists.1 (hs x (by simp))
    obtain ⟨m, h2⟩ := Option.isSome_iff_exists.1 (hs y (by simp [hy]))
    simp only [numberOf, h1, h2, Option.getD_some] at e
    subst e
    exact hn.1 (List.mem_map.2 ⟨y, hy, hg.apart _ _ _ (ha.syscall _ _ h2) (ha.syscall _ _ h1)⟩)

theorem numbers_small {T : CommonTables} {a : Arch} (ha : ArchFits T a) (hg : GoodArch a) {rules : List (List Char × Rule)}
    (hs : ∀ x ∈ rules, (T.syscall x.1).isSome) : ∀ x ∈ rules, numberOf T x < 2 ^ 32 := by
  intro x hx
  obtain ⟨n, h1⟩ := Option.isSome_iff_exists.1 (hs x hx)
  have := hg.small _ _ (ha.syscall _ _ h1)
  simp only [numberOf, h1, Option.getD_some]
  omega

theorem six_common (T : CommonTables) {dflt : Spec.Action} {rules : List (List Char × Rule)} (hs : ∀ x ∈ rules, CommonShape dflt x.2) :
    SixArguments (rules.map (pyEntry T)) := by
  intro cs fs hm f hf e he c hc a ha
  obtain ⟨x, hx, hx'⟩ := List.mem_map.1 hm
  simp only [pyEntry, PyEntry.rule.injEq] at hx'
  rw [← hx'.2, List.mem_singleton] at hf
  subst hf
  have hsh := hs x hx
  revert he
  generalize x.2 = r at hsh
  cases hsh with
  | allow => simp [pyGuard]
  | errno => simp [pyGuard]
  | @filter f hv =>
    intro he
    simp only [pyGuard, Option.some.injEq] at he
    rw [← he] at hc
    obtain ⟨c', hc', rfl⟩ := List.mem_map.1 hc
    obtain ⟨a', ha', rfl⟩ := List.mem_map.1 ha
    have := hv c' hc' a' ha'
    unfold Atom.valid at this
    show a'.arg.toNat < 6
    omega

theorem reachable_common {T : CommonTables} {rules : List (List Char × Rule)} (hn : (rules.map (numberOf T)).Nodup) : Reachable (rules.map (pyEntry T)) := by
  refine ⟨?_, ?_⟩
  · intro nr pre f post h _
    rcases filters_cases (nr := nr) hn with h' | ⟨x, _, h'⟩
    · rw [h'] at h; simp at h
    · rw [h'] at h
      cases pre with
      | nil => simp at h; exact h.2
      | cons y pre => simp at h
  · intro cs l hm
    obtain ⟨x, hx, hx'⟩ := List.mem_map.1 hm
    simp only [pyEntry, PyEntry.rule.injEq] at hx'
    rw [← hx'.1]
    simp

theorem dropped_common {T : CommonTables} {o : Options} {D : Offline.Action} (hD : D ≠ .allow) {rules : List (List Char × Rule)} (hn : (rules.map (numberOf T)).Nodup) :
    NoDroppedFilters o D (rules.map (pyEntry T)) := by
  intro _ nr h f hf
  rcases h with h | ⟨_, h⟩
  · rcases filters_cases (nr := nr) hn with h' | ⟨x, _, h'⟩
    · rw [h'] at hf; simp at hf
    · rw [h', List.mem_singleton] at h hf
      rw [hf, ← h]
  · exact absurd h hD

theorem lastDefault_common (T : CommonTables) (k : Offline.Action) (rules : List (List Char × Rule)) : lastDefault k (rules.map (pyEntry T)) = k := by
  unfold lastDefault
  induction rules with
  | nil => rfl
  | cons x rules ih => simpa [pyEntry] using ih

end Minijail
