import Verif.Model.Config
import Verif.Spec.Config
import Verif.Proof.Const
import Verif.Props.C14
/-! C17: config files parse to exactly their option list. -/
set_option linter.unusedSimpArgs false
set_option autoImplicit false
namespace Minijail

/-- An entry as key and value. -/
def ConfigEntry.pair (e : ConfigEntry) : CStr × Option CStr := (e.key, e.value)

theorem parseConfigLine_iff (s : CStr) (e : ConfigEntry) : parseConfigLine s = some e ↔ Spec.ConfigLine s e.key e.value := by
  obtain ⟨k, v⟩ := e
  unfold parseConfigLine tokenize
  have hd : "=".toList = ['='] := rfl
  simp only [hd, List.cons_ne_nil, if_false]
  constructor
  · intro h
    cases hs : strstr ['='] s with
    | none =>
      rw [hs] at h
      simp only [Option.map_none, reduceCtorEq, or_false] at h
      split at h
      · simp at h
      · next h0 =>
        simp only [Option.some.injEq, ConfigEntry.mk.injEq] at h
        obtain ⟨rfl, rfl⟩ := h
        exact .key (strstr1_none.1 hs) h0
    | some x =>
      obtain ⟨a, b⟩ := x
      rw [hs] at h
      simp only [Option.map_some, Option.some.injEq] at h
      split at h
      · simp at h
      · next h0 =>
        rw [not_or] at h0
        simp only [Option.some.injEq, ConfigEntry.mk.injEq] at h
        obtain ⟨rfl, rfl⟩ := h
        obtain ⟨rfl, ha⟩ := strstr1_some.1 hs
        exact .keyValue ha h0.1 h0.2
  · intro h
    cases h with
    | key h1 h2 =>
      rw [strstr1_none.2 h1]
      simp only [Option.map_none, reduceCtorEq, or_false]
      rw [if_neg (by rw [strip_eq_trim]; exact h2)]; rfl
    | @keyValue a b h1 h2 h3 =>
      rw [strstr1_some.2 ⟨rfl, h1⟩]
      simp only [Option.map_some, Option.some.injEq]
      rw [if_neg (by rw [strip_eq_trim, strip_eq_trim, not_or]; exact ⟨h2, h3⟩)]; rfl

theorem parseConfigLines_iff (ls : List CStr) (es : List ConfigEntry) :
    parseConfigLines ls = (true, es) ↔ Spec.ConfigLines ls (es.map ConfigEntry.pair) := by
  induction ls generalizing es with
  | nil =>
    simp only [parseConfigLines, Prod.mk.injEq, true_and]
    constructor
    · rintro rfl; exact .nil
    · intro h; generalize hes : es.map ConfigEntry.pair = x at h; cases h; simpa using hes.symm
  | cons l ls ih =>
    rw [parseConfigLines]
    simp only
    by_cases hn : strip l = [] ∨ (strip l).head? = some '#'
    · rw [if_pos hn, ih]
      constructor
      · exact .skip hn
      · intro h
        generalize hes : es.map ConfigEntry.pair = x at h
        cases h with
        | skip _ h => exact h
        | entry h => exact absurd hn h
    · rw [if_neg hn]
      cases hp : parseConfigLine (strip l) with
      | none =>
        simp only [Prod.mk.injEq, Bool.false_eq_true, false_and, false_iff]
        intro h
        generalize hes : es.map ConfigEntry.pair = x at h
        cases h with
        | skip h => exact hn h
        | @entry _ _ k v _ _ h =>
          rw [(parseConfigLine_iff (strip l) ⟨k, v⟩).2 h] at hp
          simp at hp
      | some e =>
        simp only [Prod.mk.injEq]
        constructor
        · rintro ⟨h1, h2⟩
          subst h2
          rw [List.map_cons]
          exact .entry hn ((parseConfigLine_iff _ e).1 hp) ((ih _).1 (Prod.ext h1 rfl))
        · intro h
          generalize hes : es.map ConfigEntry.pair = x at h
          cases h with
          | skip h => exact absurd h hn
          | @entry _ _ k v es' _ h h' =>
            rw [(parseConfigLine_iff (strip l) ⟨k, v⟩).2 h] at hp
            simp only [Option.some.injEq] at hp
            cases es with
            | nil => simp at hes
            | cons e0 es =>
              simp only [List.map_cons, List.cons.injEq] at hes
              obtain ⟨h1, rfl⟩ := hes
              rw [(ih _).2 h']
              simp only [true_and, List.cons.injEq, and_true]
              rw [← hp]
              cases e0; simp only [ConfigEntry.pair, Prod.mk.injEq] at h1; simp [h1]

private theorem directive_iff (content rest : CStr) :
    getline content = some ("% minijail-config-file v0\n".toList, rest) ↔ content = "% minijail-config-file v0\n".toList ++ rest := by
  have hd : "% minijail-config-file v0\n".toList = "% minijail-config-file v0".toList ++ ['\n'] := by decide
  have hno : '\n' ∉ "% minijail-config-file v0".toList := by decide
  constructor
  · intro h
    rcases getline_cases content with rfl | ⟨l, rfl, _, hl, hg, _, _⟩ | ⟨l, r, rfl, hl, hg, _, _⟩
    · simp [getline] at h
    · rw [hg] at h
      simp only [Option.some.injEq, Prod.mk.injEq] at h
      rw [h.1, hd] at hl
      simp at hl
    · rw [hg] at h
      simp only [Option.some.injEq, Prod.mk.injEq] at h
      obtain ⟨h1, rfl⟩ := h
      rw [← h1]; simp
  · rintro rfl
    rw [hd, List.append_assoc]
    exact getline_of_newline hno

/-- Exact behaviour, for every file: it is accepted with entries `es` exactly when it starts with the directive and
its logical lines hold these entries. (A last line that ends in a backslash is dropped, see `C17_violated`.) -/
theorem C17_config_exact (content : CStr) (es : List ConfigEntry) :
    parseConfigFile content = (true, es) ↔
      ∃ rest, content = "% minijail-config-file v0\n".toList ++ rest ∧
        Spec.ConfigLines (Spec.joinLines (Spec.physicalLines rest)) (es.map ConfigEntry.pair) := by
  unfold parseConfigFile
  constructor
  · intro h
    split at h
    · simp at h
    · next line rest hg =>
      split at h
      · simp at h
      · next hm =>
        simp only [matchSpecialDirective, Bool.not_eq_true, Bool.not_eq_false', beq_iff_eq] at hm
        subst hm
        refine ⟨rest, (directive_iff _ _).1 hg, ?_⟩
        rw [← C14_lines_exact]
        exact (parseConfigLines_iff _ _).1 h
  · rintro ⟨rest, rfl, h⟩
    rw [(directive_iff _ _).2 rfl]
    simp only [matchSpecialDirective, beq_self_eq_true, Bool.not_true, Bool.false_eq_true, if_false]
    rw [← C14_lines_exact] at h
    exact (parseConfigLines_iff _ _).2 h

/-- The property, for files whose last line does not end in a backslash. -/
theorem C17_config_partial (content : CStr) (es : List ConfigEntry)
    (hl : ∀ l, (Spec.physicalLines content).getLast? = some l → l.getLast? ≠ some '\\') :
    parseConfigFile content = (true, es) ↔ Spec.ConfigText content (es.map ConfigEntry.pair) := by
  rw [C17_config_exact]
  unfold Spec.ConfigText
  constructor
  all_goals
    rintro ⟨rest, rfl, h⟩
    refine ⟨rest, rfl, ?_⟩
    have : Spec.joinLines (Spec.physicalLines rest) = Spec.joinAll (Spec.physicalLines rest) := by
      rw [← C14_lines_exact]
      refine C14_lines_partial rest fun l h => hl l ?_
      have hd : "% minijail-config-file v0\n".toList = "% minijail-config-file v0".toList ++ ['\n'] := by decide
      rw [hd, List.append_assoc, List.singleton_append]
      have hp : ∀ r : CStr, Spec.physicalLines ("% minijail-config-file v0".toList ++ '\n' :: r) =
          "% minijail-config-file v0".toList :: Spec.physicalLines r := by
        intro r
        rcases getline_cases ("% minijail-config-file v0".toList ++ '\n' :: r) with h | ⟨l, h, _, hl, _, _, _⟩ | ⟨l, r', h, hl, hg, _, hp⟩
        · simp at h
        · rw [← h] at hl; exact absurd (List.mem_append_right _ List.mem_cons_self) hl
        · rw [getline_of_newline (by decide)] at hg
          simp only [Option.some.injEq, Prod.mk.injEq] at hg
          obtain ⟨h1, rfl⟩ := hg
          rw [hp, ← List.append_cancel_right h1]
      rw [hp, List.getLast?_cons_of_ne_nil, h]
      intro h0; rw [h0] at h; simp at h
    first
      | rwa [this] at h
      | rwa [this]

/-- A file is rejected exactly when it is no config file. -/
theorem C17_rejected_partial (content : CStr)
    (hl : ∀ l, (Spec.physicalLines content).getLast? = some l → l.getLast? ≠ some '\\') :
    (parseConfigFile content).1 = false ↔ ∀ es, ¬ Spec.ConfigText content es := by
  constructor
  · intro h es hes
    have := (C17_config_partial content (es.map fun p => ⟨p.1, p.2⟩) hl).2 (by
      have e : (es.map fun p => (⟨p.1, p.2⟩ : ConfigEntry)).map ConfigEntry.pair = es := by
        rw [List.map_map]; exact List.map_id _
      rw [e]; exact hes)
    rw [this] at h
    simp at h
  · intro h
    by_contra hc
    exact h _ ((C17_config_partial content _ hl).1 (Prod.ext (by simpa using hc) rfl))

/-- The full statement is false: the last line of this file is silently dropped. -/
theorem C17_violated : ¬ ∀ (content : CStr) (es : List ConfigEntry),
    parseConfigFile content = (true, es) ↔ Spec.ConfigText content (es.map ConfigEntry.pair) := by
  intro h
  have h1 : parseConfigFile "% minijail-config-file v0\nuts\nfs-path-ro=/a\\\n".toList = (true, [⟨"uts".toList, none⟩]) := by
    decide +kernel
  obtain ⟨rest, hr, hc⟩ := (h _ _).1 h1
  have hr : "uts\nfs-path-ro=/a\\\n".toList = rest := by
    apply List.append_cancel_left (as := "% minijail-config-file v0\n".toList)
    rw [← hr]; decide
  subst hr
  have hj : Spec.joinAll (Spec.physicalLines "uts\nfs-path-ro=/a\\\n".toList) = ["uts".toList, "fs-path-ro=/a".toList] := by decide
  rw [hj] at hc
  cases hc with
  | skip h => revert h; unfold Spec.NoEntry; decide
  | entry _ _ h =>
    cases h with
    | skip h => revert h; unfold Spec.NoEntry; decide

/-- Comments, blank lines, continuation, a value with `=` in it. -/
example : Spec.ConfigText "% minijail-config-file v0\n# c\n\n uts \nmount = a,\\\nb=c \n".toList
    [("uts".toList, none), ("mount".toList, some "a, b=c".toList)] := by
  refine (C17_config_partial _ [⟨"uts".toList, none⟩, ⟨"mount".toList, some "a, b=c".toList⟩] ?_).1 (by decide +kernel)
  decide

end Minijail
