import Verif.Model.Config
import Mathlib.Data.List.Forall2
import Verif.Spec.Options
/-! C44: options read from a config file. -/
set_option linter.unusedSimpArgs false
set_option autoImplicit false
namespace Minijail

/-- **C44**, keys: a key is accepted exactly when it is the name of a long option or one of the option letters, and
stands for that option. -/
theorem C44_keys (key : CStr) (o : Nat) : optFromKey key = some o ↔
    (key, o) ∈ longOptions ∨ ∃ c ∈ Spec.optionLetters, key = [c] ∧ o = c.toNat := by
  have hnd : ∀ p ∈ longOptions, longOptions.find? (fun q => q.1 == p.1) = some p := by decide +kernel
  have hlet : ∀ c ∈ Spec.optionLetters, isalpha c = true ∧ optstring.contains c = true := by decide +kernel
  have hlet' : ∀ c ∈ optstring, isalpha c = true → c ∈ Spec.optionLetters := by decide +kernel
  have hone : ∀ p ∈ longOptions, p.1.length ≠ 1 := by decide +kernel
  unfold optFromKey
  cases hf : longOptions.find? (fun q => q.1 == key) with
  | some q =>
    have hm := List.mem_of_find?_eq_some hf
    have hk := List.find?_some hf
    simp only [beq_iff_eq] at hk
    subst hk
    simp only [Option.some.injEq]
    constructor
    · rintro rfl; exact .inl hm
    · rintro (h | ⟨c, -, hc, -⟩)
      · have := hnd _ h
        rw [hf] at this
        simp only [Option.some.injEq] at this
        rw [this]
      · exact absurd (by rw [hc]; rfl) (hone q hm)
  | none =>
    have hno : ∀ p, (key, p) ∉ longOptions := by
      intro p hp
      have := List.find?_eq_none.mp hf _ hp
      simp at this
    constructor
    · intro h
      right
      match key, h with
      | [c], h =>
        simp only at h
        split at h
        · rename_i hc
          simp only [Bool.and_eq_true, List.contains_eq_mem, decide_eq_true_eq] at hc
          exact ⟨c, hlet' c hc.2 hc.1, rfl, by simpa using h.symm⟩
        · cases h
    · rintro (h | ⟨c, hc, rfl, rfl⟩)
      · exact absurd h (hno o)
      · have := hlet c hc
        show (if isalpha c && optstring.contains c then some c.toNat else none) = _
        rw [if_pos (by rw [this.1, this.2]; rfl)]

/-- **C44**, order and arguments: the options delivered are those of the entries in order, each with its entry's value. -/
theorem C44_order (es : List ConfigEntry) (opts : List (Nat × Option CStr)) : optsFromConf es = some opts ↔
    List.Forall₂ (fun (e : ConfigEntry) o => optFromKey e.key = some o.1 ∧ o.2 = e.value) es opts := by
  induction es generalizing opts with
  | nil => simp [optsFromConf]
  | cons e es ih =>
    constructor
    · intro h
      simp only [optsFromConf] at h
      cases ho : optFromKey e.key with
      | none => rw [ho] at h; cases h
      | some o =>
        cases hr : optsFromConf es with
        | none => rw [ho, hr] at h; cases h
        | some rest =>
          rw [ho, hr] at h
          cases h
          exact .cons ⟨ho, rfl⟩ ((ih rest).mp hr)
    · intro h
      cases h with
      | @cons _ o _ rest h1 h2 =>
        simp only [optsFromConf, h1.1, (ih rest).mpr h2, ← h1.2]
        rfl

/-- The part of **C44** that holds: when every entry of an option that needs an argument has a value, each such option
is delivered with its argument. Missing: entries without a value are not refused, see `C44_violated`. -/
theorem C44_argument_partial (es : List ConfigEntry) (opts : List (Nat × Option CStr)) (h : optsFromConf es = some opts)
    (hv : ∀ e ∈ es, Spec.NeedsArgument e.key → e.value ≠ none) :
    List.Forall₂ (fun (e : ConfigEntry) (o : Nat × Option CStr) => optFromKey e.key = some o.1 ∧
      (Spec.NeedsArgument e.key → ∃ a, o.2 = some a)) es opts := by
  have h2 := (C44_order es opts).mp h
  clear h
  induction h2 with
  | nil => exact .nil
  | cons h1 _ ih =>
    refine .cons ⟨h1.1, fun hn => ?_⟩ (ih fun e he => hv e (by simp [he]))
    rw [h1.2]
    exact Option.ne_none_iff_exists'.mp (hv _ (by simp) hn)

/-- **C44 does not hold**: a config file with the line `u` delivers the option `-u` without its argument (the parser
then uses a NULL pointer as the user name). -/
theorem C44_violated : ¬ ∀ (content : CStr) (es : List ConfigEntry) (opts : List (Nat × Option CStr)),
    parseConfigFile content = (true, es) → optsFromConf es = some opts →
    List.Forall₂ (fun (e : ConfigEntry) (o : Nat × Option CStr) => Spec.NeedsArgument e.key → o.2 ≠ none) es opts := by
  intro h
  have := h "% minijail-config-file v0\nu\n".toList [⟨['u'], none⟩] [('u'.toNat, none)] (by decide +kernel)
    (by decide +kernel)
  cases this with
  | cons h1 _ => exact h1 (.inl ⟨'u', by decide, rfl⟩) rfl

/-- A config with a letter and a long option meets the hypotheses. -/
example : optsFromConf [⟨"u".toList, some "nobody".toList⟩, ⟨"ns-mount".toList, none⟩] =
    some [('u'.toNat, some "nobody".toList), ('v'.toNat, none)] ∧ optFromKey "+".toList = none ∧
    Spec.NeedsArgument "u".toList ∧ Spec.NeedsArgument "mount".toList := by
  refine ⟨by decide +kernel, by decide +kernel, .inl ⟨'u', by decide, rfl⟩, .inr ⟨"mount", by decide, rfl⟩⟩

end Minijail
