import Verif.Props.C17
import Verif.Props.C13
/-! C18: a generated configuration reproduces the options. -/
set_option linter.unusedSimpArgs false
set_option autoImplicit false
namespace Minijail

/-- The option values that the command line parser can deliver: those of long options and the letters of `optstring`. -/
def Spec.IsOption (opt : Nat) : Prop :=
  opt ∈ longOptions.map (·.2) ∨ ∃ c ∈ optstring, isalpha c = true ∧ opt = c.toNat

/-- `--config` and `--gen-config`, which are not written. -/
def Spec.isConfigOption (opt : Nat) : Bool := opt == optVal "CONFIG" || opt == optVal "GEN_CONFIG"

private structure NameOk (n : CStr) : Prop where
  ne : n ≠ []
  head : ∀ c, n.head? = some c → c ≠ ' ' ∧ c ≠ '\t' ∧ c ≠ '#'
  last : ∀ c, n.getLast? = some c → c ≠ ' ' ∧ c ≠ '\t' ∧ c ≠ '\n' ∧ c ≠ '\\'
  noeq : '=' ∉ n
  nonl : '\n' ∉ n

/-- The same as a test. -/
private def nameOk (n : CStr) : Bool :=
  n != [] && n.head? != some ' ' && n.head? != some '\t' && n.head? != some '#' &&
  n.getLast? != some ' ' && n.getLast? != some '\t' && n.getLast? != some '\n' && n.getLast? != some '\\' &&
  !n.contains '=' && !n.contains '\n'

private theorem nameOk_iff {n : CStr} (h : nameOk n = true) : NameOk n := by
  simp only [nameOk, Bool.and_eq_true, bne_iff_ne, ne_eq, Bool.not_eq_true', List.contains_eq_mem, decide_eq_false_iff_not] at h
  obtain ⟨⟨⟨⟨⟨⟨⟨⟨⟨h1, h2⟩, h3⟩, h4⟩, h5⟩, h6⟩, h7⟩, h8⟩, h9⟩, h10⟩ := h
  refine ⟨h1, ?_, ?_, h9, h10⟩
  · intro c hc; rw [hc] at h2 h3 h4; simp_all
  · intro c hc; rw [hc] at h5 h6 h7 h8; simp_all

private theorem options_ok (opt : Nat) (h : Spec.IsOption opt) :
    NameOk (optName opt) ∧ optFromKey (optName opt) = some opt ∧
      ((optName opt = "config".toList ∨ optName opt = "gen-config".toList) ↔ Spec.isConfigOption opt = true) := by
  have h1 : ∀ o ∈ longOptions.map (·.2), nameOk (optName o) = true ∧ optFromKey (optName o) = some o ∧
      ((optName o = "config".toList ∨ optName o = "gen-config".toList) ↔ Spec.isConfigOption o = true) := by decide +kernel
  have h2 : ∀ c ∈ optstring, isalpha c = true → nameOk (optName c.toNat) = true ∧ optFromKey (optName c.toNat) = some c.toNat ∧
      ((optName c.toNat = "config".toList ∨ optName c.toNat = "gen-config".toList) ↔ Spec.isConfigOption c.toNat = true) := by
    decide +kernel
  rcases h with h | ⟨c, hc, ha, rfl⟩
  · have := h1 opt h
    exact ⟨nameOk_iff this.1, this.2⟩
  · have := h2 c hc ha
    exact ⟨nameOk_iff this.1, this.2⟩

/-- The text of an option without the newline. -/
private def lineOf (o : Nat × Option CStr) : CStr :=
  match o.2 with
  | none => optName o.1
  | some a => optName o.1 ++ " = ".toList ++ a

private theorem physicalLines_flatMap (ls : List CStr) (h : ∀ l ∈ ls, '\n' ∉ l) :
    Spec.physicalLines (ls.flatMap fun l => l ++ ['\n']) = ls := by
  induction ls with
  | nil => exact physicalLines_nil
  | cons l ls ih =>
    have hl := h l (by simp)
    simp only [List.flatMap_cons, List.append_assoc, List.singleton_append]
    rcases getline_cases (l ++ '\n' :: ls.flatMap fun l => l ++ ['\n']) with h' | ⟨l', h', _, hl', _, _, _⟩ | ⟨l', r', h', hl', hg, _, hp⟩
    · simp at h'
    · rw [← h'] at hl'; exact absurd (List.mem_append_right _ List.mem_cons_self) hl'
    · rw [getline_of_newline hl] at hg
      simp only [Option.some.injEq, Prod.mk.injEq] at hg
      obtain ⟨h1, rfl⟩ := hg
      rw [hp, ← List.append_cancel_right h1, ih fun x hx => h x (by simp [hx])]

private theorem joinLines_id (ls : List CStr) (h : ∀ l ∈ ls, l.getLast? ≠ some '\\') : Spec.joinLines ls = ls := by
  induction ls with
  | nil => rfl
  | cons l ls ih =>
    rw [Spec.joinLines, if_neg (h l (by simp)), ih fun x hx => h x (by simp [hx])]

private theorem trim_of {s t : CStr} (h : Spec.Stripped s t) : Spec.trim s = t := (C13_strip s t).2 h

private theorem stripped_self {t : CStr} (h1 : ∀ c, t.head? = some c → ¬ Spec.isBlank c)
    (h2 : ∀ c, t.getLast? = some c → ¬ (Spec.isBlank c ∨ c = '\n')) : Spec.trim t = t :=
  trim_of ⟨⟨[], [], by simp, by simp, by simp⟩, h1, h2⟩

private theorem line_entry (o : Nat × Option CStr) (h : Spec.IsOption o.1) (ha : ∀ a, o.2 = some a → Spec.Representable a) :
    '\n' ∉ lineOf o ∧ (lineOf o).getLast? ≠ some '\\' ∧ ¬ Spec.NoEntry (lineOf o) ∧
      Spec.ConfigLine (Spec.trim (lineOf o)) (optName o.1) o.2 := by
  obtain ⟨hn, -, -⟩ := options_ok o.1 h
  obtain ⟨opt, arg⟩ := o
  unfold lineOf
  simp only at *
  generalize optName opt = n at *
  have hb1 : ∀ c, n.head? = some c → ¬ Spec.isBlank c := by
    intro c hc; have := hn.head c hc; simp [Spec.isBlank, this]
  have hb2 : ∀ c, n.getLast? = some c → ¬ (Spec.isBlank c ∨ c = '\n') := by
    intro c hc; have := hn.last c hc; simp [Spec.isBlank, this]
  have hne := hn.ne
  have htn : Spec.trim n = n := stripped_self hb1 hb2
  have hhd : ∀ r : CStr, (n ++ r).head? = n.head? := by
    intro r; cases n with
    | nil => exact absurd rfl hne
    | cons c n => rfl
  cases arg with
  | none =>
    simp only
    refine ⟨hn.nonl, fun hl => (hn.last _ hl).2.2.2 rfl, ?_, ?_⟩
    · unfold Spec.NoEntry
      rw [htn]
      rintro (h | h)
      · exact hne h
      · exact (hn.head _ h).2.2 rfl
    · have := Spec.ConfigLine.key (s := n) hn.noeq (by rw [htn]; exact hne)
      rw [htn] at this ⊢
      exact this
  | some a =>
    have hr := ha a rfl
    have hta : Spec.Stripped a a := (C13_strip a a).1 hr.trimmed
    have hmid : " = ".toList = [' ', '=', ' '] := rfl
    simp only [hmid]
    have hlast : (n ++ [' ', '=', ' '] ++ a).getLast? = a.getLast? := by
      cases h0 : a.getLast? with
      | none => rw [List.getLast?_eq_none_iff] at h0; exact absurd h0 hr.nonempty
      | some c => rw [List.getLast?_append, h0]; rfl
    have htl : Spec.trim (n ++ [' ', '=', ' '] ++ a) = n ++ [' ', '=', ' '] ++ a := by
      apply stripped_self
      · rw [List.append_assoc, hhd]; exact hb1
      · rw [hlast]; exact hta.last
    refine ⟨?_, ?_, ?_, ?_⟩
    · simp only [List.mem_append, not_or]
      exact ⟨⟨hn.nonl, by simp⟩, hr.oneLine⟩
    · rw [hlast]; exact hr.noContinuation
    · unfold Spec.NoEntry
      rw [htl, List.append_assoc, hhd]
      rintro (h | h)
      · simp [hne] at h
      · exact (hn.head _ h).2.2 rfl
    · rw [htl]
      have h1 : Spec.trim (n ++ [' ']) = n := trim_of ⟨⟨[], [' '], by simp, by simp, by simp [Spec.isBlank]⟩, hb1, hb2⟩
      have h2 : Spec.trim (' ' :: a) = a :=
        trim_of ⟨⟨[' '], [], by simp, by simp [Spec.isBlank], by simp⟩, hta.first, hta.last⟩
      have := Spec.ConfigLine.keyValue (a := n ++ [' ']) (b := ' ' :: a) (by simp [hn.noeq]) (by rw [h1]; exact hne)
        (by rw [h2]; exact hr.nonempty)
      rw [h1, h2] at this
      simpa using this

/-- Reading the generated file gives back the options and arguments (without `--config` and `--gen-config`). -/
theorem C18_roundtrip (opts : List (Nat × Option CStr)) (hv : ∀ o ∈ opts, Spec.IsOption o.1)
    (ha : ∀ o ∈ opts, ∀ a, o.2 = some a → Spec.Representable a) :
    ∃ es, parseConfigFile (genConfig opts) = (true, es) ∧
      optsFromConf es = some (opts.filter fun o => !Spec.isConfigOption o.1) := by
  have hgen : genConfig opts = "% minijail-config-file v0\n".toList ++
      (([] :: (opts.filter fun o => !Spec.isConfigOption o.1).map lineOf).flatMap fun l => l ++ ['\n']) := by
    have hd : "% minijail-config-file v0\n\n".toList = "% minijail-config-file v0\n".toList ++ ['\n'] := by decide
    unfold genConfig
    rw [hd, List.append_assoc, List.flatMap_cons, List.nil_append]
    congr 2
    clear ha hd
    induction opts with
    | nil => rfl
    | cons o opts ih =>
      have ih := ih fun x hx => hv x (by simp [hx])
      obtain ⟨-, -, hc⟩ := options_ok o.1 (hv o (by simp))
      rw [List.flatMap_cons, ih, List.filter_cons]
      unfold genConfigLine
      by_cases h : Spec.isConfigOption o.1 = true
      · rw [if_pos (hc.2 h)]
        simp [h]
      · rw [if_neg (fun h' => h (hc.1 h'))]
        simp only [h, Bool.not_false, if_true, List.map_cons, List.flatMap_cons, Bool.not_eq_true]
        congr 1
        unfold lineOf
        cases o.2 <;> rfl
  have hmem : ∀ o ∈ opts.filter (fun o => !Spec.isConfigOption o.1), o ∈ opts := fun o ho => (List.mem_filter.1 ho).1
  have hphys := physicalLines_flatMap ([] :: (opts.filter fun o => !Spec.isConfigOption o.1).map lineOf) (by
    intro l hl
    rcases List.mem_cons.1 hl with rfl | hl
    · simp
    · obtain ⟨o, ho, rfl⟩ := List.mem_map.1 hl
      exact (line_entry o (hv o (hmem o ho)) (ha o (hmem o ho))).1)
  have hjoin := joinLines_id ([] :: (opts.filter fun o => !Spec.isConfigOption o.1).map lineOf) (by
    intro l hl
    rcases List.mem_cons.1 hl with rfl | hl
    · simp
    · obtain ⟨o, ho, rfl⟩ := List.mem_map.1 hl
      exact (line_entry o (hv o (hmem o ho)) (ha o (hmem o ho))).2.1)
  refine ⟨(opts.filter fun o => !Spec.isConfigOption o.1).map fun o => ⟨optName o.1, o.2⟩, ?_, ?_⟩
  · rw [C17_config_exact]
    refine ⟨_, hgen, ?_⟩
    rw [hphys, hjoin]
    refine .skip (.inl rfl) ?_
    clear hgen hphys hjoin
    generalize opts.filter (fun o => !Spec.isConfigOption o.1) = os at hmem
    induction os with
    | nil => exact .nil
    | cons o os ih =>
      obtain ⟨-, -, h1, h2⟩ := line_entry o (hv o (hmem o (by simp))) (ha o (hmem o (by simp)))
      exact .entry h1 h2 (ih fun x hx => hmem x (by simp [hx]))
  · clear hgen hphys hjoin
    generalize opts.filter (fun o => !Spec.isConfigOption o.1) = os at hmem
    induction os with
    | nil => rfl
    | cons o os ih =>
      obtain ⟨-, h1, -⟩ := options_ok o.1 (hv o (hmem o (by simp)))
      have ih := ih fun x hx => hmem x (by simp [hx])
      simp only [List.map_cons, optsFromConf, h1, ih]
      rfl

/-- `-u nobody -v --uts --config c --mount=a,b` with blanks inside an argument. -/
example : ∃ es, parseConfigFile (genConfig [('u'.toNat, some "nobody x".toList), ('v'.toNat, none), (optVal "UTS", none),
      (optVal "CONFIG", some "c".toList), ('k'.toNat, some "a,b=#".toList)]) = (true, es) ∧
    optsFromConf es = some [('u'.toNat, some "nobody x".toList), ('v'.toNat, none), (optVal "UTS", none),
      ('k'.toNat, some "a,b=#".toList)] := by
  obtain ⟨es, h1, h2⟩ := C18_roundtrip [('u'.toNat, some "nobody x".toList), ('v'.toNat, none), (optVal "UTS", none),
      (optVal "CONFIG", some "c".toList), ('k'.toNat, some "a,b=#".toList)]
    (by
      intro o ho
      simp only [List.mem_cons, List.not_mem_nil, or_false] at ho
      rcases ho with rfl | rfl | rfl | rfl | rfl
      · exact .inr ⟨'u', by decide, by decide, rfl⟩
      all_goals exact .inl (by decide))
    (by
      intro o ho a ha
      simp only [List.mem_cons, List.not_mem_nil, or_false] at ho
      rcases ho with rfl | rfl | rfl | rfl | rfl <;> simp only [Option.some.injEq, reduceCtorEq] at ha <;> subst ha <;>
        exact ⟨by decide, by decide, by decide, by decide⟩)
  exact ⟨es, h1, h2.trans (by decide)⟩

/-- Outside the representable arguments the round trip does fail: an argument with a newline in it adds an option. -/
example : (parseConfigFile (genConfig [('u'.toNat, some "a\nuts".toList)])).2.map ConfigEntry.key = ["u".toList, "uts".toList] := by
  decide +kernel

end Minijail
