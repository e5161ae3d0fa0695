import Verif.Proof.EnvMem
/-!
C83: copying, editing and freeing an environment uses memory properly (util.c).
-/
set_option autoImplicit false
set_option linter.unusedSimpArgs false
namespace Minijail
open EnvMem Spec

/-- **C83**, copying: there is a copy, in memory of its own, with the same strings; or an allocation failed, and what was allocated on the way has been freed. -/
theorem C83_copy {fails : Nat → Bool} {m : EMem} (hm : EnvOrdinary m) {a : Nat} {env : Env} (h : EnvReads m a env) :
    (∃ m', copyEnvMem fails (some a) m = .ok none m' ∧ SameCells m' m ∧ ∃ n, fails n = true) ∨
    ∃ b m', copyEnvMem fails (some a) m = .ok (some b) m' ∧ EnvOwned m m' b env := copy_ok hm h

/-- **C83**, the empty environment that copying NULL gives. -/
theorem C83_empty {fails : Nat → Bool} {m : EMem} (hm : EnvOrdinary m) :
    (∃ m', copyEnvMem fails none m = .ok none m' ∧ SameCells m' m ∧ ∃ n, fails n = true) ∨
    ∃ b m', copyEnvMem fails none m = .ok (some b) m' ∧ EnvOwned m m' b [] := by
  rw [copyEnvMem]
  rcases alloc_cases fails (.array [some none]) m with ⟨hf, e⟩ | ⟨hf, e⟩
  · rw [e]
    exact .inl ⟨_, rfl, fun _ => rfl, _, hf⟩
  · rw [e]
    refine .inr ⟨_, _, rfl, owned_iff.mpr ⟨[], [], ?_⟩⟩
    constructor
    · intro x hx
      have hx : m.brk + 1 ≤ x := hx
      simp only
      rw [if_neg (by omega)]
      exact hm x (by omega)
    · exact hm _ (Nat.le_refl _)
    · simp [slotsOf]
    · simp
    · simp
    · simp
    · intro x hx _
      simp only
      rw [if_neg hx]

/-- **C83**, setting: no memory is misused; either the strings are those that `minijail_setenv` is to leave, and the memory of one that was replaced has been freed; or there is no
memory, which is said, and the environment is as it was. Name and value may be anywhere in memory, also in the environment itself. -/
theorem C83_set {fails : Nat → Bool} {base m : EMem} {a : Nat} {env : Env} (h : EnvOwned base m a env) {np vp : Nat × Nat} {name value : CStr} (hn : TextAt m np name)
    (hv : TextAt m vp value) (hne : name ≠ []) (overwrite : Bool) :
    ∃ ret b m' env', setenvMem fails (some a) (some np) (some vp) overwrite m = .ok (ret, some b) m' ∧ EnvOwned base m' b env' ∧
      ((ret = .ok ∧ minijailSetenv (some env) (some name) (some value) overwrite = (.ok, some env')) ∨ (ret = .enomem ∧ env' = env ∧ b = a ∧ ∃ n, fails n = true)) :=
  set_ok h hn hv hne overwrite

/-- **C83**, arguments that are missing: no environment, no name, an empty name or no value is refused, and memory is not touched. -/
theorem C83_refused {fails : Nat → Bool} {m : EMem} {env : Option Nat} {name value : Option (Nat × Nat)} {overwrite : Bool}
    (h : env = none ∨ name = none ∨ (∃ p, name = some p ∧ TextAt m p []) ∨ ((∃ p s, name = some p ∧ TextAt m p s) ∧ value = none)) :
    setenvMem fails env name value overwrite m = .ok (.einval, env) m := by
  cases env with
  | none => rfl
  | some a =>
    cases name with
    | none => rfl
    | some p =>
      simp only [reduceCtorEq, false_or, Option.some.injEq] at h
      rcases h with ⟨q, rfl, h⟩ | ⟨⟨q, s, rfl, h⟩, rfl⟩
      · rw [setenvMem]
        simp only [text_at h]
      · rw [setenvMem]
        simp only [text_at h]
        cases s <;> rfl

/-- **C83**, getting: the pointer leads to the value within the environment's own string. -/
theorem C83_get {base m : EMem} {a : Nat} {env : Env} (h : EnvOwned base m a env) {np : Nat × Nat} {name : CStr} (hn : TextAt m np name) :
    ∃ p, getenvMem (some a) (some np) m = .ok p m ∧ (p = none ↔ minijailGetenv (some env) (some name) = none) ∧
      ∀ q, p = some q → ∃ v, minijailGetenv (some env) (some name) = some v ∧ TextAt m q v := get_ok h hn

/-- **C83**, freeing: what the environment had in memory is free, and nothing else. -/
theorem C83_free {base m : EMem} {a : Nat} {env : Env} (h : EnvOwned base m a env) : ∃ m', freeEnvMem (some a) m = .ok () m' ∧ SameCells m' base := by
  obtain ⟨m', h1, -, h3⟩ := freeEnv_ok h
  exact ⟨m', h1, h3⟩

/-- The part of **C83** on unsetting that holds: no memory is misused, and the strings are those that `minijail_unsetenv` is to leave. Missing: a string that is taken out is not freed, so
that it stays allocated although nothing leads to it (`C83_violated`). -/
theorem C83_unset_partial {base m : EMem} {a : Nat} {env : Env} (h : EnvOwned base m a env) {np : Nat × Nat} {name : CStr} (hn : TextAt m np name) :
    ∃ found m' env', unsetenvMem (some a) (some np) m = .ok found m' ∧ minijailUnsetenv (some env) (some name) = (found, some env') ∧
      (found = false → EnvOwned base m' a env') ∧
      (found = true → ∃ p e, base.cells p = none ∧ EnvOwned (base.put p (some (.text e))) m' a env') := by
  obtain ⟨found, m', env', h1, h2, -, h4, h5⟩ := unset_ok h hn
  refine ⟨found, m', env', h1, h2, fun hf => (h4 hf).1, fun hf => ?_⟩
  obtain ⟨p, e, g1, -, g3, -⟩ := h5 hf
  exact ⟨p, e, g1, g3⟩

/-- One change of an environment: name and value are pointers to strings. -/
inductive EnvDeed where
  | set (name value : Nat × Nat) (overwrite : Bool)
  | unset (name : Nat × Nat)

/-- Changes one after the other, from an environment at an address: where it is afterwards, and how often a variable was taken out. -/
def doDeeds (fails : Nat → Bool) : List EnvDeed → (a : Nat) → (taken : Nat) → EMem → E (Nat × Nat)
  | [], a, taken, m => .ok (a, taken) m
  | .set n v o :: ds, a, taken, m => (setenvMem fails (some a) (some n) (some v) o m).bind fun r m => doDeeds fails ds (r.2.getD a) taken m
  | .unset n :: ds, a, taken, m => (unsetenvMem (some a) (some n) m).bind fun found m => doDeeds fails ds a (if found then taken + 1 else taken) m

/-- The strings behind the changes, when memory is always had. -/
inductive EnvLeads (base : EMem) : List EnvDeed → Env → Env → Prop
  | done (env : Env) : EnvLeads base [] env env
  | set {np vp : Nat × Nat} {o : Bool} {ds : List EnvDeed} {env env1 env2 : Env} {n v : CStr} : TextAt base np n → TextAt base vp v →
      minijailSetenv (some env) (some n) (some v) o = (.ok, some env1) → EnvLeads base ds env1 env2 → EnvLeads base (.set np vp o :: ds) env env2
  | unset {np : Nat × Nat} {ds : List EnvDeed} {env env1 env2 : Env} {n : CStr} {found : Bool} : TextAt base np n →
      minijailUnsetenv (some env) (some n) = (found, some env1) → EnvLeads base ds env1 env2 → EnvLeads base (.unset np :: ds) env env2

/-- The names and values are strings of the caller, and no name is empty. -/
def GoodDeed (base : EMem) : EnvDeed → Prop
  | .set np vp _ => (∃ n, n ≠ [] ∧ TextAt base np n) ∧ ∃ v, TextAt base vp v
  | .unset np => ∃ n, TextAt base np n

/-- Memory with more strings in it. -/
def Strewn (base m : EMem) (lost : List Nat) : Prop :=
  lost.Nodup ∧ (∀ p ∈ lost, base.cells p = none ∧ ∃ e, m.cells p = some (.text e)) ∧ ∀ x, x ∉ lost → m.cells x = base.cells x

theorem deeds_ok {fails : Nat → Bool} {base : EMem} : ∀ (ds : List EnvDeed), (∀ d ∈ ds, GoodDeed base d) → ∀ (base1 m : EMem) (a taken : Nat) (env : Env) (lost : List Nat),
    Strewn base base1 lost → lost.length = taken → EnvOwned base1 m a env →
    ∃ b taken' m' base' env' lost', doDeeds fails ds a taken m = .ok (b, taken') m' ∧ Strewn base base' lost' ∧ lost'.length = taken' ∧ EnvOwned base' m' b env' ∧
      ((∀ n, fails n = false) → EnvLeads base ds env env') := by
  intro ds
  induction ds with
  | nil => intro _ base1 m a taken env lost h1 h2 h3; exact ⟨a, taken, m, base1, env, lost, rfl, h1, h2, h3, fun _ => .done env⟩
  | cons d ds ih =>
    intro hg base1 m a taken env lost h1 h2 h3
    have hg' : ∀ d ∈ ds, GoodDeed base d := fun d hd => hg d (by simp [hd])
    have htext : ∀ (p : Nat × Nat) s, TextAt base p s → TextAt m p s := by
      intro p s ⟨t, ht, hl⟩
      obtain ⟨ps, rest, o⟩ := owned_iff.mp h3
      have hnl : p.1 ∉ lost := fun hm => by rw [(h1.2.1 _ hm).1] at ht; cases ht
      have hb : base1.cells p.1 = some (.text (t ++ s)) := by rw [h1.2.2 _ hnl]; exact ht
      exact own_text o ⟨t, hb, hl⟩
    cases d with
    | set np vp o =>
      obtain ⟨⟨n, hne, hn⟩, v, hv⟩ := hg _ (List.mem_cons_self)
      obtain ⟨ret, b, m1, env1, g1, g2, g3⟩ := set_ok (fails := fails) h3 (htext _ _ hn) (htext _ _ hv) hne o
      obtain ⟨b', taken', m', base', env', lost', f1, f2, f3, f4, f5⟩ := ih hg' base1 m1 b taken env1 lost h1 h2 g2
      refine ⟨b', taken', m', base', env', lost', ?_, f2, f3, f4, fun hf => ?_⟩
      · rw [doDeeds, g1]
        exact f1
      · rcases g3 with ⟨-, g⟩ | ⟨-, -, -, k, hk⟩
        · exact .set hn hv g (f5 hf)
        · rw [hf k] at hk; cases hk
    | unset np =>
      obtain ⟨n, hn⟩ := hg _ (List.mem_cons_self)
      obtain ⟨found, m1, env1, g1, g2, -, g4, g5⟩ := unset_ok h3 (htext _ _ hn)
      cases found with
      | false =>
        obtain ⟨b', taken', m', base', env', lost', f1, f2, f3, f4, f5⟩ := ih hg' base1 m1 a taken env1 lost h1 h2 (g4 rfl).1
        refine ⟨b', taken', m', base', env', lost', ?_, f2, f3, f4, fun hf => .unset hn g2 (f5 hf)⟩
        rw [doDeeds, g1]
        exact f1
      | true =>
        obtain ⟨p, e, k1, k2, k3, -⟩ := g5 rfl
        have hp : p ∉ lost := fun hm => by
          obtain ⟨e', he'⟩ := (h1.2.1 p hm).2
          rw [k1] at he'; cases he'
        have hs : Strewn base (base1.put p (some (.text e))) (p :: lost) := by
          refine ⟨List.nodup_cons.mpr ⟨hp, h1.1⟩, fun q hq => ?_, fun x hx => ?_⟩
          · rcases List.mem_cons.mp hq with rfl | hq
            · exact ⟨by rw [← h1.2.2 _ hp]; exact k1, e, by simp [EMem.put]⟩
            · have hne : q ≠ p := fun e => hp (e ▸ hq)
              refine ⟨(h1.2.1 q hq).1, ?_⟩
              simp only [EMem.put]
              rw [if_neg hne]
              exact (h1.2.1 q hq).2
          · simp only [List.mem_cons, not_or] at hx
            simp only [EMem.put]
            rw [if_neg hx.1]
            exact h1.2.2 x hx.2
        obtain ⟨b', taken', m', base', env', lost', f1, f2, f3, f4, f5⟩ := ih hg' _ m1 a (taken + 1) env1 (p :: lost) hs (by simp [h2]) k3
        refine ⟨b', taken', m', base', env', lost', ?_, f2, f3, f4, fun hf => .unset hn g2 (f5 hf)⟩
        rw [doDeeds, g1]
        exact f1

/-- The part of **C83** that holds for an environment that is copied, changed as often as one likes and freed: no memory is misused; the strings are those that the changes are to leave
if memory can be had; and when it has been freed memory is as before, but for one string for each variable that was taken out. Missing: that these are freed (`C83_violated`). -/
theorem C83_partial {fails : Nat → Bool} {base : EMem} (hm : EnvOrdinary base) {a : Nat} {env : Env} (h : EnvReads base a env) {ds : List EnvDeed} (hd : ∀ d ∈ ds, GoodDeed base d) :
    (∃ m', copyEnvMem fails (some a) base = .ok none m' ∧ SameCells m' base ∧ ∃ n, fails n = true) ∨
    ∃ b m1 c taken m2 env', copyEnvMem fails (some a) base = .ok (some b) m1 ∧ doDeeds fails ds b 0 m1 = .ok (c, taken) m2 ∧ EnvReads m2 c env' ∧
      ((∀ n, fails n = false) → EnvLeads base ds env env') ∧ (∀ x, base.cells x ≠ none → m2.cells x = base.cells x) ∧
      ∃ m3 lost, freeEnvMem (some c) m2 = .ok () m3 ∧ Strewn base m3 lost ∧ lost.length = taken := by
  rcases copy_ok (fails := fails) hm h with h | ⟨b, m1, h1, h2⟩
  · exact .inl h
  · obtain ⟨c, taken, m2, base', env', lost, g1, g2, g3, g4, g5⟩ := deeds_ok (fails := fails) ds hd base m1 b 0 env []
      ⟨by simp, by simp, fun _ _ => rfl⟩ rfl h2
    obtain ⟨m3, f1, f2⟩ := C83_free g4
    obtain ⟨ps, rest, o⟩ := owned_iff.mp g4
    refine .inr ⟨b, m1, c, taken, m2, env', h1, g1, ⟨ps, rest, o.arr, o.txt⟩, g5, fun x hx => ?_, m3, lost, f1, ⟨g2.1, fun p hp => ?_, fun x hx => ?_⟩, g3⟩
    · have hnl : x ∉ lost := fun hm => hx (g2.2.1 x hm).1
      have := g2.2.2 x hnl
      rw [← this]
      exact (own_used o (by rw [this]; exact hx)).2.2
    · exact ⟨(g2.2.1 p hp).1, by rw [f2 p]; exact (g2.2.1 p hp).2⟩
    · rw [f2 x]; exact g2.2.2 x hx

/-- Changes that take no variable out leave nothing behind. -/
theorem C83_no_leak {fails : Nat → Bool} {base : EMem} (hm : EnvOrdinary base) {a : Nat} {env : Env} (h : EnvReads base a env) {ds : List EnvDeed} (hd : ∀ d ∈ ds, GoodDeed base d)
    {b c : Nat} {m1 m2 : EMem} (hc : copyEnvMem fails (some a) base = .ok (some b) m1) (hr : doDeeds fails ds b 0 m1 = .ok (c, 0) m2) :
    ∃ m3, freeEnvMem (some c) m2 = .ok () m3 ∧ SameCells m3 base := by
  rcases C83_partial (fails := fails) hm h hd with ⟨m', h1, -⟩ | ⟨b', m1', c', taken, m2', env', h1, h2, -, -, -, m3, lost, h3, h4, h5⟩
  · rw [hc] at h1; cases h1
  · rw [hc] at h1; cases h1
    rw [hr] at h2; cases h2
    refine ⟨m3, h3, fun x => h4.2.2 x ?_⟩
    rw [List.length_eq_zero_iff.mp h5]
    simp

/-- Memory with an environment (array at 0, strings at 1 and 2) and the strings `A` at 3 and `new` at 4. -/
def exampleMem : EMem where
  cells x := match x with
    | 0 => some (.array [some (some 1), some (some 2), some none])
    | 1 => some (.text "A=1".toList)
    | 2 => some (.text "AB=2".toList)
    | 3 => some (.text "A".toList)
    | 4 => some (.text "new".toList)
    | _ => none
  brk := 5
  tries := 0

theorem exampleMem_ordinary : EnvOrdinary exampleMem := by
  intro x hx
  have hx : 5 ≤ x := hx
  match x, hx with
  | n + 5, _ => rfl

theorem exampleMem_reads : EnvReads exampleMem 0 ["A=1".toList, "AB=2".toList] := ⟨[1, 2], [], rfl, .cons rfl (.cons rfl .nil)⟩

theorem example_text : TextAt exampleMem (3, 0) "A".toList ∧ TextAt exampleMem (4, 0) "new".toList ∧ TextAt exampleMem (1, 2) "1".toList :=
  ⟨⟨[], rfl, rfl⟩, ⟨[], rfl, rfl⟩, ⟨"A=".toList, rfl, rfl⟩⟩

/-- What is left at an address after copying the environment of the example, the changes and freeing; `none` if memory is misused or a copy cannot be had. -/
def envLeftAt (ds : List EnvDeed) (x : Nat) : Option (Option EObj) :=
  match copyEnvMem (fun _ => false) (some 0) exampleMem with
  | .ok (some b) m1 =>
    match doDeeds (fun _ => false) ds b 0 m1 with
    | .ok (c, _) m2 =>
      match freeEnvMem (some c) m2 with
      | .ok () m3 => some (m3.cells x)
      | .ub => none
    | .ub => none
  | _ => none

/-- **C83 does not hold**: copying an environment, taking a variable out of it and freeing it leaves a string in memory. -/
theorem C83_violated : ¬ ∀ (base : EMem) (a b : Nat) (env : Env) (np : Nat × Nat) (name : CStr) (m1 m2 m3 : EMem) (found : Bool), EnvOrdinary base → EnvReads base a env →
    TextAt base np name → copyEnvMem (fun _ => false) (some a) base = .ok (some b) m1 → unsetenvMem (some b) (some np) m1 = .ok found m2 →
    freeEnvMem (some b) m2 = .ok () m3 → SameCells m3 base := by
  intro h
  have hx : envLeftAt [.unset (3, 0)] 6 = some (some (.text "A=1".toList)) := by decide +kernel
  unfold envLeftAt at hx
  split at hx
  · rename_i b m1 h1
    simp only [doDeeds] at hx
    cases h2 : unsetenvMem (some b) (some (3, 0)) m1 with
    | ub => rw [h2] at hx; simp [E.bind] at hx
    | ok found m2 =>
      rw [h2] at hx
      simp only [E.bind] at hx
      cases h3 : freeEnvMem (some b) m2 with
      | ub => rw [h3] at hx; simp at hx
      | ok u m3 =>
        rw [h3] at hx
        simp only [Option.some.injEq] at hx
        have := h exampleMem 0 b _ (3, 0) _ m1 m2 m3 found exampleMem_ordinary exampleMem_reads example_text.1 h1 h2 h3 6
        rw [hx] at this
        cases this
  · cases hx

/-- The hypotheses can be met: the environment of the example is copied, gets a variable anew from its own value, and gives all memory back; every allocation may fail. -/
example : (∀ d ∈ [EnvDeed.set (3, 0) (1, 2) true, .set (4, 0) (3, 0) false, .unset (4, 0)], GoodDeed exampleMem d) ∧
    envLeftAt [.set (3, 0) (1, 2) true, .set (4, 0) (3, 0) false] 6 = some none ∧ envLeftAt [.set (3, 0) (4, 0) true] 2 = some (some (.text "AB=2".toList)) := by
  refine ⟨?_, by decide +kernel, by decide +kernel⟩
  intro d hd
  simp only [List.mem_cons, List.not_mem_nil, or_false] at hd
  rcases hd with rfl | rfl | rfl
  · exact ⟨⟨_, by decide, example_text.1⟩, _, example_text.2.2⟩
  · exact ⟨⟨_, by decide, example_text.2.1⟩, _, example_text.1⟩
  · exact ⟨_, example_text.2.1⟩

/-- Such an environment in memory, with a value that is a part of its own string. -/
example : ∃ b m', copyEnvMem (fun _ => false) (some 0) exampleMem = .ok (some b) m' ∧ EnvOwned exampleMem m' b ["A=1".toList, "AB=2".toList] := by
  rcases C83_copy (fails := fun _ => false) exampleMem_ordinary exampleMem_reads with ⟨_, _, _, _, h⟩ | h
  · cases h
  · exact h

end Minijail
