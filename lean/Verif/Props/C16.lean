import Verif.Model.Env
import Verif.Spec.Env
import Mathlib.Data.List.Nodup
import Mathlib.Data.List.TakeWhile
import Mathlib.Tactic.SplitIfs
/-! C16: editing the child environment behaves as a finite map. -/
set_option linter.unusedSimpArgs false
set_option autoImplicit false
namespace Minijail

theorem envEntry_of (n v : List Char) (h : '=' ∉ n) : Spec.envEntry (n ++ '=' :: v) = some (n, v) := by
  have hn : ∀ c ∈ n, (c != '=') = true := by
    intro c hc; simp only [bne_iff_ne, ne_eq]; rintro rfl; exact h hc
  unfold Spec.envEntry
  rw [List.dropWhile_append_of_pos hn, List.takeWhile_append_of_pos hn]
  simp

theorem envEntry_some {e n v : List Char} (h : Spec.envEntry e = some (n, v)) : e = n ++ '=' :: v ∧ '=' ∉ n := by
  unfold Spec.envEntry at h
  split at h
  · simp at h
  · next c w hd =>
    simp only [Option.some.injEq, Prod.mk.injEq] at h
    obtain ⟨rfl, rfl⟩ := h
    have hc : c = '=' := by
      have := List.head?_dropWhile_not (· != '=') e
      rw [hd] at this
      simpa using this
    subst hc
    refine ⟨?_, ?_⟩
    · rw [← hd]; exact (List.takeWhile_append_dropWhile).symm
    · intro hm
      have := List.mem_takeWhile_imp hm
      simp at this

theorem match_iff (e n : List Char) (h : '=' ∉ n) :
    (e.take n.length == n && e[n.length]? == some '=') = true ↔ ∃ v, Spec.envEntry e = some (n, v) := by
  simp only [Bool.and_eq_true, beq_iff_eq]
  constructor
  · rintro ⟨h1, h2⟩
    have hlt : n.length < e.length := by
      by_contra hc
      rw [List.getElem?_eq_none (by omega)] at h2
      simp at h2
    refine ⟨e.drop (n.length + 1), ?_⟩
    have : e = n ++ '=' :: e.drop (n.length + 1) := by
      conv_lhs => rw [← List.take_append_drop n.length e, h1]
      rw [List.drop_eq_getElem_cons hlt]
      rw [List.getElem?_eq_getElem hlt] at h2
      simp only [Option.some.injEq] at h2
      rw [h2]
    conv_lhs => rw [this]
    exact envEntry_of _ _ h
  · rintro ⟨v, hv⟩
    obtain ⟨rfl, -⟩ := envEntry_some hv
    simp

/-- The name under which the map lists the entry. -/
def entryIs (n e : List Char) : Bool := ((Spec.envEntry e).map (·.1)) == some n

theorem match_eq (n : List Char) (h : '=' ∉ n) :
    (fun (e : CStr) => e.take n.length == n && e[n.length]? == some '=') = entryIs n := by
  funext e
  rw [Bool.eq_iff_iff, match_iff e n h]
  simp only [entryIs, beq_iff_eq, Option.map_eq_some_iff, Prod.exists]
  constructor
  · rintro ⟨v, hv⟩; exact ⟨n, v, hv, rfl⟩
  · rintro ⟨_, v, hv, rfl⟩; exact ⟨v, hv⟩

theorem envValue_cons (e : List Char) (env : List (List Char)) (n : List Char) :
    Spec.envValue (e :: env) n = if entryIs n e then (Spec.envEntry e).map (·.2) else Spec.envValue env n := by
  unfold Spec.envValue Spec.envVars
  cases h : Spec.envEntry e with
  | none =>
    have : entryIs n e = false := by simp [entryIs, h]
    simp [List.filterMap_cons, h, this]
  | some p =>
    by_cases hp : p.1 = n
    · have : entryIs n e = true := by simp [entryIs, h, hp]
      rw [if_pos this, List.filterMap_cons, h]
      simp [List.find?_cons, hp]
    · have : ¬ entryIs n e = true := by simp [entryIs, h, hp]
      have hp' : (p.1 == n) = false := by simpa using hp
      rw [if_neg this, List.filterMap_cons, h]
      simp only [List.find?_cons, hp']

/-- Reading a variable gives its value in the map. -/
theorem C16_get (env : Env) (n : CStr) (hn : Spec.ValidName n) :
    minijailGetenv (some env) (some n) = Spec.envValue env n := by
  unfold minijailGetenv getenvIndex
  simp only
  rw [match_eq n hn.2]
  induction env with
  | nil => simp [Spec.envValue, Spec.envVars]
  | cons e env ih =>
    rw [envValue_cons, List.findIdx?_cons]
    by_cases h : entryIs n e = true
    · simp only [h, if_true, List.getElem?_cons_zero, Option.map_some]
      simp only [entryIs, beq_iff_eq, Option.map_eq_some_iff, Prod.exists] at h
      obtain ⟨_, v, hv, rfl⟩ := h
      rw [hv]
      obtain ⟨rfl, -⟩ := envEntry_some hv
      simp
    · simp only [h, Bool.false_eq_true, if_false]
      rw [← ih]
      cases List.findIdx? (entryIs n) env <;> simp

theorem getenvIndex_split (env : Env) (n : CStr) (hn : '=' ∉ n) :
    match getenvIndex env n with
    | none => ∀ e ∈ env, entryIs n e = false
    | some i => ∃ a e b, env = a ++ e :: b ∧ i = a.length ∧ entryIs n e = true ∧ ∀ x ∈ a, entryIs n x = false := by
  unfold getenvIndex
  rw [match_eq n hn]
  cases h : List.findIdx? (entryIs n) env with
  | none => simpa using List.findIdx?_eq_none_iff.1 h
  | some i =>
    obtain ⟨hi, h1, h2⟩ := List.findIdx?_eq_some_iff_getElem.1 h
    refine ⟨env.take i, env[i], env.drop (i + 1), ?_, ?_, h1, ?_⟩
    · rw [← List.drop_eq_getElem_cons hi, List.take_append_drop]
    · simp; omega
    · intro x hx
      obtain ⟨j, hj, rfl⟩ := List.mem_iff_getElem.1 hx
      simp only [List.length_take] at hj
      simpa using h2 j (by omega)

theorem envVars_append (a b : Env) : Spec.envVars (a ++ b) = Spec.envVars a ++ Spec.envVars b := by
  simp [Spec.envVars]

theorem envValue_append (a b : Env) (n : CStr) (h : ∀ e ∈ a, entryIs n e = false) :
    Spec.envValue (a ++ b) n = Spec.envValue b n := by
  induction a with
  | nil => rfl
  | cons e a ih =>
    rw [List.cons_append, envValue_cons, h e (by simp)]
    simpa using ih fun x hx => h x (by simp [hx])

theorem envValue_none (a : Env) (n : CStr) (h : ∀ e ∈ a, entryIs n e = false) : Spec.envValue a n = none := by
  simpa [Spec.envValue, Spec.envVars] using envValue_append a [] n h

theorem entryIs_new (n v x : CStr) (hn : '=' ∉ n) : entryIs x (n ++ '=' :: v) = (n == x) := by
  simp [entryIs, envEntry_of n v hn]

theorem entryIs_inj {n m e : CStr} (h1 : entryIs n e = true) (h2 : entryIs m e = true) : n = m := by
  simp only [entryIs, beq_iff_eq] at h1 h2
  rw [h1] at h2
  simpa using h2

theorem envValue_mid (a b : Env) (e e' : CStr) (x : CStr) (h1 : entryIs x e = false) (h2 : entryIs x e' = false) :
    Spec.envValue (a ++ e :: b) x = Spec.envValue (a ++ e' :: b) x := by
  induction a with
  | nil => simp [envValue_cons, h1, h2]
  | cons y a ih => simp only [List.cons_append, envValue_cons, ih]

theorem envValue_snoc (a : Env) (e : CStr) (x : CStr) (h : entryIs x e = false) :
    Spec.envValue (a ++ [e]) x = Spec.envValue a x := by
  induction a with
  | nil => simp [envValue_cons, h]
  | cons y a ih => simp only [List.cons_append, envValue_cons, ih]

/-- Setting a variable sets it (unless it exists and must not be overwritten) and touches no other; the call
succeeds. -/
theorem C16_set (env : Env) (n v : CStr) (o : Bool) (hn : Spec.ValidName n) :
    ∃ env', minijailSetenv (some env) (some n) (some v) o = (.ok, some env') ∧
      Spec.envValue env' = (Spec.EnvOp.set n v o).onMap (Spec.envValue env) := by
  have hx : ∀ e x, entryIs n e = true → x ≠ n → entryIs x e = false := by
    intro e x h hne
    by_contra hc
    exact hne (entryIs_inj (by simpa using hc) h)
  unfold minijailSetenv
  simp only [hn.1, if_false]
  have hs := getenvIndex_split env n hn.2
  cases hi : getenvIndex env n with
  | none =>
    rw [hi] at hs
    refine ⟨_, rfl, ?_⟩
    funext x
    simp only [Spec.EnvOp.onMap]
    have h0 : Spec.envValue env n = none := envValue_none env n hs
    split
    · next h =>
      subst h
      rw [envValue_append _ _ _ hs, envValue_cons, entryIs_new _ _ _ hn.2, envEntry_of _ _ hn.2]
      simp [h0]
    · next h =>
      exact envValue_snoc _ _ _ (by rw [entryIs_new _ _ _ hn.2]; simpa using fun h' => h h'.symm)
  | some i =>
    rw [hi] at hs
    obtain ⟨a, e, b, rfl, rfl, he, ha⟩ := hs
    have hval : Spec.envValue (a ++ e :: b) n = (Spec.envEntry e).map (·.2) := by
      rw [envValue_append _ _ _ ha, envValue_cons, he]; simp
    have hsome : (Spec.envValue (a ++ e :: b) n).isSome = true := by
      rw [hval]
      simp only [entryIs, beq_iff_eq, Option.map_eq_some_iff] at he
      obtain ⟨p, hp, -⟩ := he
      simp [hp]
    cases o with
    | false =>
      refine ⟨_, rfl, ?_⟩
      funext x
      simp only [Spec.EnvOp.onMap, hsome]
      split
      · next h => subst h; simp
      · rfl
    | true =>
      refine ⟨_, rfl, ?_⟩
      funext x
      simp only [Spec.EnvOp.onMap]
      have hset : (a ++ e :: b).set a.length (n ++ '=' :: v) = a ++ (n ++ '=' :: v) :: b := by
        simp
      rw [hset]
      split
      · next h =>
        subst h
        rw [envValue_append _ _ _ ha, envValue_cons, entryIs_new _ _ _ hn.2, envEntry_of _ _ hn.2]
        simp
      · next h =>
        exact envValue_mid _ _ _ _ _ (by rw [entryIs_new _ _ _ hn.2]; simpa using fun h' => h h'.symm) (hx e x he h)

theorem envVars_names (env : Env) (n : CStr) :
    n ∈ (Spec.envVars env).map (·.1) ↔ ∃ e ∈ env, entryIs n e = true := by
  simp only [Spec.envVars, List.mem_map, List.mem_filterMap, entryIs, beq_iff_eq, Option.map_eq_some_iff]
  constructor
  · rintro ⟨p, ⟨e, he, h⟩, rfl⟩; exact ⟨e, he, p, h, rfl⟩
  · rintro ⟨e, he, p, h, rfl⟩; exact ⟨p, ⟨e, he, h⟩, rfl⟩

theorem envValue_iff (env : Env) (hd : Spec.EnvDistinct env) (n v : CStr) :
    Spec.envValue env n = some v ↔ (n, v) ∈ Spec.envVars env := by
  unfold Spec.envValue
  unfold Spec.EnvDistinct at hd
  generalize Spec.envVars env = l at *
  induction l with
  | nil => simp
  | cons p l ih =>
    simp only [List.map_cons, List.nodup_cons] at hd
    simp only [List.find?_cons]
    by_cases hp : p.1 = n
    · subst hp
      simp only [beq_self_eq_true, Option.map_some, Option.some.injEq, List.mem_cons]
      constructor
      · rintro rfl; exact .inl rfl
      · rintro (h | h)
        · rw [← h]
        · exact absurd (List.mem_map.2 ⟨_, h, rfl⟩) hd.1
    · have : (p.1 == n) = false := by simpa using hp
      simp only [this, List.mem_cons, ih hd.2]
      constructor
      · exact .inr
      · rintro (h | h)
        · exact absurd (by rw [← h]) hp
        · exact h

theorem envValue_perm {env env' : Env} (hd : Spec.EnvDistinct env) (hp : (Spec.envVars env').Perm (Spec.envVars env)) :
    Spec.envValue env' = Spec.envValue env ∧ Spec.EnvDistinct env' := by
  have hd' : Spec.EnvDistinct env' := (hp.map _).nodup_iff.2 hd
  refine ⟨?_, hd'⟩
  funext n
  apply Option.ext
  intro v
  rw [envValue_iff _ hd', envValue_iff _ hd, hp.mem_iff]

theorem distinct_remove {a b : Env} {e : CStr} (hd : Spec.EnvDistinct (a ++ e :: b)) :
    Spec.EnvDistinct (a ++ b) ∧ ∀ n, entryIs n e = true → ∀ x ∈ a ++ b, entryIs n x = false := by
  have hperm : (Spec.envVars (e :: (a ++ b))).Perm (Spec.envVars (a ++ e :: b)) :=
    List.Perm.filterMap _ List.perm_middle.symm
  have hd2 : Spec.EnvDistinct (e :: (a ++ b)) := (hperm.map _).nodup_iff.2 hd
  constructor
  · unfold Spec.EnvDistinct Spec.envVars at hd2 ⊢
    rw [List.filterMap_cons] at hd2
    split at hd2
    · exact hd2
    · exact (List.nodup_cons.1 hd2).2
  · intro n hn x hx
    by_contra hc
    have hmem := (envVars_names (a ++ b) n).2 ⟨x, hx, by simpa using hc⟩
    simp only [entryIs, beq_iff_eq, Option.map_eq_some_iff] at hn
    obtain ⟨p, hp, rfl⟩ := hn
    unfold Spec.EnvDistinct Spec.envVars at hd2
    rw [List.filterMap_cons, hp] at hd2
    exact (List.nodup_cons.1 hd2).1 hmem

theorem unset_list {a b : Env} {e last : CStr} (h : (a ++ e :: b).getLast? = some last) :
    (((a ++ e :: b).set a.length last).dropLast).Perm (a ++ b) := by
  have hset : (a ++ e :: b).set a.length last = a ++ last :: b := by simp
  rw [hset]
  rcases List.eq_nil_or_concat b with rfl | ⟨b', x, rfl⟩
  · simp
  · have hx : last = x := by
      rw [List.concat_eq_append, ← List.cons_append, ← List.append_assoc, List.getLast?_concat] at h
      simpa using h.symm
    subst hx
    rw [List.concat_eq_append, ← List.cons_append, ← List.append_assoc, List.dropLast_concat]
    rw [show a ++ (b' ++ [last]) = a ++ b' ++ [last] by simp]
    exact List.perm_middle.trans (List.perm_append_singleton _ _).symm

/-- Unsetting a variable removes it and touches no other, and says whether it existed; for arrays in which no
variable occurs twice. -/
theorem C16_unset_partial (env : Env) (n : CStr) (hn : Spec.ValidName n) (hd : Spec.EnvDistinct env) :
    ∃ env', minijailUnsetenv (some env) (some n) = ((Spec.envValue env n).isSome, some env') ∧
      Spec.envValue env' = (Spec.EnvOp.unset n).onMap (Spec.envValue env) ∧ Spec.EnvDistinct env' := by
  unfold minijailUnsetenv
  simp only
  have hs := getenvIndex_split env n hn.2
  cases hi : getenvIndex env n with
  | none =>
    rw [hi] at hs
    have h0 := envValue_none env n hs
    refine ⟨env, by simp [h0], ?_, hd⟩
    funext x
    simp only [Spec.EnvOp.onMap]
    split
    · next h => subst h; exact h0
    · rfl
  | some i =>
    rw [hi] at hs
    obtain ⟨a, e, b, rfl, rfl, he, ha⟩ := hs
    have hsome : (Spec.envValue (a ++ e :: b) n).isSome = true := by
      rw [envValue_append _ _ _ ha, envValue_cons, he]
      simp only [entryIs, beq_iff_eq, Option.map_eq_some_iff] at he
      obtain ⟨p, hp, -⟩ := he
      simp [hp]
    obtain ⟨last, hl⟩ : ∃ last, (a ++ e :: b).getLast? = some last := by
      cases h : (a ++ e :: b).getLast? with
      | none => simp at h
      | some l => exact ⟨l, rfl⟩
    simp only [hl, hsome]
    refine ⟨_, rfl, ?_⟩
    obtain ⟨hd1, hno⟩ := distinct_remove hd
    obtain ⟨h1, h2⟩ := envValue_perm hd1 ((unset_list hl).filterMap _)
    refine ⟨?_, h2⟩
    rw [h1]
    funext x
    simp only [Spec.EnvOp.onMap]
    split
    · next h => subst h; exact envValue_none _ _ (hno _ he)
    · next h =>
      have hx : entryIs x e = false := by
        by_contra hc
        exact h (entryIs_inj (by simpa using hc) he)
      clear hd1 hno h1 h2 hl hsome ha hi hd
      induction a with
      | nil => simp [envValue_cons, hx]
      | cons y a ih => simp only [List.cons_append, envValue_cons, ih]

/-- Setting keeps the variables distinct. -/
theorem C16_set_distinct (env env' : Env) (n v : CStr) (o : Bool) (hn : Spec.ValidName n) (hd : Spec.EnvDistinct env)
    (h : minijailSetenv (some env) (some n) (some v) o = (.ok, some env')) : Spec.EnvDistinct env' := by
  unfold minijailSetenv at h
  simp only [hn.1, if_false] at h
  have hs := getenvIndex_split env n hn.2
  have hnew : ∀ a b : Env, Spec.EnvDistinct (a ++ b) → (∀ x ∈ a ++ b, entryIs n x = false) →
      Spec.EnvDistinct (a ++ (n ++ '=' :: v) :: b) := by
    intro a b h1 h2
    have hperm : (Spec.envVars (a ++ (n ++ '=' :: v) :: b)).Perm (Spec.envVars ((n ++ '=' :: v) :: (a ++ b))) :=
      List.Perm.filterMap _ List.perm_middle
    refine (hperm.map _).nodup_iff.2 ?_
    unfold Spec.envVars
    rw [List.filterMap_cons, envEntry_of n v hn.2]
    refine List.nodup_cons.2 ⟨?_, h1⟩
    intro hm
    obtain ⟨x, hx, hx'⟩ := (envVars_names (a ++ b) n).1 hm
    rw [h2 x hx] at hx'
    simp at hx'
  cases hi : getenvIndex env n with
  | none =>
    rw [hi] at hs h
    simp only [Prod.mk.injEq, Option.some.injEq, true_and] at h
    subst h
    exact hnew env [] (by simpa using hd) (by simpa using hs)
  | some i =>
    rw [hi] at hs h
    obtain ⟨a, e, b, rfl, rfl, he, ha⟩ := hs
    cases o with
    | false =>
      simp only [Bool.not_false, if_true, Prod.mk.injEq, Option.some.injEq, true_and] at h
      subst h; exact hd
    | true =>
      simp only [Bool.not_true, Bool.false_eq_true, if_false, Prod.mk.injEq, Option.some.injEq, true_and] at h
      subst h
      obtain ⟨hd1, hno⟩ := distinct_remove hd
      have := hnew a b hd1 (hno n he)
      simpa using this

/-- Calls with a NULL argument or an empty name are rejected and change nothing. -/
theorem C16_rejected (env : Option Env) (n v : Option CStr) (o : Bool) :
    (env = none ∨ n = none ∨ n = some [] ∨ v = none) ↔ minijailSetenv env n v o = (.einval, env) := by
  constructor
  · rintro (rfl | rfl | rfl | rfl)
    · rfl
    · cases env <;> rfl
    · cases env <;> cases v <;> simp [minijailSetenv]
    · cases env <;> cases n <;> rfl
  · intro h
    cases env with
    | none => simp
    | some env =>
      cases n with
      | none => simp
      | some n =>
        cases v with
        | none => simp
        | some v =>
          unfold minijailSetenv at h
          simp only at h
          split at h
          · next h0 => simp [h0]
          · split at h
            · split at h <;> simp at h
            · simp at h

/-- A copy of an environment is that environment; a copy of NULL is empty. -/
theorem C16_copy (env : Env) : minijailCopyEnv (some env) = env ∧ minijailCopyEnv none = [] := ⟨rfl, rfl⟩

/-- Performing a sequence of operations. -/
def runEnvOps : List Spec.EnvOp → Env → Env
  | [], env => env
  | .set n v o :: ops, env => runEnvOps ops ((minijailSetenv (some env) (some n) (some v) o).2.getD env)
  | .unset n :: ops, env => runEnvOps ops ((minijailUnsetenv (some env) (some n)).2.getD env)

/-- After any sequence of operations on valid names, every variable has the value that the operations on maps give;
for arrays in which no variable occurs twice. -/
theorem C16_sequence_partial (ops : List Spec.EnvOp) (hops : ∀ op ∈ ops, Spec.ValidName op.name) :
    ∀ (env : Env), Spec.EnvDistinct env →
      Spec.EnvDistinct (runEnvOps ops env) ∧
      ∀ n, Spec.ValidName n → minijailGetenv (some (runEnvOps ops env)) (some n) =
        (ops.foldl (fun m op => op.onMap m) (Spec.envValue env)) n := by
  induction ops with
  | nil => intro env hd; exact ⟨hd, fun n hn => C16_get env n hn⟩
  | cons op ops ih =>
    intro env hd
    have hv := hops op (by simp)
    have ih := ih fun o ho => hops o (by simp [ho])
    cases op with
    | set n v o =>
      obtain ⟨env', h1, h2⟩ := C16_set env n v o hv
      have h3 := C16_set_distinct env env' n v o hv hd h1
      simp only [runEnvOps, h1, Option.getD_some, List.foldl_cons]
      rw [← h2]
      exact ih env' h3
    | unset n =>
      obtain ⟨env', h1, h2, h3⟩ := C16_unset_partial env n hv hd
      simp only [runEnvOps, h1, Option.getD_some, List.foldl_cons]
      rw [← h2]
      exact ih env' h3

/-- The intended statement for names: a rejected or accepted call never changes another variable. -/
def Spec.SetTouchesOnly (setenv : Option Env → Option CStr → Option CStr → Bool → SetenvRet × Option Env) : Prop :=
  ∀ env env' n v o r, setenv (some env) (some n) (some v) o = (r, some env') →
    ∀ x, x ≠ n → Spec.envValue env' x = Spec.envValue env x

/-- It fails, because a name with `=` in it is accepted: setting `A=B` to `C` sets the variable `A`. -/
theorem C16_name_violated : ¬ Spec.SetTouchesOnly minijailSetenv := by
  intro h
  have := h [] ["A=B=C".toList] "A=B".toList "C".toList true .ok (by decide) "A".toList (by decide)
  revert this
  decide

/-- For arrays with a repeated variable, unsetting does not remove it, and can change the value of another one. -/
theorem C16_unset_violated :
    (∃ (env env' : Env) (n : CStr), Spec.ValidName n ∧ minijailUnsetenv (some env) (some n) = (true, some env') ∧
      Spec.envValue env' n ≠ none) ∧
    (∃ (env env' : Env) (n x : CStr), Spec.ValidName n ∧ x ≠ n ∧ minijailUnsetenv (some env) (some n) = (true, some env') ∧
      Spec.envValue env' x ≠ Spec.envValue env x) := by
  refine ⟨⟨["A=1".toList, "A=2".toList], ["A=2".toList], "A".toList, by simp [Spec.ValidName], by decide, by decide⟩,
    ⟨["X=1".toList, "A=1".toList, "A=2".toList], ["A=2".toList, "A=1".toList], "X".toList, "A".toList,
      by simp [Spec.ValidName], by decide, by decide, by decide⟩⟩

/-- A sequence of operations on an array with an entry that is no variable and a name that is a prefix of another. -/
example : Spec.EnvDistinct ["PATH=/bin".toList, "junk".toList, "PA=1".toList] ∧
    minijailGetenv (some (runEnvOps [.set "PA".toList "a=b".toList true, .unset "PATH".toList, .set "X".toList [] false]
      ["PATH=/bin".toList, "junk".toList, "PA=1".toList])) (some "PA".toList) = some "a=b".toList := by
  constructor
  · unfold Spec.EnvDistinct; decide
  · decide

end Minijail
