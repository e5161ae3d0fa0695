import Verif.Spec.Frequency
import Verif.Proof.GenerateAudit
import Verif.Proof.CliMaps
/-!
The counts of the tool that makes policies, and how the offline compiler reads them.
-/
set_option autoImplicit false
set_option linter.unusedSimpArgs false
namespace Minijail
open Spec Offline Generate

/-! ### Occurrences -/

theorem Spec.Occurs.unique {α : Type} {P : α → Prop} {l : List α} {k k' : Nat} (h : Occurs P l k) (h' : Occurs P l k') : k = k' := by
  induction h generalizing k' with
  | nil => cases h'; rfl
  | yes hp _ ih =>
    cases h' with
    | yes _ h' => rw [ih h']
    | no hn _ => exact absurd hp hn
  | no hn _ ih =>
    cases h' with
    | yes hp _ => exact absurd hp hn
    | no _ h' => exact ih h'

theorem Spec.Occurs.append {α : Type} {P : α → Prop} {l l' : List α} {k k' : Nat} (h : Occurs P l k) (h' : Occurs P l' k') : Occurs P (l ++ l') (k + k') := by
  induction h with
  | nil => simpa using h'
  | @yes x l k hp _ ih =>
    rw [show k + 1 + k' = k + k' + 1 by omega]
    exact .yes hp ih
  | no hn _ ih => exact .no hn ih

theorem Spec.Occurs.none {α : Type} {P : α → Prop} : ∀ {l : List α}, (∀ x ∈ l, ¬P x) → Occurs P l 0
  | [], _ => .nil
  | _ :: _, h => .no (h _ (by simp)) (Spec.Occurs.none fun x hx => h x (by simp [hx]))

theorem Spec.Occurs.zero {α : Type} {P : α → Prop} {l : List α} (h : Occurs P l 0) : ∀ x ∈ l, ¬P x := by
  generalize hk : 0 = k at h
  induction h with
  | nil => simp
  | yes _ _ _ => omega
  | no hn _ ih =>
    intro x hx
    rcases List.mem_cons.1 hx with rfl | hx
    · exact hn
    · exact ih hk x hx

theorem Spec.Occurs.map {α β : Type} {P : β → Prop} {f : α → β} {Q : α → Prop} {l : List α} {k : Nat} (h : Occurs Q l k) (hq : ∀ x ∈ l, Q x ↔ P (f x)) :
    Occurs P (l.map f) k := by
  induction h with
  | nil => exact .nil
  | yes hp _ ih => exact .yes ((hq _ (by simp)).1 hp) (ih fun x hx => hq x (by simp [hx]))
  | no hn _ ih => exact .no (fun hh => hn ((hq _ (by simp)).2 hh)) (ih fun x hx => hq x (by simp [hx]))

theorem Spec.ToldTimes.unique {comm : List Char} {files : List InputFile} {n : List Char} {k k' : Nat} (h : ToldTimes comm files n k) (h' : ToldTimes comm files n k') : k = k' := by
  obtain ⟨a, b, rfl, h1, h2⟩ := h
  obtain ⟨a', b', rfl, h1', h2'⟩ := h'
  rw [h1.unique h1', h2.unique h2']

/-! ### Counts -/

/-- The count of a name. -/
def countOf (n : List Char) (l : List (List Char × Nat)) : Nat := ((l.find? fun x => x.1 == n).map Prod.snd).getD 0

theorem countOf_count (n m : List Char) : ∀ l, countOf n (Generate.count m l) = countOf n l + if m = n then 1 else 0
  | [] => by by_cases h : m = n <;> simp [countOf, Generate.count, h]
  | x :: l => by
    have ih := countOf_count n m l
    unfold countOf at ih ⊢
    rw [Generate.count]
    by_cases h : x.1 = m
    · rw [if_pos h, List.find?_cons, List.find?_cons]
      by_cases hn : x.1 = n
      · simp [hn, h.symm.trans hn]
      · have hm : m ≠ n := fun e => hn (h.trans e)
        have hb : (x.1 == n) = false := by simpa using hn
        rw [hb, if_neg hm]
        rfl
    · rw [if_neg h, List.find?_cons, List.find?_cons]
      by_cases hn : x.1 = n
      · have hm : m ≠ n := fun e => h (hn.trans e.symm)
        simp [hn, hm]
      · have hb : (x.1 == n) = false := by simpa using hn
        rw [hb]
        exact ih

theorem count_pos {m : List Char} : ∀ {l : List (List Char × Nat)}, (∀ x ∈ l, 0 < x.2) → ∀ x ∈ Generate.count m l, 0 < x.2
  | [], _, x, hx => by simp [Generate.count] at hx; simp [hx]
  | y :: l, h, x, hx => by
    rw [Generate.count] at hx
    by_cases hy : y.1 = m
    · rw [if_pos hy] at hx
      rcases List.mem_cons.1 hx with rfl | hx
      · simp
      · exact h x (by simp [hx])
    · rw [if_neg hy] at hx
      rcases List.mem_cons.1 hx with rfl | hx
      · exact h x (by simp)
      · exact count_pos (fun z hz => h z (by simp [hz])) x hx

theorem mem_countOf {l : List (List Char × Nat)} (hn : (l.map Prod.fst).Nodup) (hp : ∀ x ∈ l, 0 < x.2) (n : List Char) (k : Nat) :
    (n, k) ∈ l ↔ 0 < k ∧ countOf n l = k := by
  induction l with
  | nil => simp [countOf]; omega
  | cons y l ih =>
    rw [List.map_cons, List.nodup_cons] at hn
    have ih := ih hn.2 fun z hz => hp z (by simp [hz])
    unfold countOf at ih ⊢
    rw [List.find?_cons, List.mem_cons]
    by_cases hy : y.1 = n
    · have hno : (n, k) ∉ l := fun h => hn.1 (List.mem_map.2 ⟨_, h, hy.symm⟩)
      have hpy := hp y (by simp)
      simp only [hy, beq_self_eq_true, Option.map_some, Option.getD_some]
      constructor
      · rintro (h | h)
        · rw [← h] at hpy ⊢; exact ⟨hpy, rfl⟩
        · exact absurd h hno
      · rintro ⟨-, h⟩
        exact .inl (by rw [← h, ← hy])
    · have hb : (y.1 == n) = false := by simpa using hy
      rw [hb]
      simp only []
      rw [← ih]
      constructor
      · rintro (h | h)
        · exact absurd (by rw [← h]) hy
        · exact h
      · exact .inr

theorem countOf_zero {n : List Char} {l : List (List Char × Nat)} (hp : ∀ x ∈ l, 0 < x.2) : countOf n l = 0 ↔ n ∉ l.map Prod.fst := by
  unfold countOf
  cases h : l.find? fun x => x.1 == n with
  | none =>
    have := List.find?_eq_none.1 h
    simp only [Option.map_none, Option.getD_none, true_iff, List.mem_map, not_exists, not_and]
    intro x hx e
    exact this x hx (by simpa using e)
  | some x =>
    have h1 := List.mem_of_find?_eq_some h
    have h2 := List.find?_some h
    have := hp x h1
    simp only [Option.map_some, Option.getD_some, List.mem_map, not_exists, not_and]
    constructor
    · intro h; omega
    · intro h; exact absurd (by simpa using h2) (h x h1)

theorem addBasic_entry {l : List (List Char × Nat)} (n : List Char) (k : Nat) :
    (n, k) ∈ addBasic l ↔ (n, k) ∈ l ∨ (k = 1 ∧ n ∈ basicNames ∧ n ∉ l.map Prod.fst) := by
  have step : ∀ (ns : List (List Char)), ns.Nodup → ∀ (l : List (List Char × Nat)),
      (n, k) ∈ ns.foldl (fun l n => if n ∈ l.map Prod.fst then l else l ++ [(n, 1)]) l ↔ (n, k) ∈ l ∨ (k = 1 ∧ n ∈ ns ∧ n ∉ l.map Prod.fst) := by
    intro ns
    induction ns with
    | nil => simp
    | cons m ns ih =>
      intro hd l
      rw [List.nodup_cons] at hd
      rw [List.foldl_cons, ih hd.2]
      by_cases h : m ∈ l.map Prod.fst
      · rw [if_pos h, List.mem_cons]
        constructor
        · rintro (h' | ⟨h1, h2, h3⟩)
          · exact .inl h'
          · exact .inr ⟨h1, .inr h2, h3⟩
        · rintro (h' | ⟨h1, rfl | h2, h3⟩)
          · exact .inl h'
          · exact absurd h h3
          · exact .inr ⟨h1, h2, h3⟩
      · rw [if_neg h, List.mem_cons, List.mem_append, List.mem_singleton, Prod.mk.injEq, List.map_append, List.mem_append]
        constructor
        · rintro ((h' | ⟨rfl, rfl⟩) | ⟨h1, h2, h3⟩)
          · exact .inl h'
          · exact .inr ⟨rfl, .inl rfl, h⟩
          · exact .inr ⟨h1, .inr h2, fun hh => h3 (.inl hh)⟩
        · rintro (h' | ⟨h1, rfl | h2, h3⟩)
          · exact .inl (.inl h')
          · exact .inl (.inr ⟨rfl, h1⟩)
          · refine .inr ⟨h1, h2, ?_⟩
            rintro (hh | hh)
            · exact h3 hh
            · simp at hh
              exact hd.1 (hh ▸ h2)
  exact step _ (by decide) l

/-! ### One line, one record -/

/-- What a step does to the counts, whatever they are. -/
def Bumps (f : Seen → Option Seen) : Prop :=
  ∃ u : Option (List Char), ∀ st st', f st = some st' → st'.syscalls = match u with | none => st.syscalls | some n => Generate.count n st.syscalls

theorem bumps_line (b : Bool) (line : List Char) : Bumps fun st => Generate.parseLine b st line := by
  unfold Generate.parseLine
  cases lineRe line with
  | none => exact ⟨none, fun st st' h => by simp at h; rw [h]⟩
  | some m =>
    refine ⟨some (calledName b m.1), fun st st' h => ?_⟩
    simp only [] at h ⊢
    split at h
    · simp at h; rw [← h]
    · split at h
      · cases h
      · simp at h; rw [← h]

theorem bumps_record (comm : List Char) (r : LogRecord) : Bumps fun st => parseRecord comm st r := by
  unfold parseRecord
  simp only []
  by_cases hc : ((findField r "type".toList).map Prod.fst ≠ some "SECCOMP".toList ∧ (findField r "type".toList).map Prod.fst ≠ some "SYSCALL".toList) ∨
      (findField r "comm".toList).map Prod.fst ≠ some ('"' :: comm ++ ['"'])
  · exact ⟨none, fun st st' h => by beta_reduce at h; rw [if_pos hc] at h; simp at h; rw [h]⟩
  · simp only [if_neg hc]
    cases findField r "syscall".toList with
    | none => exact ⟨none, fun st st' h => by cases h⟩
    | some f =>
      simp only []
      by_cases hf : f.1 = []
      · exact ⟨none, fun st st' h => by beta_reduce at h; rw [if_pos hf] at h; cases h⟩
      · simp only [if_neg hf]
        cases inspectedArg (auditName f.2) with
        | none =>
          simp only []
          by_cases hs : (findField r "type".toList).map Prod.fst = some "SYSCALL".toList
          · exact ⟨none, fun st st' h => by beta_reduce at h; rw [if_pos hs] at h; simp at h; rw [h]⟩
          · exact ⟨some (auditName f.2), fun st st' h => by beta_reduce at h; rw [if_neg hs] at h; simp at h; rw [← h]⟩
        | some i =>
          simp only []
          by_cases hs : (findField r "type".toList).map Prod.fst = some "SECCOMP".toList
          · exact ⟨none, fun st st' h => by beta_reduce at h; rw [if_pos hs] at h; simp at h; rw [h]⟩
          · refine ⟨some (auditName f.2), fun st st' h => ?_⟩
            beta_reduce at h
            rw [if_neg hs] at h
            simp only []
            split at h
            · cases h
            · split at h
              · cases h
              · simp at h; rw [← h]

/-- Nothing has been seen. -/
def nothingSeen : Seen := ⟨[], fun _ => []⟩

theorem knows_nothing : Knows (fun _ _ => False) nothingSeen := ⟨by simp [nothingSeen], by simp [nothingSeen], by simp [nothingSeen]⟩

/-- Counts go up by one for those that are told of. -/
def Adds (Q : List Char → Prop) (st st' : Seen) : Prop :=
  ((∀ x ∈ st.syscalls, 0 < x.2) → ∀ x ∈ st'.syscalls, 0 < x.2) ∧
  ∀ n, (Q n → countOf n st'.syscalls = countOf n st.syscalls + 1) ∧ (¬Q n → countOf n st'.syscalls = countOf n st.syscalls)

theorem bumps_adds {f : Seen → Option Seen} (hb : Bumps f) {Q : List Char → List (List Char) → Prop}
    (hk : ∃ st', f nothingSeen = some st' ∧ Knows (fun n a => False ∨ Q n a) st') {st st' : Seen} (h : f st = some st') : Adds (fun n => ∃ a, Q n a) st st' := by
  obtain ⟨u, hu⟩ := hb
  obtain ⟨s0, e0, k0⟩ := hk
  have h0 := hu _ _ e0
  have h1 := hu _ _ h
  have hq : ∀ n, (∃ a, Q n a) ↔ n ∈ s0.syscalls.map Prod.fst := fun n => by rw [k0.names]; simp
  cases u with
  | none =>
    simp only [] at h0 h1
    refine ⟨fun hp => by rw [h1]; exact hp, fun n => ⟨fun hh => ?_, fun _ => by rw [h1]⟩⟩
    replace hh := (hq n).1 hh
    rw [h0] at hh
    simp [nothingSeen] at hh
  | some m =>
    simp only [] at h0 h1
    refine ⟨fun hp => by rw [h1]; exact count_pos hp, fun n => ?_⟩
    beta_reduce
    rw [hq, h0, h1, countOf_count]
    by_cases hm : m = n
    · simp [nothingSeen, Generate.count, hm]
    · simp [nothingSeen, Generate.count, hm, Ne.symm hm]

/-! ### All of them -/

/-- The counts after steps that each tell of some calls. -/
def Told {α : Type} (P : α → List Char → Prop) (l : List α) (st st' : Seen) : Prop :=
  ((∀ x ∈ st.syscalls, 0 < x.2) → ∀ x ∈ st'.syscalls, 0 < x.2) ∧
  ∀ n, ∃ k, Occurs (fun x => P x n) l k ∧ countOf n st'.syscalls = countOf n st.syscalls + k

theorem told_nil {α : Type} {P : α → List Char → Prop} (st : Seen) : Told P [] st st := ⟨fun h => h, fun _ => ⟨0, .nil, rfl⟩⟩

theorem told_append {α : Type} {P : α → List Char → Prop} {l l' : List α} {st st' st'' : Seen} (h : Told P l st st') (h' : Told P l' st' st'') : Told P (l ++ l') st st'' := by
  refine ⟨fun hp => h'.1 (h.1 hp), fun n => ?_⟩
  obtain ⟨k, h1, h2⟩ := h.2 n
  obtain ⟨k', h1', h2'⟩ := h'.2 n
  exact ⟨k + k', h1.append h1', by omega⟩

theorem told_none {α : Type} {P : α → List Char → Prop} {l : List α} (h : ∀ x ∈ l, ∀ n, ¬P x n) (st : Seen) : Told P l st st :=
  ⟨fun h => h, fun n => ⟨0, .none fun x hx => h x hx n, rfl⟩⟩

theorem told_one {α : Type} {P : α → List Char → Prop} {x : α} {Q : List Char → Prop} {st st' : Seen} (h : Adds Q st st') (hq : ∀ n, Q n ↔ P x n) : Told P [x] st st' := by
  refine ⟨h.1, fun n => ?_⟩
  by_cases hp : Q n
  · exact ⟨1, .yes ((hq n).1 hp) .nil, (h.2 n).1 hp⟩
  · exact ⟨0, .no (fun hh => hp ((hq n).2 hh)) .nil, (h.2 n).2 hp⟩

/-- Steps one after the other. -/
theorem told_fold {α β : Type} {P : α → List Char → Prop} {g : Seen → β → Option Seen} {L : β → List α} : ∀ (xs : List β) {st st' : Seen},
    (∀ x ∈ xs, ∀ st st', g st x = some st' → Told P (L x) st st') → xs.foldlM g st = some st' → Told P (xs.flatMap L) st st'
  | [], st, st', _, h => by simp at h; subst h; exact told_nil _
  | x :: xs, st, st', hg, h => by
    rw [List.foldlM_cons] at h
    cases e : g st x with
    | none => rw [e] at h; cases h
    | some s1 =>
      rw [e] at h
      rw [List.flatMap_cons]
      exact told_append (hg x (by simp) _ _ e) (told_fold xs (fun y hy => hg y (by simp [hy])) h)

/-- Steps that leave out what tells of nothing. -/
theorem told_filter {α β : Type} {P : α → List Char → Prop} {g : Seen → β → Option Seen} {L : β → List α} {p : β → Bool} : ∀ (xs : List β) {st st' : Seen},
    (∀ x ∈ xs, p x = true → ∀ st st', g st x = some st' → Told P (L x) st st') → (∀ x ∈ xs, p x = false → ∀ y ∈ L x, ∀ n, ¬P y n) →
    (xs.filter p).foldlM g st = some st' → Told P (xs.flatMap L) st st'
  | [], st, st', _, _, h => by simp at h; subst h; exact told_nil _
  | x :: xs, st, st', hg, hn, h => by
    rw [List.flatMap_cons]
    cases hp : p x with
    | false =>
      rw [List.filter_cons_of_neg (by simp [hp])] at h
      exact told_append (told_none (hn x (by simp) hp) st) (told_filter xs (fun y hy => hg y (by simp [hy])) (fun y hy => hn y (by simp [hy])) h)
    | true =>
      rw [List.filter_cons_of_pos hp, List.foldlM_cons] at h
      cases e : g st x with
      | none => rw [e] at h; cases h
      | some s1 =>
        rw [e] at h
        exact told_append (hg x (by simp) hp _ _ e) (told_filter xs (fun y hy => hg y (by simp [hy])) (fun y hy => hn y (by simp [hy])) h)

/-- A line of a file that is a trace tells of a call. -/
def LineP (x : InputFile × List Char) (n : List Char) : Prop := ¬LogLook x.1.2.1 ∧ ∃ name args, TraceRecord x.2 name args ∧ StraceName x.1.1 name n

/-- A record of a file that is a log tells of a call. -/
def RecordP (comm : List Char) (x : InputFile × LogRecord) (n : List Char) : Prop := LogLook x.1.2.1 ∧ ∃ args, RecordTells comm x.2 n args

theorem told_trace {T : CommonTables} {comm : List Char} {files : List InputFile} (hg : GoodFiles T comm files) {f : InputFile} (hf : f ∈ files) (hl : ¬LogLook f.2.1)
    {st st' : Seen} (h : parseTraceFile st (f.1, f.2.1) = some st') : Told LineP ((physicalLines f.2.1).map fun line => (f, line)) st st' := by
  have ht := hg.traces f hf hl
  rw [parseTraceFile, pyLines_physical _ (hg.noReturns f hf)] at h
  rw [List.map_eq_flatMap]
  refine told_fold (g := Generate.parseLine (usesSocketcall f.1)) _ ?_ h
  intro line hline s s' hs
  refine told_one (bumps_adds (bumps_line _ line) (Q := LineTells f.1 line)
    (parseLine_knows (T := T) knows_nothing (ht.lines _ (List.mem_singleton.2 rfl) _ hline) fun n a i ⟨x, hx⟩ hi => ht.written n a i ⟨_, List.mem_singleton.2 rfl, line, hline, x, hx⟩ hi) hs) ?_
  intro n
  unfold LineP LineTells
  constructor
  · rintro ⟨a, x, h1, h2⟩; exact ⟨hl, x, a, h1, h2⟩
  · rintro ⟨-, x, a, h1, h2⟩; exact ⟨a, x, h1, h2⟩

theorem told_log {T : CommonTables} {comm : List Char} {files : List InputFile} (hg : GoodFiles T comm files) {f : InputFile} (hf : f ∈ files) (hl : LogLook f.2.1)
    {st st' : Seen} (h : parseAuditLog comm st f.2.2 = some st') : Told (RecordP comm) (f.2.2.flatten.map fun r => (f, r)) st st' := by
  have ht := hg.logs f hf hl
  have h' : (f.2.2.filter (searched comm)).foldlM (fun st event => event.foldlM (parseRecord comm) st) st = some st' := by
    unfold parseAuditLog at h
    split at h
    · cases h
    · cases h
    · exact h
  have e : (f.2.2.flatten.map fun r => (f, r)) = f.2.2.flatMap fun event => event.map fun r => (f, r) := by
    rw [List.map_flatten, List.flatMap_def]
  rw [e]
  refine told_filter (p := searched comm) _ ?_ ?_ h'
  · intro event he _ s s' hs
    rw [List.map_eq_flatMap]
    refine told_fold (g := parseRecord comm) _ ?_ hs
    intro r hr s s' hs
    refine told_one (bumps_adds (bumps_record comm r) (Q := RecordTells comm r)
      (parseRecord_knows (T := T) ⟨ht.calls _ (by simp) event he r hr, ht.args _ (by simp) event he r hr⟩ knows_nothing) hs) ?_
    intro n
    unfold RecordP
    simp [hl]
  · intro event he hs y hy n hp
    obtain ⟨r, hr, rfl⟩ := List.mem_map.1 hy
    obtain ⟨-, a, ha⟩ := hp
    rw [searched_of_tells hr ha] at hs
    cases hs

/-- After the files the counts are how often they tell of each call. -/
theorem files_counted {T : CommonTables} {comm : List Char} {files : List InputFile} (hg : GoodFiles T comm files) {st1 st2 : Seen}
    (h1 : (files.filter fun f => !isLog (pyLines f.2.1)).foldlM (fun st f => parseTraceFile st (f.1, f.2.1)) ⟨[], fun _ => []⟩ = some st1)
    (h2 : (files.filter fun f => isLog (pyLines f.2.1)).foldlM (fun st f => parseAuditLog comm st f.2.2) st1 = some st2) :
    (∀ x ∈ st2.syscalls, 0 < x.2) ∧ ∀ n, ToldTimes comm files n (countOf n st2.syscalls) := by
  have hlog : ∀ f ∈ files, isLog (pyLines f.2.1) = true ↔ LogLook f.2.1 := fun f hf => isLog_look (hg.noReturns f hf)
  have t1 : Told LineP (allLines files) ⟨[], fun _ => []⟩ st1 := by
    refine told_filter (p := fun f => !isLog (pyLines f.2.1)) files ?_ ?_ h1
    · intro f hf hp s s' hs
      rw [Bool.not_eq_true', ← Bool.not_eq_true, hlog f hf] at hp
      exact told_trace hg hf hp hs
    · intro f hf hp y hy n hh
      rw [Bool.not_eq_false', hlog f hf] at hp
      obtain ⟨l, -, rfl⟩ := List.mem_map.1 hy
      exact hh.1 hp
  have t2 : Told (RecordP comm) (allRecords files) st1 st2 := by
    refine told_filter (p := fun f => isLog (pyLines f.2.1)) files ?_ ?_ h2
    · intro f hf hp s s' hs
      exact told_log hg hf ((hlog f hf).1 hp) hs
    · intro f hf hp y hy n hh
      obtain ⟨r, -, rfl⟩ := List.mem_map.1 hy
      have := (hlog f hf).2 hh.1
      rw [hp] at this
      cases this
  refine ⟨t2.1 (t1.1 (by simp)), fun n => ?_⟩
  obtain ⟨k1, o1, e1⟩ := t1.2 n
  obtain ⟨k2, o2, e2⟩ := t2.2 n
  refine ⟨k1, k2, ?_, o1, o2⟩
  rw [e2, e1]
  simp [countOf]

/-! ### Order -/

theorem sortedInsert_pairwise {α : Type} {le : α → α → Bool} (htr : ∀ a b c, le a b = true → le b c = true → le a c = true)
    (htot : ∀ a b, le a b = true ∨ le b a = true) (x : α) : ∀ {l : List α}, l.Pairwise (fun a b => le a b = true) → (sortedInsert le x l).Pairwise fun a b => le a b = true
  | [], _ => by simp [sortedInsert]
  | y :: l, h => by
    rw [sortedInsert]
    rw [List.pairwise_cons] at h
    by_cases hxy : le x y = true
    · rw [if_pos hxy, List.pairwise_cons, List.pairwise_cons]
      refine ⟨fun z hz => ?_, h⟩
      rcases List.mem_cons.1 hz with rfl | hz
      · exact hxy
      · exact htr _ _ _ hxy (h.1 z hz)
    · rw [if_neg hxy, List.pairwise_cons]
      refine ⟨fun z hz => ?_, sortedInsert_pairwise htr htot x h.2⟩
      rcases List.mem_cons.1 ((sortedInsert_perm le x l).mem_iff.1 hz) with rfl | hz
      · exact (htot z y).resolve_left hxy
      · exact h.1 z hz

theorem pySorted_pairwise {α : Type} {le : α → α → Bool} (htr : ∀ a b c, le a b = true → le b c = true → le a c = true)
    (htot : ∀ a b, le a b = true ∨ le b a = true) : ∀ l : List α, (pySorted le l).Pairwise fun a b => le a b = true
  | [] => .nil
  | x :: l => sortedInsert_pairwise htr htot x (pySorted_pairwise htr htot l)

theorem strLe_iff : ∀ s t : List Char, strLe s t = true ↔ s ≤ t
  | [], _ => by simp [strLe]
  | _ :: _, [] => by simp [strLe]
  | a :: s, b :: t => by
    rw [strLe, List.cons_le_cons_iff, Bool.or_eq_true, Bool.and_eq_true, strLe_iff s t, decide_eq_true_iff, beq_iff_eq]
    rfl

/-! ### The frequency file -/

theorem toDigits_head {k : Nat} (h : 0 < k) : ∃ c s, Nat.toDigits 10 k = c :: s ∧ c ≠ '0' := by
  have hd : ∀ v, v < 10 → 0 < v → v.digitChar ≠ '0' := by decide
  induction k using Nat.strongRecOn with
  | _ k ih =>
    by_cases hk : k < 10
    · rw [Nat.toDigits_of_lt_base hk]
      exact ⟨_, [], rfl, hd k hk h⟩
    · rw [Nat.toDigits_of_base_le (by omega) (by omega)]
      obtain ⟨c, s, e, hc⟩ := ih (k / 10) (by omega) (by omega)
      exact ⟨c, s ++ [(k % 10).digitChar], by rw [e]; rfl, hc⟩

theorem toDigits_literal {k : Nat} (h : 0 < k) : Literal (Nat.toDigits 10 k) k := by
  have hd := toDigits_digits k
  obtain ⟨c, s, e, hc⟩ := toDigits_head h
  rw [e] at hd ⊢
  exact .dec hc hd

theorem frequencyNumber_digits {k : Nat} (h : 0 < k) : frequencyNumber (Nat.toDigits 10 k) = some k := by
  have h1 := numericValue_of (.plain (literal_numeral (toDigits_literal h)))
  have hm : (Nat.toDigits 10 k).head? ≠ some '-' := by
    intro e
    have := Nat.isDigit_of_mem_toDigits (b := 10) (n := k) (by decide) (by decide) (List.mem_of_mem_head? e)
    exact absurd this (by decide)
  unfold frequencyNumber
  rw [h1, if_neg hm]
  obtain ⟨c, s, e, hc⟩ := toDigits_head h
  have hp : plainNumeral (Nat.toDigits 10 k) = true := by
    rw [e]
    unfold plainNumeral
    split
    · rename_i e'
      simp at e'
      exact absurd e'.1 hc
    · rfl
  simp [hp]

theorem frequency_line {T : CommonTables} {a : Arch} (ha : ArchFits T a) {n : List Char} (hw : Word n) (hres : ¬Reserved n) {nr : Nat} (hn : T.syscall n = some nr) {k : Nat}
    (hk : 0 < k) : ∃ ts, Laid ts (n ++ ": ".toList ++ Nat.toDigits 10 k) ∧ ts ≠ [] ∧ parseFrequencyLine a ts = some [(⟨n, nr⟩, k)] := by
  have hname : ∃ t : Token, t.value = n ∧ (t.type = .identifier ∨ t.value = "kill".toList) ∧ Becomes n [t] := by
    by_cases hk : n = "kill".toList
    · subst hk
      exact ⟨⟨.action, "kill".toList⟩, rfl, .inr rfl, becomes_tok .kill (by simp) (by simp)⟩
    · exact ⟨⟨.identifier, n⟩, rfl, .inl rfl, becomes_tok (.identifier hw hres hk) (by simp) (by simp)⟩
  obtain ⟨t, hv, ht, htb⟩ := hname
  have l1 : Laid [⟨.numeric, Nat.toDigits 10 k⟩] (Nat.toDigits 10 k) := by
    simpa using becomes_tok (t := ⟨.numeric, Nat.toDigits 10 k⟩) (.number (toDigits_literal hk)) (by simp) (by simp) [] [] wordEnds_nil Laid.nil
  have l2 := laid_gaps (b := [' ']) (by intro c hc; simp at hc; exact .inl hc) l1
  have l3 : Laid (⟨.colon, ":".toList⟩ :: [⟨.numeric, Nat.toDigits 10 k⟩]) (':' :: ([' '] ++ Nat.toDigits 10 k)) :=
    Laid.tok (t := ⟨.colon, ":".toList⟩) .colon ⟨by simp, by simp, by simp⟩ l2
  have l4 := htb _ _ (wordEnds_char (by decide) _) l3
  refine ⟨t :: ⟨.colon, ":".toList⟩ :: [⟨.numeric, Nat.toDigits 10 k⟩], by simpa using l4, by simp, ?_⟩
  have hdesc : parseDescriptor a ⟨[t, ⟨.colon, ":".toList⟩, ⟨.numeric, Nat.toDigits 10 k⟩], 0⟩ =
      some ([⟨n, nr⟩], ⟨[⟨.colon, ":".toList⟩, ⟨.numeric, Nat.toDigits 10 k⟩], 0⟩) := by
    have hat : t.value.dropWhile (· != '@') = [] := by
      rw [hv]
      apply List.dropWhile_eq_nil_iff.2
      intro c hc
      have := word_not hw (x := '@') (by decide)
      simp
      rintro rfl
      exact this hc
    have hnamed : namedSyscalls a t.value = some [⟨n, nr⟩] := by
      unfold namedSyscalls
      rw [hat]
      simp [lookupSyscalls, hv, ha.syscall _ _ hn]
    unfold parseDescriptor
    simp only []
    rw [if_neg (by rcases ht with h | h <;> simp [h])]
    simp [PS.peek, hnamed]
  unfold parseFrequencyLine
  rw [hdesc]
  simp [PS.expect, frequencyNumber_digits hk]

theorem frequency_lines {T : CommonTables} {a : Arch} (ha : ArchFits T a) : ∀ l : List (List Char × Nat),
    (∀ x ∈ l, Word x.1 ∧ ¬Reserved x.1 ∧ (T.syscall x.1).isSome ∧ 0 < x.2) →
    ∃ lines, tokenizeLines [] (pyLines (l.map fun x => x.1 ++ ": ".toList ++ Nat.toDigits 10 x.2 ++ ['\n']).flatten) = some lines ∧
      parseFrequencyLines a lines = some (l.map fun x => (⟨x.1, (T.syscall x.1).getD 0⟩, x.2))
  | [], _ => ⟨[], rfl, rfl⟩
  | x :: l, h => by
    obtain ⟨lines, h1, h2⟩ := frequency_lines ha l fun y hy => h y (by simp [hy])
    obtain ⟨hw, hr, hs, hk⟩ := h x (by simp)
    obtain ⟨nr, hnr⟩ := Option.isSome_iff_exists.1 hs
    obtain ⟨ts, l1, l2, l3⟩ := frequency_line ha hw hr hnr hk
    have hno : ∀ c, c ∈ badChars → c.isDigit = false → c ∉ ": ".toList → c ∉ x.1 ++ ": ".toList ++ Nat.toDigits 10 x.2 := by
      intro c hc hd' hc'
      rw [List.mem_append, List.mem_append, not_or, not_or]
      refine ⟨⟨word_not hw hc, hc'⟩, fun hh => ?_⟩
      have hd := Nat.isDigit_of_mem_toDigits (b := 10) (n := x.2) (by decide) (by decide) hh
      rw [hd] at hd'
      cases hd'
    refine ⟨ts :: lines, ?_, ?_⟩
    · rw [List.map_cons, List.flatten_cons, List.append_assoc _ ['\n'], List.singleton_append,
        tokenize_line (lex_laid _ _ _ _ (Nat.le_refl _) l1 (by simp)) (hno _ (by decide) (by decide) (by decide)) (hno _ (by decide) (by decide) (by decide))
          (fun e => hno '\\' (by decide) (by decide) (by decide) (List.mem_of_getLast? e)), h1]
      simp [l2]
    · rw [parseFrequencyLines, l3, h2]
      simp [hnr]

theorem notice_tokens {year text : List Char} (hy : '\n' ∉ year ∧ '\r' ∉ year) :
    tokenizeLines [] (pyLines (notice year ++ text)) = tokenizeLines [] (pyLines text) := by
  have comment : ∀ s text : List Char, '\n' ∉ s → '\r' ∉ s → s.getLast? ≠ some '\\' → tokenizeLines [] (pyLines ('#' :: s ++ '\n' :: text)) = tokenizeLines [] (pyLines text) := by
    intro s text h1 h2 h3
    have hl : lexLine ('#' :: s).length false ('#' :: s) = some [] := lex_comment (b := []) (by simp [Blanks]) h1
    rw [tokenize_line hl (by simp [h1]) (by simp [h2]) (by
      cases s with
      | nil => simp
      | cons c s => simpa using h3)]
    cases tokenizeLines [] (pyLines text) <;> simp
  have blank : ∀ text : List Char, tokenizeLines [] (pyLines ('\n' :: text)) = tokenizeLines [] (pyLines text) := by
    intro text
    have := tokenize_line (line := []) (ts := []) rfl (by simp) (by simp) (by simp) text
    rw [List.nil_append] at this
    rw [this]
    cases tokenizeLines [] (pyLines text) <;> simp
  have e : " The ChromiumOS Authors\n# Use of this source code is governed by a BSD-style license that can be\n# found in the LICENSE file.\n\n".toList =
      " The ChromiumOS Authors".toList ++ '\n' :: '#' :: (" Use of this source code is governed by a BSD-style license that can be".toList ++
        '\n' :: '#' :: (" found in the LICENSE file.".toList ++ ['\n', '\n'])) := by decide +kernel
  have e' : "# Copyright ".toList = '#' :: " Copyright ".toList := by decide
  have c1 := comment (" Copyright ".toList ++ year ++ " The ChromiumOS Authors".toList)
  have c2 := comment " Use of this source code is governed by a BSD-style license that can be".toList
  have c3 := comment " found in the LICENSE file.".toList
  unfold notice
  rw [e, e']
  simp only [List.append_assoc, List.cons_append, List.nil_append] at c1 c2 c3 ⊢
  rw [c1 _ (by simp only [List.mem_append, not_or]; exact ⟨by decide, hy.1, by decide⟩)
    (by simp only [List.mem_append, not_or]; exact ⟨by decide, hy.2, by decide⟩)
    (by rw [← List.append_assoc, getLast?_app (by decide)]; decide), c2 _ (by decide) (by decide) (by decide), c3 _ (by decide) (by decide) (by decide), blank]

end Minijail
