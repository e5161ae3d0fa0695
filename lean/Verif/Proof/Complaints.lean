import Verif.Spec.Complaints
import Verif.Proof.Text
/-! What is said of the lines of a policy. -/
set_option linter.unusedSimpArgs false
set_option autoImplicit false
namespace Minijail.Complaints
open Spec (LineOf IsRule Deserved Untold Fault logicalLines)

/-- What is said is so. -/
def SaidOk (cx : Ctx) (s : Said) : Prop := ∃ text, LineOf logicalLines cx.fs s.file s.line text ∧ Deserved logicalLines cx text s.what

/-- The places that are kept are those of rules. -/
def PrevOk (cx : Ctx) (prev : List (Nat × CStr × Nat)) : Prop :=
  ∀ ind file n, prev.lookup ind = some (file, n) → ∃ text name body nr, LineOf logicalLines cx.fs file n text ∧ IsRule text name body ∧ lookupSyscall cx.syscalls name = some (nr, ind)

/-- There is a place for each call that has been seen. -/
def SeenOk (ps : PState) : Prop := ∀ ind, ps.st.seen.contains ind = (ps.prev.lookup ind).isSome

theorem lookup_go_get (tbl : List (CStr × Nat)) (name : CStr) : ∀ (i nr ind : Nat), lookupSyscall.go name tbl i = some (nr, ind) → i ≤ ind ∧ tbl[ind - i]? = some (name, nr) := by
  induction tbl with
  | nil => intro i nr ind h; cases h
  | cons e rest ih =>
    intro i nr ind h
    rw [lookupSyscall.go] at h
    by_cases he : e.1 = name
    · rw [if_pos he] at h
      simp only [Option.some.injEq, Prod.mk.injEq] at h
      obtain ⟨h1, rfl⟩ := h
      refine ⟨Nat.le_refl _, ?_⟩
      simp [← he, ← h1]
    · rw [if_neg he] at h
      obtain ⟨h1, h2⟩ := ih (i + 1) nr ind h
      refine ⟨by omega, ?_⟩
      have : ind - i = (ind - (i + 1)) + 1 := by omega
      rw [this]
      simpa using h2

theorem lookup_same_name {tbl : List (CStr × Nat)} {name name' : CStr} {nr nr' ind : Nat} (h : lookupSyscall tbl name = some (nr, ind)) (h' : lookupSyscall tbl name' = some (nr', ind)) :
    name' = name := by
  have g := (lookup_go_get tbl name 0 nr ind h).2
  have g' := (lookup_go_get tbl name' 0 nr' ind h').2
  rw [g] at g'
  simp only [Option.some.injEq, Prod.mk.injEq] at g'
  exact g'.1.symm

/-- A rule of which name and body are known. -/
theorem compileRule_eq {cx : Ctx} {line name pl : CStr} {nr ind : Nat} {st : CState} {bad : Bool} (hs : strsep ':' line = (name, some pl)) (hp : strip pl ≠ [])
    (hl : lookupSyscall cx.syscalls (strip name) = some (nr, ind)) :
    compileRule cx line st bad =
      (if strip pl = "1".toList then
        .ok ({ st with head := st.head ++ bpfAllowSyscall (BitVec.ofNat 32 nr), seen := if st.seen.contains ind then st.seen else ind :: st.seen },
          bad || (st.seen.contains ind && !cx.opts.allowDuplicateSyscalls))
      else
        match compilePolicyLine cx nr (strip pl) (match (bpfLabelId st.labels (strip name)).1 with
          | some id => BitVec.ofNat 32 id
          | none => BitVec.ofInt 32 (-1)) (bpfLabelId st.labels (strip name)).2 with
        | .ok (block, labels) =>
          .ok ({ head := st.head ++ bpfAllowSyscallArgs (BitVec.ofNat 32 nr) (match (bpfLabelId st.labels (strip name)).1 with
              | some id => BitVec.ofNat 32 id
              | none => BitVec.ofInt 32 (-1)), argBlocks := st.argBlocks ++ block, labels := labels, seen := if st.seen.contains ind then st.seen else ind :: st.seen },
            bad || (st.seen.contains ind && !cx.opts.allowDuplicateSyscalls))
        | .fail => .fail
        | .die => .die
        | .ub => .ub) := by
  unfold compileRule
  rw [hs]
  dsimp only
  rw [if_neg hp, hl]
  rfl

theorem compileRule_fail {cx : Ctx} {line name pl : CStr} {nr ind : Nat} {st : CState} {bad : Bool} (hs : strsep ':' line = (name, some pl)) (hp : strip pl ≠ [])
    (hl : lookupSyscall cx.syscalls (strip name) = some (nr, ind)) (h : compileRule cx line st bad = .fail) :
    ∃ id, compilePolicyLine cx nr (strip pl) id (bpfLabelId st.labels (strip name)).2 = .fail := by
  rw [compileRule_eq hs hp hl] at h
  split at h
  · cases h
  · split at h
    · cases h
    · exact ⟨_, by assumption⟩
    · cases h
    · cases h

theorem compileRule_ok {cx : Ctx} {line name pl : CStr} {nr ind : Nat} {st st' : CState} {bad bad' : Bool} (hs : strsep ':' line = (name, some pl)) (hp : strip pl ≠ [])
    (hl : lookupSyscall cx.syscalls (strip name) = some (nr, ind)) (h : compileRule cx line st bad = .ok (st', bad')) :
    st'.seen = (if st.seen.contains ind then st.seen else ind :: st.seen) ∧ bad' = (bad || (st.seen.contains ind && !cx.opts.allowDuplicateSyscalls)) := by
  rw [compileRule_eq hs hp hl] at h
  split at h
  · cases h; exact ⟨rfl, rfl⟩
  · split at h
    · cases h; exact ⟨rfl, rfl⟩
    · cases h
    · cases h
    · cases h

theorem errno_untold {s : CStr} (h : errnoSilent s = true) : ¬ ∃ w ws, Spec.words ' ' s = w :: ws ∧ "return".toList <+: w := by
  rintro ⟨w, ws, hw, y, rfl⟩
  unfold errnoSilent at h
  cases ht : strtok ' ' s with
  | none => rw [strtok_none ht] at hw; cases hw
  | some p =>
    obtain ⟨t, r⟩ := p
    rw [strtok_some ht] at hw
    simp only [List.cons.injEq] at hw
    rw [ht, hw.1] at h
    simp at h

theorem errno_return {s : CStr} (h : s.take 6 = "return".toList) : errnoSilent s = false := by
  have hs : s = "return".toList ++ s.drop 6 := by rw [← h, List.take_append_drop]
  generalize s.drop 6 = y at hs
  subst hs
  simp [errnoSilent, strtok]

theorem body_untold {cx : Ctx} {nr : Nat} {pl : CStr} {labels : Labels} (h : bodySilent cx nr pl labels = true) :
    ∃ a r l, Spec.words ';' pl = a :: r :: l ∧ ¬ ∃ w ws, Spec.words ' ' r = w :: ws ∧ "return".toList <+: w := by
  unfold bodySilent at h
  split at h
  · next hr => rw [errno_return hr] at h; cases h
  · dsimp only at h
    cases h1 : strtok ';' pl with
    | none => rw [h1] at h; simp at h; split at h <;> simp_all
    | some p =>
      obtain ⟨a, rest⟩ := p
      rw [h1] at h
      simp only [Option.bind_some] at h
      cases h2 : strtok ';' rest with
      | none => rw [h2] at h; simp at h; split at h <;> simp_all
      | some q =>
        obtain ⟨r, rest'⟩ := q
        rw [h2] at h
        refine ⟨a, r, Spec.words ';' rest', by rw [strtok_some h1, strtok_some h2], ?_⟩
        simp only [Option.map_some] at h
        split at h
        · cases h
        · next heq _ => cases heq; exact errno_untold h
        · cases h

theorem remember_lookup (prev : List (Nat × CStr × Nat)) (ind : Nat) (file : CStr) (n : Nat) (i : Nat) :
    (remember prev ind file n).lookup i = match prev.lookup i with | some p => some p | none => if i = ind then some (file, n) else none := by
  unfold remember
  cases h : prev.lookup ind with
  | some p =>
    dsimp only
    cases hi : prev.lookup i with
    | some q => rfl
    | none =>
      dsimp only
      rw [if_neg]
      intro e; subst e; rw [h] at hi; cases hi
  | none =>
    dsimp only
    rw [List.lookup_cons]
    by_cases e : i = ind
    · subst e; simp [h]
    · have : (i == ind) = false := by simpa using e
      rw [this]
      simp only [e, if_false]
      cases prev.lookup i <;> rfl

/-- The messages of one rule. -/
theorem sayRule_ok {cx : Ctx} {file : CStr} {n : Nat} {text : CStr} {c : Char} {cs : CStr} {ps : PState} {bad : Bool} (ht : strip text = c :: cs) (h1 : c ≠ '#') (h2 : c ≠ '@')
    (hl : LineOf logicalLines cx.fs file n text) (hp : PrevOk cx ps.prev) (hseen : SeenOk ps) :
    (∀ s ∈ (sayRule cx file n (c :: cs) ps bad).1, SaidOk cx s) ∧
    (∀ ps' bad', (sayRule cx file n (c :: cs) ps bad).2 = .ok (ps', bad') → PrevOk cx ps'.prev ∧ SeenOk ps' ∧
      (bad' = true → bad = true ∨ ∃ s ∈ (sayRule cx file n (c :: cs) ps bad).1, Fault cx s.what)) ∧
    ((sayRule cx file n (c :: cs) ps bad).2 = .fail → (∃ s ∈ (sayRule cx file n (c :: cs) ps bad).1, Fault cx s.what) ∨ Untold text) := by
  have hrule : ∀ name pl, strsep ':' (c :: cs) = (name, some pl) → IsRule text (strip name) (strip pl) := by
    intro name pl h
    obtain ⟨e1, e2⟩ := strsep_some h
    have htr : Spec.trim text = c :: cs := ht
    refine ⟨⟨name, pl, by rw [htr]; exact e1, e2, rfl, rfl⟩, ?_, ?_⟩
    · rw [htr]; simpa using h1
    · rw [htr]; simpa using h2
  unfold sayRule
  cases hs : strsep ':' (c :: cs) with
  | mk name o =>
    cases o with
    | none =>
      refine ⟨by simp, by simp, fun _ => .inr (.inl ?_)⟩
      have htr : Spec.trim text = c :: cs := ht
      rw [htr]; exact ⟨by simp, by simpa using h1, by simpa using h2, strsep_none hs⟩
    | some pl =>
      have hr := hrule name pl hs
      dsimp only
      by_cases hpl : strip pl = []
      · rw [if_pos hpl]
        rw [hpl] at hr
        refine ⟨?_, by simp, fun _ => .inl ⟨_, List.mem_singleton.2 rfl, trivial⟩⟩
        intro s hs'
        rw [List.mem_singleton.1 hs']
        exact ⟨text, hl, _, hr⟩
      · rw [if_neg hpl]
        cases hlk : lookupSyscall cx.syscalls (strip name) with
        | none =>
          dsimp only
          refine ⟨?_, ?_, ?_⟩
          · intro s hs'
            rw [List.mem_singleton.1 hs']
            exact ⟨text, hl, _, _, hr, hlk⟩
          · intro ps' bad' h
            split at h
            · cases h; exact ⟨hp, hseen, fun h => .inl h⟩
            · cases h
          · intro h
            split at h
            · cases h
            · next hlog => exact .inl ⟨_, List.mem_singleton.2 rfl, show cx.opts.allowLogging = false by simpa using hlog⟩
        | some p =>
          obtain ⟨nr, ind⟩ := p
          dsimp only
          have hdup : ∀ s ∈ sayDuplicate ps.prev ind file n, SaidOk cx s := by
            intro s hs'
            unfold sayDuplicate at hs'
            cases hlook : ps.prev.lookup ind with
            | none => rw [hlook] at hs'; simp at hs'
            | some p =>
              rw [hlook] at hs'
              rw [List.mem_singleton.1 hs']
              obtain ⟨text', name', body', nr', g1, g2, g3⟩ := hp ind p.1 p.2 hlook
              rw [lookup_same_name hlk g3] at g2
              exact ⟨text, hl, _, _, text', body', hr, by rw [hlk]; rfl, g1, g2⟩
          cases hc : compileRule cx (c :: cs) ps.st bad with
          | ok q =>
            obtain ⟨st', bad'⟩ := q
            dsimp only
            obtain ⟨k1, k2⟩ := compileRule_ok hs hpl hlk hc
            refine ⟨hdup, ?_, by simp⟩
            intro ps'' bad'' h
            cases h
            refine ⟨?_, ?_, ?_⟩
            · intro i f m hi
              rw [remember_lookup] at hi
              cases hpi : ps.prev.lookup i with
              | some p => rw [hpi] at hi; cases hi; exact hp i f m hpi
              | none =>
                rw [hpi] at hi
                dsimp only at hi
                split at hi
                · next e =>
                  cases hi
                  subst e
                  exact ⟨text, _, _, nr, hl, hr, hlk⟩
                · cases hi
            · intro i
              show st'.seen.contains i = _
              rw [k1, remember_lookup]
              have hsi := hseen i
              have hsind := hseen ind
              by_cases hci : ps.st.seen.contains ind = true
              · rw [if_pos hci, hsi]
                cases hpi : ps.prev.lookup i with
                | some p => rfl
                | none =>
                  dsimp only
                  rw [if_neg]
                  intro e; subst e
                  rw [hsi, hpi] at hci; cases hci
              · rw [if_neg hci]
                rw [List.contains_cons, hsi]
                cases hpi : ps.prev.lookup i with
                | some p => simp
                | none =>
                  by_cases e : i = ind
                  · simp [e]
                  · simp [e]
            · intro hb
              rw [k2] at hb
              by_cases hbad : bad = true
              · exact .inl hbad
              · right
                have hb' : (ps.st.seen.contains ind && !cx.opts.allowDuplicateSyscalls) = true := by
                  cases bad with
                  | true => exact absurd rfl hbad
                  | false => simpa using hb
                rw [Bool.and_eq_true] at hb'
                have hsome := hseen ind
                rw [hb'.1] at hsome
                obtain ⟨p, hpp⟩ := Option.isSome_iff_exists.1 hsome.symm
                refine ⟨⟨file, n, .redefined p.1 p.2⟩, by simp [sayDuplicate, hpp], ?_⟩
                show cx.opts.allowDuplicateSyscalls = false
                simpa using hb'.2
          | fail =>
            dsimp only
            obtain ⟨id, hid⟩ := compileRule_fail hs hpl hlk hc
            refine ⟨?_, by simp, ?_⟩
            · intro s hs'
              rcases List.mem_append.1 hs' with h | h
              · exact hdup s h
              · split at h
                · simp at h
                · rw [List.mem_singleton.1 h]
                  exact ⟨text, hl, _, _, nr, ind, id, _, hr, hlk, hid⟩
            · intro _
              by_cases hb : bodySilent cx nr (strip pl) (bpfLabelId ps.st.labels (strip name)).2 = true
              · right; right
                obtain ⟨a, r, l, e1, e2⟩ := body_untold hb
                exact ⟨_, _, a, r, l, hr, e1, e2⟩
              · left
                refine ⟨⟨file, n, .body⟩, ?_, trivial⟩
                rw [if_neg hb]
                simp
          | die => exact ⟨hdup, by simp, by simp⟩
          | ub => exact ⟨hdup, by simp, by simp⟩

/-- What the call for an included file has to keep to. -/
def IncOk (cx : Ctx) (inc : CStr → CStr → PState → List Said × Res PState) : Prop :=
  ∀ file content ps, cx.fs file = some content → PrevOk cx ps.prev → SeenOk ps →
    (∀ s ∈ (inc file content ps).1, SaidOk cx s) ∧ ∀ ps', (inc file content ps).2 = .ok ps' → PrevOk cx ps'.prev ∧ SeenOk ps'

theorem include_text {t : CStr} {level : Nat} {file : CStr} (h : parseIncludeStatement t level = .ok file) : t = "@include ".toList ++ file := by
  unfold parseIncludeStatement at h
  split at h
  · cases h
  · next h1 =>
    split at h
    · cases h
    · next h2 =>
      split at h
      · cases h
      · have e1 : t = "@include".toList ++ t.drop 8 := by
          have := List.take_append_drop 8 t
          rw [not_not] at h1
          rw [h1] at this
          exact this.symm
        cases hd : t.drop 8 with
        | nil => rw [hd] at h2; simp at h2
        | cons d r =>
          rw [hd] at h2 e1
          simp only [List.head?_cons, ne_eq, Option.some.injEq, not_not] at h2
          subst h2
          have hsp : strsep ' ' t = ("@include".toList, some r) := by
            rw [e1]; exact strsep_of (by decide)
          rw [hsp] at h
          dsimp only at h
          split at h
          · cases h
          · cases h
            rw [e1]; rfl

theorem sayLine_ok {cx : Ctx} {level : Nat} {inc : CStr → CStr → PState → List Said × Res PState} (hinc : IncOk cx inc) {file : CStr} {n : Nat} {text : CStr} {ps : PState} {bad : Bool}
    (hl : LineOf logicalLines cx.fs file n text) (hp : PrevOk cx ps.prev) (hseen : SeenOk ps) :
    (∀ s ∈ (sayLine cx level inc file n text ps bad).1, SaidOk cx s) ∧
    (∀ ps' bad', (sayLine cx level inc file n text ps bad).2 = .ok (ps', bad') → PrevOk cx ps'.prev ∧ SeenOk ps' ∧
      (bad' = true → bad = true ∨ ∃ s ∈ (sayLine cx level inc file n text ps bad).1, Fault cx s.what)) ∧
    ((sayLine cx level inc file n text ps bad).2 = .fail → (∃ s ∈ (sayLine cx level inc file n text ps bad).1, Fault cx s.what) ∨ Untold text) := by
  unfold sayLine
  cases ht : strip text with
  | nil =>
    refine ⟨by simp, ?_, by simp⟩
    intro ps' bad' h
    cases h
    exact ⟨hp, hseen, fun h => .inl h⟩
  | cons c cs =>
    have htr : Spec.trim text = c :: cs := ht
    dsimp only
    by_cases h1 : c = '#'
    · rw [if_pos h1]
      refine ⟨by simp, ?_, by simp⟩
      intro ps' bad' h
      cases h
      exact ⟨hp, hseen, fun h => .inl h⟩
    · rw [if_neg h1]
      by_cases h2 : c = '@'
      · rw [if_pos h2]
        by_cases h3 : (c :: cs).take 10 = "@frequency".toList
        · rw [if_pos h3]
          refine ⟨?_, ?_, by simp⟩
          · intro s hs
            rw [List.mem_singleton.1 hs]
            refine ⟨text, hl, ?_⟩
            show _ <+: Spec.trim text
            rw [htr, ← h3]
            exact List.take_prefix _ _
          · intro ps' bad' h
            cases h
            exact ⟨hp, hseen, fun h => .inl h⟩
        · rw [if_neg h3]
          cases hi : parseIncludeStatement (c :: cs) level with
          | ok filename =>
            dsimp only
            have hinct := include_text hi
            cases hf : cx.fs filename with
            | none =>
              dsimp only
              refine ⟨?_, by simp, fun _ => .inl ⟨_, List.mem_singleton.2 rfl, trivial⟩⟩
              intro s hs
              rw [List.mem_singleton.1 hs]
              exact ⟨text, hl, filename, by rw [htr]; exact hinct, hf⟩
            | some content =>
              dsimp only
              obtain ⟨k1, k2⟩ := hinc filename content ps hf hp hseen
              generalize inc filename content ps = r at k1 k2 ⊢
              obtain ⟨said, res⟩ := r
              cases res with
              | ok ps1 =>
                dsimp only
                refine ⟨k1, ?_, by simp⟩
                intro ps' bad' h
                cases h
                exact ⟨(k2 _ rfl).1, (k2 _ rfl).2, fun h => .inl h⟩
              | fail =>
                dsimp only
                refine ⟨?_, by simp, fun _ => .inl ⟨⟨file, n, .included⟩, by simp, trivial⟩⟩
                intro s hs
                rcases List.mem_append.1 hs with h | h
                · exact k1 s h
                · rw [List.mem_singleton.1 h]
                  exact ⟨text, hl, filename, content, by rw [htr]; exact hinct, hf⟩
              | die => exact ⟨k1, by simp, by simp⟩
              | ub => exact ⟨k1, by simp, by simp⟩
          | _ =>
            dsimp only
            refine ⟨?_, by simp, fun _ => .inl ⟨_, List.mem_singleton.2 rfl, trivial⟩⟩
            intro s hs
            rw [List.mem_singleton.1 hs]
            refine ⟨text, hl, ?_, ?_⟩
            · rw [htr, h2]; rfl
            · rw [htr]
              rintro ⟨y, hy⟩
              apply h3
              rw [← hy]; simp
      · rw [if_neg h2]
        exact sayRule_ok ht h1 h2 hl hp hseen

theorem sayLines_ok {cx : Ctx} {level : Nat} {inc : CStr → CStr → PState → List Said × Res PState} (hinc : IncOk cx inc) (file : CStr) :
    ∀ (ls : List CStr) (n : Nat) (ps : PState) (bad : Bool), (∀ i text, ls[i]? = some text → LineOf logicalLines cx.fs file (n + i + 1) text) → PrevOk cx ps.prev → SeenOk ps →
    (∀ s ∈ (sayLines cx level inc file n ls ps bad).1, SaidOk cx s) ∧
    (∀ ps' bad', (sayLines cx level inc file n ls ps bad).2 = .ok (ps', bad') → PrevOk cx ps'.prev ∧ SeenOk ps' ∧
      (bad' = true → bad = true ∨ ∃ s ∈ (sayLines cx level inc file n ls ps bad).1, Fault cx s.what)) ∧
    ((sayLines cx level inc file n ls ps bad).2 = .fail → (∃ s ∈ (sayLines cx level inc file n ls ps bad).1, Fault cx s.what) ∨
      ∃ k text, LineOf logicalLines cx.fs file k text ∧ Untold text) := by
  intro ls
  induction ls with
  | nil =>
    intro n ps bad hl hp hs
    unfold sayLines
    refine ⟨by simp, ?_, by simp⟩
    intro ps' bad' h
    cases h
    exact ⟨hp, hs, fun h => .inl h⟩
  | cons l ls ih =>
    intro n ps bad hl hp hs
    have hl0 := hl 0 l rfl
    obtain ⟨a1, a2, a3⟩ := sayLine_ok (level := level) hinc (n := n + 1) (bad := bad) hl0 hp hs
    unfold sayLines
    dsimp only
    generalize sayLine cx level inc file (n + 1) l ps bad = r at a1 a2 a3 ⊢
    obtain ⟨said, res⟩ := r
    cases res with
    | ok q =>
      obtain ⟨ps1, bad1⟩ := q
      obtain ⟨p1, s1, f1⟩ := a2 ps1 bad1 rfl
      obtain ⟨b1, b2, b3⟩ := ih (n + 1) ps1 bad1 (fun i text h => by
        have := hl (i + 1) text (by simpa using h)
        have e : n + (i + 1) + 1 = n + 1 + i + 1 := by omega
        rw [e] at this; exact this) p1 s1
      dsimp only
      generalize sayLines cx level inc file (n + 1) ls ps1 bad1 = r' at b1 b2 b3 ⊢
      refine ⟨?_, ?_, ?_⟩
      · intro s h
        rcases List.mem_append.1 h with h | h
        · exact a1 s h
        · exact b1 s h
      · intro ps' bad' h
        obtain ⟨q1, q2, q3⟩ := b2 ps' bad' h
        refine ⟨q1, q2, fun hb => ?_⟩
        rcases q3 hb with hb1 | ⟨s, hs, hf⟩
        · rcases f1 hb1 with h | ⟨s, hs, hf⟩
          · exact .inl h
          · exact .inr ⟨s, List.mem_append.2 (.inl hs), hf⟩
        · exact .inr ⟨s, List.mem_append.2 (.inr hs), hf⟩
      · intro h
        rcases b3 h with ⟨s, hs, hf⟩ | h
        · exact .inl ⟨s, List.mem_append.2 (.inr hs), hf⟩
        · exact .inr h
    | fail =>
      dsimp only
      refine ⟨a1, by simp, fun _ => ?_⟩
      rcases a3 rfl with h | h
      · exact .inl h
      · exact .inr ⟨_, l, hl0, h⟩
    | die => exact ⟨a1, by simp, by simp⟩
    | ub => exact ⟨a1, by simp, by simp⟩

theorem sayFileWith_ok {cx : Ctx} {level : Nat} {inc : CStr → CStr → PState → List Said × Res PState} (hinc : IncOk cx inc) {file content : CStr} {ps : PState} (hf : cx.fs file = some content)
    (hp : PrevOk cx ps.prev) (hs : SeenOk ps) :
    (∀ s ∈ (sayFileWith cx level inc file content ps).1, SaidOk cx s) ∧
    (∀ ps', (sayFileWith cx level inc file content ps).2 = .ok ps' → PrevOk cx ps'.prev ∧ SeenOk ps') ∧
    ((sayFileWith cx level inc file content ps).2 = .fail → (∃ s ∈ (sayFileWith cx level inc file content ps).1, Fault cx s.what) ∨
      ∃ k text, LineOf logicalLines cx.fs file k text ∧ Untold text) := by
  obtain ⟨a1, a2, a3⟩ := sayLines_ok (level := level) hinc file (readLines content) 0 ps false (fun i text h => by
    refine ⟨content, hf, by omega, ?_⟩
    rw [readLines_eq_logicalLines] at h
    have e : 0 + i + 1 - 1 = i := by omega
    rw [e]; exact h) hp hs
  unfold sayFileWith
  dsimp only
  generalize sayLines cx level inc file 0 (readLines content) ps false = r at a1 a2 a3 ⊢
  obtain ⟨said, res⟩ := r
  cases res with
  | ok q =>
    obtain ⟨ps1, bad1⟩ := q
    obtain ⟨p1, s1, f1⟩ := a2 ps1 bad1 rfl
    dsimp only
    refine ⟨a1, ?_, ?_⟩
    · intro ps' h
      split at h
      · cases h
      · cases h; exact ⟨p1, s1⟩
    · intro h
      split at h
      · next hb =>
        rcases f1 hb with h | h
        · cases h
        · exact .inl h
      · cases h
  | fail => exact ⟨a1, by simp, fun _ => a3 rfl⟩
  | die => exact ⟨a1, by simp, by simp⟩
  | ub => exact ⟨a1, by simp, by simp⟩

theorem inc1_ok (cx : Ctx) : IncOk cx (sayFile1 cx) := by
  intro file content ps hf hp hs
  have h0 : IncOk cx fun _ _ _ => ([], .fail) := by
    intro _ _ _ _ _ _
    exact ⟨by simp, by simp⟩
  obtain ⟨a, b, _⟩ := sayFileWith_ok (level := 1) h0 hf hp hs
  exact ⟨a, b⟩

/-- How a file ends, without the places. -/
def forget : Res PState → Res CState
  | .ok ps => .ok ps.st
  | .fail => .fail
  | .die => .die
  | .ub => .ub

/-- How a line ends, without the places. -/
def forgetBad : Res (PState × Bool) → Res (CState × Bool)
  | .ok (ps, bad) => .ok (ps.st, bad)
  | .fail => .fail
  | .die => .die
  | .ub => .ub

theorem rule_outcome (cx : Ctx) (file : CStr) (n : Nat) (line : CStr) (ps : PState) (bad : Bool) : forgetBad (sayRule cx file n line ps bad).2 = compileRule cx line ps.st bad := by
  unfold sayRule
  cases hs : strsep ':' line with
  | mk name o =>
    cases o with
    | none => simp [forgetBad, compileRule, hs]
    | some pl =>
      dsimp only
      by_cases hp : strip pl = []
      · rw [if_pos hp]; simp [forgetBad, compileRule, hs, hp]
      · rw [if_neg hp]
        cases hl : lookupSyscall cx.syscalls (strip name) with
        | none =>
          simp only [compileRule, hs, hp, hl, if_false]
          split <;> rfl
        | some p =>
          dsimp only
          cases hc : compileRule cx line ps.st bad <;> rfl

theorem line_outcome (cx : Ctx) (level : Nat) {inc : CStr → CStr → PState → List Said × Res PState} {inc' : CStr → CState → Res CState}
    (hi : ∀ f c ps, forget (inc f c ps).2 = inc' c ps.st) (file : CStr) (n : Nat) (line : CStr) (ps : PState) (bad : Bool) :
    forgetBad (sayLine cx level inc file n line ps bad).2 = compileLine cx level inc' line ps.st bad := by
  unfold sayLine compileLine
  cases ht : strip line with
  | nil => rfl
  | cons c cs =>
    dsimp only
    by_cases h1 : c = '#'
    · rw [if_pos h1, if_pos h1]; rfl
    · rw [if_neg h1, if_neg h1]
      by_cases h2 : c = '@'
      · rw [if_pos h2, if_pos h2]
        by_cases h3 : (c :: cs).take 10 = "@frequency".toList
        · rw [if_pos h3, if_pos h3]; rfl
        · rw [if_neg h3, if_neg h3]
          cases hp : parseIncludeStatement (c :: cs) level with
          | ok filename =>
            dsimp only
            cases hf : cx.fs filename with
            | none => rfl
            | some content =>
              dsimp only
              rw [← hi filename content ps]
              cases (inc filename content ps).2 <;> rfl
          | _ => rfl
      · rw [if_neg h2, if_neg h2]
        exact rule_outcome cx file n (c :: cs) ps bad

theorem lines_outcome (cx : Ctx) (level : Nat) {inc : CStr → CStr → PState → List Said × Res PState} {inc' : CStr → CState → Res CState}
    (hi : ∀ f c ps, forget (inc f c ps).2 = inc' c ps.st) (file : CStr) : ∀ (ls : List CStr) (n : Nat) (ps : PState) (bad : Bool),
    forgetBad (sayLines cx level inc file n ls ps bad).2 = compileLines cx level inc' ls ps.st bad := by
  intro ls
  induction ls with
  | nil => intro n ps bad; rfl
  | cons l ls ih =>
    intro n ps bad
    unfold sayLines compileLines
    rw [← line_outcome cx level hi file (n + 1) l ps bad]
    dsimp only
    cases (sayLine cx level inc file (n + 1) l ps bad).2 with
    | ok q => exact ih (n + 1) q.1 q.2
    | fail => rfl
    | die => rfl
    | ub => rfl

theorem file_outcome (cx : Ctx) (level : Nat) {inc : CStr → CStr → PState → List Said × Res PState} {inc' : CStr → CState → Res CState}
    (hi : ∀ f c ps, forget (inc f c ps).2 = inc' c ps.st) (file content : CStr) (ps : PState) :
    forget (sayFileWith cx level inc file content ps).2 = compileFileWith cx level inc' content ps.st := by
  unfold sayFileWith compileFileWith
  rw [← lines_outcome cx level hi file (readLines content) 0 ps false]
  dsimp only
  cases (sayLines cx level inc file 0 (readLines content) ps false).2 with
  | ok q =>
    obtain ⟨ps1, bad⟩ := q
    dsimp only [forgetBad]
    cases bad <;> rfl
  | fail => rfl
  | die => rfl
  | ub => rfl

theorem file0_outcome (cx : Ctx) (file content : CStr) : forget (sayFile0 cx file content).2 = compileFile0 cx content ⟨filterPrefix cx, [], [], []⟩ :=
  file_outcome cx 0 (fun f c ps => file_outcome cx 1 (fun _ _ _ => rfl) f c ps) file content _

end Minijail.Complaints
