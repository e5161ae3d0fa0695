import Verif.Proof.FdsSetup
/-! C22: preserved descriptors reach their requested numbers. -/
set_option linter.unusedSimpArgs false
set_option autoImplicit false
namespace Minijail

/-- **C22**: if setting up descriptors succeeds, each requested child fd refers to the file that its parent fd referred to
before, and survives `execve`; whatever overlaps there are between parent fds, child fds, pipes and the program's fd. -/
theorem C22_preserved (env : FdEnv) (hw : Spec.LogSafe env) (t0 : FdTable) (es : List FdMap) (pipes : List (Option Nat))
    (elf : Option Nat) (r : ChildFds) (hopen : ∀ e ∈ es, t0 e.parent ≠ none) (hpipe : ∀ p, some p ∈ pipes → t0 p ≠ none)
    (helf : ∀ p, elf = some p → t0 p ≠ none) (h : setupChildFds env t0 es pipes elf = some r) :
    ∀ e ∈ es, Spec.SameFile r.table e.child t0 e.parent ∧ Spec.Inherited r.table e.child :=
  (setup_spec env hw t0 es pipes elf r hopen hpipe helf h).2.1

/-- **C22**, contradictory requests: the process dies rather than choose. -/
theorem C22_duplicates (env : FdEnv) (hw : Spec.LogSafe env) (t0 : FdTable) (es : List FdMap) (pipes : List (Option Nat))
    (elf : Option Nat) (hopen : ∀ e ∈ es, t0 e.parent ≠ none) (hpipe : ∀ p, some p ∈ pipes → t0 p ≠ none)
    (helf : ∀ p, elf = some p → t0 p ≠ none) (hd : ¬ (es.map (·.child)).Nodup) : setupChildFds env t0 es pipes elf = none := by
  cases h : setupChildFds env t0 es pipes elf with
  | none => rfl
  | some r => exact absurd (setup_spec env hw t0 es pipes elf r hopen hpipe helf h).1 hd

/-- **C22**, what else happens: parent fds that are no child fds are closed (libminijail.h:467-470), other open
descriptors stay as they are. -/
theorem C22_others (env : FdEnv) (hw : Spec.LogSafe env) (t0 : FdTable) (es : List FdMap) (pipes : List (Option Nat))
    (elf : Option Nat) (r : ChildFds) (hopen : ∀ e ∈ es, t0 e.parent ≠ none) (hpipe : ∀ p, some p ∈ pipes → t0 p ≠ none)
    (helf : ∀ p, elf = some p → t0 p ≠ none) (h : setupChildFds env t0 es pipes elf = some r) :
    (∀ e ∈ es, e.parent ∉ es.map (·.child) → r.table e.parent = none) ∧
    ∀ n, t0 n ≠ none → n ∉ es.map (·.child) → n ∉ es.map (·.parent) → r.table n = t0 n :=
  let s := setup_spec env hw t0 es pipes elf r hopen hpipe helf h
  ⟨s.2.2.1, s.2.2.2.1⟩

/-- **C22**, internal pipes: each end that exists still refers to its pipe afterwards, possibly under another number, which
is no child fd. The pipes were made after the parent fds were opened, so they have different numbers. -/
theorem C22_pipes (env : FdEnv) (hw : Spec.LogSafe env) (t0 : FdTable) (es : List FdMap) (pipes : List (Option Nat))
    (elf : Option Nat) (r : ChildFds) (hopen : ∀ e ∈ es, t0 e.parent ≠ none) (hpipe : ∀ p, some p ∈ pipes → t0 p ≠ none)
    (helf : ∀ p, elf = some p → t0 p ≠ none) (hnew : ∀ p, some p ∈ pipes → p ∉ es.map (·.parent))
    (h : setupChildFds env t0 es pipes elf = some r) :
    pipes.length = r.pipes.length ∧
    ∀ (i p : Nat), pipes[i]? = some (some p) → ∃ p' : Nat, r.pipes[i]? = some (some p') ∧ Spec.SameFile r.table p' t0 p ∧ p' ∉ es.map (·.child) := by
  have hs := (setup_spec env hw t0 es pipes elf r hopen hpipe helf h).2.2.2.2.1
  refine ⟨hs.length_eq, fun i p hi => ?_⟩
  have hlt : i < pipes.length := (List.getElem?_eq_some_iff.mp hi).1
  have hget := hs.get hlt (by rw [← hs.length_eq]; exact hlt)
  have hp : pipes.get ⟨i, hlt⟩ = some p := (List.getElem?_eq_some_iff.mp hi).2
  have hlt' : i < r.pipes.length := by rw [← hs.length_eq]; exact hlt
  rw [hp] at hget
  cases hq : r.pipes.get ⟨i, hlt'⟩ with
  | none => rw [hq] at hget; exact hget.elim
  | some p' =>
    rw [hq] at hget
    refine ⟨p', List.getElem?_eq_some_iff.mpr ⟨hlt', hq⟩, hget.1 (hnew p ?_), hget.2.1⟩
    rw [← hp]; exact List.getElem_mem _

/-- **C22**, the program: the descriptor to be executed still refers to it, provided it is not itself a parent fd. -/
theorem C22_elf_partial (env : FdEnv) (hw : Spec.LogSafe env) (t0 : FdTable) (es : List FdMap) (pipes : List (Option Nat))
    (p : Nat) (r : ChildFds) (hopen : ∀ e ∈ es, t0 e.parent ≠ none) (hpipe : ∀ p, some p ∈ pipes → t0 p ≠ none)
    (helf : t0 p ≠ none) (hnp : p ∉ es.map (·.parent)) (h : setupChildFds env t0 es pipes (some p) = some r) :
    ∃ p', r.elf = some p' ∧ Spec.SameFile r.table p' t0 p ∧ p' ∉ es.map (·.child) := by
  have hs := (setup_spec env hw t0 es pipes (some p) r hopen hpipe (by rintro _ ⟨⟩; exact helf) h).2.2.2.2.2
  cases hq : r.elf with
  | none => rw [hq] at hs; exact hs.elim
  | some p' => rw [hq] at hs; exact ⟨p', rfl, hs.1 hnp, hs.2.1⟩

private theorem findUnused_some (cs : List Nat) (t : FdTable) (n m : Nat) (hm : m ≤ n) (hc : m ∉ cs) (ht : t m = none) :
    ∃ fd, findUnused cs t n = some fd := by
  induction n with
  | zero =>
    obtain rfl : m = 0 := by omega
    unfold findUnused
    rw [if_neg]
    · exact ⟨_, rfl⟩
    · simp only [Bool.or_eq_true, isPreservedChildFd_all, fdIsOpen, not_or]
      exact ⟨hc, by simp [ht]⟩
  | succ n ih =>
    unfold findUnused
    split
    · rename_i hcond
      refine ih ?_
      have : m ≠ n + 1 := by
        rintro rfl
        simp only [Bool.or_eq_true, isPreservedChildFd_all, fdIsOpen] at hcond
        rcases hcond with h | h
        · exact hc h
        · simp [ht] at h
      omega
    · exact ⟨_, rfl⟩

namespace Spec

/-- There are `k` different numbers up to 1023 that are neither open nor requested as child fds. -/
def Spare (t : FdTable) (children : List Nat) (k : Nat) : Prop :=
  ∃ free : List Nat, free.Nodup ∧ free.length = k ∧ ∀ n ∈ free, n ≤ 1023 ∧ n ∉ children ∧ t n = none

end Spec

private theorem spare_ensure (env : FdEnv) (hd : ∀ a b, env.dup2Fails a b = false) (hw : ∀ t, env.warn t = t) (cs : List Nat)
    (t : FdTable) (child : Option Nat) (p i k : Nat) (hp : t p ≠ none) (hs : Spec.Spare t cs (k + 1)) :
    ∃ r, ensureNoFdConflict env cs t child p i = some r ∧ Spec.Spare r.1 cs k := by
  obtain ⟨free, hnd, hlen, hfree⟩ := hs
  have keep : ∀ f : Nat, ∀ o, Spec.Spare (t.set f o) cs k := by
    intro f o
    refine ⟨(free.filter (· ≠ f)).take k, (hnd.filter _).sublist (List.take_sublist _ _), ?_, ?_⟩
    · rw [List.length_take]
      have : k ≤ (free.filter (· ≠ f)).length := by
        have h1 := List.length_eq_length_filter_add (l := free) (fun x => decide (x ≠ f))
        have h2 : (free.filter (fun x => !decide (x ≠ f))).length ≤ 1 := by
          have hsub : (free.filter (fun x => !decide (x ≠ f))).Nodup := hnd.filter _
          match hl : free.filter (fun x => !decide (x ≠ f)) with
          | [] => simp
          | [_] => simp
          | a :: b :: l =>
            rw [hl] at hsub
            have ha : a ∈ free.filter (fun x => !decide (x ≠ f)) := by rw [hl]; simp
            have hb : b ∈ free.filter (fun x => !decide (x ≠ f)) := by rw [hl]; simp
            simp only [List.mem_filter, Bool.not_eq_true', decide_eq_false_iff_not, not_not, ne_eq] at ha hb
            rw [ha.2, hb.2] at hsub
            simp at hsub
        omega
      omega
    · intro n hn
      have hn' := (List.mem_filter.mp ((List.take_sublist _ _).subset hn))
      simp only [ne_eq, decide_eq_true_eq] at hn'
      obtain ⟨h1, h2, h3⟩ := hfree n hn'.1
      exact ⟨h1, h2, by simp [FdTable.set, hn'.2, h3]⟩
  have drop : Spec.Spare t cs k :=
    ⟨free.take k, hnd.sublist (List.take_sublist _ _), by rw [List.length_take]; omega,
      fun n hn => hfree n ((List.take_sublist _ _).subset hn)⟩
  obtain ⟨m, hm⟩ : ∃ m, m ∈ free := by
    cases free with
    | nil => simp at hlen
    | cons a l => exact ⟨a, by simp⟩
  obtain ⟨h1, h2, h3⟩ := hfree m hm
  obtain ⟨fd, hfd⟩ := findUnused_some cs t 1023 m h1 h2 h3
  unfold ensureNoFdConflict
  split
  · exact ⟨_, rfl, drop⟩
  · have hdup : ∀ fd, ∃ r, (match dup2 env t p fd with | none => none | some t => some (env.warn t, fd)) = some r ∧ Spec.Spare r.1 cs k := by
      intro fd
      unfold dup2
      cases hf : t p with
      | none => exact absurd hf hp
      | some f =>
        simp only [hd, Bool.false_eq_true, if_false]
        by_cases he : p = fd
        · rw [if_pos he]; exact ⟨_, rfl, by rw [hw]; exact drop⟩
        · rw [if_neg he]; exact ⟨_, rfl, by rw [hw]; exact keep _ _⟩
    cases child with
    | none => simp only [hfd]; exact hdup fd
    | some c =>
      by_cases ho : fdIsOpen t c = true
      · simp only [ho, if_true, hfd]; exact hdup fd
      · simp only [ho, if_false, Bool.false_eq_true]; exact hdup c

private theorem spare_avoid (env : FdEnv) (hd : ∀ a b, env.dup2Fails a b = false) (hw : ∀ t, env.warn t = t) (cs : List Nat)
    (t : FdTable) (ps : List (Option Nat)) (k : Nat) (hp : ∀ p, some p ∈ ps → t p ≠ none) (hs : Spec.Spare t cs (k + ps.length)) :
    ∃ r, avoidPipeConflicts env cs t ps = some r ∧ Spec.Spare r.1 cs k := by
  induction ps generalizing t with
  | nil => exact ⟨_, rfl, hs⟩
  | cons q ps ih =>
    cases q with
    | none =>
      obtain ⟨free, hnd, hlen, hfree⟩ := hs
      obtain ⟨r, hr, hs'⟩ := ih t (fun p hm => hp p (by simp [hm]))
        ⟨free.take (k + ps.length), hnd.sublist (List.take_sublist _ _), by
          rw [List.length_take]; simp at hlen; omega, fun n hn => hfree n ((List.take_sublist _ _).subset hn)⟩
      exact ⟨(r.1, none :: r.2), by simp only [avoidPipeConflicts, hr], hs'⟩
    | some p =>
      obtain ⟨⟨t1, p1⟩, hr, hs'⟩ := spare_ensure env hd hw cs t none p cs.length (k + ps.length) (hp p (by simp)) hs
      have hsafe : Spec.LogSafe env := fun t n _ => by rw [hw]
      obtain ⟨f, hf⟩ := Option.ne_none_iff_exists'.mp (hp p (by simp))
      have hg := (ensure_spec env hsafe cs t t1 none p p1 cs.length f hf hr).1
      obtain ⟨r, hr2, hs2⟩ := ih t1 (fun q hm => by
        have := hp q (by simp [hm])
        rw [hg q this]; exact this) hs'
      exact ⟨(r.1, some p1 :: r.2), by simp only [avoidPipeConflicts, hr, hr2], hs2⟩

private theorem spare_prepare (env : FdEnv) (hd : ∀ a b, env.dup2Fails a b = false) (hw : ∀ t, env.warn t = t) (cs : List Nat)
    (t : FdTable) (es : List FdMap) (pre : List Nat) (k : Nat) (hcs : cs = pre ++ es.map (·.child)) (hnd : cs.Nodup)
    (hp : ∀ e ∈ es, t e.parent ≠ none) (hs : Spec.Spare t cs (k + es.length)) :
    ∃ r, prepareFrom env cs t pre.length es = some r ∧ Spec.Spare r.1 cs k := by
  induction es generalizing t pre with
  | nil => exact ⟨_, rfl, hs⟩
  | cons e es ih =>
    obtain ⟨⟨t1, p1⟩, hr, hs'⟩ := spare_ensure env hd hw cs t (some e.child) e.parent pre.length (k + es.length) (hp e (by simp)) hs
    have hsafe : Spec.LogSafe env := fun t n _ => by rw [hw]
    obtain ⟨f, hf⟩ := Option.ne_none_iff_exists'.mp (hp e (by simp))
    have hg := (ensure_spec env hsafe cs t t1 (some e.child) e.parent p1 pre.length f hf hr).1
    obtain ⟨r, hr2, hs2⟩ := ih t1 (pre ++ [e.child]) (by rw [hcs]; simp) (fun q hm => by
        have := hp q (by simp [hm])
        rw [hg q.parent this]; exact this) hs'
    rw [List.length_append] at hr2
    refine ⟨(r.1, ⟨p1, e.child⟩ :: r.2), ?_, hs2⟩
    unfold prepareFrom
    rw [if_neg, hr]
    · simp only
      rw [show prepareFrom env cs t1 (pre.length + 1) es = some r from hr2]
    · rw [isPreservedChildFd_iff]
      rw [hcs, List.nodup_append] at hnd
      intro hm
      rw [hcs, List.take_append_of_le_length (Nat.le_refl _), List.take_length] at hm
      exact hnd.2.2 _ hm _ (by simp) rfl

private theorem redirectDup_some (env : FdEnv) (hd : ∀ a b, env.dup2Fails a b = false) (t : FdTable) (es : List FdMap)
    (hp : ∀ e ∈ es, t e.parent ≠ none) : ∃ t', redirectDup env t es = some t' := by
  induction es generalizing t with
  | nil => exact ⟨_, rfl⟩
  | cons e es ih =>
    have grow : ∀ f : OpenFile, ∀ x ∈ es, (t.set e.child (some f)) x.parent ≠ none := by
      intro f x hx
      by_cases h : x.parent = e.child
      · simp [FdTable.set, h]
      · simp only [FdTable.set, h, if_false]; exact hp x (by simp [hx])
    unfold redirectDup
    obtain ⟨f, hf⟩ := Option.ne_none_iff_exists'.mp (hp e (by simp))
    split
    · rename_i heq
      rw [← heq, hf]
      simp only
      rw [heq]
      exact ih _ (grow _)
    · rename_i hne
      unfold dup2
      rw [hf]
      simp only [hd, Bool.false_eq_true, if_false, hne]
      exact ih _ (grow _)

/-- **C22**, success: when the kernel refuses no `dup2`, logging opens nothing, the child fds are distinct and enough numbers are
unused, setting up descriptors does succeed. -/
theorem C22_succeeds (env : FdEnv) (hd : ∀ a b, env.dup2Fails a b = false) (hw : ∀ t, env.warn t = t) (t0 : FdTable)
    (es : List FdMap) (pipes : List (Option Nat)) (elf : Option Nat) (hnd : (es.map (·.child)).Nodup)
    (hopen : ∀ e ∈ es, t0 e.parent ≠ none) (hpipe : ∀ p, some p ∈ pipes → t0 p ≠ none) (helf : ∀ p, elf = some p → t0 p ≠ none)
    (hs : Spec.Spare t0 (es.map (·.child)) (1 + pipes.length + es.length)) :
    ∃ r, setupChildFds env t0 es pipes elf = some r := by
  have hsafe : Spec.LogSafe env := fun t n _ => by rw [hw]
  obtain ⟨⟨t1, es'⟩, h1, hs1⟩ := spare_prepare env hd hw (es.map (·.child)) t0 es [] _ (by simp) hnd hopen hs
  obtain ⟨hg1, hfa, -⟩ := prepare_spec env hsafe _ t0 t0 t1 Grows.rfl' es es' [] (List.nil_append _).symm hopen h1
  have hcs : es'.map (·.child) = es.map (·.child) := fds_children_eq hfa fun _ _ h => h.1
  have open1 : ∀ n, t0 n ≠ none → t1 n ≠ none := fun n hn => by rw [hg1 n hn]; exact hn
  obtain ⟨⟨t2, pipes'⟩, h2, hs2⟩ := spare_avoid env hd hw (es.map (·.child)) t1 pipes 1 (fun p hp => open1 p (hpipe p hp)) hs1
  have hg2 := (avoid_spec env hsafe _ t0 t1 t2 hg1 pipes pipes' hpipe h2).1
  cases elf with
  | none =>
    obtain ⟨t4, h4⟩ := redirectDup_some env hd t2 es' (fun e' he' => by
      obtain ⟨e, -, -, ⟨f, g, hf, -⟩, -⟩ := fds_forall₂_mem_right hfa he'
      rw [hg2 _ (by rw [hf]; simp), hf]; simp)
    refine ⟨⟨redirectClose (es.map (·.child)) t4 es', pipes', none⟩, ?_⟩
    unfold setupChildFds preparePreservedFds
    rw [show prepareFrom env (es.map (·.child)) t0 0 es = some (t1, es') from h1]
    simp only [hcs, h2, redirectFds, h4]
  | some p =>
    have hp : t2 p ≠ none := by
      rw [(hg1.trans hg2) p (helf p rfl)]; exact helf p rfl
    obtain ⟨⟨t3, p'⟩, hr, -⟩ := spare_ensure env hd hw (es.map (·.child)) t2 none p (es.map (·.child)).length 0 hp hs2
    obtain ⟨f, hf⟩ := Option.ne_none_iff_exists'.mp hp
    have hg3 := (ensure_spec env hsafe _ t2 t3 none p p' _ f hf hr).1
    obtain ⟨t4, h4⟩ := redirectDup_some env hd t3 es' (fun e' he' => by
      obtain ⟨e, -, -, ⟨f, g, hf, -⟩, -⟩ := fds_forall₂_mem_right hfa he'
      rw [(hg2.trans hg3) _ (by rw [hf]; simp), hf]; simp)
    refine ⟨⟨redirectClose (es.map (·.child)) t4 es', pipes', some p'⟩, ?_⟩
    unfold setupChildFds preparePreservedFds
    rw [show prepareFrom env (es.map (·.child)) t0 0 es = some (t1, es') from h1]
    simp only [hcs, h2, hr, redirectFds, h4, Option.map_some]

/-- **C22 does not hold** for a program given by descriptor that is also preserved under another number: the descriptor is
closed before the program is executed (libminijail.c:3333-3335). -/
theorem C22_elf_violated : ∃ (env : FdEnv) (t0 : FdTable) (es : List FdMap) (p : Nat) (r : ChildFds), Spec.LogSafe env ∧
    t0 p ≠ none ∧ (∀ e ∈ es, t0 e.parent ≠ none) ∧ setupChildFds env t0 es [] (some p) = some r ∧ r.elf = some p ∧ r.table p = none :=
  ⟨⟨fun _ _ => false, id⟩, fun n => if n = 3 then some ⟨7, false⟩ else none, [⟨3, 5⟩], 3, _, fun _ _ _ => rfl,
    by decide, by decide, rfl, rfl, rfl⟩

/-- The descriptors in the examples: 0 to 6 are open, as files 100 to 106, with close-on-exec set from 3 on. -/
def exampleTable22 : FdTable := fun n => if n ≤ 6 then some ⟨100 + n, decide (3 ≤ n)⟩ else none

/-- The hypotheses are met: a cycle of three, a number kept, and a conflict with a pipe. -/
example : (∀ e ∈ [(⟨3, 4⟩ : FdMap), ⟨4, 0⟩, ⟨0, 3⟩, ⟨1, 1⟩, ⟨2, 5⟩], exampleTable22 e.parent ≠ none) ∧
    (match setupChildFds ⟨fun _ _ => false, id⟩ exampleTable22 [⟨3, 4⟩, ⟨4, 0⟩, ⟨0, 3⟩, ⟨1, 1⟩, ⟨2, 5⟩] [some 5, some 6] none with
    | none => none
    | some r => some ([0, 1, 2, 3, 4, 5, 6, 1023, 1022, 1021].map r.table, r.pipes)) =
    some ([some ⟨104, false⟩, some ⟨101, false⟩, none, some ⟨100, false⟩, some ⟨103, false⟩, some ⟨102, false⟩, some ⟨106, true⟩,
      none, none, some ⟨105, false⟩], [some 1021, some 6]) := by
  decide +kernel

example : Spec.Spare exampleTable22 [4, 0, 3, 1, 5] 8 :=
  ⟨[7, 8, 9, 10, 11, 12, 13, 14], by decide, rfl, by decide⟩

end Minijail
