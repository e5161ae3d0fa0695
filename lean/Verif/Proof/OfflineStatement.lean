import Verif.Proof.OfflineFilter
import Mathlib.Data.List.Forall2
/-! Helper lemmas: the entries of the statements. -/
set_option autoImplicit false
set_option linter.unusedSimpArgs false
namespace Minijail.Offline
open Minijail.Spec

theorem allow_instructions {a : Action} (h : a.instructions = Action.allow.instructions) : a = .allow := by
  cases a with
  | returnErrno e =>
    exfalso
    obtain ⟨w, h1, h2⟩ := action_word (.returnErrno e)
    rw [h1] at h
    simp only [Action.instructions, List.cons.injEq, SockFilter.mk.injEq, and_true, true_and] at h
    subst h
    have := congrArg BitVec.toNat h2
    simp only [actionWord, BitVec.toNat_ofNat] at this
    omega
  | _ => first | rfl | (simp [Action.instructions] at h)

/-- The action objects among the blocks. -/
def Acts (l : List ActObj) (b : Block) : Prop := ∃ a ∈ l, b = a.block

theorem acts_heap {l : List ActObj} {n : Nat} (h : ∀ a ∈ l, a.id < n ∧ ∀ b ∈ l, a.id = b.id → a = b) (Q : Block → Prop) (hq : ∀ a : ActObj, Q a.block) : Heap Q (Acts l) n := by
  refine ⟨?_, ?_, ?_, ?_⟩
  · rintro b ⟨a, ha, rfl⟩; exact (h a ha).1
  · rintro b c ⟨a, ha, rfl⟩ ⟨a', ha', rfl⟩ e
    rw [(h a ha).2 a' ha' e]
  · rintro b ⟨a, ha, rfl⟩; trivial
  · rintro b ⟨a, ha, rfl⟩; exact hq a

theorem act_tree (bits : Nat) (a : ActObj) : Tree bits a.block := by
  obtain ⟨w, h0, h1, -⟩ := action_small a.act
  exact ⟨w, h0, h1⟩

theorem firstMatch_last {bits : Nat} {d : SeccompData} {init : List PFilter} {last : PFilter} (h : last.expression = none) :
    firstMatch bits d (init ++ [last]) = some ((firstMatch bits d init).getD last.action.act) := by
  induction init with
  | nil => simp [firstMatch, h, condition]
  | cons f l ih =>
    simp only [List.cons_append, firstMatch]
    by_cases hc : condition bits d f.expression
    · rw [if_pos hc, if_pos hc]; rfl
    · rw [if_neg hc, if_neg hc]; exact ih

/-- What the entry of a statement is. -/
def EntryOf (o : Options) (d : SeccompData) (st : FilterStatement) (e : Entry) (n m : Nat) : Prop :=
  e.number = st.number ∧ e.frequency = st.frequency ∧
    ((e.filter = none ∧ o.denylist = false ∧ ∃ last, st.filters.getLast? = some last ∧ last.action.act = .allow) ∨
      ∃ i l, e.filter = some (.basic i none l) ∧ n ≤ i ∧ i < m ∧ (l.length < 2 ^ 32 → ∀ i ∈ l, Fits i) ∧ Done l ∧ ∃ act, firstMatch o.bits d st.filters = some act ∧ ∀ r, execN d l 0 r = .ret (actionWord act))

theorem lower_next {bits : Nat} {b : Block} {n : Nat} {x : Block × Nat} (h : lower bits b n = some x) : n ≤ x.2 := by
  unfold lower at h
  obtain ⟨s, h1, h⟩ := Option.bind_eq_some_iff.1 h
  obtain ⟨c, h2, h⟩ := Option.bind_eq_some_iff.1 h
  simp only [Option.pure_def, Option.some.injEq] at h
  subst h
  exact lowerAccept_next _ h1

theorem compileFilterStatement_ok {o : Options} (hbits : o.bits = 32 ∨ o.bits = 64) (d : SeccompData) {st : FilterStatement} (hg : GoodFilters o.bits st.filters)
    {objs : List ActObj} {n : Nat} (ho : ∀ a ∈ objs, a.id < n ∧ ∀ b ∈ objs, a.id = b.id → a = b) (hs : ∀ f ∈ st.filters, f.action ∈ objs) {x : Entry × Nat}
    (h : compileFilterStatement o.bits o.archNr o.kill.act o.denylist st n = some x) : n ≤ x.2 ∧ EntryOf o d st x.1 n x.2 := by
  obtain ⟨init, last, hf, hl, hi⟩ := hg
  have hlast : st.filters.getLast? = some last := by rw [hf]; simp
  have hdrop : st.filters.dropLast = init := by rw [hf]; simp
  unfold compileFilterStatement at h
  obtain ⟨l', hl', h⟩ := Option.bind_eq_some_iff.1 h
  rw [hlast] at hl'
  simp only [Option.some.injEq] at hl'
  subst hl'
  split at h
  · next hc =>
    simp only [Option.pure_def, Option.some.injEq] at h
    subst h
    refine ⟨Nat.le_refl _, rfl, rfl, .inl ⟨rfl, ?_, last, hlast, allow_instructions hc.2⟩⟩
    simpa using hc.1
  · obtain ⟨x1, h1, h⟩ := Option.bind_eq_some_iff.1 h
    obtain ⟨y, h2, h⟩ := Option.bind_eq_some_iff.1 h
    obtain ⟨s, h3, h⟩ := Option.bind_eq_some_iff.1 h
    simp only [Option.pure_def, Option.some.injEq] at h
    subst h
    rw [hdrop] at h1
    obtain ⟨x2, k1, k2, H', k3, k4, k5, k6⟩ := filterChain_builds hbits d init hi (acts_heap ho (Tree o.bits) (act_tree o.bits)) (last := last.action)
      ⟨_, hs last (by rw [hf]; simp), rfl⟩ (fun f hf' => ⟨_, hs f (by rw [hf]; simp [hf']), rfl⟩)
    rw [h1] at k1
    simp only [Option.some.injEq] at k1
    subst k1
    have hn := lower_next h2
    obtain ⟨G, g1, g2, g3⟩ := lower_sem (d := d) hbits k4 k5 (b' := y.1) (m' := y.2) h2
    refine ⟨?_, rfl, rfl, .inr ⟨y.2, s.instructions, rfl, ?_, Nat.lt_succ_self _, flatAccept_fits g1 y.1 g2 h3 (finv_new d _) (by intro _ i hi; simp [Flat.new] at hi), (flatAccept_sound g1 y.1 g2 h3 sinv_new).done ?_, (firstMatch o.bits d init).getD last.action.act, ?_, fun r => ?_⟩⟩
    · dsimp only; omega
    · omega
    · intro hn
      have ho := flatAccept_head y.1 h3 (by simp [Flat.new])
      obtain ⟨k, q1, q2, -⟩ := (flatAccept_sound g1 y.1 g2 h3 sinv_new).offs _ _ ho
      rw [hn, List.length_nil] at q2
      omega
    · rw [hf]; exact firstMatch_last hl
    · rw [flat_new g1 y.1 g2 h3 r, g3 r, k6]

theorem EntryOf.mono {o : Options} {d : SeccompData} {st : FilterStatement} {e : Entry} {n m n' m' : Nat} (h : EntryOf o d st e n m) (h1 : n' ≤ n) (h2 : m ≤ m') : EntryOf o d st e n' m' := by
  obtain ⟨a, b, c⟩ := h
  refine ⟨a, b, c.imp id ?_⟩
  rintro ⟨i, l, q1, q2, q3, q4⟩
  exact ⟨i, l, q1, by omega, by omega, q4⟩

theorem compileStatements_ok {o : Options} (hbits : o.bits = 32 ∨ o.bits = 64) (d : SeccompData) {sts : List FilterStatement} (hg : ∀ st ∈ sts, GoodFilters o.bits st.filters)
    {objs : List ActObj} {n : Nat} (ho : ∀ a ∈ objs, a.id < n ∧ ∀ b ∈ objs, a.id = b.id → a = b) (hs : ∀ st ∈ sts, ∀ f ∈ st.filters, f.action ∈ objs) {x : List Entry × Nat}
    (h : compileStatements o sts n = some x) : n ≤ x.2 ∧ List.Forall₂ (fun st e => EntryOf o d st e n x.2) sts x.1 ∧
      x.1.Pairwise (fun e e' => ∀ b b', e.filter = some b → e'.filter = some b' → b.id < b'.id) := by
  induction sts generalizing n x with
  | nil =>
    simp only [compileStatements, Option.some.injEq] at h
    subst h
    exact ⟨Nat.le_refl _, .nil, .nil⟩
  | cons st sts ih =>
    simp only [compileStatements] at h
    obtain ⟨y, h1, h⟩ := Option.bind_eq_some_iff.1 h
    obtain ⟨z, h2, h⟩ := Option.bind_eq_some_iff.1 h
    simp only [Option.pure_def, Option.some.injEq] at h
    subst h
    obtain ⟨k1, k2⟩ := compileFilterStatement_ok hbits d (hg st (List.mem_cons_self ..)) ho (hs st (List.mem_cons_self ..)) h1
    obtain ⟨j1, j2, j3⟩ := ih (fun st h => hg st (List.mem_cons_of_mem _ h)) (fun a ha => ⟨Nat.lt_of_lt_of_le (ho a ha).1 k1, (ho a ha).2⟩)
      (fun st h => hs st (List.mem_cons_of_mem _ h)) h2
    refine ⟨Nat.le_trans k1 j1, .cons (k2.mono (Nat.le_refl _) j1) (j2.imp fun _ _ h => h.mono k1 (Nat.le_refl _)), List.pairwise_cons.2 ⟨?_, j3⟩⟩
    intro e' he' b b' hb hb'
    obtain ⟨-, -, q | ⟨i, l, q, -, q2, -⟩⟩ := k2
    · rw [q.1] at hb; simp at hb
    · rw [q] at hb
      simp only [Option.some.injEq] at hb
      subst hb
      have : ∀ {a : List FilterStatement} {b : List Entry}, List.Forall₂ (fun st e => EntryOf o d st e y.2 z.2) a b → ∀ e ∈ b, ∃ st, EntryOf o d st e y.2 z.2 := by
        intro a b h
        induction h with
        | nil => simp
        | cons h _ ih =>
          intro e he
          rcases List.mem_cons.1 he with rfl | he
          · exact ⟨_, h⟩
          · exact ih e he
      obtain ⟨st', -, -, w | ⟨i', l', w, w1, -⟩⟩ := this j2 e' he'
      · rw [w.1] at hb'; simp at hb'
      · rw [w] at hb'
        simp only [Option.some.injEq] at hb'
        subst hb'
        simp only [Block.id]
        omega

end Minijail.Offline
