import Verif.Proof.OfflineTree
/-! Helper lemmas: the whole program. -/
set_option autoImplicit false
set_option linter.unusedSimpArgs false
namespace Minijail.Offline
open Minijail.Spec

/-- The numbers of the visited blocks are those of basic blocks. -/
def Basics (H : Block → Prop) (s : Flat) : Prop := ∀ i ∈ s.visited, ∃ b, Leaf H b ∧ b.id = i

theorem basic_visited {archNr : Nat} {kill : Action} {H : Block → Prop} {b : Block} (hb : Leaf H b) {s s' : Flat} (h : flatAccept archNr kill b s = some s') (hs : Basics H s) : Basics H s' := by
  obtain ⟨h0, i, act, l, rfl⟩ := hb
  simp only [flatAccept] at h
  split at h
  · simp only [Option.some.injEq] at h; subst h; exact hs
  · obtain ⟨-, l', -, e⟩ := visit_shape h
    subst e
    intro j hj
    rcases List.mem_cons.1 hj with rfl | hj
    · exact ⟨_, ⟨h0, _, _, _, rfl⟩, rfl⟩
    · exact hs j hj

theorem forwardAccept_inv {d : SeccompData} {H : Block → Prop} {n : Nat} (hh : Heap (Code d) H n) {archNr : Nat} {kill : Action} (b : Block) {x x' : List Nat × Flat} (hb : H b)
    (h : forwardAccept archNr kill b x = some x') (hi : FInv d H x.2) (hv : Basics H x.2) : FInv d H x'.2 ∧ Basics H x'.2 := by
  induction b generalizing x x' with
  | basic i act l =>
    obtain ⟨vis, s⟩ := x
    simp only [forwardAccept] at h
    split at h
    · simp only [Option.some.injEq] at h; subst h; exact ⟨hi, hv⟩
    · split at h
      · simp only [Option.some.injEq] at h; subst h; exact ⟨hi, hv⟩
      · obtain ⟨s1, h1, h⟩ := Option.bind_eq_some_iff.1 h
        simp only [Option.pure_def, Option.some.injEq] at h
        subst h
        exact ⟨flatAccept_inv hh _ hb h1 hi, basic_visited ⟨hb, _, _, _, rfl⟩ h1 hv⟩
  | validateArch i b ih => exact (hh.node _ hb).elim
  | atom i arg op v jt jf => exact (hh.node _ hb).elim
  | syscallEntry i op nr jt jf ih1 ih2 =>
    obtain ⟨vis, s⟩ := x
    simp only [forwardAccept] at h
    split at h
    · simp only [Option.some.injEq] at h; subst h; exact ⟨hi, hv⟩
    · obtain ⟨s1, h1, h⟩ := Option.bind_eq_some_iff.1 h
      obtain ⟨k1, k2⟩ := ih1 (hh.closed _ hb).1 h1 hi hv
      exact ih2 (hh.closed _ hb).2 h k1 k2
  | wideAtom i off op v jt jf ih1 ih2 =>
    obtain ⟨vis, s⟩ := x
    simp only [forwardAccept] at h
    split at h
    · simp only [Option.some.injEq] at h; subst h; exact ⟨hi, hv⟩
    · obtain ⟨s1, h1, h⟩ := Option.bind_eq_some_iff.1 h
      obtain ⟨k1, k2⟩ := ih1 (hh.closed _ hb).1 h1 hi hv
      exact ih2 (hh.closed _ hb).2 h k1 k2

theorem load_arch (d : SeccompData) : d.load false 4 = some d.arch ∧ d.load false 0 = some d.nr := ⟨rfl, rfl⟩

/-- The check of the architecture, before code that begins the program. -/
theorem arch_exec {d : SeccompData} {H : Block → Prop} {archNr : Nat} {kill : Action} {m : Nat} {b : Block} (hb : H b) {s s1 s' : Flat} (h1 : flatAccept archNr kill b { s with visited := m :: s.visited } = some s1)
    (hi : FInv d H s1) (ho : s1.offsets.lookup b.id = some (-(s1.instructions.length : Int))) (hm : m ∉ s.visited) (h : flatAccept archNr kill (.validateArch m b) s = some s') (r : Regs) :
    execN d s'.instructions 0 r = if d.arch.toNat = archNr then sem d b { r with a := d.nr } else .ret (actionWord kill) := by
  simp only [flatAccept] at h
  rw [if_neg hm, h1] at h
  simp only [Option.bind_eq_bind, Option.bind_some] at h
  obtain ⟨-, l, hl, e⟩ := visit_shape h
  subst e
  have hd : s1.distance b = some 0 := by
    unfold Flat.distance
    rw [ho]
    simp only [Option.bind_eq_bind, Option.bind_some]
    rw [if_pos (by omega), show -(s1.instructions.length : Int) + s1.instructions.length = 0 by omega]
    rfl
  simp only [flatInstructions, hd, Option.bind_eq_bind, Option.bind_some, Option.pure_def, Option.some.injEq] at hl
  subst hl
  dsimp only
  have hx := distance_exec hi hb hd { r with a := d.nr }
  obtain ⟨w, e1, e2⟩ := action_word kill
  simp only [e1, List.cons_append, List.nil_append]
  rw [execN_load (load_arch d).1, execN_cond]
  unfold branch
  by_cases hc : jumpTest .jeq d.arch.toNat archNr
  · rw [if_pos hc, if_pos (show d.arch.toNat = archNr from hc), execN_succ, execN_load (load_arch d).2, ← hx]
  · rw [if_neg hc, if_neg (show ¬ d.arch.toNat = archNr from hc), execN_ret, e2]

theorem act_code (d : SeccompData) (a : ActObj) : Code d a.block := by
  obtain ⟨w, h0, h1, -⟩ := action_small a.act
  refine ⟨?_, fun r => ?_, fun _ => ?_, by rw [h1]; exact done_ret w⟩
  · rw [h1, execN_ret]; simp
  · rw [h1, execN_ret, execN_ret]
  · rw [h1]; exact ret_fits h0

theorem act_lv (d : SeccompData) (a : ActObj) : lv d a.block = .ret (actionWord a.act) := by
  obtain ⟨w, h1, h2⟩ := action_word a.act
  rw [lv, show a.block.instructions = a.act.instructions from rfl, h1, execN_ret, h2]

theorem forall2_mem {α β : Type} {R : α → β → Prop} {l : List α} {m : List β} (h : List.Forall₂ R l m) {b : β} (hb : b ∈ m) : ∃ a ∈ l, R a b := by
  induction h with
  | nil => simp at hb
  | cons h _ ih =>
    rcases List.mem_cons.1 hb with rfl | hb
    · exact ⟨_, List.mem_cons_self .., h⟩
    · obtain ⟨a, ha, q⟩ := ih hb
      exact ⟨a, List.mem_cons_of_mem _ ha, q⟩

/-- The objects entries refer to. -/
def Leaves (es : List Entry) (accept reject : ActObj) (b : Block) : Prop := (∃ e ∈ es, e.filter = some b) ∨ b = accept.block ∨ b = reject.block

theorem leaves_heap {o : Options} {d : SeccompData} {sts : List FilterStatement} {es : List Entry} {n m : Nat} (h : List.Forall₂ (fun st e => EntryOf o d st e n m) sts es) (hnm : n ≤ m)
    (hp : es.Pairwise (fun e e' => ∀ b b', e.filter = some b → e'.filter = some b' → b.id < b'.id)) {accept reject : ActObj}
    (ha : accept.id < n ∨ accept.id = m) (hr : reject.id < n ∨ reject.id = m) (har : accept.id = reject.id → accept = reject) : Heap (Code d) (Leaves es accept reject) (m + 1) := by
  have E : ∀ e ∈ es, ∀ b, e.filter = some b → ∃ i l, b = .basic i none l ∧ n ≤ i ∧ i < m ∧ Code d b := by
    intro e he b hb
    obtain ⟨st, -, -, -, q | ⟨i, l, q, q1, q2, q4, q5, act, -, q3⟩⟩ := forall2_mem h he
    · rw [q.1] at hb; simp at hb
    · rw [q] at hb
      simp only [Option.some.injEq] at hb
      subst hb
      refine ⟨i, l, rfl, q1, q2, ?_, fun r => ?_, q4, q5⟩
      · rw [q3]; simp
      · rw [q3, q3]
  have A : ∀ a : ActObj, a.block.id = a.id := fun _ => rfl
  refine ⟨?_, ?_, ?_, ?_⟩
  · rintro b (⟨e, he, hb⟩ | rfl | rfl)
    · obtain ⟨i, l, rfl, q1, q2, -⟩ := E e he b hb
      exact Nat.lt_succ_of_lt q2
    · rw [A]; omega
    · rw [A]; omega
  · have X : ∀ e ∈ es, ∀ b, e.filter = some b → ∀ a : ActObj, (a.id < n ∨ a.id = m) → b.id ≠ a.block.id := by
      intro e he b hb a ha
      obtain ⟨i, l, rfl, q1, q2, -⟩ := E e he b hb
      rw [A]
      simp only [Block.id]
      omega
    rintro b c (⟨e, he, hb⟩ | rfl | rfl) (⟨e', he', hc⟩ | rfl | rfl) hq
    · rcases pairwise_mem hp he he' with rfl | q | q
      · rw [hb] at hc; exact Option.some.inj hc
      · have := q b c hb hc; omega
      · have := q c b hc hb; omega
    · exact absurd hq (X e he b hb _ ha)
    · exact absurd hq (X e he b hb _ hr)
    · exact absurd hq.symm (X e' he' c hc _ ha)
    · rfl
    · rw [har hq]
    · exact absurd hq.symm (X e' he' c hc _ hr)
    · rw [har hq.symm]
    · rfl
  · rintro b (⟨e, he, hb⟩ | rfl | rfl)
    · obtain ⟨i, l, rfl, -⟩ := E e he b hb; trivial
    · trivial
    · trivial
  · rintro b (⟨e, he, hb⟩ | rfl | rfl)
    · obtain ⟨i, l, -, -, -, q⟩ := E e he b hb; exact q
    · exact act_code d _
    · exact act_code d _

theorem find_forall2 {α β : Type} {R : α → β → Prop} {l : List α} {m : List β} (h : List.Forall₂ R l m) {p : α → Bool} {q : β → Bool} (hpq : ∀ a b, R a b → p a = q b) :
    (l.find? p = none ∧ m.find? q = none) ∨ ∃ a b, a ∈ l ∧ R a b ∧ l.find? p = some a ∧ m.find? q = some b := by
  induction h with
  | nil => exact .inl ⟨rfl, rfl⟩
  | cons h _ ih =>
    next a b l m _ =>
    rw [List.find?_cons, List.find?_cons, ← hpq _ _ h]
    cases hp : p a with
    | true => exact .inr ⟨_, _, List.mem_cons_self .., h, rfl, rfl⟩
    | false =>
      rcases ih with q | ⟨a', b', q1, q2⟩
      · exact .inl q
      · exact .inr ⟨a', b', List.mem_cons_of_mem _ q1, q2⟩

theorem firstMatch_mem {bits : Nat} {d : SeccompData} {fs : List PFilter} {act : Action} (h : firstMatch bits d fs = some act) : ∃ f ∈ fs, f.action.act = act := by
  induction fs with
  | nil => simp [firstMatch] at h
  | cons f l ih =>
    simp only [firstMatch] at h
    by_cases hc : condition bits d f.expression
    · rw [if_pos hc] at h
      exact ⟨f, List.mem_cons_self .., Option.some.inj h⟩
    · rw [if_neg hc] at h
      obtain ⟨g, hg, q⟩ := ih h
      exact ⟨g, List.mem_cons_of_mem _ hg, q⟩

theorem stmt_objs {o : Options} {p : ParsedPolicy} {st : FilterStatement} (hst : st ∈ p.statements) {f : PFilter} (hf : f ∈ st.filters) : f.action ∈ actObjs o p := by
  refine List.mem_cons_of_mem _ (List.mem_cons_of_mem _ (List.mem_flatMap.2 ⟨st, hst, List.mem_map.2 ⟨f, hf, rfl⟩⟩))

/-- The program does what the policy prescribes. -/
theorem compileFile_exec {o : Options} {p : ParsedPolicy} {n : Nat} (hg : GoodPolicy o p n) (hd : NoDroppedConditions o p) {l : List SockFilter} (h : compileFile o p n = some l) (d : SeccompData) (r : Regs) :
    execN d l 0 r = .ret (actionWord (prescribed o p d)) := by
  unfold compileFile at h
  obtain ⟨x, h1, h⟩ := Option.bind_eq_some_iff.1 h
  obtain ⟨q1, q2, q3⟩ := compileStatements_ok hg.bits d hg.filters hg.objects (fun st hst f hf => stmt_objs hst hf) h1
  have hkill := (hg.objects o.kill (List.mem_cons_self ..)).1
  have hdef := (hg.objects p.defaultAction (List.mem_cons_of_mem _ (List.mem_cons_self ..))).1
  dsimp only at h
  have hrid : (if o.denylist then (⟨x.2, .allow⟩ : ActObj) else p.defaultAction).id < n ∨ (if o.denylist then (⟨x.2, .allow⟩ : ActObj) else p.defaultAction).id = x.2 := by
    split
    · exact .inr rfl
    · exact .inl hdef
  have haid : (if o.denylist then o.kill else (⟨x.2, .allow⟩ : ActObj)).id < n ∨ (if o.denylist then o.kill else (⟨x.2, .allow⟩ : ActObj)).id = x.2 := by
    split
    · exact .inl hkill
    · exact .inr rfl
  have har : (if o.denylist then o.kill else (⟨x.2, .allow⟩ : ActObj)).id = (if o.denylist then (⟨x.2, .allow⟩ : ActObj) else p.defaultAction).id →
      (if o.denylist then o.kill else (⟨x.2, .allow⟩ : ActObj)) = (if o.denylist then (⟨x.2, .allow⟩ : ActObj) else p.defaultAction) := by
    split <;> (intro q; dsimp only at q; omega)
  have hract : (if o.denylist then (⟨x.2, .allow⟩ : ActObj) else p.defaultAction).act = otherwise o p := by
    unfold otherwise
    split <;> rfl
  have haact : o.denylist = false → (if o.denylist then o.kill else (⟨x.2, .allow⟩ : ActObj)).act = .allow := by
    intro q; rw [q]; rfl
  generalize (if o.denylist then (⟨x.2, .allow⟩ : ActObj) else p.defaultAction) = reject at *
  generalize (if o.denylist then o.kill else (⟨x.2, .allow⟩ : ActObj)) = accept at *
  have hh := leaves_heap q2 q1 q3 haid hrid har
  have hrl : Leaf (Leaves x.1 accept reject) reject.block := ⟨.inr (.inr rfl), _, _, _, rfl⟩
  have hal : Leaf (Leaves x.1 accept reject) accept.block := ⟨.inr (.inl rfl), _, _, _, rfl⟩
  have hev : ev d accept.block reject.block x.1 d.nr.toNat = .ret (actionWord (match p.statements.find? (fun st => st.number = d.nr.toNat) with
      | some st => (firstMatch o.bits d st.filters).getD (otherwise o p)
      | none => otherwise o p)) := by
    unfold ev
    rcases find_forall2 q2 (p := fun st => decide (st.number = d.nr.toNat)) (q := fun e => decide (e.number = d.nr.toNat)) (fun st e he => by rw [he.1]) with ⟨e1, e2⟩ | ⟨st, e, e0, ⟨-, -, e3⟩, e1, e2⟩
    · rw [e1, e2]
      dsimp only
      rw [act_lv, hract]
    · rw [e1, e2]
      dsimp only
      rcases e3 with ⟨f1, f2, last, f3, f4⟩ | ⟨i, l, f1, f2, f3, -, -, act, f4, f5⟩
      · rw [f1, fval, Option.getD_none, act_lv, haact f2]
        obtain ⟨init, last', g1, g2, g3⟩ := hg.filters st e0
        have := firstMatch_last (bits := o.bits) (d := d) (init := init) g2
        rw [← g1] at this
        rw [this, Option.getD_some]
        obtain ⟨f, hf, hfa⟩ := firstMatch_mem this
        rw [← hfa, hd f2 st e0 last f3 f4 f hf]
      · rw [f1, fval, Option.getD_some, f4, Option.getD_some, lv]
        exact f5 _
  have fin : ∀ v : Verdict, v = ev d accept.block reject.block x.1 d.nr.toNat → (if d.arch.toNat = o.archNr then v else .ret (actionWord o.kill.act)) = .ret (actionWord (prescribed o p d)) := by
    rintro v rfl
    unfold prescribed
    by_cases hc : d.arch.toNat = o.archNr
    · rw [if_pos hc, if_neg (by simpa using hc), hev]
      rfl
    · rw [if_neg hc, if_pos hc]
  split at h
  · next hnil =>
    obtain ⟨s, s1, h⟩ := Option.bind_eq_some_iff.1 h
    obtain ⟨s', s2, h⟩ := Option.bind_eq_some_iff.1 h
    simp only [Option.pure_def, Option.some.injEq] at h
    subst h
    have hs := flatAccept_inv hh reject.block hrl.1 s1 (finv_new d _)
    have hv := basic_visited hrl s1 (by intro i hi; simp [Flat.new] at hi)
    have hm : x.2 + 1 ∉ s.visited := by
      intro hc
      obtain ⟨b, hb, e⟩ := hv _ hc
      have := hh.lt b hb.1
      omega
    have ho := flatAccept_head reject.block s1 (by simp [Flat.new])
    have hrv : reject.id ∈ s.visited := by
      simp only [ActObj.block, flatAccept] at s1
      rw [if_neg (by simp [Flat.new])] at s1
      obtain ⟨-, l', -, e⟩ := visit_shape s1
      subst e
      exact List.mem_cons_self ..
    rw [arch_exec hrl.1 (s1 := { s with visited := (x.2 + 1) :: s.visited }) (by simp only [ActObj.block, flatAccept]; rw [if_pos (List.mem_cons_of_mem _ hrv)]) (finv_visited hs _) ho hm s2 r]
    refine fin _ ?_
    rw [leaf_sem hh hrl, hnil]
    rfl
  · next hne =>
    obtain ⟨y, y1, h⟩ := Option.bind_eq_some_iff.1 h
    obtain ⟨s, s1, h⟩ := Option.bind_eq_some_iff.1 h
    obtain ⟨t, t1, h⟩ := Option.bind_eq_some_iff.1 h
    obtain ⟨u, u1, h⟩ := Option.bind_eq_some_iff.1 h
    obtain ⟨v, v1, h⟩ := Option.bind_eq_some_iff.1 h
    simp only [Option.pure_def, Option.some.injEq] at h
    subst h
    have hleaf : ∀ e ∈ x.1, Leaf (Leaves x.1 accept reject) (e.filter.getD accept.block) := by
      intro e he
      cases hf : e.filter with
      | none => exact hal
      | some b =>
        obtain ⟨st, -, -, -, q | ⟨i, l, q, -⟩⟩ := forall2_mem q2 he
        · rw [q.1] at hf; simp at hf
        · rw [q] at hf
          simp only [Option.some.injEq] at hf
          subst hf
          exact ⟨.inl ⟨e, he, q⟩, _, _, _, rfl⟩
    have hdist : x.1.Pairwise fun a b => a.number ≠ b.number := by
      have : ∀ {sts : List FilterStatement} {es : List Entry}, List.Forall₂ (fun st e => EntryOf o d st e n x.2) sts es → sts.Pairwise (fun a b => a.number ≠ b.number) →
          es.Pairwise fun a b => a.number ≠ b.number := by
        intro sts es h
        induction h with
        | nil => intro _; exact .nil
        | cons h ht ih =>
          intro hp
          obtain ⟨p1, p2⟩ := List.pairwise_cons.1 hp
          refine List.pairwise_cons.2 ⟨fun e he => ?_, ih p2⟩
          obtain ⟨st, hst, w, -⟩ := forall2_mem ht he
          rw [h.1, w]
          exact p1 st hst
      exact this q2 hg.distinct
    have hlt : ∀ e ∈ x.1, e.number < 2 ^ 32 - 1 := by
      intro e he
      obtain ⟨st, hst, w, -⟩ := forall2_mem q2 he
      rw [w]
      exact hg.small st hst
    obtain ⟨H', g1, g2, g3, g4⟩ := entries_ok hh hrl hne hleaf hdist hlt y1
    obtain ⟨k1, k2⟩ := forwardAccept_inv g1.2.2 y.1 g2 s1 (finv_new d _) (by intro i hi; simp [Flat.new] at hi)
    have k3 := flatAccept_inv g1.2.2 _ (hrl.mono g1.2.1).1 t1 k1
    have k4 := basic_visited (hrl.mono g1.2.1) t1 k2
    have k5 := flatAccept_inv g1.2.2 _ (hal.mono g1.2.1).1 u1 k3
    have k6 := basic_visited (hal.mono g1.2.1) u1 k4
    have hm : y.2 ∉ u.visited := by
      intro hc
      obtain ⟨b, hb, e⟩ := k6 _ hc
      have := g1.2.2.lt b hb.1
      omega
    have hy : y.1.id ∉ y.2 :: u.visited := by
      intro hc
      rcases List.mem_cons.1 hc with e | hc
      · have := g1.2.2.lt y.1 g2; omega
      · obtain ⟨b, ⟨hb, i, act, l, e'⟩, e⟩ := k6 _ hc
        have := g1.2.2.inj b y.1 hb g2 e
        obtain ⟨i', op, nr, jt, jf, e''⟩ := g3
        rw [e', e''] at this
        simp at this
    cases hz : flatAccept o.archNr o.kill.act y.1 { u with visited := y.2 :: u.visited } with
    | none =>
      simp only [flatAccept] at v1
      rw [if_neg hm, hz] at v1
      simp at v1
    | some w =>
      have ho := flatAccept_head y.1 hz hy
      have hw := flatAccept_inv g1.2.2 _ g2 hz (finv_visited k5 _)
      rw [arch_exec g2 hz hw ho hm v1 r]
      exact fin _ (g4 _)

end Minijail.Offline
