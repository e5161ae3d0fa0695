import Verif.Proof.OfflineFile
/-! Helper lemmas: the compiler raises no exception. -/
set_option autoImplicit false
set_option linter.unusedSimpArgs false
namespace Minijail.Offline
open Minijail.Spec

/-- A measure of blocks. -/
def Block.size : Block → Nat
  | .basic _ _ _ => 0
  | .validateArch _ b => b.size + 1
  | .syscallEntry _ _ _ jt jf => jt.size + jf.size + 1
  | .wideAtom _ _ _ _ jt jf => jt.size + jf.size + 1
  | .atom _ _ _ _ jt jf => jt.size + jf.size + 1

/-- The blocks that were visited have offsets, except those in `U`. -/
structure TInv (U : List Nat) (s : Flat) : Prop where
  done : ∀ i ∈ s.visited, (s.offsets.lookup i).isSome = true ∨ i ∈ U
  only : ∀ i, (s.offsets.lookup i).isSome = true → i ∈ s.visited ∧ i ∉ U
  valid : ∀ i off, s.offsets.lookup i = some off → ∃ n, n ≤ s.instructions.length ∧ off = -(n : Int)

theorem tinv_new : TInv [] Flat.new := ⟨by simp [Flat.new], by simp [Flat.new], by simp [Flat.new]⟩

theorem TInv.distance {U : List Nat} {s : Flat} (h : TInv U s) {b : Block} (hb : (s.offsets.lookup b.id).isSome = true) : ∃ n, s.distance b = some n := by
  obtain ⟨off, ho⟩ := Option.isSome_iff_exists.1 hb
  obtain ⟨n, hn, rfl⟩ := h.valid _ _ ho
  unfold Flat.distance
  rw [ho]
  simp only [Option.bind_eq_bind, Option.bind_some]
  rw [if_pos (by omega)]
  exact ⟨_, rfl⟩

theorem TInv.begin {U : List Nat} {s : Flat} (h : TInv U s) {i : Nat} (hi : i ∉ s.visited) : TInv (i :: U) { s with visited := i :: s.visited } := by
  refine ⟨fun j hj => ?_, fun j hj => ?_, h.valid⟩
  · rcases List.mem_cons.1 hj with rfl | hj
    · exact .inr (List.mem_cons_self ..)
    · exact (h.done j hj).imp id (List.mem_cons_of_mem _)
  · obtain ⟨q1, q2⟩ := h.only j hj
    refine ⟨List.mem_cons_of_mem _ q1, fun hc => ?_⟩
    rcases List.mem_cons.1 hc with rfl | hc
    · exact hi q1
    · exact q2 hc

theorem TInv.finish {U : List Nat} {archNr : Nat} {kill : Action} {s : Flat} {b : Block} (h : TInv (b.id :: U) s) (hv : b.id ∈ s.visited) (hU : b.id ∉ U) {l : List SockFilter}
    (hl : flatInstructions archNr kill s b = some l) :
    ∃ s', s.visit archNr kill b = some s' ∧ TInv U s' ∧ (s'.offsets.lookup b.id).isSome = true ∧ (∀ i, (s.offsets.lookup i).isSome = true → (s'.offsets.lookup i).isSome = true) ∧ s'.visited = s.visited := by
  have hn : (s.offsets.lookup b.id).isSome = false := by
    by_contra hc
    exact (h.only b.id (by simpa using hc)).2 (List.mem_cons_self ..)
  refine ⟨{ s with instructions := l ++ s.instructions, offsets := (b.id, -(Int.ofNat (l ++ s.instructions).length)) :: s.offsets }, ?_, ?_, ?_, ?_, rfl⟩
  · unfold Flat.visit
    rw [if_neg (by rw [hn]; simp), hl]
    rfl
  · refine ⟨fun j hj => ?_, fun j hj => ?_, fun j off hj => ?_⟩
    · simp only [List.lookup_cons]
      rcases h.done j hj with q | q
      · left
        split
        · rfl
        · exact q
      · rcases List.mem_cons.1 q with rfl | q
        · left; simp
        · exact .inr q
    · simp only [List.lookup_cons] at hj
      split at hj
      · next hq =>
        have : j = b.id := by simpa using hq
        subst this
        exact ⟨hv, hU⟩
      · obtain ⟨q1, q2⟩ := h.only j hj
        exact ⟨q1, fun hc => q2 (List.mem_cons_of_mem _ hc)⟩
    · simp only [List.lookup_cons] at hj
      split at hj
      · simp only [Option.some.injEq] at hj
        subst hj
        exact ⟨_, Nat.le_refl _, rfl⟩
      · obtain ⟨m, hm, e⟩ := h.valid _ _ hj
        exact ⟨m, by simp; omega, e⟩
  · simp
  · intro j hj
    simp only [List.lookup_cons]
    split
    · rfl
    · exact hj

/-- Accepting the block works. -/
def Accepts (archNr : Nat) (kill : Action) (H : Block → Prop) (b : Block) : Prop :=
  ∀ (U : List Nat) (s : Flat), H b → TInv U s → (∀ i ∈ U, ∀ c, H c → c.id = i → b.size < c.size) →
    ∃ s', flatAccept archNr kill b s = some s' ∧ TInv U s' ∧ (s'.offsets.lookup b.id).isSome = true ∧ (∀ i, (s.offsets.lookup i).isSome = true → (s'.offsets.lookup i).isSome = true) ∧
      ∀ i ∈ s.visited, i ∈ s'.visited

theorem accepts_two {Q H : Block → Prop} {n : Nat} (hh : Heap Q H n) {archNr : Nat} {kill : Action} {b jt jf : Block} (hb : H b) (ht : H jt) (hf : H jf) (st : jt.size < b.size) (sf : jf.size < b.size)
    (a1 : Accepts archNr kill H jt) (a2 : Accepts archNr kill H jf) {U : List Nat} {s : Flat} (hi : TInv U s) (hU : ∀ i ∈ U, ∀ c, H c → c.id = i → b.size < c.size) (hv : b.id ∉ s.visited) :
    ∃ s1 s2, flatAccept archNr kill jt { s with visited := b.id :: s.visited } = some s1 ∧ flatAccept archNr kill jf s1 = some s2 ∧ TInv (b.id :: U) s2 ∧
      (∃ dt, s2.distance jt = some dt) ∧ (∃ df, s2.distance jf = some df) ∧ (∀ i, (s.offsets.lookup i).isSome = true → (s2.offsets.lookup i).isSome = true) ∧
      ∀ i ∈ b.id :: s.visited, i ∈ s2.visited := by
  have hU' : ∀ c : Block, c.size < b.size → ∀ i ∈ b.id :: U, ∀ c', H c' → c'.id = i → c.size < c'.size := by
    intro c hc i hi' c' hc' e
    rcases List.mem_cons.1 hi' with rfl | hi'
    · rw [hh.inj c' b hc' hb e]; exact hc
    · exact Nat.lt_trans hc (hU i hi' c' hc' e)
  obtain ⟨s1, k1, k2, k3, k4, k5⟩ := a1 _ _ ht (hi.begin hv) (hU' jt st)
  obtain ⟨s2, l1, l2, l3, l4, l5⟩ := a2 _ _ hf k2 (hU' jf sf)
  exact ⟨s1, s2, k1, l1, l2, l2.distance (l4 _ k3), l2.distance l3, fun i hi => l4 i (k4 i hi), fun i hi => l5 i (k5 i hi)⟩

theorem flatAccept_total {d : SeccompData} {H : Block → Prop} {n : Nat} (hh : Heap (Code d) H n) (archNr : Nat) (kill : Action) (b : Block) : Accepts archNr kill H b := by
  induction b with
  | validateArch i b ih => exact fun U s hb => (hh.node _ hb).elim
  | atom i arg op v jt jf => exact fun U s hb => (hh.node _ hb).elim
  | basic i act l =>
    intro U s hb hi hU
    have hbU : i ∉ U := fun hc => absurd (hU _ hc _ hb rfl) (Nat.lt_irrefl _)
    simp only [flatAccept]
    by_cases hv : i ∈ s.visited
    · rw [if_pos hv]
      exact ⟨s, rfl, hi, (hi.done _ hv).resolve_right hbU, fun _ h => h, fun _ h => h⟩
    · rw [if_neg hv]
      obtain ⟨s', h1, h2, h3, h4, h5⟩ := (hi.begin hv).finish (archNr := archNr) (kill := kill) (b := .basic i act l) (List.mem_cons_self ..) hbU rfl
      refine ⟨s', h1, h2, h3, h4, fun j hj => ?_⟩
      rw [h5]; exact List.mem_cons_of_mem _ hj
  | syscallEntry i op nr jt jf ih1 ih2 =>
    intro U s hb hi hU
    have hbU : i ∉ U := fun hc => absurd (hU _ hc _ hb rfl) (Nat.lt_irrefl _)
    simp only [flatAccept]
    by_cases hv : i ∈ s.visited
    · rw [if_pos hv]
      exact ⟨s, rfl, hi, (hi.done _ hv).resolve_right hbU, fun _ h => h, fun _ h => h⟩
    · rw [if_neg hv]
      obtain ⟨s1, s2, k1, k2, k3, ⟨dt, k4⟩, ⟨df, k5⟩, k6, k7⟩ := accepts_two hh hb (hh.closed _ hb).1 (hh.closed _ hb).2 (by simp only [Block.size]; omega) (by simp only [Block.size]; omega) ih1 ih2 hi hU hv
      obtain ⟨s', h1, h2, h3, h4, h5⟩ := k3.finish (archNr := archNr) (kill := kill) (b := .syscallEntry i op nr jt jf) (k7 _ (List.mem_cons_self ..)) hbU
        (l := emitJmp op nr dt df) (by simp only [flatInstructions, k4, k5]; rfl)
      refine ⟨s', ?_, h2, h3, fun j hj => h4 j (k6 j hj), fun j hj => ?_⟩
      · simp only [Block.id] at k1
        rw [k1]
        simp only [Option.bind_eq_bind, Option.bind_some, k2]
        exact h1
      · rw [h5]; exact k7 _ (List.mem_cons_of_mem _ hj)
  | wideAtom i off op v jt jf ih1 ih2 =>
    intro U s hb hi hU
    have hbU : i ∉ U := fun hc => absurd (hU _ hc _ hb rfl) (Nat.lt_irrefl _)
    simp only [flatAccept]
    by_cases hv : i ∈ s.visited
    · rw [if_pos hv]
      exact ⟨s, rfl, hi, (hi.done _ hv).resolve_right hbU, fun _ h => h, fun _ h => h⟩
    · rw [if_neg hv]
      obtain ⟨s1, s2, k1, k2, k3, ⟨dt, k4⟩, ⟨df, k5⟩, k6, k7⟩ := accepts_two hh hb (hh.closed _ hb).1 (hh.closed _ hb).2 (by simp only [Block.size]; omega) (by simp only [Block.size]; omega) ih1 ih2 hi hU hv
      obtain ⟨s', h1, h2, h3, h4, h5⟩ := k3.finish (archNr := archNr) (kill := kill) (b := .wideAtom i off op v jt jf) (k7 _ (List.mem_cons_self ..)) hbU
        (l := emitLoadArg off ++ emitJmp op v dt df) (by simp only [flatInstructions, k4, k5]; rfl)
      refine ⟨s', ?_, h2, h3, fun j hj => h4 j (k6 j hj), fun j hj => ?_⟩
      · simp only [Block.id] at k1
        rw [k1]
        simp only [Option.bind_eq_bind, Option.bind_some, k2]
        exact h1
      · rw [h5]; exact k7 _ (List.mem_cons_of_mem _ hj)

/-! ### Lowering -/

/-- The blocks that were visited have copies, except those in `U`. -/
structure LTInv (U : List Nat) (s : Low) : Prop where
  done : ∀ i ∈ s.visited, (s.mapping.lookup i).isSome = true ∨ i ∈ U
  only : ∀ i, (s.mapping.lookup i).isSome = true → i ∈ s.visited ∧ i ∉ U

theorem LTInv.begin {U : List Nat} {s : Low} (h : LTInv U s) {i : Nat} (hi : i ∉ s.visited) : LTInv (i :: U) { s with visited := i :: s.visited } := by
  refine ⟨fun j hj => ?_, fun j hj => ?_⟩
  · rcases List.mem_cons.1 hj with rfl | hj
    · exact .inr (List.mem_cons_self ..)
    · exact (h.done j hj).imp id (List.mem_cons_of_mem _)
  · obtain ⟨q1, q2⟩ := h.only j hj
    refine ⟨List.mem_cons_of_mem _ q1, fun hc => ?_⟩
    rcases List.mem_cons.1 hc with rfl | hc
    · exact hi q1
    · exact q2 hc

theorem LTInv.finish {U : List Nat} {s : Low} {i : Nat} (h : LTInv (i :: U) s) (hv : i ∈ s.visited) (hU : i ∉ U) (b : Block) (m : Nat) :
    ∃ s', s.set i b m = some s' ∧ LTInv U s' ∧ (s'.mapping.lookup i).isSome = true ∧ (∀ j, (s.mapping.lookup j).isSome = true → (s'.mapping.lookup j).isSome = true) ∧ s'.visited = s.visited := by
  have hn : (s.mapping.lookup i).isSome = false := by
    by_contra hc
    exact (h.only i (by simpa using hc)).2 (List.mem_cons_self ..)
  refine ⟨{ s with mapping := (i, b) :: s.mapping, next := m }, ?_, ?_, ?_, ?_, rfl⟩
  · unfold Low.set
    rw [if_neg (by rw [hn]; simp)]
  · refine ⟨fun j hj => ?_, fun j hj => ?_⟩
    · simp only [List.lookup_cons]
      rcases h.done j hj with q | q
      · left
        split
        · rfl
        · exact q
      · rcases List.mem_cons.1 q with rfl | q
        · left; simp
        · exact .inr q
    · simp only [List.lookup_cons] at hj
      split at hj
      · next hq =>
        have : j = i := by simpa using hq
        subst this
        exact ⟨hv, hU⟩
      · obtain ⟨q1, q2⟩ := h.only j hj
        exact ⟨q1, fun hc => q2 (List.mem_cons_of_mem _ hc)⟩
  · simp
  · intro j hj
    simp only [List.lookup_cons]
    split
    · rfl
    · exact hj

theorem lowerAccept_total {bits : Nat} {H : Block → Prop} {n : Nat} (hh : Heap (Tree bits) H n) (b : Block) {U : List Nat} {s : Low} (hb : H b) (hi : LTInv U s)
    (hU : ∀ i ∈ U, ∀ c, H c → c.id = i → b.size < c.size) :
    ∃ s', lowerAccept bits b s = some s' ∧ LTInv U s' ∧ (s'.mapping.lookup b.id).isSome = true ∧ (∀ i, (s.mapping.lookup i).isSome = true → (s'.mapping.lookup i).isSome = true) ∧
      ∀ i ∈ s.visited, i ∈ s'.visited := by
  induction b generalizing U s with
  | validateArch i b ih => exact (hh.node _ hb).elim
  | syscallEntry i op nr jt jf => exact (hh.node _ hb).elim
  | wideAtom i off op v jt jf => exact (hh.node _ hb).elim
  | basic i act l =>
    have hbU : i ∉ U := fun hc => absurd (hU _ hc _ hb rfl) (Nat.lt_irrefl _)
    simp only [lowerAccept]
    by_cases hv : i ∈ s.visited
    · rw [if_pos hv]
      exact ⟨s, rfl, hi, (hi.done _ hv).resolve_right hbU, fun _ h => h, fun _ h => h⟩
    · rw [if_neg hv]
      obtain ⟨s', h1, h2, h3, h4, h5⟩ := (hi.begin hv).finish (List.mem_cons_self ..) hbU (.basic s.next act l) (s.next + 1)
      refine ⟨s', h1, h2, h3, h4, fun j hj => ?_⟩
      rw [h5]; exact List.mem_cons_of_mem _ hj
  | atom i arg op v jt jf ih1 ih2 =>
    have hbU : i ∉ U := fun hc => absurd (hU _ hc _ hb rfl) (Nat.lt_irrefl _)
    simp only [lowerAccept]
    by_cases hv : i ∈ s.visited
    · rw [if_pos hv]
      exact ⟨s, rfl, hi, (hi.done _ hv).resolve_right hbU, fun _ h => h, fun _ h => h⟩
    · rw [if_neg hv]
      have hU' : ∀ c : Block, c.size < (Block.atom i arg op v jt jf).size → ∀ j ∈ i :: U, ∀ c', H c' → c'.id = j → c.size < c'.size := by
        intro c hc j hj c' hc' e
        rcases List.mem_cons.1 hj with rfl | hj
        · rw [hh.inj c' _ hc' hb e]; exact hc
        · exact Nat.lt_trans hc (hU j hj c' hc' e)
      obtain ⟨s1, k1, k2, k3, k4, k5⟩ := ih1 (hh.closed _ hb).1 (hi.begin hv) (hU' jt (by simp only [Block.size]; omega))
      obtain ⟨s2, l1, l2, l3, l4, l5⟩ := ih2 (hh.closed _ hb).2 k2 (hU' jf (by simp only [Block.size]; omega))
      obtain ⟨jt', e1⟩ := Option.isSome_iff_exists.1 (l4 _ k3)
      obtain ⟨jf', e2⟩ := Option.isSome_iff_exists.1 l3
      obtain ⟨s', h1, h2, h3, h4, h5⟩ := l2.finish (l5 _ (k5 _ (List.mem_cons_self ..))) hbU (lowerAtom bits s2.next arg op v jt' jf').1 (lowerAtom bits s2.next arg op v jt' jf').2
      refine ⟨s', ?_, h2, h3, fun j hj => h4 j (l4 j (k4 j hj)), fun j hj => ?_⟩
      · rw [k1]
        simp only [Option.bind_eq_bind, Option.bind_some, l1, Low.get, e1, e2]
        exact h1
      · rw [h5]; exact l5 _ (k5 _ (List.mem_cons_of_mem _ hj))

theorem lower_total {bits : Nat} {H : Block → Prop} {n : Nat} (hh : Heap (Tree bits) H n) {b : Block} (hb : H b) (m : Nat) : ∃ x, lower bits b m = some x := by
  obtain ⟨s, h1, -, h3, -⟩ := lowerAccept_total hh b (U := []) (s := ⟨[], [], m⟩) hb ⟨by simp, by simp⟩ (by simp)
  obtain ⟨b', e⟩ := Option.isSome_iff_exists.1 h3
  refine ⟨(b', s.next), ?_⟩
  unfold lower
  rw [h1]
  simp only [Option.bind_eq_bind, Option.bind_some, Low.get, e]
  rfl

/-! ### Statements -/

/-- Some system call. -/
def anyCall : SeccompData := ⟨0, 0, 0, 0, 0, 0, 0, 0, 0⟩

theorem compileFilterStatement_total {o : Options} (hbits : o.bits = 32 ∨ o.bits = 64) {st : FilterStatement} (hg : GoodFilters o.bits st.filters)
    {objs : List ActObj} {n : Nat} (ho : ∀ a ∈ objs, a.id < n ∧ ∀ b ∈ objs, a.id = b.id → a = b) (hs : ∀ f ∈ st.filters, f.action ∈ objs) :
    ∃ x, compileFilterStatement o.bits o.archNr o.kill.act o.denylist st n = some x := by
  obtain ⟨init, last, hf, hl, hi⟩ := hg
  have hlast : st.filters.getLast? = some last := by rw [hf]; simp
  have hdrop : st.filters.dropLast = init := by rw [hf]; simp
  unfold compileFilterStatement
  simp only [hlast, hdrop, Option.bind_eq_bind, Option.bind_some]
  split
  · exact ⟨_, rfl⟩
  · obtain ⟨x, k1, k2, H', k3, k4, k5, k6⟩ := filterChain_builds hbits anyCall init hi (acts_heap ho (Tree o.bits) (act_tree o.bits)) (last := last.action)
      ⟨_, hs last (by rw [hf]; simp), rfl⟩ (fun f hf' => ⟨_, hs f (by rw [hf]; simp [hf']), rfl⟩)
    obtain ⟨y, hy⟩ := lower_total k4 k5 x.2
    obtain ⟨G, g1, g2, -⟩ := lower_sem (d := anyCall) hbits k4 k5 (b' := y.1) (m' := y.2) hy
    obtain ⟨s, hs, -⟩ := flatAccept_total g1 o.archNr o.kill.act y.1 [] Flat.new g2 tinv_new (by simp)
    rw [k1]
    simp only [Option.bind_some, hy, hs]
    exact ⟨_, rfl⟩

theorem compileStatements_total {o : Options} (hbits : o.bits = 32 ∨ o.bits = 64) {sts : List FilterStatement} (hg : ∀ st ∈ sts, GoodFilters o.bits st.filters)
    {objs : List ActObj} {n : Nat} (ho : ∀ a ∈ objs, a.id < n ∧ ∀ b ∈ objs, a.id = b.id → a = b) (hs : ∀ st ∈ sts, ∀ f ∈ st.filters, f.action ∈ objs) :
    ∃ x, compileStatements o sts n = some x := by
  induction sts generalizing n with
  | nil => exact ⟨_, rfl⟩
  | cons st sts ih =>
    obtain ⟨y, hy⟩ := compileFilterStatement_total hbits (hg st (List.mem_cons_self ..)) ho (hs st (List.mem_cons_self ..))
    obtain ⟨k1, -⟩ := compileFilterStatement_ok hbits anyCall (hg st (List.mem_cons_self ..)) ho (hs st (List.mem_cons_self ..)) hy
    obtain ⟨z, hz⟩ := ih (n := y.2) (fun st h => hg st (List.mem_cons_of_mem _ h)) (fun a ha => ⟨Nat.lt_of_lt_of_le (ho a ha).1 k1, (ho a ha).2⟩)
      (fun st h => hs st (List.mem_cons_of_mem _ h))
    simp only [compileStatements, hy, Option.bind_eq_bind, Option.bind_some, hz]
    exact ⟨_, rfl⟩

/-! ### The tree -/

theorem foldlM_total {α β : Type} (f : β → α → Option β) (l : List α) (hf : ∀ b a, a ∈ l → ∃ b', f b a = some b') (b : β) : ∃ b', l.foldlM f b = some b' := by
  induction l generalizing b with
  | nil => exact ⟨_, rfl⟩
  | cons a l ih =>
    obtain ⟨c, h1⟩ := hf b a (List.mem_cons_self ..)
    obtain ⟨e, h2⟩ := ih (fun b a ha => hf b a (List.mem_cons_of_mem _ ha)) c
    exact ⟨e, by rw [List.foldlM_cons, h1]; exact h2⟩

theorem generateBst_total {F : Option Block → Prop} {rs : List Range} (hg : GoodRanges F rs) (accept reject : Block) (fuel : Nat) {lo hi : Nat} {b : Nat × Nat} (s : Bst) (hlh : lo < hi)
    (hlen : hi ≤ rs.length) (hfu : hi - lo ≤ fuel) (hm : Meets rs lo hi b) (h1 : ∀ e, rs[lo]? = some e → b.1 ≤ e.lo) (h2 : ∀ e, rs[hi - 1]? = some e → e.hi ≤ b.2) :
    ∃ y, generateBst rs accept reject fuel lo hi b s = some y := by
  induction fuel generalizing lo hi b s with
  | zero => omega
  | succ fuel ih =>
    obtain ⟨first, hf⟩ : ∃ e, rs[lo]? = some e := ⟨rs[lo]'(by omega), List.getElem?_eq_getElem _⟩
    obtain ⟨last, hl⟩ : ∃ e, rs[hi - 1]? = some e := ⟨rs[hi - 1]'(by omega), List.getElem?_eq_getElem _⟩
    simp only [generateBst, hf, hl, Option.bind_eq_bind, Option.bind_some]
    rw [if_neg (fun hn => hn ⟨h1 first hf, h2 last hl⟩)]
    split
    · exact ⟨_, rfl⟩
    · split
      · split
        · exact ⟨_, rfl⟩
        · exact ⟨_, rfl⟩
      · next hne =>
        have step : ∀ (x : (Nat × Block) × Bst) (cut : Nat × Nat), cut ∈ cutoffs rs lo hi b →
            ∃ z, bstStep (generateBst rs accept reject fuel) lo hi b (last.accumulated - (first.accumulated - first.frequency)) x cut = some z := by
          intro x cut hcut
          obtain ⟨c1, c2, -⟩ := cutoffs_mem hcut
          obtain ⟨m1, m2⟩ := cut_meets hg hm hcut
          obtain ⟨l, hl'⟩ := ih x.2 c1 (by omega) (by omega) m1 h1 (fun e he => (m2 _ e he).1 (by omega))
          obtain ⟨r, hr'⟩ := ih l.2 c2 hlen (by omega) m2 (fun e he => (m1 _ e he).2 (Nat.le_refl _)) h2
          unfold bstStep
          simp only [hl', hr', Option.bind_eq_bind, Option.bind_some]
          exact ⟨_, rfl⟩
        obtain ⟨best, hb⟩ := foldlM_total _ _ step
          (((compileRangesLinear ((rs.drop lo).take (hi - lo)) accept reject s.next).1, (compileRangesLinear ((rs.drop lo).take (hi - lo)) accept reject s.next).2.1),
            { s with next := (compileRangesLinear ((rs.drop lo).take (hi - lo)) accept reject s.next).2.2 })
        rw [hb]
        exact ⟨_, rfl⟩

theorem entries_total {es : List Entry} (hne : es ≠ []) (hd : es.Pairwise fun a b => a.number ≠ b.number) (hlt : ∀ e ∈ es, e.number < 2 ^ 32 - 1) (bst : Bool) (accept reject : Block) (n : Nat) :
    ∃ y, (if bst then compileEntriesBst es accept reject n else some (compileEntriesLinear es accept reject n)) = some y := by
  split
  · have hg := accumulate_good (convertToRanges_good (F := fun _ => True) hd (fun _ _ => trivial) hlt) 0
    have hpos : 0 < (accumulate 0 (convertToRanges es)).length := by
      cases hc : convertToRanges es with
      | nil => exact absurd hc (convertToRanges_ne hne)
      | cons e l => simp [accumulate]
    obtain ⟨y, hy⟩ := generateBst_total hg accept reject (accumulate 0 (convertToRanges es)).length (b := (0, 2 ^ 64 - 1)) ⟨[], n⟩ hpos (Nat.le_refl _) (by omega) (by
      intro k e hk
      refine ⟨fun h => absurd h (Nat.not_lt_zero _), fun h => ?_⟩
      obtain ⟨q, -⟩ := List.getElem?_eq_some_iff.1 hk
      omega) (fun e _ => Nat.zero_le _) (fun e he => by
        have := hg.top e (List.mem_iff_getElem?.2 ⟨_, he⟩)
        dsimp only
        omega)
    unfold compileEntriesBst
    dsimp only
    rw [hy]
    exact ⟨_, rfl⟩
  · exact ⟨_, rfl⟩

/-! ### The whole program -/

theorem forwardAccept_total {d : SeccompData} {H : Block → Prop} {n : Nat} (hh : Heap (Code d) H n) {archNr : Nat} {kill : Action} (b : Block) {x : List Nat × Flat} (hb : H b) (hi : TInv [] x.2) :
    ∃ x', forwardAccept archNr kill b x = some x' ∧ TInv [] x'.2 := by
  induction b generalizing x with
  | validateArch i b ih => exact (hh.node _ hb).elim
  | atom i arg op v jt jf => exact (hh.node _ hb).elim
  | basic i act l =>
    obtain ⟨vis, s⟩ := x
    simp only [forwardAccept]
    split
    · exact ⟨_, rfl, hi⟩
    · split
      · exact ⟨_, rfl, hi⟩
      · obtain ⟨s', h1, h2, -⟩ := flatAccept_total hh archNr kill (.basic i act l) [] s hb hi (by simp)
        rw [h1]
        exact ⟨_, rfl, h2⟩
  | syscallEntry i op nr jt jf ih1 ih2 =>
    obtain ⟨vis, s⟩ := x
    simp only [forwardAccept]
    split
    · exact ⟨_, rfl, hi⟩
    · obtain ⟨x1, h1, h2⟩ := ih1 (x := (i :: vis, s)) (hh.closed _ hb).1 hi
      obtain ⟨x2, h3, h4⟩ := ih2 (hh.closed _ hb).2 h2
      rw [h1]
      exact ⟨x2, h3, h4⟩
  | wideAtom i off op v jt jf ih1 ih2 =>
    obtain ⟨vis, s⟩ := x
    simp only [forwardAccept]
    split
    · exact ⟨_, rfl, hi⟩
    · obtain ⟨x1, h1, h2⟩ := ih1 (x := (i :: vis, s)) (hh.closed _ hb).1 hi
      obtain ⟨x2, h3, h4⟩ := ih2 (hh.closed _ hb).2 h2
      rw [h1]
      exact ⟨x2, h3, h4⟩

theorem arch_total {d : SeccompData} {H : Block → Prop} {n : Nat} (hh : Heap (Code d) H n) (archNr : Nat) (kill : Action) {b : Block} (hb : H b) {s : Flat} (hi : TInv [] s) {m : Nat} (hm : n ≤ m)
    (hv : m ∉ s.visited) : ∃ s', flatAccept archNr kill (.validateArch m b) s = some s' := by
  obtain ⟨s1, h1, h2, h3, h4, h5⟩ := flatAccept_total hh archNr kill b [m] { s with visited := m :: s.visited } hb (hi.begin hv) (by
    intro i hi c hc e
    have := hh.lt c hc
    rw [List.mem_singleton.1 hi] at e
    omega)
  obtain ⟨dist, hd⟩ := h2.distance h3
  obtain ⟨s', k1, -⟩ := TInv.finish (U := []) (archNr := archNr) (kill := kill) (s := s1) (b := .validateArch m b) h2 (h5 _ (List.mem_cons_self ..)) (by simp)
    (l := [⟨LD_W_ABS, 0, 0, 4⟩, ⟨jmpCode .jeq, dist + 1, 0, archNr⟩] ++ kill.instructions ++ [⟨LD_W_ABS, 0, 0, 0⟩]) (by simp only [flatInstructions, hd]; rfl)
  refine ⟨s', ?_⟩
  simp only [flatAccept]
  rw [if_neg hv, h1]
  exact k1

theorem forwardAccept_fits {d : SeccompData} {H : Block → Prop} {n : Nat} (hh : Heap (Code d) H n) {archNr : Nat} {kill : Action} (b : Block) {x x' : List Nat × Flat} (hb : H b)
    (h : forwardAccept archNr kill b x = some x') (hi : FInv d H x.2) (hv : FitInv x.2) : FitInv x'.2 := by
  suffices FInv d H x'.2 ∧ FitInv x'.2 from this.2
  induction b generalizing x x' with
  | basic i act l =>
    obtain ⟨vis, s⟩ := x
    simp only [forwardAccept] at h
    split at h
    · simp only [Option.some.injEq] at h; subst h; exact ⟨hi, hv⟩
    · split at h
      · simp only [Option.some.injEq] at h; subst h; exact ⟨hi, hv⟩
      · obtain ⟨s1, h1, h⟩ := Option.bind_eq_some_iff.1 h
        simp only [Option.pure_def, Option.some.injEq] at h
        subst h
        exact ⟨flatAccept_inv hh _ hb h1 hi, flatAccept_fits hh _ hb h1 hi hv⟩
  | validateArch i b ih => exact (hh.node _ hb).elim
  | atom i arg op v jt jf => exact (hh.node _ hb).elim
  | syscallEntry i op nr jt jf ih1 ih2 =>
    obtain ⟨vis, s⟩ := x
    simp only [forwardAccept] at h
    split at h
    · simp only [Option.some.injEq] at h; subst h; exact ⟨hi, hv⟩
    · obtain ⟨s1, h1, h⟩ := Option.bind_eq_some_iff.1 h
      obtain ⟨k1, k2⟩ := ih1 (hh.closed _ hb).1 h1 hi hv
      exact ih2 (hh.closed _ hb).2 h k1 k2
  | wideAtom i off op v jt jf ih1 ih2 =>
    obtain ⟨vis, s⟩ := x
    simp only [forwardAccept] at h
    split at h
    · simp only [Option.some.injEq] at h; subst h; exact ⟨hi, hv⟩
    · obtain ⟨s1, h1, h⟩ := Option.bind_eq_some_iff.1 h
      obtain ⟨k1, k2⟩ := ih1 (hh.closed _ hb).1 h1 hi hv
      exact ih2 (hh.closed _ hb).2 h k1 k2

theorem entries_facts {o : Options} {d : SeccompData} {p : ParsedPolicy} {n : Nat} (hg : GoodPolicy o p n) {es : List Entry} {m : Nat} (q2 : List.Forall₂ (fun st e => EntryOf o d st e n m) p.statements es)
    (accept reject : ActObj) : (∀ e ∈ es, Leaf (Leaves es accept reject) (e.filter.getD accept.block)) ∧ (es.Pairwise fun a b => a.number ≠ b.number) ∧ ∀ e ∈ es, e.number < 2 ^ 32 - 1 := by
  refine ⟨?_, ?_, ?_⟩
  · intro e he
    cases hf : e.filter with
    | none => exact ⟨.inr (.inl rfl), _, _, _, rfl⟩
    | some b =>
      obtain ⟨st, -, -, -, q | ⟨i, l, q, -⟩⟩ := forall2_mem q2 he
      · rw [q.1] at hf; simp at hf
      · rw [q] at hf
        simp only [Option.some.injEq] at hf
        subst hf
        exact ⟨.inl ⟨e, he, q⟩, _, _, _, rfl⟩
  · have : ∀ {sts : List FilterStatement} {es : List Entry}, List.Forall₂ (fun st e => EntryOf o d st e n m) sts es → sts.Pairwise (fun a b => a.number ≠ b.number) →
        es.Pairwise fun a b => a.number ≠ b.number := by
      intro sts es h
      induction h with
      | nil => intro _; exact .nil
      | cons h ht ih =>
        intro hp
        obtain ⟨p1, p2⟩ := List.pairwise_cons.1 hp
        refine List.pairwise_cons.2 ⟨fun e he => ?_, ih p2⟩
        obtain ⟨st, hst, w, -⟩ := forall2_mem ht he
        rw [h.1, w]
        exact p1 st hst
    exact this q2 hg.distinct
  · intro e he
    obtain ⟨st, hst, w, -⟩ := forall2_mem q2 he
    rw [w]
    exact hg.small st hst

theorem arch_fits {d : SeccompData} {H : Block → Prop} {n : Nat} (hh : Heap (Code d) H n) {archNr : Nat} (harch : archNr < 2 ^ 32) {kill : Action} {m : Nat} {b : Block} (hb : H b) {s s1 s' : Flat}
    (h1 : flatAccept archNr kill b { s with visited := m :: s.visited } = some s1) (hi : FInv d H s) (hf : FitInv s) (ho : s1.offsets.lookup b.id = some (-(s1.instructions.length : Int)))
    (hm : m ∉ s.visited) (h : flatAccept archNr kill (.validateArch m b) s = some s') : FitInv s' := by
  have f1 := flatAccept_fits hh b hb h1 (finv_visited hi _) hf
  simp only [flatAccept] at h
  rw [if_neg hm, h1] at h
  simp only [Option.bind_eq_bind, Option.bind_some] at h
  refine fit_visit f1 h fun l hl _ => ?_
  have hd : s1.distance b = some 0 := by
    unfold Flat.distance
    rw [ho]
    simp only [Option.bind_eq_bind, Option.bind_some]
    rw [if_pos (by omega), show -(s1.instructions.length : Int) + s1.instructions.length = 0 by omega]
    rfl
  simp only [flatInstructions, hd, Option.bind_eq_bind, Option.bind_some, Option.pure_def, Option.some.injEq] at hl
  subst hl
  obtain ⟨w, e0, e1, -⟩ := action_small kill
  have z0 : 0 < 2 ^ 8 := by decide
  have z1 : 0 + 1 < 2 ^ 8 := by decide
  intro i hi
  simp only [e1, List.cons_append, List.nil_append] at hi
  rcases List.mem_cons.1 hi with rfl | hi
  · exact ⟨(by decide : LD_W_ABS < 2 ^ 16), z0, z0, (by decide : 4 < 2 ^ 32)⟩
  · rcases List.mem_cons.1 hi with rfl | hi
    · exact ⟨(by decide : jmpCode .jeq < 2 ^ 16), z1, z0, harch⟩
    · rcases List.mem_cons.1 hi with rfl | hi
      · exact ⟨(by decide : RET < 2 ^ 16), z0, z0, e0⟩
      · rw [List.mem_singleton.1 hi]
        exact ⟨(by decide : LD_W_ABS < 2 ^ 16), z0, z0, (by decide : 0 < 2 ^ 32)⟩

theorem arch_sound {d : SeccompData} {H : Block → Prop} {n : Nat} (hh : Heap (Code d) H n) {archNr : Nat} {kill : Action} {m : Nat} {b : Block} (hb : H b) {s s1 s' : Flat}
    (h1 : flatAccept archNr kill b { s with visited := m :: s.visited } = some s1) (hi : SInv s) (ho : s1.offsets.lookup b.id = some (-(s1.instructions.length : Int)))
    (hm : m ∉ s.visited) (h : flatAccept archNr kill (.validateArch m b) s = some s') : Done s'.instructions := by
  have f1 := flatAccept_sound hh b hb h1 ⟨hi.done, hi.offs⟩
  simp only [flatAccept] at h
  rw [if_neg hm, h1] at h
  simp only [Option.bind_eq_bind, Option.bind_some] at h
  obtain ⟨-, l, hl, rfl⟩ := visit_shape h
  obtain ⟨k, k0, k1, -⟩ := f1.offs _ _ ho
  have ne : s1.instructions ≠ [] := by rintro e; rw [e, List.length_nil] at k1; omega
  have hd : s1.distance b = some 0 := by
    unfold Flat.distance
    rw [ho]
    simp only [Option.bind_eq_bind, Option.bind_some]
    rw [if_pos (by omega), show -(s1.instructions.length : Int) + s1.instructions.length = 0 by omega]
    rfl
  simp only [flatInstructions, hd, Option.bind_eq_bind, Option.bind_some, Option.pure_def, Option.some.injEq] at hl
  subst hl
  obtain ⟨w, -, e1, -⟩ := action_small kill
  rw [e1]
  have dn := f1.done ne
  refine ⟨⟨.inl ⟨rfl, (by decide : 4 < 64), rfl⟩, .inr (.inr (.inr ⟨⟨.jeq, rfl⟩, ?_, ?_⟩)), .inr (.inr (.inl rfl)), .inl ⟨rfl, (by decide : 0 < 64), rfl⟩, dn.1⟩, last_append dn.2⟩
  · show 0 + 1 < s1.instructions.length + 1 + 1; omega
  · show 0 < s1.instructions.length + 1 + 1; omega

theorem forwardAccept_sound {d : SeccompData} {H : Block → Prop} {n : Nat} (hh : Heap (Code d) H n) {archNr : Nat} {kill : Action} (b : Block) {x x' : List Nat × Flat} (hb : H b)
    (h : forwardAccept archNr kill b x = some x') (hi : SInv x.2) : SInv x'.2 := by
  induction b generalizing x x' with
  | basic i act l =>
    obtain ⟨vis, s⟩ := x
    simp only [forwardAccept] at h
    split at h
    · simp only [Option.some.injEq] at h; subst h; exact hi
    · split at h
      · simp only [Option.some.injEq] at h; subst h; exact hi
      · obtain ⟨s1, h1, h⟩ := Option.bind_eq_some_iff.1 h
        simp only [Option.pure_def, Option.some.injEq] at h
        subst h
        exact flatAccept_sound hh _ hb h1 hi
  | validateArch i b ih => exact (hh.node _ hb).elim
  | atom i arg op v jt jf => exact (hh.node _ hb).elim
  | syscallEntry i op nr jt jf ih1 ih2 =>
    obtain ⟨vis, s⟩ := x
    simp only [forwardAccept] at h
    split at h
    · simp only [Option.some.injEq] at h; subst h; exact hi
    · obtain ⟨s1, h1, h⟩ := Option.bind_eq_some_iff.1 h
      exact ih2 (hh.closed _ hb).2 h (ih1 (hh.closed _ hb).1 h1 hi)
  | wideAtom i off op v jt jf ih1 ih2 =>
    obtain ⟨vis, s⟩ := x
    simp only [forwardAccept] at h
    split at h
    · simp only [Option.some.injEq] at h; subst h; exact hi
    · obtain ⟨s1, h1, h⟩ := Option.bind_eq_some_iff.1 h
      exact ih2 (hh.closed _ hb).2 h (ih1 (hh.closed _ hb).1 h1 hi)

/-- Compiling a policy works, and the numbers fit unless the program is too long. -/
theorem compileFile_total {o : Options} {p : ParsedPolicy} {n : Nat} (hg : GoodPolicy o p n) (harch : o.archNr < 2 ^ 32) :
    ∃ l, compileFile o p n = some l ∧ (l.length < 2 ^ 32 → ∀ i ∈ l, Fits i) ∧ Done l := by
  let d := anyCall
  obtain ⟨x, h1⟩ := compileStatements_total hg.bits hg.filters hg.objects (fun st hst f hf => stmt_objs hst hf)
  obtain ⟨q1, q2, q3⟩ := compileStatements_ok hg.bits d hg.filters hg.objects (fun st hst f hf => stmt_objs hst hf) h1
  have hkill := (hg.objects o.kill (List.mem_cons_self ..)).1
  have hdef := (hg.objects p.defaultAction (List.mem_cons_of_mem _ (List.mem_cons_self ..))).1
  have hrid : (if o.denylist then (⟨x.2, .allow⟩ : ActObj) else p.defaultAction).id < n ∨ (if o.denylist then (⟨x.2, .allow⟩ : ActObj) else p.defaultAction).id = x.2 := by
    split
    · exact .inr rfl
    · exact .inl hdef
  have haid : (if o.denylist then o.kill else (⟨x.2, .allow⟩ : ActObj)).id < n ∨ (if o.denylist then o.kill else (⟨x.2, .allow⟩ : ActObj)).id = x.2 := by
    split
    · exact .inl hkill
    · exact .inr rfl
  have har : (if o.denylist then o.kill else (⟨x.2, .allow⟩ : ActObj)).id = (if o.denylist then (⟨x.2, .allow⟩ : ActObj) else p.defaultAction).id →
      (if o.denylist then o.kill else (⟨x.2, .allow⟩ : ActObj)) = (if o.denylist then (⟨x.2, .allow⟩ : ActObj) else p.defaultAction) := by
    split <;> (intro q; dsimp only at q; omega)
  unfold compileFile
  rw [h1]
  simp only [Option.bind_eq_bind, Option.bind_some]
  generalize (if o.denylist then (⟨x.2, .allow⟩ : ActObj) else p.defaultAction) = reject at *
  generalize (if o.denylist then o.kill else (⟨x.2, .allow⟩ : ActObj)) = accept at *
  have hh := leaves_heap q2 q1 q3 haid hrid har
  have hrl : Leaf (Leaves x.1 accept reject) reject.block := ⟨.inr (.inr rfl), _, _, _, rfl⟩
  have hal : Leaf (Leaves x.1 accept reject) accept.block := ⟨.inr (.inl rfl), _, _, _, rfl⟩
  have fnew : FitInv Flat.new := by intro _ i hi; simp [Flat.new] at hi
  split
  · obtain ⟨s, s1, s2, s3, s4, s5⟩ := flatAccept_total hh o.archNr o.kill.act reject.block [] Flat.new hrl.1 tinv_new (by simp)
    have hs := flatAccept_inv hh reject.block hrl.1 s1 (finv_new d _)
    have hf := flatAccept_fits hh reject.block hrl.1 s1 (finv_new d _) fnew
    have hv := basic_visited hrl s1 (by intro i hi; simp [Flat.new] at hi)
    have hm : x.2 + 1 ∉ s.visited := by
      intro hc
      obtain ⟨b, hb, e⟩ := hv _ hc
      have := hh.lt b hb.1
      omega
    have ho := flatAccept_head reject.block s1 (by simp [Flat.new])
    obtain ⟨s', t1⟩ := arch_total hh o.archNr o.kill.act hrl.1 s2 (Nat.le_refl _) hm
    refine ⟨s'.instructions, by rw [s1]; simp only [Option.bind_some, t1]; rfl, ?_⟩
    have hrv : reject.id ∈ s.visited := (s2.only _ s3).1
    have e : flatAccept o.archNr o.kill.act reject.block { s with visited := (x.2 + 1) :: s.visited } = some { s with visited := (x.2 + 1) :: s.visited } := by
      simp only [ActObj.block, flatAccept]; rw [if_pos (List.mem_cons_of_mem _ hrv)]
    exact ⟨arch_fits hh harch hrl.1 e hs hf ho hm t1, arch_sound hh hrl.1 e (flatAccept_sound hh reject.block hrl.1 s1 sinv_new) ho hm t1⟩
  · next hne =>
    obtain ⟨hleaf, hdist, hlt⟩ := entries_facts hg q2 accept reject
    obtain ⟨y, y1⟩ := entries_total hne hdist hlt o.bst accept.block reject.block (x.2 + 1)
    obtain ⟨H', g1, g2, g3, -⟩ := entries_ok hh hrl hne hleaf hdist hlt y1
    obtain ⟨s, s1, s2⟩ := forwardAccept_total g1.2.2 (archNr := o.archNr) (kill := o.kill.act) y.1 (x := ([], Flat.new)) g2 tinv_new
    obtain ⟨t, t1, t2, -⟩ := flatAccept_total g1.2.2 o.archNr o.kill.act reject.block [] s.2 (hrl.mono g1.2.1).1 s2 (by simp)
    obtain ⟨u, u1, u2, -⟩ := flatAccept_total g1.2.2 o.archNr o.kill.act accept.block [] t (hal.mono g1.2.1).1 t2 (by simp)
    obtain ⟨k1, k2⟩ := forwardAccept_inv g1.2.2 y.1 g2 s1 (finv_new d _) (by intro i hi; simp [Flat.new] at hi)
    have k3 := flatAccept_inv g1.2.2 _ (hrl.mono g1.2.1).1 t1 k1
    have k4 := basic_visited (hrl.mono g1.2.1) t1 k2
    have k5 := flatAccept_inv g1.2.2 _ (hal.mono g1.2.1).1 u1 k3
    have k6 := basic_visited (hal.mono g1.2.1) u1 k4
    have hm : y.2 ∉ u.visited := by
      intro hc
      obtain ⟨b, hb, e⟩ := k6 _ hc
      have := g1.2.2.lt b hb.1
      omega
    have hy : y.1.id ∉ y.2 :: u.visited := by
      intro hc
      rcases List.mem_cons.1 hc with e | hc
      · have := g1.2.2.lt y.1 g2; omega
      · obtain ⟨b, ⟨hb, i, act, l, e'⟩, e⟩ := k6 _ hc
        have := g1.2.2.inj b y.1 hb g2 e
        obtain ⟨i', op, nr, jt, jf, e''⟩ := g3
        rw [e', e''] at this
        simp at this
    obtain ⟨v, v1⟩ := arch_total g1.2.2 o.archNr o.kill.act g2 u2 (Nat.le_refl _) hm
    refine ⟨v.instructions, by rw [y1]; simp only [Option.bind_some, s1, t1, u1, v1]; rfl, ?_⟩
    cases hz : flatAccept o.archNr o.kill.act y.1 { u with visited := y.2 :: u.visited } with
    | none =>
      simp only [flatAccept] at v1
      rw [if_neg hm, hz] at v1
      simp at v1
    | some w =>
      have fs := forwardAccept_fits g1.2.2 y.1 g2 s1 (finv_new d _) fnew
      have ft := flatAccept_fits g1.2.2 _ (hrl.mono g1.2.1).1 t1 k1 fs
      have fu := flatAccept_fits g1.2.2 _ (hal.mono g1.2.1).1 u1 k3 ft
      have ss := flatAccept_sound g1.2.2 _ (hal.mono g1.2.1).1 u1 (flatAccept_sound g1.2.2 _ (hrl.mono g1.2.1).1 t1 (forwardAccept_sound g1.2.2 y.1 g2 s1 sinv_new))
      exact ⟨arch_fits g1.2.2 harch g2 hz k5 fu (flatAccept_head y.1 hz hy) hm v1, arch_sound g1.2.2 g2 hz ss (flatAccept_head y.1 hz hy) hm v1⟩

end Minijail.Offline
