import Verif.Proof.BlocksSim
/-!
Helper lemmas for C68: files and the whole program.
-/
set_option autoImplicit false
set_option linter.unusedSimpArgs false
namespace Minijail.Blocks

def afoot (args : Option Nat) (A : List Node) : List Nat := match args with
  | none => []
  | some a => foot a A

/-- The two lists of `compile_file`: `head`'s blocks `H`, and `A` those of `*arg_blocks`. -/
structure FInv (m : Mem) (head : Nat) (H : List Node) (args : Option Nat) (A : List Node) : Prop where
  fresh : Fresh m
  good : Good m head H
  none_ : args = none → A = []
  some_ : ∀ a, args = some a → Good m a A ∧ 2 ≤ A.length ∧ ∀ x ∈ foot head H, x ∉ foot a A

theorem FInv.afoot_lt {m : Mem} {head : Nat} {H A : List Node} {args : Option Nat} (h : FInv m head H args A) : ∀ a ∈ afoot args A, a < m.brk := by
  cases args with
  | none => simp [afoot]
  | some a => exact (h.some_ a rfl).1.lt

theorem FInv.apart {m : Mem} {head : Nat} {H A : List Node} {args : Option Nat} (h : FInv m head H args A) : ∀ a ∈ afoot args A, a ∉ foot head H := by
  cases args with
  | none => simp [afoot]
  | some a => exact fun x hx hy => (h.some_ a rfl).2.2 x hy hx

/-- After a change of `head`'s list only. -/
theorem FInv.onHead {m m' : Mem} {head : Nat} {H H' A : List Node} {args : Option Nat} (h : FInv m head H args A) (hf : Fresh m') (hg : Good m' head H')
    (hm : Moves m (foot head H) m' (foot head H')) :
    FInv m' head H' args A ∧ Moves m (foot head H ++ afoot args A) m' (foot head H' ++ afoot args A) := by
  refine ⟨⟨hf, hg, h.none_, ?_⟩, hm.frame _ h.afoot_lt h.apart⟩
  intro a ha
  subst ha
  obtain ⟨h1, h2, h3⟩ := h.some_ a rfl
  obtain ⟨h4, h5⟩ := h1.move hm (fun x hx hy => h3 x hy hx)
  exact ⟨h4, h2, fun x hx hy => h5 x hy hx⟩

/-- `x` works on both lists and does to them what `y` does to their instructions. -/
def FSim {α γ : Type} (f : α → FState) (g : γ → CState) (E : α → γ → Prop) (m : Mem) (head : Nat) (F : List Nat) (x : MRes (Option Nat) α) (y : Res γ) : Prop :=
  match x, y with
  | .ok a m', .ok c => E a c ∧ ∃ H A, FInv m' head H (f a).args A ∧ g c = ⟨code H, code A, (f a).labels, (f a).seen⟩ ∧
      Moves m F m' (foot head H ++ afoot (f a).args A)
  | .fail args m', .fail => ∃ H A, FInv m' head H args A ∧ Moves m F m' (foot head H ++ afoot args A)
  | .die, .die => True
  | .ub, .ub => True
  | _, _ => False

theorem FSim.failed {α γ : Type} {f : α → FState} {g : γ → CState} {E : α → γ → Prop} {m : Mem} {head : Nat} {H A : List Node} {args : Option Nat}
    (h : FInv m head H args A) : FSim f g E m head (foot head H ++ afoot args A) (.fail args m) .fail := ⟨H, A, h, Moves.refl _ _⟩

theorem FSim.after {α γ : Type} {f : α → FState} {g : γ → CState} {E : α → γ → Prop} {m m' : Mem} {head : Nat} {F F' : List Nat} {x : MRes (Option Nat) α} {y : Res γ}
    (hf : Fresh m) (hm : Moves m F m' F') (h : FSim f g E m' head F' x y) : FSim f g E m head F x y := by
  match x, y, h with
  | .ok a m'', .ok c, ⟨h1, H, A, h2, h3, h4⟩ => exact ⟨h1, H, A, h2, h3, hm.trans hf h4⟩
  | .fail args m'', .fail, ⟨H, A, h2, h4⟩ => exact ⟨H, A, h2, hm.trans hf h4⟩
  | .die, .die, _ => trivial
  | .ub, .ub, _ => trivial

abbrev RuleSim (m : Mem) (head : Nat) (F : List Nat) (x : MRes (Option Nat) (FState × Bool)) (y : Res (CState × Bool)) : Prop :=
  FSim Prod.fst Prod.fst (fun a c => a.2 = c.2) m head F x y

abbrev FileSim (m : Mem) (head : Nat) (F : List Nat) (x : MRes (Option Nat) FState) (y : Res CState) : Prop :=
  FSim id id (fun _ _ => True) m head F x y

theorem args_sim (cx : Ctx) (head nr : Nat) (line : CStr) (id : BitVec 32) (L : Labels) (st : FState) (seen : List Nat) (bad : Bool) {m : Mem} {H A : List Node}
    (hi : FInv m head H st.args A) :
    RuleSim m head (foot head H ++ afoot st.args A)
      (((appendNew head 2 (bpfAllowSyscallArgs (BitVec.ofNat 32 nr) id) m).lift st.args).bind fun _ m =>
        match compilePolicyLineM cx nr line id L m with
        | .fail _ m => ((freeBlockList st.args m).lift none).bind fun _ m => .fail none m
        | .die => .die
        | .ub => .ub
        | .ok (block, labels) m =>
          match st.args with
          | some a => ((extendFilterBlockList a block m).lift none).bind fun _ m => .ok ({ args := some a, labels := labels, seen := seen }, bad) m
          | none => .ok ({ args := some block, labels := labels, seen := seen }, bad) m)
      (match compilePolicyLine cx nr line id L with
        | .ok (block, labels) =>
          .ok ({ head := code H ++ bpfAllowSyscallArgs (BitVec.ofNat 32 nr) id, argBlocks := code A ++ block, labels := labels, seen := seen }, bad)
        | .fail => .fail
        | .die => .die
        | .ub => .ub) := by
  obtain ⟨n, m1, e1, hc, hg, hm, hf⟩ := append_good hi.fresh hi.good 2 (bpfAllowSyscallArgs (BitVec.ofNat 32 nr) id) rfl
  rw [e1]
  obtain ⟨h3, h4⟩ := hi.onHead hf hg hm
  simp only [MRes.lift, MRes.bind]
  refine FSim.after hi.fresh h4 ?_
  have hs := policyLine_sim cx nr line id L hf
  generalize compilePolicyLineM cx nr _ _ _ m1 = X at hs ⊢
  generalize compilePolicyLine cx nr _ _ _ = Y at hs ⊢
  match X, Y, hs with
  | .ok (q, L') m', .ok (c, L''), ⟨e, hf', k, hk, hk2, hkc, hkm⟩ =>
    subst e
    simp only
    obtain ⟨hH, hHd⟩ := hg.move hkm (by simp)
    cases hargs : st.args with
    | none =>
      rw [hargs] at h3
      have hA := h3.none_ rfl
      simp only
      refine ⟨rfl, H ++ [n], k, ⟨hf', hH, by simp, ?_⟩, ?_, ?_⟩
      · intro a ha
        cases ha
        exact ⟨hk, hk2, hHd⟩
      · simp [hc, hkc, hA]
      · have := hkm.frame (foot head (H ++ [n])) hg.lt (by simp)
        exact this.perm (by simp [afoot]) (by simp [afoot]; tauto)
    | some a =>
      rw [hargs] at h3
      obtain ⟨ha1, ha2, ha3⟩ := h3.some_ a rfl
      obtain ⟨hA, hAd⟩ := ha1.move hkm (by simp)
      simp only
      obtain ⟨m2, e2, hg2, hb2, hs2⟩ := extend_good hA hk (by intro e; simp [e] at ha2) hk2 hAd
      rw [e2]
      simp only [MRes.lift, MRes.bind]
      have hfoot : ∀ x, x ∈ foot a (A ++ k) ↔ x ∈ foot a A ∨ x ∈ foot q k := by
        match A, k, ha2, hk2 with
        | y :: A, z :: k, _, _ => intro x; simp [foot]; tauto
      have hf2 : Fresh m2 := by
        intro x hx
        rw [hs2 x (fun h => by have := hA.lt x h; omega)]
        exact hf' x (by omega)
      have hm2 : Moves m' (foot a A ++ foot q k) m2 (foot a (A ++ k)) := by
        refine ⟨by omega, ?_, ?_, ?_, fun _ => hf2⟩
        · intro x hx
          rw [hfoot] at hx
          exact .inl (by simpa using hx)
        · intro x hx _
          simp only [List.mem_append, not_or] at hx
          exact hs2 x hx.1
        · intro x hx hx'
          exact absurd ((hfoot x).2 (by simpa using hx)) hx'
      obtain ⟨hH2, hHd2⟩ := hH.move hm2 (by
        intro x hx hy
        rcases List.mem_append.1 hy with h | h
        · exact ha3 x hx h
        · exact hHd x hx h)
      refine ⟨rfl, H ++ [n], A ++ k, ⟨hf2, hH2, by simp, ?_⟩, ?_, ?_⟩
      · intro b hb
        cases hb
        exact ⟨hg2, by simp; omega, hHd2⟩
      · simp [hc, hkc]
      · have hm3 := hkm.frame (foot head (H ++ [n]) ++ foot a A) (by
          intro x hx
          rcases List.mem_append.1 hx with h | h
          · exact hg.lt x h
          · exact ha1.lt x h) (by simp)
        have hm4 := hm2.frame (foot head (H ++ [n])) hH.lt (by
          intro x hx hy
          rcases List.mem_append.1 hy with h | h
          · exact ha3 x hx h
          · exact hHd x hx h)
        have hm5 := (hm3.perm (F₂ := foot head (H ++ [n]) ++ foot a A) (F₂' := foot a A ++ foot q k ++ foot head (H ++ [n])) (by simp)
          (by simp; tauto)).trans hf hm4
        exact hm5.perm (by simp [afoot]) (by simp [afoot]; tauto)
  | .fail _ m', .fail, ⟨hf', hkm⟩ =>
    simp only
    obtain ⟨hH, hHd⟩ := hg.move hkm (by simp)
    have hkm' := hkm.frame (foot head (H ++ [n]) ++ afoot st.args A) (by
      intro x hx
      rcases List.mem_append.1 hx with h | h
      · exact hg.lt x h
      · exact h3.afoot_lt x h) (by simp)
    simp only [List.nil_append] at hkm'
    refine FSim.after hf hkm' ?_
    cases hargs : st.args with
    | none =>
      have : freeBlockList none m' = .ok () m' := by rw [freeBlockList]; cases m'.brk <;> rfl
      rw [this]
      exact ⟨H ++ [n], [], ⟨hf', hH, fun _ => rfl, by simp⟩, Moves.refl _ _⟩
    | some a =>
      rw [hargs] at h3
      obtain ⟨ha1, ha2, ha3⟩ := h3.some_ a rfl
      obtain ⟨hA, hAd⟩ := ha1.move hkm (by simp)
      obtain ⟨m2, e2, hm2, hf2⟩ := free_good hf' hA
      rw [e2]
      obtain ⟨hH2, hHd2⟩ := hH.move hm2 ha3
      refine ⟨H ++ [n], [], ⟨hf2, hH2, fun _ => rfl, by simp⟩, ?_⟩
      have := hm2.frame (foot head (H ++ [n])) hH.lt ha3
      exact this.perm (by simp [afoot]; tauto) (by simp [afoot])
  | .die, .die, _ => trivial
  | .ub, .ub, _ => trivial

theorem rule_sim (cx : Ctx) (head : Nat) (line : CStr) (st : FState) (bad : Bool) {m : Mem} {H A : List Node} (hi : FInv m head H st.args A) :
    RuleSim m head (foot head H ++ afoot st.args A) (compileRuleM cx head line st bad m) (compileRule cx line ⟨code H, code A, st.labels, st.seen⟩ bad) := by
  unfold compileRuleM compileRule
  rcases strsep ':' line with ⟨name, _ | pl⟩
  · exact FSim.failed hi
  simp only
  by_cases h1 : strip pl = []
  · rw [if_pos h1, if_pos h1]
    exact FSim.failed hi
  rw [if_neg h1, if_neg h1]
  rcases lookupSyscall cx.syscalls (strip name) with _ | ⟨nr, ind⟩
  · simp only
    split_ifs
    · exact ⟨rfl, H, A, hi, rfl, Moves.refl _ _⟩
    · exact FSim.failed hi
  simp only
  by_cases h2 : strip pl = "1".toList
  · rw [if_pos h2, if_pos h2]
    obtain ⟨n, m1, e1, hc, hg, hm, hf⟩ := append_good hi.fresh hi.good 2 (bpfAllowSyscall (BitVec.ofNat 32 nr)) rfl
    rw [e1]
    obtain ⟨h3, h4⟩ := hi.onHead hf hg hm
    exact ⟨rfl, H ++ [n], A, h3, by simp [hc], h4⟩
  · rw [if_neg h2, if_neg h2]
    rcases bpfLabelId st.labels (strip name) with ⟨_ | id, L⟩
    · exact args_sim cx head nr (strip pl) _ L st _ _ hi
    · exact args_sim cx head nr (strip pl) _ L st _ _ hi

/-- An included file behaves like this. -/
def IncSim (head : Nat) (inc : CStr → FState → Mem → MRes (Option Nat) FState) (inc' : CStr → CState → Res CState) : Prop :=
  ∀ (content : CStr) (st : FState) (m : Mem) (H A : List Node), FInv m head H st.args A →
    FileSim m head (foot head H ++ afoot st.args A) (inc content st m) (inc' content ⟨code H, code A, st.labels, st.seen⟩)

theorem line_sim (cx : Ctx) (head lvl : Nat) {inc : CStr → FState → Mem → MRes (Option Nat) FState} {inc' : CStr → CState → Res CState} (hinc : IncSim head inc inc')
    (line : CStr) (st : FState) (bad : Bool) {m : Mem} {H A : List Node} (hi : FInv m head H st.args A) :
    RuleSim m head (foot head H ++ afoot st.args A) (compileLineM cx head lvl inc line st bad m)
      (compileLine cx lvl inc' line ⟨code H, code A, st.labels, st.seen⟩ bad) := by
  have hok : RuleSim m head (foot head H ++ afoot st.args A) (.ok (st, bad) m) (.ok (⟨code H, code A, st.labels, st.seen⟩, bad)) :=
    ⟨rfl, H, A, hi, rfl, Moves.refl _ _⟩
  unfold compileLineM compileLine
  simp only
  rcases strip line with _ | ⟨c, cs⟩
  · exact hok
  simp only
  by_cases h1 : c = '#'
  · rw [if_pos h1, if_pos h1]; exact hok
  rw [if_neg h1, if_neg h1]
  by_cases h2 : c = '@'
  · rw [if_pos h2, if_pos h2]
    by_cases h3 : (c :: cs).take 10 = "@frequency".toList
    · rw [if_pos h3, if_pos h3]; exact hok
    rw [if_neg h3, if_neg h3]
    cases parseIncludeStatement (c :: cs) lvl with
    | ok filename =>
      simp only
      cases cx.fs filename with
      | none => exact FSim.failed hi
      | some content =>
        simp only
        have hs := hinc content st m H A hi
        generalize inc content st m = X at hs ⊢
        generalize inc' content _ = Y at hs ⊢
        match X, Y, hs with
        | .ok a m', .ok c', ⟨_, H', A', hi', e, hm⟩ => exact ⟨rfl, H', A', hi', e, hm⟩
        | .fail args m', .fail, h => exact h
        | .die, .die, _ => trivial
        | .ub, .ub, _ => trivial
    | fail => exact FSim.failed hi
    | die => exact FSim.failed hi
    | ub => exact FSim.failed hi
  · rw [if_neg h2, if_neg h2]
    exact rule_sim cx head _ st bad hi

theorem lines_sim (cx : Ctx) (head lvl : Nat) {inc : CStr → FState → Mem → MRes (Option Nat) FState} {inc' : CStr → CState → Res CState} (hinc : IncSim head inc inc')
    (ls : List CStr) : ∀ (st : FState) (bad : Bool) {m : Mem} {H A : List Node} (_ : FInv m head H st.args A),
    RuleSim m head (foot head H ++ afoot st.args A) (compileLinesM cx head lvl inc ls st bad m)
      (compileLines cx lvl inc' ls ⟨code H, code A, st.labels, st.seen⟩ bad) := by
  induction ls with
  | nil => intro st bad m H A hi; exact ⟨rfl, H, A, hi, rfl, Moves.refl _ _⟩
  | cons l ls ih =>
    intro st bad m H A hi
    rw [compileLinesM, compileLines]
    have hs := line_sim cx head lvl hinc l st bad hi
    generalize compileLineM cx head lvl inc l st bad m = X at hs ⊢
    generalize compileLine cx lvl inc' l _ bad = Y at hs ⊢
    match X, Y, hs with
    | .ok a m', .ok (c, b), ⟨e1, H', A', hi', e, hm⟩ =>
      simp only at e1 e
      subst e e1
      exact FSim.after hi.fresh hm (ih a.1 a.2 hi')
    | .fail args m', .fail, h => exact h
    | .die, .die, _ => trivial
    | .ub, .ub, _ => trivial

theorem fileWith_sim (cx : Ctx) (head lvl : Nat) {inc : CStr → FState → Mem → MRes (Option Nat) FState} {inc' : CStr → CState → Res CState} (hinc : IncSim head inc inc') :
    IncSim head (compileFileM cx head lvl inc) (compileFileWith cx lvl inc') := by
  intro content st m H A hi
  unfold compileFileM compileFileWith
  have hs := lines_sim cx head lvl hinc (readLines content) st false hi
  generalize compileLinesM cx head lvl inc (readLines content) st false m = X at hs ⊢
  generalize compileLines cx lvl inc' (readLines content) _ false = Y at hs ⊢
  match X, Y, hs with
  | .ok a m', .ok (c, b), ⟨e1, H', A', hi', e, hm⟩ =>
    simp only at e1 e
    subst e e1
    simp only [MRes.bind]
    by_cases hb : a.2
    · rw [if_pos hb, if_pos hb]
      exact ⟨H', A', hi', hm⟩
    · rw [if_neg hb, if_neg hb]
      exact ⟨trivial, H', A', hi', rfl, hm⟩
  | .fail args m', .fail, h => exact h
  | .die, .die, _ => trivial
  | .ub, .ub, _ => trivial

theorem file_sim (cx : Ctx) (head : Nat) : IncSim head (compileFileM0 cx head) (compileFile0 cx) :=
  fileWith_sim cx head 0 (fileWith_sim cx head 1 fun _ _ _ _ _ hi => FSim.failed hi)

theorem allow_sim (cx : Ctx) {p : Nat} (names : List CStr) : ∀ {m : Mem} (_ : Fresh m) {l : List Node} (_ : Good m p l),
    Sim m p l (allowSelectedM cx p names m) (.ok (allowSelectedSyscalls cx names, ())) := by
  induction names with
  | nil => intro m hf l hg; exact Sim.nothing hf hg ()
  | cons a as ih =>
    intro m hf l hg
    rw [allowSelectedM]
    exact sim_eq (Sim.bind hf (Sim.append hf hg 2 _ rfl) (g := fun _ => .ok (allowSelectedSyscalls cx as, ())) fun _ m' k h1 h2 => ih h1 h2)
      (by simp [allowSelectedSyscalls]; rfl)

theorem prefix_sim (cx : Ctx) {p : Nat} {m : Mem} (hf : Fresh m) {l : List Node} (hg : Good m p l) :
    Sim m p l (filterPrefixM cx p m) (.ok (filterPrefix cx, ())) := by
  unfold filterPrefixM
  refine sim_eq (Sim.bind hf (Sim.append hf hg 3 _ rfl) (g := fun _ => .ok ([bpfLoadSyscallNr] ++
    ((if cx.opts.allowSyscallsForLogging then allowSelectedSyscalls cx cx.logSyscalls else []) ++
    (if cx.opts.includeLibcCompatibilityAllowlist then allowSelectedSyscalls cx cx.libcCompatibilitySyscalls else [])), ())) ?_) ?_
  · intro _ m' k hf hg
    refine Sim.bind hf (Sim.append hf hg 1 _ rfl) (g := fun _ => .ok
      ((if cx.opts.allowSyscallsForLogging then allowSelectedSyscalls cx cx.logSyscalls else []) ++
      (if cx.opts.includeLibcCompatibilityAllowlist then allowSelectedSyscalls cx cx.libcCompatibilitySyscalls else []), ())) ?_
    intro _ m' k hf hg
    refine Sim.bind hf (y := .ok ((if cx.opts.allowSyscallsForLogging then allowSelectedSyscalls cx cx.logSyscalls else []), ())) ?_ (g := fun _ => .ok
      ((if cx.opts.includeLibcCompatibilityAllowlist then allowSelectedSyscalls cx cx.libcCompatibilitySyscalls else []), ())) ?_
    · by_cases h : cx.opts.allowSyscallsForLogging
      · simp only [h, if_true]; exact allow_sim cx _ hf hg
      · simp only [h]; exact Sim.nothing hf hg ()
    · intro _ m' k hf hg
      by_cases h : cx.opts.includeLibcCompatibilityAllowlist
      · simp only [h, if_true]; exact allow_sim cx _ hf hg
      · simp only [h]; exact Sim.nothing hf hg ()
  · simp [filterPrefix]

/-- Freeing both lists. -/
theorem freeFilter_ok {m : Mem} {head : Nat} {H A : List Node} {args : Option Nat} (hi : FInv m head H args A) (r : Option Nat) :
    ∃ m', freeFilter head args r m = (match r with
      | some p => .ok p m'
      | none => .fail () m') ∧ Moves m (foot head H ++ afoot args A) m' [] := by
  obtain ⟨m1, e1, hm1, hf1⟩ := free_good hi.fresh hi.good
  have hfr := hm1.frame (afoot args A) hi.afoot_lt hi.apart
  rw [freeFilter, e1]
  simp only [MRes.bind]
  cases args with
  | none =>
    have : freeBlockList none m1 = .ok () m1 := by rw [freeBlockList]; cases m1.brk <;> rfl
    rw [this]
    exact ⟨m1, by cases r <;> rfl, by simpa [afoot] using hm1⟩
  | some a =>
    obtain ⟨h1, h2, h3⟩ := hi.some_ a rfl
    obtain ⟨hA, hAd⟩ := h1.move hm1 (fun x hx hy => h3 x hy hx)
    obtain ⟨m2, e2, hm2, hf2⟩ := free_good hf1 hA
    rw [e2]
    exact ⟨m2, by cases r <;> rfl, hfr.trans hi.fresh (by simpa [afoot] using hm2)⟩

theorem Good.total {m : Mem} {p : Nat} {l : List Node} (hg : Good m p l) : ∃ b, m.cells p = some (.block b) ∧ b.totalLen = (code l).length := by
  cases l with
  | nil => exact ⟨_, hg.at_, rfl⟩
  | cons n l => obtain ⟨rfl, _, h, _⟩ := hg.at_; exact ⟨_, h, rfl⟩

theorem Good.flatten {m : Mem} {p : Nat} {l : List Node} (hg : Good m p l) (h0 : l ≠ []) (pre rest : List Insn) (hr : (code l).length ≤ rest.length) :
    flattenBlocks m (pre.length + rest.length) m.brk (some p) pre.length (pre ++ rest) = .ok (pre ++ code l ++ rest.drop (code l).length) m := by
  match l, h0 with
  | n :: l, _ =>
    have := flatten_linked m _ (n :: l) m.brk pre rest (length_le_brk hg.nodup hg.lt) hg.linked rfl hr
    obtain ⟨rfl, _⟩ := hg.at_
    exact this

/-- How compiling the whole policy ends. -/
def FilterSim (m : Mem) (F : List Nat) (x : MRes Unit Nat) (y : Res (List Insn)) : Prop :=
  match x, y with
  | .ok p m', .ok prog => m.brk ≤ p ∧ m'.cells p = some (.instrs prog) ∧ Moves m F m' [p]
  | .fail _ m', .fail => Moves m F m' []
  | .die, .die => True
  | .ub, .ub => True
  | _, _ => False

theorem FilterSim.after {m m' : Mem} {F F' : List Nat} {x : MRes Unit Nat} {y : Res (List Insn)} (hf : Fresh m) (hm : Moves m F m' F')
    (h : FilterSim m' F' x y) : FilterSim m F x y := by
  match x, y, h with
  | .ok p m'', .ok c, ⟨h1, h2, h3⟩ => exact ⟨hm.brk.trans h1, h2, hm.trans hf h3⟩
  | .fail _ m'', .fail, h => exact hm.trans hf h
  | .die, .die, _ => trivial
  | .ub, .ub, _ => trivial

theorem finish_sim {m : Mem} {head : Nat} {H A : List Node} {st : FState} (hi : FInv m head H st.args A) (h0 : H ≠ []) :
    FilterSim m (foot head H ++ afoot st.args A) (finishFilterM head st m)
      (if (code H ++ code A).length > BPF_MAXINSNS then .fail else bpfResolveJumps st.labels.length (code H ++ code A)) := by
  have hfin : finishFilterM head st m = finishFilterM.finish head st (code H).length (code A).length m := by
    obtain ⟨b, h1, h2⟩ := hi.good.total
    unfold finishFilterM
    rw [h1]
    cases hargs : st.args with
    | none =>
      have := hi.none_ hargs
      simp only [Option.map_none, h2, this, code_nil, List.length_nil]
    | some a =>
      obtain ⟨b', h3, h4⟩ := (hi.some_ a hargs).1.total
      simp only [Option.map_some, h3, h2, h4]
  rw [hfin, finishFilterM.finish]
  by_cases hbig : (code H ++ code A).length > BPF_MAXINSNS
  · rw [if_pos hbig, if_pos (by simpa using hbig)]
    obtain ⟨m', e, hm⟩ := freeFilter_ok hi none
    rw [e]
    exact hm
  rw [if_neg hbig, if_neg (by simpa using hbig)]
  simp only [newInstrBuf, List.length_nil, Nat.zero_le, if_true, MRes.bind, List.nil_append, Nat.sub_zero]
  generalize hz : (⟨0, 0, 0, 0⟩ : Insn) = z
  generalize hm1d : m.alloc (.instrs (List.replicate ((code H).length + (code A).length) z)) = m1
  have hb1 : m1.brk = m.brk + 1 := by rw [← hm1d]; rfl
  have hf1 : Fresh m1 := by
    intro a ha
    rw [← hm1d, alloc_ne _ _ (by omega)]
    exact hi.fresh a (by omega)
  have hm1 : Moves m [] m1 [m.brk] := by
    refine ⟨by omega, by simp [hb1], ?_, by simp, fun _ => hf1⟩
    intro a _ ha
    rw [← hm1d, alloc_ne _ _ (by simpa using ha)]
  obtain ⟨hH, hHd⟩ := hi.good.move hm1 (by simp)
  have e1 := hH.flatten h0 [] (List.replicate ((code H).length + (code A).length) z) (by simp)
  simp only [List.length_nil, Nat.zero_add, List.length_replicate, List.nil_append, List.drop_replicate, Nat.add_sub_cancel_left] at e1
  rw [e1]
  simp only
  have hi1 : FInv m1 head H st.args A ∧ ∀ a ∈ afoot st.args A, a ≠ m.brk := by
    refine ⟨⟨hf1, hH, hi.none_, ?_⟩, ?_⟩
    · intro a ha
      obtain ⟨h1, h2, h3⟩ := hi.some_ a ha
      exact ⟨(h1.move hm1 (by simp)).1, h2, h3⟩
    · intro a ha
      have := hi.afoot_lt a ha
      omega
  have e2 : flattenBlocks m1 ((code H).length + (code A).length) m1.brk st.args (code H).length (code H ++ List.replicate (code A).length z) =
      .ok (code H ++ code A) m1 := by
    cases hargs : st.args with
    | none =>
      have := hi.none_ hargs
      cases m1.brk <;> simp [flattenBlocks, this]
    | some a =>
      obtain ⟨h1, h2, h3⟩ := hi1.1.some_ a hargs
      have := h1.flatten (by intro e; simp [e] at h2) (code H) (List.replicate (code A).length z) (by simp)
      simp only [List.length_replicate, List.drop_replicate, Nat.sub_self, List.replicate_zero, List.append_nil] at this
      exact this
  rw [e2]
  simp only
  have hfr := hm1.frame (foot head H ++ afoot st.args A) (by
    intro a ha
    rcases List.mem_append.1 ha with h | h
    · exact hi.good.lt a h
    · exact hi.afoot_lt a h) (by simp)
  simp only [List.nil_append] at hfr
  have hput : ∀ c : Option Cell, FInv (m1.put m.brk c) head H st.args A := by
    intro c
    have hmp : Moves m1 [m.brk] (m1.put m.brk c) [m.brk] := by
      refine ⟨le_refl _, fun a h => .inl h, ?_, fun a h h' => absurd h h', ?_⟩
      · intro a h _; exact put_ne _ _ (by simpa using h)
      · intro h a ha
        rw [put_ne _ _ (by simp at ha; omega)]
        exact h a ha
    refine ⟨hmp.fresh hf1, (hH.move hmp hHd).1, hi.none_, ?_⟩
    intro a ha
    obtain ⟨h1, h2, h3⟩ := hi1.1.some_ a ha
    refine ⟨(h1.move hmp ?_).1, h2, h3⟩
    intro x hx
    have := hi1.2 x (by rw [ha]; exact hx)
    simpa using this
  have hnotin : m.brk ∉ foot head H ++ afoot st.args A := by
    intro h
    rcases List.mem_append.1 h with h | h
    · exact absurd (hi.good.lt _ h) (by omega)
    · exact absurd (hi.afoot_lt _ h) (by omega)
  cases bpfResolveJumps st.labels.length (code H ++ code A) with
  | ok prog =>
    simp only
    obtain ⟨m2, e3, hm2⟩ := freeFilter_ok (hput (some (.instrs prog))) (some m.brk)
    rw [e3]
    have hap := hm2.apart (a := m.brk) (by simp [hb1]) hnotin
    refine ⟨le_refl _, by rw [hap.2, put_same], ?_⟩
    refine ⟨?_, ?_, ?_, ?_, ?_⟩
    · have := hm2.brk; simp at this; omega
    · intro a ha; have := hm2.brk; simp at this ha; right; omega
    · intro a h1 h2
      have h2 : a ≠ m.brk := by simpa using h2
      rw [hm2.same a h1 (by simp), put_ne _ _ h2, ← hm1d, alloc_ne _ _ h2]
    · intro a h1 _
      exact hm2.freed a h1 (by simp)
    · intro _
      exact hm2.fresh (hput _).fresh
  | fail =>
    simp only
    obtain ⟨m2, e3, hm2⟩ := freeFilter_ok (hput none) none
    rw [e3]
    refine ⟨?_, by simp, ?_, ?_, ?_⟩
    · have := hm2.brk; simp at this; omega
    · intro a h1 _
      rw [hm2.same a h1 (by simp)]
      by_cases h2 : a = m.brk
      · rw [h2, put_same]; exact (hi.fresh _ (le_refl _)).symm
      · rw [put_ne _ _ h2, ← hm1d, alloc_ne _ _ h2]
    · intro a h1 _
      exact hm2.freed a h1 (by simp)
    · intro _
      exact hm2.fresh (hput _).fresh
  | die => trivial
  | ub => trivial

theorem filter_sim (cx : Ctx) (content : CStr) {m : Mem} (hf : Fresh m) :
    FilterSim m [] (compileFilterM cx content m) (compileFilter cx content) := by
  unfold compileFilterM
  obtain ⟨hg0, hm0, hf0⟩ := newBlock_good hf
  rw [newFilterBlock]
  simp only [MRes.bind]
  have hp := prefix_sim cx hf0 hg0
  generalize filterPrefixM cx m.brk _ = X at hp ⊢
  match X, hp with
  | .ok _ m1, ⟨_, hf1, H, hg1, hc, hm1⟩ =>
    simp only [List.nil_append] at hg1 hm1
    simp only at hc
    refine FilterSim.after hf (hm0.trans hf hm1) ?_
    simp only
    have hi : FInv m1 m.brk H (FState.mk none [] []).args [] := ⟨hf1, hg1, fun _ => rfl, by simp⟩
    have hs := file_sim cx m.brk content ⟨none, [], []⟩ m1 H [] hi
    unfold compileFilter
    rw [hc] at hs
    simp only [code_nil] at hs
    have hafn : afoot none ([] : List Node) = [] := rfl
    simp only [hafn, List.append_nil] at hs
    generalize compileFileM0 cx m.brk content _ m1 = Y at hs ⊢
    generalize compileFile0 cx content _ = Z at hs ⊢
    match Y, Z, hs with
    | .ok st m2, .ok cst, ⟨_, H', A', hi', e, hm⟩ =>
      simp only [id] at e hi' hm
      subst e
      refine FilterSim.after hf1 hm ?_
      simp only
      by_cases hl : cx.opts.action = .log ∧ ¬ cx.opts.allowLogging
      · rw [if_pos hl, if_pos hl]
        obtain ⟨m', e, hm'⟩ := freeFilter_ok hi' none
        rw [e]
        exact hm'
      · rw [if_neg hl, if_neg hl]
        obtain ⟨n, m3, e3, hc3, hg3, hm3, hf3⟩ := append_good hi'.fresh hi'.good 1 [retAction cx.opts.action] rfl
        rw [e3]
        obtain ⟨hi3, hm3'⟩ := hi'.onHead hf3 hg3 hm3
        have := finish_sim hi3 (by simp)
        refine FilterSim.after hi'.fresh hm3' ?_
        simpa [hc3] using this
    | .fail args m2, .fail, ⟨H', A', hi', hm⟩ =>
      simp only
      obtain ⟨m', e, hm'⟩ := freeFilter_ok hi' none
      rw [e]
      exact hm.trans hf1 hm'
    | .die, .die, _ => trivial
    | .ub, .ub, _ => trivial

end Minijail.Blocks
