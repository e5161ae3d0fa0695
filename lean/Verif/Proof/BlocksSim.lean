import Verif.Proof.Blocks
import Verif.Proof.Atom
/-!
Helper lemmas for C68: the compiler with its lists in memory does what the compiler on lists of instructions does.
-/
set_option autoImplicit false
set_option linter.unusedSimpArgs false
namespace Minijail.Blocks

/-- `x` works on the list of blocks `l` with the head `p` and appends the instructions of `y` to it. -/
def Sim {α : Type} (m : Mem) (p : Nat) (l : List Node) (x : MRes Unit α) (y : Res (List Insn × α)) : Prop :=
  match x, y with
  | .ok a m', .ok r => a = r.2 ∧ Fresh m' ∧ ∃ k, Good m' p (l ++ k) ∧ code k = r.1 ∧ Moves m (foot p l) m' (foot p (l ++ k))
  | .fail _ m', .fail => Fresh m' ∧ ∃ k, Good m' p (l ++ k) ∧ Moves m (foot p l) m' (foot p (l ++ k))
  | .die, .die => True
  | .ub, .ub => True
  | _, _ => False

theorem Sim.nothing {α : Type} {m : Mem} (hf : Fresh m) {p : Nat} {l : List Node} (hg : Good m p l) (a : α) : Sim m p l (.ok a m) (.ok ([], a)) :=
  ⟨rfl, hf, [], by simpa using hg, rfl, by simpa using Moves.refl _ _⟩

theorem Sim.failed {α : Type} {m : Mem} (hf : Fresh m) {p : Nat} {l : List Node} (hg : Good m p l) : Sim m p l (.fail () m : MRes Unit α) .fail :=
  ⟨hf, [], by simpa using hg, by simpa using Moves.refl _ _⟩

theorem Sim.append {m : Mem} (hf : Fresh m) {p : Nat} {l : List Node} (hg : Good m p l) (count : Nat) (c : List Insn) (hc : c.length = count) :
    Sim m p l (appendNew p count c m) (.ok (c, ())) := by
  obtain ⟨n, m', h1, h2, h3, h4, h5⟩ := append_good hf hg count c hc
  rw [h1]
  exact ⟨rfl, h5, [n], h3, by simp [h2], h4⟩

theorem Sim.bind {α β : Type} {m : Mem} (hf : Fresh m) {p : Nat} {l : List Node} {x : MRes Unit α} {y : Res (List Insn × α)} {f : α → Mem → MRes Unit β}
    {g : α → Res (List Insn × β)} (h : Sim m p l x y) (h' : ∀ a m' k, Fresh m' → Good m' p (l ++ k) → Sim m' p (l ++ k) (f a m') (g a)) :
    Sim m p l (x.bind f) (y >>= fun r => g r.2 >>= fun r' => .ok (r.1 ++ r'.1, r'.2)) := by
  match x, y, h with
  | .ok a m', .ok r, ⟨e, h1, k, h2, h3, h4⟩ =>
    subst e
    have := h' r.2 m' k h1 h2
    simp only [MRes.bind, Res.bind_ok]
    match hx : f r.2 m', hy : g r.2, this with
    | .ok b m'', .ok r', this =>
      obtain ⟨e, h5, k', h6, h7, h8⟩ := this
      exact ⟨e, h5, k ++ k', by rwa [← List.append_assoc], by simp [h3, h7], by rw [← List.append_assoc]; exact h4.trans hf h8⟩
    | .fail _ m'', .fail, this =>
      obtain ⟨h5, k', h6, h8⟩ := this
      exact ⟨h5, k ++ k', by rwa [← List.append_assoc], by rw [← List.append_assoc]; exact h4.trans hf h8⟩
    | .die, .die, _ => trivial
    | .ub, .ub, _ => trivial
  | .fail _ m', .fail, h => exact h
  | .die, .die, _ => trivial
  | .ub, .ub, _ => trivial

theorem sim_eq {α : Type} {m : Mem} {p : Nat} {l : List Node} {x : MRes Unit α} {y y' : Res (List Insn × α)} (h : Sim m p l x y) (e : y = y') : Sim m p l x y' := e ▸ h

theorem errno_one (cx : Ctx) (s : CStr) (c : List Insn) (h : compileErrno cx s = .ok c) : c.length = 1 := by
  unfold compileErrno at h
  rw [Res.bind_eq_ok] at h
  obtain ⟨⟨a, q⟩, _, h⟩ := h
  simp only at h
  split_ifs at h
  split at h
  · split at h
    · cases h
    · split_ifs at h
      cases h; rfl
  · split at h <;> cases h <;> rfl

theorem errno_sim (cx : Ctx) (s : CStr) {m : Mem} (hf : Fresh m) {p : Nat} {l : List Node} (hg : Good m p l) :
    Sim m p l (compileErrnoM cx p s m) (compileErrno cx s >>= fun c => .ok (c, ())) := by
  unfold compileErrnoM
  split <;> rename_i h <;> rw [h]
  · exact Sim.append hf hg 1 _ (errno_one cx s _ h)
  · exact Sim.failed hf hg
  · trivial
  · trivial

theorem atom_sim (cx : Ctx) (s : CStr) (L : Labels) (nr i : Nat) {m : Mem} (hf : Fresh m) {p : Nat} {l : List Node} (hg : Good m p l) :
    Sim m p l (compileAtomM cx p s L nr i m) (compileAtom cx s L nr i) := by
  unfold compileAtomM compileAtom
  split <;> rename_i h <;> rw [h]
  · simp only [Res.bind_ok]
    split <;> rename_i h' <;> rw [h']
    · refine sim_eq (Sim.bind hf (Sim.append hf hg _ _ (bpfArgComp_length ..)) (g := fun _ => .ok ([], _)) fun a m' k h1 h2 => Sim.nothing h1 h2 _) ?_
      simp
    · exact Sim.failed hf hg
    · trivial
    · trivial
  · exact Sim.failed hf hg
  · trivial
  · trivial

theorem atoms_sim (cx : Ctx) (nr i : Nat) {p : Nat} (as : List CStr) : ∀ (L : Labels) {m : Mem} (_ : Fresh m) {l : List Node} (_ : Good m p l),
    Sim m p l (compileAtomsM cx p nr i as L m) (compileAtoms cx nr i as L) := by
  induction as with
  | nil => intro L m hf l hg; exact Sim.nothing hf hg _
  | cons a as ih =>
    intro L m hf l hg
    rw [compileAtomsM, compileAtoms]
    exact Sim.bind hf (atom_sim cx a L nr i hf hg) fun L m' k h1 h2 => ih L h1 h2

theorem groups_sim (cx : Ctx) (nr : Nat) {p : Nat} (gs : List CStr) : ∀ (i : Nat) (L : Labels) {m : Mem} (_ : Fresh m) {l : List Node} (_ : Good m p l),
    Sim m p l (compileGroupsM cx p nr i gs L m) (compileGroups cx nr i gs L) := by
  induction gs with
  | nil => intro i L m hf l hg; exact Sim.nothing hf hg _
  | cons a gs ih =>
    intro i L m hf l hg
    rw [compileGroupsM, compileGroups]
    refine sim_eq (Sim.bind hf (atoms_sim cx nr i _ L hf hg) (g := fun L => successLbl L nr >>= fun s => groupEndLbl s.2 nr i >>= fun e =>
      Res.ok ([bpfJumpLbl s.1, bpfLbl e.1], ()) >>= fun r => compileGroups cx nr (i + 1) gs e.2 >>= fun r' => .ok (r.1 ++ r'.1, r'.2)) ?_) ?_
    · intro L m' k hf hg
      split <;> rename_i h <;> rw [h]
      · simp only [Res.bind_ok]
        split <;> rename_i h' <;> rw [h']
        · exact Sim.bind hf (Sim.append hf hg 2 _ rfl) (g := fun _ => compileGroups cx nr (i + 1) gs _) fun _ m' k h1 h2 => ih _ _ h1 h2
        · exact Sim.failed hf hg
        · trivial
        · trivial
      · exact Sim.failed hf hg
      · trivial
      · trivial
    · cases compileAtoms cx nr i (tokenizeAll "&&".toList a) L with
      | ok r =>
        simp only [Res.bind_ok]
        cases successLbl r.2 nr with
        | ok s =>
          simp only [Res.bind_ok]
          cases groupEndLbl s.2 nr i with
          | ok e =>
            simp only [Res.bind_ok]
            cases compileGroups cx nr (i + 1) gs e.2 <;> simp
          | fail => rfl
          | die => rfl
          | ub => rfl
        | fail => rfl
        | die => rfl
        | ub => rfl
      | fail => rfl
      | die => rfl
      | ub => rfl

theorem groups_nonempty (cx : Ctx) (r : Option CStr) (c : List Insn) (h : compileRet cx r = .ok c) : c ≠ [] := by
  intro e
  subst e
  cases r with
  | none => cases h
  | some s => exact absurd (errno_one cx s _ h) (by simp)

/-- What is appended after the entry label. -/
def bodyRest (cx : Ctx) (nr : Nat) (line : CStr) (labels : Labels) : Res (List Insn × Labels) :=
  if line.take 6 = "return".toList then compileErrno cx line >>= fun c => .ok (c, labels)
  else
    compileGroups cx nr 0 (match strtok ';' line with
      | none => []
      | some x => tokenizeAll "||".toList x.1) labels >>= fun r =>
      compileRet cx (((strtok ';' line).bind fun x => strtok ';' x.2).map Prod.fst) >>= fun ret =>
        successLbl r.2 nr >>= fun s => .ok (r.1 ++ ret ++ [bpfLbl s.1, bpfRetAllow], s.2)

theorem policyLine_rest (cx : Ctx) (nr : Nat) (line : CStr) (id : BitVec 32) (labels : Labels) (h : line ≠ []) :
    compilePolicyLine cx nr line id labels = (bodyRest cx nr line labels >>= fun r => .ok (bpfLbl id :: r.1, r.2)) := by
  unfold compilePolicyLine bodyRest
  rw [if_neg h]
  split_ifs
  · cases compileErrno cx line <;> rfl
  · simp only []
    generalize compileGroups cx nr 0 _ labels = G
    cases G with
    | ok r =>
      simp only [Res.bind_ok]
      generalize compileRet cx _ = R
      cases R with
      | ok ret =>
        simp only [Res.bind_ok]
        cases successLbl r.2 nr <;> rfl
      | fail => rfl
      | die => rfl
      | ub => rfl
    | fail => rfl
    | die => rfl
    | ub => rfl

theorem bodyRest_nonempty (cx : Ctx) (nr : Nat) (line : CStr) (labels : Labels) (r : List Insn × Labels) (h : bodyRest cx nr line labels = .ok r) : r.1 ≠ [] := by
  unfold bodyRest at h
  split_ifs at h
  · rw [Res.bind_eq_ok] at h
    obtain ⟨c, hc, h⟩ := h
    cases h
    have := errno_one cx line c hc
    intro e
    simp only at e
    rw [e] at this
    simp at this
  · rw [Res.bind_eq_ok] at h
    obtain ⟨g, _, h⟩ := h
    rw [Res.bind_eq_ok] at h
    obtain ⟨ret, _, h⟩ := h
    rw [Res.bind_eq_ok] at h
    obtain ⟨s, _, h⟩ := h
    cases h
    simp

/-- What comes after the entry label, in memory. -/
def bodyRestM (cx : Ctx) (head nr : Nat) (policyLine : CStr) (labels : Labels) (m : Mem) : MRes Unit Labels :=
  if policyLine.take 6 = "return".toList then (compileErrnoM cx head policyLine m).bind fun _ m => .ok labels m
  else
    let tok1 := strtok ';' policyLine
    let retErrno := (tok1.bind fun x => strtok ';' x.2).map Prod.fst
    let groups := match tok1 with
      | none => []
      | some x => tokenizeAll "||".toList x.1
    (compileGroupsM cx head nr 0 groups labels m).bind fun labels m =>
      (match retErrno with
        | some r => compileErrnoM cx head r m
        | none => appendNew head 1 [retAction cx.opts.action] m).bind fun _ m =>
        match successLbl labels nr with
        | .ok (sid, labels) => (appendNew head 2 [bpfLbl sid, bpfRetAllow] m).bind fun _ m => .ok labels m
        | .fail => .fail () m
        | .die => .die
        | .ub => .ub

theorem body_split (cx : Ctx) (head nr : Nat) (line : CStr) (id : BitVec 32) (labels : Labels) (m : Mem) :
    policyLineBody cx head nr line id labels m = (appendNew head 1 [bpfLbl id] m).bind fun _ m => bodyRestM cx head nr line labels m := rfl

theorem rest_sim (cx : Ctx) (nr : Nat) (line : CStr) (L : Labels) {m : Mem} (hf : Fresh m) {p : Nat} {l : List Node} (hg : Good m p l) :
    Sim m p l (bodyRestM cx p nr line L m) (bodyRest cx nr line L) := by
  unfold bodyRestM bodyRest
  split_ifs
  · refine sim_eq (Sim.bind hf (errno_sim cx line hf hg) (g := fun _ => .ok ([], L)) fun _ m' k h1 h2 => Sim.nothing h1 h2 L) ?_
    cases compileErrno cx line <;> simp
  · refine sim_eq (Sim.bind hf (groups_sim cx nr _ 0 L hf hg) (g := fun L =>
      (compileRet cx (((strtok ';' line).bind fun x => strtok ';' x.2).map Prod.fst) >>= fun c => .ok (c, ())) >>= fun r =>
        (successLbl L nr >>= fun s => .ok ([bpfLbl s.1, bpfRetAllow], s.2)) >>= fun r' => .ok (r.1 ++ r'.1, r'.2)) ?_) ?_
    · intro L m' k hf hg
      refine Sim.bind hf ?_ (g := fun _ => successLbl L nr >>= fun s => .ok ([bpfLbl s.1, bpfRetAllow], s.2)) ?_
      · split
        · rename_i r h
          rw [h]
          exact errno_sim cx r hf hg
        · rename_i h
          rw [h]
          exact Sim.append hf hg 1 _ rfl
      · intro _ m' k' hf hg
        split <;> rename_i h <;> rw [h]
        · exact sim_eq (Sim.bind hf (Sim.append hf hg 2 _ rfl) (g := fun _ => .ok ([], _)) fun _ m' k h1 h2 => Sim.nothing h1 h2 _) (by simp)
        · exact Sim.failed hf hg
        · trivial
        · trivial
    · generalize compileGroups cx nr 0 _ L = G
      cases G with
      | ok r =>
        simp only [Res.bind_ok]
        generalize compileRet cx _ = R
        cases R with
        | ok ret =>
          simp only [Res.bind_ok]
          cases successLbl r.2 nr <;> simp
        | fail => rfl
        | die => rfl
        | ub => rfl
      | fail => rfl
      | die => rfl
      | ub => rfl

theorem newBlock_good {m : Mem} (hf : Fresh m) : Good (m.alloc (.block {})) m.brk [] ∧ Moves m [] (m.alloc (.block {})) [m.brk] ∧ Fresh (m.alloc (.block {})) := by
  have hfr : Fresh (m.alloc (.block {})) := by
    intro a ha
    simp only [alloc_brk] at ha
    rw [alloc_ne _ _ (by omega)]
    exact hf a (by omega)
  refine ⟨⟨alloc_same _ _ rfl, by simp [foot], by simp [foot]⟩, ⟨by simp, by simp, ?_, by simp, fun _ => hfr⟩, hfr⟩
  intro a _ h
  exact alloc_ne _ _ (by simpa using h)

/-- `compile_policy_line`: a list of its own, of more than one block, or everything as before. -/
theorem policyLine_sim (cx : Ctx) (nr : Nat) (line : CStr) (id : BitVec 32) (L : Labels) {m : Mem} (hf : Fresh m) :
    match compilePolicyLineM cx nr line id L m, compilePolicyLine cx nr line id L with
    | .ok (q, L') m', .ok (c, L'') => L' = L'' ∧ Fresh m' ∧ ∃ k, Good m' q k ∧ 2 ≤ k.length ∧ code k = c ∧ Moves m [] m' (foot q k)
    | .fail _ m', .fail => Fresh m' ∧ Moves m [] m' []
    | .die, .die => True
    | .ub, .ub => True
    | _, _ => False := by
  by_cases h0 : line = []
  · simp only [compilePolicyLineM, compilePolicyLine, h0, if_true]
    exact ⟨hf, Moves.refl _ _⟩
  rw [policyLine_rest cx nr line id L h0, compilePolicyLineM, if_neg h0, newFilterBlock, MRes.bind]
  simp only [body_split]
  obtain ⟨hg0, hm0, hf0⟩ := newBlock_good hf
  obtain ⟨n, m1, e1, hc1, hg1, hm1, hf1⟩ := append_good hf0 hg0 1 [bpfLbl id] rfl
  rw [e1, MRes.bind]
  have hm01 := hm0.trans hf hm1
  simp only [List.nil_append] at hg1 hm01
  have hs := rest_sim cx nr line L hf1 hg1
  match hx : bodyRestM cx m.brk nr line L m1, hy : bodyRest cx nr line L, hs with
  | .ok a m', .ok r, ⟨e, h1, k, h2, h3, h4⟩ =>
    simp only [Res.bind_ok]
    refine ⟨e, h1, [n] ++ k, h2, ?_, ?_, hm01.trans hf h4⟩
    · have := bodyRest_nonempty cx nr line L r hy
      cases k with
      | nil => exact absurd h3.symm this
      | cons => simp
    · simp [hc1, h3]
  | .fail _ m', .fail, ⟨h1, k, h2, h3⟩ =>
    simp only [Res.bind_fail]
    obtain ⟨m2, e2, hm2, hf2⟩ := free_good h1 h2
    rw [e2, MRes.bind]
    exact ⟨hf2, (hm01.trans hf h3).trans hf hm2⟩
  | .die, .die, _ => trivial
  | .ub, .ub, _ => trivial

end Minijail.Blocks
