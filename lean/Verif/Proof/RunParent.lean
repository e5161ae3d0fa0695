import Verif.Spec.RunCall
import Verif.Proof.FdsClosed
import Mathlib.Data.List.Nodup
import Mathlib.Data.List.Basic
import Mathlib.Tactic.SplitIfs
import Mathlib.Tactic.ByContra
import Mathlib.Tactic.Tauto
/-! Lemmas about the calling process in `minijail_run*`. -/
set_option autoImplicit false
set_option linter.unusedSimpArgs false
namespace Minijail
open Spec

/-- The numbers of pipes. -/
def pipeNums (L : List NewPipe) : List Nat := L.flatMap fun p => [p.r, p.w]

/-- The files of pipes. -/
def pipeFiles (L : List NewPipe) : List Nat := L.flatMap fun p => [p.fr, p.fw]

/-- `u` is the table `t` with the pipes `L` opened in it. -/
structure PipesIn (env : RunEnv) (t : FdTable) (L : List NewPipe) (u : FdTable) : Prop where
  made : ∀ q ∈ L, ∃ t', env.pipe t' = some q
  nums : (pipeNums L).Nodup
  free : ∀ n ∈ pipeNums L, t n = none
  files : (pipeFiles L).Nodup
  fresh : ∀ x ∈ pipeFiles L, ∀ n f, t n = some f → f.file ≠ x
  ends : ∀ q ∈ L, u q.r = some ⟨q.fr, false⟩ ∧ u q.w = some ⟨q.fw, false⟩
  rest : ∀ m, m ∉ pipeNums L → u m = t m

theorem PipesIn.nil (env : RunEnv) (t : FdTable) : PipesIn env t [] t :=
  ⟨by simp, by simp [pipeNums], by simp [pipeNums], by simp [pipeFiles], by simp [pipeFiles], by simp, by simp⟩

theorem pipeNums_append (L M : List NewPipe) : pipeNums (L ++ M) = pipeNums L ++ pipeNums M := by simp [pipeNums]
theorem pipeFiles_append (L M : List NewPipe) : pipeFiles (L ++ M) = pipeFiles L ++ pipeFiles M := by simp [pipeFiles]
theorem mem_pipeNums {L : List NewPipe} {n : Nat} : n ∈ pipeNums L ↔ ∃ q ∈ L, n = q.r ∨ n = q.w := by simp [pipeNums]
theorem mem_pipeFiles {L : List NewPipe} {n : Nat} : n ∈ pipeFiles L ↔ ∃ q ∈ L, n = q.fr ∨ n = q.fw := by simp [pipeFiles]

/-- An open number of the table with pipes. -/
theorem PipesIn.open_of_mem {env : RunEnv} {t u : FdTable} {L : List NewPipe} (h : PipesIn env t L u) {n : Nat} (hn : n ∈ pipeNums L) :
    ∃ x ∈ pipeFiles L, u n = some ⟨x, false⟩ := by
  obtain ⟨q, hq, rfl | rfl⟩ := mem_pipeNums.1 hn
  · exact ⟨q.fr, mem_pipeFiles.2 ⟨q, hq, .inl rfl⟩, (h.ends q hq).1⟩
  · exact ⟨q.fw, mem_pipeFiles.2 ⟨q, hq, .inr rfl⟩, (h.ends q hq).2⟩

theorem openPipe_apply (t : FdTable) (p : NewPipe) (m : Nat) :
    openPipe t p m = if m = p.w then some ⟨p.fw, false⟩ else if m = p.r then some ⟨p.fr, false⟩ else t m := rfl

theorem PipesIn.snoc {env : RunEnv} (hk : KernelFds env) {t u : FdTable} {L : List NewPipe} (h : PipesIn env t L u) {p : NewPipe} (hp : env.pipe u = some p) :
    PipesIn env t (L ++ [p]) (openPipe u p) := by
  obtain ⟨k1, k2, k3⟩ := hk.numbers u p hp
  obtain ⟨k4, k5⟩ := hk.files u p hp
  have hr : p.r ∉ pipeNums L := fun hm => by
    obtain ⟨x, -, hx⟩ := h.open_of_mem hm
    rw [hx] at k1; cases k1
  have hw : p.w ∉ pipeNums L := fun hm => by
    obtain ⟨x, -, hx⟩ := h.open_of_mem hm
    rw [hx] at k2; cases k2
  have hfile : ∀ x ∈ pipeFiles L, x ≠ p.fr ∧ x ≠ p.fw := by
    intro x hx
    obtain ⟨q, hq, rfl | rfl⟩ := mem_pipeFiles.1 hx
    · exact k5 _ _ (h.ends q hq).1
    · exact k5 _ _ (h.ends q hq).2
  have hn1 : pipeNums [p] = [p.r, p.w] := rfl
  have hf1 : pipeFiles [p] = [p.fr, p.fw] := rfl
  refine ⟨?_, ?_, ?_, ?_, ?_, ?_, ?_⟩
  · intro q hq
    rcases List.mem_append.1 hq with hq | hq
    · exact h.made q hq
    · rw [List.mem_singleton.1 hq]; exact ⟨u, hp⟩
  · rw [pipeNums_append, hn1]
    refine List.Nodup.append h.nums (by simp [k3]) ?_
    intro a ha hb
    rcases List.mem_cons.1 hb with rfl | hb
    · exact hr ha
    · rw [List.mem_singleton.1 hb] at ha; exact hw ha
  · rw [pipeNums_append, hn1]
    intro n hn
    rcases List.mem_append.1 hn with hn | hn
    · exact h.free n hn
    · rcases List.mem_cons.1 hn with rfl | hn
      · rw [← h.rest _ hr]; exact k1
      · rw [List.mem_singleton.1 hn, ← h.rest _ hw]; exact k2
  · rw [pipeFiles_append, hf1]
    refine List.Nodup.append h.files (by simp [k4]) ?_
    intro a ha hb
    rcases List.mem_cons.1 hb with rfl | hb
    · exact (hfile _ ha).1 rfl
    · rw [List.mem_singleton.1 hb] at ha; exact (hfile _ ha).2 rfl
  · rw [pipeFiles_append, hf1]
    intro x hx n f hf
    rcases List.mem_append.1 hx with hx | hx
    · exact h.fresh x hx n f hf
    · have hn : n ∉ pipeNums L := fun hm => by rw [h.free n hm] at hf; cases hf
      rw [← h.rest n hn] at hf
      rcases List.mem_cons.1 hx with rfl | hx
      · exact (k5 n f hf).1
      · rw [List.mem_singleton.1 hx]; exact (k5 n f hf).2
  · intro q hq
    rcases List.mem_append.1 hq with hq | hq
    · have a1 : q.r ∈ pipeNums L := mem_pipeNums.2 ⟨q, hq, .inl rfl⟩
      have a2 : q.w ∈ pipeNums L := mem_pipeNums.2 ⟨q, hq, .inr rfl⟩
      have b1 : ∀ m ∈ pipeNums L, m ≠ p.r ∧ m ≠ p.w := fun m hm => ⟨fun e => hr (e ▸ hm), fun e => hw (e ▸ hm)⟩
      rw [openPipe_apply, openPipe_apply, if_neg (b1 _ a1).2, if_neg (b1 _ a1).1, if_neg (b1 _ a2).2, if_neg (b1 _ a2).1]
      exact h.ends q hq
    · rw [List.mem_singleton.1 hq, openPipe_apply, openPipe_apply, if_neg k3, if_pos rfl, if_pos rfl]
      exact ⟨rfl, rfl⟩
  · intro m hm
    rw [pipeNums_append, hn1] at hm
    simp only [List.mem_append, List.mem_cons, List.not_mem_nil, or_false, not_or] at hm
    rw [openPipe_apply, if_neg hm.2.2, if_neg hm.2.1]
    exact h.rest m hm.1

/-- Both ends of a pipe that may be there. -/
def endsOf (o : Option NewPipe) : Option Nat × Option Nat := (o.map (·.r), o.map (·.w))

theorem pipeStage_inv {env : RunEnv} (hk : KernelFds env) {t : FdTable} {L : List NewPipe} (want : Bool) (put : RunPipes → Option Nat × Option Nat → RunPipes)
    (code : Int) (hc : code ≠ 0) (x : Prep) (h : PipesIn env t L x.fds) (hput : put x.pipes (none, none) = x.pipes) :
    ∃ o : Option NewPipe, PipesIn env t (L ++ o.toList) (pipeStage env want put code x).fds ∧ (pipeStage env want put code x).pipes = put x.pipes (endsOf o) ∧
      ((pipeStage env want put code x).stop = none → x.stop = none ∧ o.isSome = want) ∧
      (∀ n, (pipeStage env want put code x).stop = some (.code n) → x.stop = some (.code n) ∨ n = code) := by
  unfold pipeStage
  by_cases h1 : x.stop.isSome ∨ want = false
  · rw [if_pos h1]
    refine ⟨none, by simpa using h, by simp [endsOf, hput], fun hs => ⟨hs, ?_⟩, fun n hn => .inl hn⟩
    rcases h1 with h1 | h1
    · rw [hs] at h1; cases h1
    · rw [h1]; rfl
  · rw [if_neg h1]
    rw [not_or] at h1
    cases hp : env.pipe x.fds with
    | none => exact ⟨none, by simpa using h, by simp [endsOf, hput], fun hs => (by cases hs), fun n hn => .inr (by simpa using hn.symm)⟩
    | some p =>
      refine ⟨some p, by simpa using h.snoc hk hp, by simp [endsOf], fun hs => ⟨hs, ?_⟩, fun n hn => .inl hn⟩
      simp only [Bool.not_eq_false] at h1
      rw [h1.2]; rfl

theorem plainStage_fds (bad : Bool) (stop : Stop) (x : Prep) : (plainStage bad stop x).fds = x.fds := by
  unfold plainStage; split_ifs <;> rfl
theorem plainStage_pipes (bad : Bool) (stop : Stop) (x : Prep) : (plainStage bad stop x).pipes = x.pipes := by
  unfold plainStage; split_ifs <;> rfl
theorem plainStage_stop (bad : Bool) (stop : Stop) (x : Prep) (h : (plainStage bad stop x).stop = none) : x.stop = none ∧ bad = false := by
  unfold plainStage at h
  split_ifs at h with h1
  rcases h1 with h1 | h1
  · rw [h] at h1; cases h1
  · exact ⟨h, h1⟩
theorem plainStage_code (bad : Bool) (stop : Stop) (x : Prep) (n : Int) (h : (plainStage bad stop x).stop = some (.code n)) :
    x.stop = some (.code n) ∨ stop = .code n := by
  unfold plainStage at h
  split_ifs at h with h1
  · exact .inl h
  · simp only [Option.some.injEq] at h
    exact .inr h

/-- What the preparations leave: the table with pipes, which are those that were wanted unless something failed. -/
theorem prepare_spec65 {env : RunEnv} (hk : KernelFds env) (c : RunConfig) (j : Jail) (t : FdTable) :
    ∃ pc pi po pe ps : Option NewPipe,
      PipesIn env t (pc.toList ++ pi.toList ++ po.toList ++ pe.toList ++ ps.toList) (prepareRun env c j t).fds ∧
      (prepareRun env c j t).pipes = ⟨endsOf pc, endsOf ps, endsOf pi, endsOf po, endsOf pe⟩ ∧
      ((prepareRun env c j t).stop = none → pc.isSome = c.usePreload ∧ pi.isSome = c.pstdin.isSome ∧ po.isSome = c.pstdout.isSome ∧
        pe.isSome = c.pstderr.isSome ∧ ps.isSome = syncChild j ∧
        (c.usePreload = true → j.hooks = [] ∧ c.execInChild = true)) ∧
      (∀ n, (prepareRun env c j t).stop = some (.code n) → n = 12 ∨ n = 14 ∨ n = -14) := by
  unfold prepareRun
  simp only
  generalize hx0 : (⟨t, noPipes, none⟩ : Prep) = x0
  generalize hx1 : plainStage ((c.usePreload || j.seccomp_policy_path.isSome) && !env.copyEnv) (.code ENOMEM) x0 = x1
  generalize hx2 : plainStage (j.seccomp_policy_path.isSome && !env.setPolicyEnv) (.code (-EFAULT)) x1 = x2
  generalize hx3 : plainStage (c.usePreload && (!j.hooks.isEmpty || !c.execInChild)) .die x2 = x3
  generalize hx4 : plainStage (c.usePreload && !env.setPreloadEnv) (.code (-EFAULT)) x3 = x4
  generalize hx5 : pipeStage env c.usePreload (fun s p => { s with config := p }) (-EFAULT) x4 = x5
  generalize hx6 : plainStage (c.usePreload && !env.setFdEnv) (.code (-EFAULT)) x5 = x6
  generalize hx7 : plainStage (!c.usePreload && j.flags.use_caps && j.caps != 0#64 && !j.flags.set_ambient_caps) .die x6 = x7
  generalize hx8 : pipeStage env c.pstdin.isSome (fun s p => { s with stdin := p }) EFAULT x7 = x8
  generalize hx9 : pipeStage env c.pstdout.isSome (fun s p => { s with stdout := p }) EFAULT x8 = x9
  generalize hx10 : pipeStage env c.pstderr.isSome (fun s p => { s with stderr := p }) EFAULT x9 = x10
  have f4 : x4.fds = t ∧ x4.pipes = noPipes := by
    rw [← hx4, plainStage_fds, plainStage_pipes, ← hx3, plainStage_fds, plainStage_pipes, ← hx2, plainStage_fds, plainStage_pipes, ← hx1,
      plainStage_fds, plainStage_pipes, ← hx0]
    exact ⟨rfl, rfl⟩
  have i0 : PipesIn env t [] x4.fds := by rw [f4.1]; exact .nil env t
  obtain ⟨pc, i1, e1, s1, c1⟩ := pipeStage_inv hk c.usePreload (fun s p => { s with config := p }) (-EFAULT) (by decide) x4 i0 (by rw [f4.2]; rfl)
  rw [hx5] at i1 e1 s1 c1
  have f7 : x7.fds = x5.fds ∧ x7.pipes = x5.pipes := by
    rw [← hx7, plainStage_fds, plainStage_pipes, ← hx6, plainStage_fds, plainStage_pipes]; exact ⟨rfl, rfl⟩
  rw [← f7.1] at i1
  rw [f4.2] at e1
  have p7 : x7.pipes = ⟨endsOf pc, (none, none), (none, none), (none, none), (none, none)⟩ := by rw [f7.2, e1]; rfl
  obtain ⟨pi, i2, e2, s2, c2⟩ := pipeStage_inv hk c.pstdin.isSome (fun s p => { s with stdin := p }) EFAULT (by decide) x7 i1 (by rw [p7])
  rw [hx8] at i2 e2 s2 c2
  rw [p7] at e2
  obtain ⟨po, i3, e3, s3, c3⟩ := pipeStage_inv hk c.pstdout.isSome (fun s p => { s with stdout := p }) EFAULT (by decide) x8 i2 (by rw [e2])
  rw [hx9] at i3 e3 s3 c3
  rw [e2] at e3
  obtain ⟨pe, i4, e4, s4, c4⟩ := pipeStage_inv hk c.pstderr.isSome (fun s p => { s with stderr := p }) EFAULT (by decide) x9 i3 (by rw [e3])
  rw [hx10] at i4 e4 s4 c4
  rw [e3] at e4
  obtain ⟨ps, i5, e5, s5, c5⟩ := pipeStage_inv hk (syncChild j) (fun s p => { s with sync := p }) (-EFAULT) (by decide) x10 i4 (by rw [e4])
  rw [e4] at e5
  refine ⟨pc, pi, po, pe, ps, by simpa using i5, e5, ?_, ?_⟩
  · intro hs
    obtain ⟨h10, w5⟩ := s5 hs
    obtain ⟨h9, w4⟩ := s4 h10
    obtain ⟨h8, w3⟩ := s3 h9
    obtain ⟨h7, w2⟩ := s2 h8
    rw [← hx7] at h7
    obtain ⟨h6, -⟩ := plainStage_stop _ _ _ h7
    rw [← hx6] at h6
    obtain ⟨h5, -⟩ := plainStage_stop _ _ _ h6
    obtain ⟨h4, w1⟩ := s1 h5
    rw [← hx4] at h4
    obtain ⟨h3, -⟩ := plainStage_stop _ _ _ h4
    rw [← hx3] at h3
    obtain ⟨-, hb⟩ := plainStage_stop _ _ _ h3
    refine ⟨w1, w2, w3, w4, w5, fun hu => ?_⟩
    rw [hu] at hb
    simpa using hb
  · intro n hn
    rcases c5 n hn with h | h
    · rcases c4 n h with h | h
      · rcases c3 n h with h | h
        · rcases c2 n h with h | h
          · rw [← hx7] at h
            rcases plainStage_code _ _ _ _ h with h | h
            · rw [← hx6] at h
              rcases plainStage_code _ _ _ _ h with h | h
              · rcases c1 n h with h | h
                · rw [← hx4] at h
                  rcases plainStage_code _ _ _ _ h with h | h
                  · rw [← hx3] at h
                    rcases plainStage_code _ _ _ _ h with h | h
                    · rw [← hx2] at h
                      rcases plainStage_code _ _ _ _ h with h | h
                      · rw [← hx1] at h
                        rcases plainStage_code _ _ _ _ h with h | h
                        · rw [← hx0] at h; cases h
                        · injection h with h; exact .inl h.symm
                      · injection h with h; exact .inr (.inr h.symm)
                    · cases h
                  · injection h with h; exact .inr (.inr h.symm)
                · exact .inr (.inr h)
              · injection h with h; exact .inr (.inr h.symm)
            · cases h
          · exact .inr (.inl h)
        · exact .inr (.inl h)
      · exact .inr (.inl h)
    · exact .inr (.inr h)

theorem closeBoth_apply (t : FdTable) (p : Option Nat × Option Nat) (m : Nat) : closeBoth t p m = if p.1 = some m ∨ p.2 = some m then none else t m := by
  unfold closeBoth
  rw [closeEnd_apply, closeEnd_apply]
  by_cases h1 : p.1 = some m <;> by_cases h2 : p.2 = some m <;> simp [h1, h2]

theorem foldl_closeBoth (l : List (Option Nat × Option Nat)) (t : FdTable) (m : Nat) :
    l.foldl closeBoth t m = if ∃ p ∈ l, p.1 = some m ∨ p.2 = some m then none else t m := by
  induction l generalizing t with
  | nil => simp
  | cons a l ih =>
    rw [List.foldl_cons, ih, closeBoth_apply]
    by_cases h1 : ∃ p ∈ l, p.1 = some m ∨ p.2 = some m
    · rw [if_pos h1, if_pos]
      obtain ⟨p, hp, h⟩ := h1
      exact ⟨p, List.mem_cons_of_mem _ hp, h⟩
    · rw [if_neg h1]
      by_cases h2 : a.1 = some m ∨ a.2 = some m
      · rw [if_pos h2, if_pos ⟨a, List.mem_cons_self, h2⟩]
      · rw [if_neg h2, if_neg]
        rintro ⟨p, hp, h⟩
        rcases List.mem_cons.1 hp with rfl | hp
        · exact h2 h
        · exact h1 ⟨p, hp, h⟩

theorem freeRunState_apply (s : RunPipes) (t : FdTable) (m : Nat) :
    freeRunState s t m = if some m ∈ s.ends then none else t m := by
  unfold freeRunState
  rw [foldl_closeBoth]
  congr 1
  simp only [RunPipes.ends, List.mem_cons, List.not_mem_nil, or_false, exists_eq_or_imp, exists_eq_left, eq_iff_iff, eq_comm (a := some m)]
  tauto

theorem mem_ends_of {pc pi po pe ps : Option NewPipe} (m : Nat) :
    some m ∈ (RunPipes.mk (endsOf pc) (endsOf ps) (endsOf pi) (endsOf po) (endsOf pe)).ends ↔
      m ∈ pipeNums (pc.toList ++ pi.toList ++ po.toList ++ pe.toList ++ ps.toList) := by
  have key : ∀ o : Option NewPipe, m ∈ pipeNums o.toList ↔ (some m = (endsOf o).1 ∨ some m = (endsOf o).2) := by
    intro o
    cases o with
    | none => simp [pipeNums, endsOf]
    | some p => simp [pipeNums, endsOf]
  simp only [pipeNums_append, List.mem_append, key, RunPipes.ends, List.mem_cons, List.not_mem_nil, or_false]
  tauto

/-- Freeing gives the table back that was there before. -/
theorem freed {env : RunEnv} {t u : FdTable} {pc pi po pe ps : Option NewPipe}
    (h : PipesIn env t (pc.toList ++ pi.toList ++ po.toList ++ pe.toList ++ ps.toList) u) :
    freeRunState ⟨endsOf pc, endsOf ps, endsOf pi, endsOf po, endsOf pe⟩ u = t := by
  funext m
  rw [freeRunState_apply]
  by_cases hm : m ∈ pipeNums (pc.toList ++ pi.toList ++ po.toList ++ pe.toList ++ ps.toList)
  · rw [if_pos ((mem_ends_of m).2 hm), h.free m hm]
  · rw [if_neg (fun hc => hm ((mem_ends_of m).1 hc)), h.rest m hm]

/-- The ends that the caller does not keep. -/
def droppedEnds (c : RunConfig) (s : RunPipes) : List (Option Nat) :=
  [s.config.1, s.config.2, s.sync.1, s.sync.2, s.stdin.1, if c.pstdin.isSome then none else s.stdin.2,
    if c.pstdout.isSome then none else s.stdout.1, s.stdout.2, if c.pstderr.isSome then none else s.stderr.1, s.stderr.2]

theorem closeNs_apply (on : Bool) (fd : BitVec 32) (t : FdTable) (m : Nat) :
    closeNs on fd t m = if on = true ∧ 0 ≤ fd.toInt ∧ m = fd.toNat then none else t m := by
  unfold closeNs closeFd FdTable.set
  by_cases h1 : on = true ∧ 0 ≤ fd.toInt
  · rw [if_pos (by simpa using h1)]
    by_cases h2 : m = fd.toNat
    · rw [if_pos h2, if_pos ⟨h1.1, h1.2, h2⟩]
    · rw [if_neg h2, if_neg (fun h => h2 h.2.2)]
  · rw [if_neg (by simpa using h1), if_neg (fun h => h1 ⟨h.1, h.2.1⟩)]

/-- What the parent does behind `fork`. -/
structure ParentDid (env : RunEnv) (c : RunConfig) (pid : Int) (pipes : RunPipes) (s : Caller) (n : Int) (s' : Caller) : Prop where
  code : n = if c.execInChild then 0 else pid
  started : s'.started = s.started
  blocked : s'.blocked = s.blocked
  jail : s'.jail = { s.jail with initpid := BitVec.ofInt 32 pid }
  forwards : s'.forwards = if s.jail.flags.forward_signals then some pid else s.forwards
  signal : s'.pipeSignal = if c.usePreload then false else s.pipeSignal
  killed : s'.killed = s.killed ++ if c.usePreload ∧ env.send ≠ 0 then [pid] else []
  mem : s'.mem = store c.pstderr (fdValue pipes.stderr.1) (store c.pstdout (fdValue pipes.stdout.1)
    (store c.pstdin (fdValue pipes.stdin.2) (store c.pchildPid pid s.mem)))
  setup : env.setup = true ∨ parentPlan s.jail = []
  ns : ∀ m, NamespaceFd s.jail m → s'.fds m = none
  dropped : ∀ m, some m ∈ droppedEnds c pipes → s'.fds m = none
  kept : ∀ m, ¬ NamespaceFd s.jail m → some m ∉ droppedEnds c pipes → s'.fds m = s.fds m

theorem runParent_ret (env : RunEnv) (c : RunConfig) (pid : Int) (pipes : RunPipes) (s s' : Caller) (n : Int)
    (h : runParent env c pid pipes s = .ret n s') : ParentDid env c pid pipes s n s' := by
  unfold runParent at h
  simp only at h
  have hsetup : (!env.setup && !(parentPlan { s.jail with initpid := BitVec.ofInt 32 pid }).isEmpty) = false := by
    by_contra hc
    rw [if_pos (by simpa using hc)] at h
    cases h
  rw [if_neg (by rw [hsetup]; simp)] at h
  have hset : env.setup = true ∨ parentPlan s.jail = [] := by
    have : parentPlan { s.jail with initpid := BitVec.ofInt 32 pid } = parentPlan s.jail := rfl
    rw [this] at hsetup
    cases he : env.setup
    · right; simpa [he] using hsetup
    · exact .inl rfl
  generalize ht : closeBoth (closeNs s.jail.flags.enter_net s.jail.netns_fd (closeNs s.jail.flags.enter_vfs s.jail.mountns_fd s.fds)) pipes.sync = t at h
  have htm : ∀ m, t m = if some m = pipes.sync.1 ∨ some m = pipes.sync.2 then none else
      if (s.jail.flags.enter_net = true ∧ 0 ≤ s.jail.netns_fd.toInt ∧ m = s.jail.netns_fd.toNat) then none else
      if (s.jail.flags.enter_vfs = true ∧ 0 ≤ s.jail.mountns_fd.toInt ∧ m = s.jail.mountns_fd.toNat) then none else s.fds m := by
    intro m
    rw [← ht, closeBoth_apply, closeNs_apply, closeNs_apply]
    simp only [eq_comm (a := some m)]
  have hns : ∀ m, NamespaceFd s.jail m → t m = none := by
    intro m hm
    rw [htm]
    split_ifs with h1 h2 h3
    · rfl
    · rfl
    · rfl
    · rcases hm with hm | hm
      · exact absurd hm h3
      · exact absurd hm h2
  have hkept : ∀ m, ¬ NamespaceFd s.jail m → some m ≠ pipes.sync.1 → some m ≠ pipes.sync.2 → t m = s.fds m := by
    intro m h1 h2 h3
    rw [htm, if_neg (by simp [h2, h3]), if_neg (fun hc => h1 (.inr hc)), if_neg (fun hc => h1 (.inl hc))]
  by_cases hu : c.usePreload = true
  · rw [if_pos hu] at h
    unfold sendStage at h
    by_cases hsig : env.sigprocmask = true
    · simp only [hsig, Bool.not_true, Bool.false_eq_true, if_false] at h
      rw [if_neg (by simp)] at h
      simp only [handOut] at h
      injection h with h1 h2
      have hf : ∀ m, s'.fds m = if some m ∈ droppedEnds c pipes then none else t m := by
        intro m
        rw [← h2]
        simp only
        rw [freeRunState_apply, closeEnd_apply, closeEnd_apply]
        generalize hX : RunPipes.ends _ = X
        have hd : some m ∈ droppedEnds c pipes ↔ (some m = pipes.config.1 ∨ some m = pipes.config.2 ∨ some m = pipes.sync.1 ∨ some m = pipes.sync.2 ∨ some m ∈ X) := by
          rw [← hX]
          simp only [droppedEnds, RunPipes.ends, List.mem_cons, List.not_mem_nil, or_false, reduceCtorEq, false_or]
        by_cases g1 : some m ∈ X
        · rw [if_pos g1, if_pos (hd.2 (.inr (.inr (.inr (.inr g1)))))]
        · rw [if_neg g1]
          by_cases g2 : pipes.config.2 = some m
          · rw [if_pos g2, if_pos (hd.2 (.inr (.inl g2.symm)))]
          · rw [if_neg g2]
            by_cases g3 : pipes.config.1 = some m
            · rw [if_pos g3, if_pos (hd.2 (.inl g3.symm))]
            · rw [if_neg g3]
              by_cases g4 : some m = pipes.sync.1 ∨ some m = pipes.sync.2
              · rw [htm, if_pos g4, if_pos (hd.2 (.inr (.inr (g4.elim .inl fun g => .inr (.inl g)))))]
              · rw [if_neg]
                intro hc
                rcases hd.1 hc with h | h | h | h | h
                · exact g3 h.symm
                · exact g2 h.symm
                · exact g4 (.inl h)
                · exact g4 (.inr h)
                · exact g1 h
      refine ⟨h1.symm, ?_, ?_, ?_, ?_, ?_, ?_, ?_, hset, ?_, ?_, ?_⟩
      · rw [← h2]
      · rw [← h2]
      · rw [← h2]
      · rw [← h2]
      · rw [if_pos hu, ← h2]
      · rw [← h2]
        by_cases hsend : env.send ≠ 0
        · rw [if_pos (show c.usePreload = true ∧ env.send ≠ 0 from ⟨hu, hsend⟩)]; simp only [if_pos hsend]
        · rw [if_neg (show ¬ (c.usePreload = true ∧ env.send ≠ 0) from fun hc => hsend hc.2)]; simp only [if_neg hsend]
      · rw [← h2]
      · intro m hm; rw [hf]; split_ifs; rfl; exact hns m hm
      · intro m hm; rw [hf, if_pos hm]
      · intro m hm hd
        rw [hf, if_neg hd]
        simp only [droppedEnds, List.mem_cons, List.not_mem_nil, or_false, not_or] at hd
        exact hkept m hm hd.2.2.1 hd.2.2.2.1
    · simp [hsig] at h
  · rw [if_neg hu] at h
    simp only [handOut] at h
    injection h with h1 h2
    have hf : ∀ m, s'.fds m = if some m ∈ droppedEnds c pipes then none else t m := by
      intro m
      rw [← h2]
      simp only
      rw [freeRunState_apply]
      generalize hX : RunPipes.ends _ = X
      have hd : some m ∈ droppedEnds c pipes ↔ (some m = pipes.sync.1 ∨ some m = pipes.sync.2 ∨ some m ∈ X) := by
        rw [← hX]
        simp only [droppedEnds, RunPipes.ends, List.mem_cons, List.not_mem_nil, or_false, reduceCtorEq, false_or]
        tauto
      by_cases g1 : some m ∈ X
      · rw [if_pos g1, if_pos (hd.2 (.inr (.inr g1)))]
      · rw [if_neg g1]
        by_cases g4 : some m = pipes.sync.1 ∨ some m = pipes.sync.2
        · rw [htm, if_pos g4, if_pos (hd.2 (g4.elim .inl fun g => .inr (.inl g)))]
        · rw [if_neg]
          intro hc
          rcases hd.1 hc with h | h | h
          · exact g4 (.inl h)
          · exact g4 (.inr h)
          · exact g1 h
    refine ⟨h1.symm, ?_, ?_, ?_, ?_, ?_, ?_, ?_, hset, ?_, ?_, ?_⟩
    · rw [← h2]
    · rw [← h2]
    · rw [← h2]
    · rw [← h2]
    · rw [if_neg hu, ← h2]
    · rw [if_neg (show ¬ (c.usePreload = true ∧ env.send ≠ 0) from fun hc => hu hc.1), ← h2, List.append_nil]
    · rw [← h2]
    · intro m hm; rw [hf]; split_ifs; rfl; exact hns m hm
    · intro m hm; rw [hf, if_pos hm]
    · intro m hm hd
      rw [hf, if_neg hd]
      simp only [droppedEnds, List.mem_cons, List.not_mem_nil, or_false, not_or] at hd
      exact hkept m hm hd.2.2.1 hd.2.2.2.1

end Minijail
