import Verif.Proof.Simulate
import Verif.Props.C41
/-!
C81: the simulator of filters in the tools (tools/bpf.py) tells what the kernel would do.
-/
set_option autoImplicit false
set_option linter.unusedSimpArgs false
namespace Minijail
open Offline Spec

/-- For every program of loads, jumps and returns and every system call: the simulator reports an action exactly if the program, run by the kernel, returns the word of
that action. So an exception of the simulator means that the kernel would find no verdict, or one that has no name. -/
theorem C81_action {l : List SockFilter} {prog : List Insn} (ho : opcodes l = some prog) (hs : Simple l) (ha : Aligned l) {arch nr : Nat} {args : List Nat}
    (h : Call arch nr args) (act : Offline.Action) (he : ∀ e, act = .returnErrno e → e < 65536) :
    (∃ cost, simulate l arch nr args = some (cost, act)) ↔ runFilter false prog (callOf arch nr args) = .ret (actionWord act) := by
  rcases simulate_spec ho hs ha h with ⟨h1, h2⟩ | ⟨k, hk, h1, c, -, -, h2⟩
  · rw [h1, h2]
    constructor
    · rintro ⟨_, hx⟩; cases hx
    · intro hx; cases hx
  · rw [h1, h2]
    rcases retAction_word hk with ⟨a, g1, g2⟩ | ⟨g1, g2⟩
    · rw [g1, ← g2]
      constructor
      · rintro ⟨cost, hx⟩
        cases hx
        rfl
      · intro hx
        refine ⟨c, ?_⟩
        have hw : actionWord a = actionWord act := by injection hx
        rw [retAction_eq g1 he hw]
        rfl
    · rw [g1]
      constructor
      · rintro ⟨cost, hx⟩; cases hx
      · intro hx
        exact absurd (by injection hx with hx; exact hx.symm) (g2 act)

/-- The cost that is reported is the number of instructions that are executed: at least one and at most all of them. -/
theorem C81_cost {l : List SockFilter} {prog : List Insn} (ho : opcodes l = some prog) (hs : Simple l) (ha : Aligned l) {arch nr : Nat} {args : List Nat}
    (h : Call arch nr args) {cost : Nat} {act : Offline.Action} (hsim : simulate l arch nr args = some (cost, act)) :
    (∃ v, Visits (callOf arch nr args) l 0 0 v ∧ cost = v.length) ∧ 1 ≤ cost ∧ cost ≤ l.length := by
  constructor
  · obtain ⟨memory, h1, h2⟩ := memory_load h
    have e : simulateFrom memory l l.length 0 (0 : BitVec 32).toNat 0 = some (cost, act) := by
      rw [simulate, h1] at hsim
      exact hsim
    obtain ⟨v, h3, h4⟩ := simulateFrom_visits h2 ha _ _ _ _ _ _ e
    exact ⟨v, h3, by omega⟩
  · rcases simulate_spec ho hs ha h with ⟨-, h2⟩ | ⟨k, hk, -, c, g1, g2, h2⟩
    · rw [h2] at hsim; cases hsim
    · rw [h2] at hsim
      obtain ⟨x, -, hx⟩ := Option.map_eq_some_iff.mp hsim
      cases hx
      exact ⟨g1, g2⟩

/-- The programs of the offline compiler are such programs: their simulation has a result for every system call, and it is the action that the policy prescribes. Missing: what is
missing of `C41_partial`. -/
theorem C81_compiled_partial {o : Options} {p : ParsedPolicy} {n : Nat} (hg : GoodPolicy o p n) (hd : NoDroppedConditions o p) (harch : o.archNr < 2 ^ 32)
    {l : List SockFilter} (hl : compileFile o p n = some l) (hn : l.length < 2 ^ 32) {arch nr : Nat} {args : List Nat} (h : Call arch nr args) :
    ∃ cost act, simulate l arch nr args = some (cost, act) ∧ actionWord act = actionWord (prescribed o p (callOf arch nr args)) ∧ cost ≤ l.length := by
  obtain ⟨l', h1, h2, h3⟩ := compileFile_total hg harch
  obtain rfl : l' = l := Option.some.inj (h1.symm.trans hl)
  have ho := opcodes_of_fits (h2 hn)
  have e := C41_partial hg hd (by rw [compileProgram, hl]; exact ho) (callOf arch nr args)
  rcases simulate_spec ho (simple_of_snd h3.1) (aligned_of_snd h3.1) h with ⟨g1, -⟩ | ⟨k, hk, g1, c, -, g2, g3⟩
  · rw [g1] at e; cases e
  · rw [g1] at e
    have e : BitVec.ofNat 32 k = actionWord (prescribed o p (callOf arch nr args)) := by injection e
    rcases retAction_word hk with ⟨a, q1, q2⟩ | ⟨-, q2⟩
    · exact ⟨c, a, by rw [g3, q1]; rfl, q2.trans e, g2⟩
    · exact absurd e.symm (q2 _)

/-- Numbers that no system call can have are refused: a number or an architecture of more than 32 bits, one of the first seven arguments of more than 64. -/
theorem C81_refused (l : List SockFilter) {arch nr : Nat} {args : List Nat} (h : ¬ (arch < 2 ^ 32 ∧ nr < 2 ^ 32 ∧ ∀ x ∈ args.take 7, x < 2 ^ 64)) :
    simulate l arch nr args = none := by
  rw [simulate, inputMemory]
  by_cases h1 : nr < 2 ^ 32
  · rw [packNumber_four h1]
    by_cases h2 : arch < 2 ^ 32
    · rw [packNumber_four h2]
      rw [packNumbers_none]
      · rfl
      · have h3 : ¬ ∀ x ∈ args.take 7, x < 2 ^ 64 := fun h3 => h ⟨h2, h1, h3⟩
        obtain ⟨x, h4⟩ := Classical.not_forall.mp h3
        obtain ⟨h4, h5⟩ := Classical.not_imp.mp h4
        refine ⟨x, ?_, h5⟩
        rw [List.take_append]
        exact List.mem_cons_of_mem _ (List.mem_append_left _ h4)
    · unfold packNumber
      rw [if_neg (show ¬ arch < 256 ^ 4 from h2)]; rfl
  · unfold packNumber
    rw [if_neg (show ¬ nr < 256 ^ 4 from h1)]; rfl

/-! ### Violations -/

/-- A simulation that succeeds for every system call does not show that the kernel takes the program: what is not executed is not looked at. -/
theorem C81_violated_accepted : ∃ l prog, opcodes l = some prog ∧ Simple l ∧ Aligned l ∧ ¬ KernelAccepts prog ∧
    ∀ arch nr args, Call arch nr args → simulate l arch nr args = some (1, .allow) := by
  refine ⟨[⟨0x06, 0, 0, 0x7fff0000⟩, ⟨0x05, 0, 0, 100⟩], _, rfl, by unfold Simple; decide, by unfold Aligned; decide, ?_, ?_⟩
  · intro hk
    exact absurd (show 100 < 0 from hk.insns 1 _ rfl) (by decide)
  · intro arch nr args h
    obtain ⟨memory, h1, -⟩ := memory_load h
    rw [simulate, h1]
    rfl

/-- A load that is not at a multiple of four is simulated, although the kernel refuses it. -/
theorem C81_violated_unaligned : ∃ l prog, opcodes l = some prog ∧ Simple l ∧ ¬ KernelAccepts prog ∧ simulate l 0xc000003e 0 [] = some (2, .allow) := by
  refine ⟨[⟨0x20, 0, 0, 2⟩, ⟨0x06, 0, 0, 0x7fff0000⟩], _, rfl, by unfold Simple; decide, ?_, by decide +kernel⟩
  intro hk
  exact absurd (hk.insns 0 _ rfl).1 (by decide)

/-- The simulator shows seven arguments to the filter, the kernel six: the policy `read: arg6 == 1` compiles, the simulation allows `read` with such an argument and kills it
without, and the kernel refuses the program. -/
theorem C81_violated_arg6 : ∃ l prog, compileFile (plainOptions false) arg6Policy 2 = some l ∧ opcodes l = some prog ∧ ¬ KernelAccepts prog ∧
    (∃ cost, simulate l 0xc000003e 0 [0, 0, 0, 0, 0, 0, 1] = some (cost, .allow)) ∧ ∃ cost, simulate l 0xc000003e 0 [] = some (cost, .killProcess) := by
  obtain ⟨prog, h1, h2⟩ := C41_violated_arg6 false
  rw [compileProgram] at h1
  obtain ⟨l, h3, h4⟩ := Option.bind_eq_some_iff.1 h1
  have h5 : (compileFile (plainOptions false) arg6Policy 2).map (fun l => (simulate l 0xc000003e 0 [0, 0, 0, 0, 0, 0, 1]).map (·.2)) = some (some .allow) := by decide +kernel
  have h6 : (compileFile (plainOptions false) arg6Policy 2).map (fun l => (simulate l 0xc000003e 0 []).map (·.2)) = some (some .killProcess) := by decide +kernel
  rw [h3] at h5 h6
  obtain ⟨⟨c1, a1⟩, g1, g2⟩ := Option.map_eq_some_iff.mp (Option.some.inj h5)
  obtain ⟨⟨c2, a2⟩, g3, g4⟩ := Option.map_eq_some_iff.mp (Option.some.inj h6)
  cases g2
  cases g4
  exact ⟨l, prog, h3, h4, h2, ⟨c1, g1⟩, c2, g3⟩

/-- A program with scratch memory, as the kernel takes it, is not simulated. -/
theorem C81_violated_scratch : ∃ l prog, opcodes l = some prog ∧ Aligned l ∧ KernelAccepts prog ∧ (∀ d, runFilter false prog d = .ret (actionWord .allow)) ∧
    ∀ arch nr args, simulate l arch nr args = none := by
  refine ⟨[⟨0x20, 0, 0, 0⟩, ⟨0x02, 0, 0, 0⟩, ⟨0x60, 0, 0, 0⟩, ⟨0x06, 0, 0, 0x7fff0000⟩], _, rfl, by unfold Aligned; decide, ?_, fun d => rfl, ?_⟩
  · refine ⟨by decide, by decide, ?_, ⟨_, rfl, rfl⟩, ⟨rfl, trivial⟩⟩
    intro pc i hi
    match pc, hi with
    | 0, hi => cases hi; exact ⟨by decide, by decide⟩
    | 1, hi => cases hi; exact (show 0 < 16 by decide)
    | 2, hi => cases hi; exact (show 0 < 16 by decide)
    | 3, hi => cases hi; exact trivial
    | _ + 4, hi => simp at hi
  · intro arch nr args
    by_cases h : arch < 2 ^ 32 ∧ nr < 2 ^ 32 ∧ ∀ x ∈ args.take 7, x < 2 ^ 64
    · have e : simulate [⟨0x20, 0, 0, 0⟩, ⟨0x02, 0, 0, 0⟩, ⟨0x60, 0, 0, 0⟩, ⟨0x06, 0, 0, 0x7fff0000⟩] arch nr args =
          (inputMemory arch nr args).bind fun m => (unpackNumber (m.take 4)).bind fun _ => none := by
        rw [simulate]
        cases inputMemory arch nr args with
        | none => rfl
        | some m =>
          cases hu : unpackNumber (m.take 4) <;> simp [simulateFrom, hu, LD_W_ABS, JMP_JA, RET, jmpCode, JOp.code, show (2 : Nat) ≠ Offline.RET by decide]
      rw [e]
      cases inputMemory arch nr args with
      | none => rfl
      | some m => simp
    · exact C81_refused _ h

/-! ### Concrete cases -/

/-- A filter with every kind of instruction. -/
def simulatedFilter : List SockFilter :=
  [⟨0x20, 0, 0, 4⟩, ⟨0x15, 1, 0, 0xc000003e⟩, ⟨0x06, 0, 0, 0x80000000⟩, ⟨0x20, 0, 0, 0⟩, ⟨0x25, 5, 0, 300⟩, ⟨0x35, 0, 3, 100⟩, ⟨0x20, 0, 0, 20⟩, ⟨0x45, 0, 2, 0x80000000⟩,
    ⟨0x06, 0, 0, 0x50016⟩, ⟨0x05, 0, 0, 1⟩, ⟨0x06, 0, 0, 0x7fff0000⟩, ⟨0x06, 0, 0, 0x7ff00001⟩]

example : (opcodes simulatedFilter).isSome ∧ Simple simulatedFilter ∧ Aligned simulatedFilter :=
  ⟨by decide +kernel, by unfold Simple; decide, by unfold Aligned; decide⟩

example : Call 0xc000003e 200 [0xffffffff00000000, 7] := ⟨by decide, by decide, by decide⟩

/-- Another machine, an error, permission, and a verdict that has no name. -/
example : simulate simulatedFilter 3 0 [] = some (3, .killProcess) ∧
    simulate simulatedFilter 0xc000003e 200 [0xffffffff00000000, 7] = some (8, .returnErrno 22) ∧
    simulate simulatedFilter 0xc000003e 200 [0x7fffffff00000000] = some (8, .allow) ∧ simulate simulatedFilter 0xc000003e 301 [] = some (5, .allow) ∧
    simulate simulatedFilter 0xc000003e 99 [] = none := by decide +kernel

/-- A compiled policy. -/
example : ∃ l, compileFile (plainOptions true) mixedPolicy 9 = some l ∧ ∀ nr args, Call 0xc000003e nr args → ∃ cost act, simulate l 0xc000003e nr args = some (cost, act) ∧
    actionWord act = actionWord (prescribed (plainOptions true) mixedPolicy (callOf 0xc000003e nr args)) ∧ cost ≤ l.length := by
  obtain ⟨l, h1, -⟩ := C41_total (mixed_good true false) (by show 0xc000003e < 2 ^ 32; decide)
  have hl : l.length ≤ 40 := by
    have : (compileFile { plainOptions true with denylist := false } mixedPolicy 9).all (fun l => decide (l.length ≤ 40)) = true := by decide +kernel
    rw [h1] at this
    simpa using this
  exact ⟨l, h1, fun nr args h => C81_compiled_partial (mixed_good true false) (mixed_kept true false) (by show 0xc000003e < 2 ^ 32; decide) h1 (by omega) h⟩

end Minijail
