import Verif.Proof.OfflineAccept
/-!
C41: the program of the offline compiler (tools/compiler.py, tools/bpf.py) does what the policy prescribes.
-/
set_option autoImplicit false
set_option linter.unusedSimpArgs false
namespace Minijail
open Offline Spec

/-- With either strategy, whatever the frequencies: the compiled program gives every system call the action the policy prescribes. Missing of the full property:
an allowlist where a system call whose last action is `allow` has another action under some condition (`NoDroppedConditions`; see `C41_violated_dropped`), comparisons
with an argument the machine does not have (in `GoodPolicy`; see `C41_violated_arg6`), and big-endian machines. -/
theorem C41_partial {o : Options} {p : ParsedPolicy} {n : Nat} (hg : GoodPolicy o p n) (hd : NoDroppedConditions o p) {prog : List Insn} (h : compileProgram o p n = some prog)
    (d : SeccompData) : runFilter false prog d = .ret (actionWord (prescribed o p d)) := by
  obtain ⟨l, h1, h2⟩ := Option.bind_eq_some_iff.1 h
  obtain ⟨h3, rfl⟩ := opcodes_some h2
  have e := compileFile_exec hg hd h1 d Regs.init
  rw [runFilter, exec_of_execN h3 (by rw [e]; simp), e]

/-- Every such policy compiles, and unless the program has 2³² instructions it can be written to a file. A program of at most 4096 instructions is one the kernel accepts. -/
theorem C41_total {o : Options} {p : ParsedPolicy} {n : Nat} (hg : GoodPolicy o p n) (ha : o.archNr < 2 ^ 32) :
    ∃ l, compileFile o p n = some l ∧ (l.length < 2 ^ 32 → ∃ prog, compileProgram o p n = some prog ∧ prog.length = l.length ∧ (prog.length ≤ 4096 → KernelAccepts prog)) := by
  obtain ⟨l, h1, h2, h3⟩ := compileFile_total hg ha
  refine ⟨l, h1, fun hl => ⟨l.map toInsn, ?_, List.length_map .., fun hk => kernel_accepts (h2 hl) h3 (by rwa [List.length_map] at hk)⟩⟩
  rw [compileProgram, h1]
  exact opcodes_of_fits (h2 hl)

/-! ### Violations -/

/-- An allowlist on x86_64 with `read: { arg0 == 1; return EPERM, allow }`. -/
def droppedPolicy : ParsedPolicy :=
  ⟨⟨0, .killProcess⟩, [⟨0, 1, [⟨some [[⟨0, .eq, 1⟩]], ⟨1, .returnErrno 1⟩⟩, ⟨none, ⟨2, .allow⟩⟩]⟩]⟩

/-- The options of a plain run. -/
def plainOptions (bst : Bool) : Options := ⟨64, 0xc000003e, bst, ⟨0, .killProcess⟩, false⟩

/-- A system call of x86_64. -/
def amd64Call (nr : BitVec 32) (arg0 : BitVec 64) : SeccompData := ⟨nr, 0xc000003e#32, 0#64, arg0, 0#64, 0#64, 0#64, 0#64, 0#64⟩

/-- All filters before an unconditional `allow` at the end are dropped (tools/compiler.py:360-362): the policy prescribes EPERM for `read` of descriptor 1, the program
allows it. -/
theorem C41_violated_dropped (bst : Bool) : ∃ p n, GoodPolicy (plainOptions bst) p n ∧ ∃ prog, compileProgram (plainOptions bst) p n = some prog ∧
    ∃ d, prescribed (plainOptions bst) p d = .returnErrno 1 ∧ runFilter false prog d = .ret (actionWord .allow) := by
  have h1 : GoodPolicy (plainOptions bst) droppedPolicy 3 := by
    refine ⟨.inr rfl, by simp [droppedPolicy], by simp [droppedPolicy], ?_, ?_⟩
    · intro st hst
      simp only [droppedPolicy, List.mem_singleton] at hst
      subst hst
      refine ⟨[⟨some [[⟨0, .eq, 1⟩]], ⟨1, .returnErrno 1⟩⟩], ⟨none, ⟨2, .allow⟩⟩, rfl, rfl, ?_⟩
      intro f hf
      simp only [List.mem_singleton] at hf
      subst hf
      exact ⟨_, rfl, by simp [plainOptions]⟩
    · simp [actObjs, plainOptions, droppedPolicy]
  refine ⟨droppedPolicy, 3, h1, ?_⟩
  have h2 : prescribed (plainOptions bst) droppedPolicy (amd64Call 0#32 1#64) = .returnErrno 1 := by
    simp [prescribed, plainOptions, amd64Call, droppedPolicy, firstMatch, condition, patomHolds, opCmp, Cmp.holds, argValue, SeccompData.arg]
  have h3 : compileProgram (plainOptions bst) droppedPolicy 3 = some [⟨0x20#16, 0#8, 0#8, 4#32⟩, ⟨0x15#16, 1#8, 0#8, 0xc000003e#32⟩, ⟨0x06#16, 0#8, 0#8, 0x80000000#32⟩,
      ⟨0x20#16, 0#8, 0#8, 0#32⟩, ⟨0x15#16, 0#8, 1#8, 0#32⟩, ⟨0x06#16, 0#8, 0#8, 0x7fff0000#32⟩, ⟨0x06#16, 0#8, 0#8, 0x80000000#32⟩] := by
    cases bst <;> decide +kernel
  exact ⟨_, h3, amd64Call 0#32 1#64, h2, by decide +kernel⟩

/-- An allowlist with `read: arg6 == 1`, which the parser accepts (tools/parser.py:365-376 with tools/bpf.py:14). -/
def arg6Policy : ParsedPolicy := ⟨⟨0, .killProcess⟩, [⟨0, 1, [⟨some [[⟨6, .eq, 1⟩]], ⟨1, .allow⟩⟩, ⟨none, ⟨0, .killProcess⟩⟩]⟩]⟩

/-- A comparison with a seventh argument, which no system call has, compiles to a program the kernel refuses. -/
theorem C41_violated_arg6 (bst : Bool) : ∃ prog, compileProgram (plainOptions bst) arg6Policy 2 = some prog ∧ ¬KernelAccepts prog := by
  have h : compileProgram (plainOptions bst) arg6Policy 2 = some [⟨0x20#16, 0#8, 0#8, 4#32⟩, ⟨0x15#16, 1#8, 0#8, 0xc000003e#32⟩, ⟨0x06#16, 0#8, 0#8, 0x80000000#32⟩,
      ⟨0x20#16, 0#8, 0#8, 0#32⟩, ⟨0x15#16, 2#8, 1#8, 0#32⟩, ⟨0x06#16, 0#8, 0#8, 0x7fff0000#32⟩, ⟨0x06#16, 0#8, 0#8, 0x80000000#32⟩, ⟨0x20#16, 0#8, 0#8, 68#32⟩,
      ⟨0x15#16, 0#8, 2#8, 0#32⟩, ⟨0x20#16, 0#8, 0#8, 64#32⟩, ⟨0x15#16, 1#8, 0#8, 1#32⟩, ⟨0x06#16, 0#8, 0#8, 0x80000000#32⟩, ⟨0x06#16, 0#8, 0#8, 0x7fff0000#32⟩] := by
    cases bst <;> decide +kernel
  refine ⟨_, h, fun hk => ?_⟩
  have := hk.insns 7 ⟨0x20#16, 0#8, 0#8, 68#32⟩ rfl
  exact absurd this.2 (by decide)

/-! ### Concrete cases -/

/-- A policy with a run of system calls that are allowed, comparisons of 64-bit words, several actions for one system call and different frequencies:
`read`, `write`, `open` allowed; `mmap: arg2 in 0xfffffffb && arg1 < 0x100000000 || arg0 == 0; log`; `ioctl: { arg1 == 0x5401; return 25, arg1 & 0x8000000000000000 ; allow, kill-thread }`;
`exit_group: trap`. -/
def mixedPolicy : ParsedPolicy :=
  ⟨⟨0, .killProcess⟩,
   [⟨0, 5, [⟨none, ⟨1, .allow⟩⟩]⟩, ⟨1, 7, [⟨none, ⟨2, .allow⟩⟩]⟩, ⟨2, 1, [⟨none, ⟨3, .allow⟩⟩]⟩,
    ⟨9, 3, [⟨some [[⟨2, .isIn, 0xfffffffb⟩, ⟨1, .lt, 0x100000000⟩], [⟨0, .eq, 0⟩]], ⟨4, .log⟩⟩, ⟨none, ⟨0, .killProcess⟩⟩]⟩,
    ⟨16, 1, [⟨some [[⟨1, .eq, 0x5401⟩]], ⟨5, .returnErrno 25⟩⟩, ⟨some [[⟨1, .band, 0x8000000000000000⟩]], ⟨6, .allow⟩⟩, ⟨none, ⟨7, .killThread⟩⟩]⟩,
    ⟨231, 1, [⟨none, ⟨8, .trap⟩⟩]⟩]⟩

theorem mixed_good (bst denylist : Bool) : GoodPolicy { plainOptions bst with denylist := denylist } mixedPolicy 9 := by
  refine ⟨.inr rfl, by simp [mixedPolicy], by simp [mixedPolicy], ?_, ?_⟩
  · have un : ∀ a : ActObj, GoodFilters 64 [⟨none, a⟩] := fun a => ⟨[], _, rfl, rfl, by simp⟩
    intro st hst
    show GoodFilters 64 st.filters
    simp only [mixedPolicy, List.mem_cons, List.not_mem_nil, or_false] at hst
    rcases hst with rfl | rfl | rfl | rfl | rfl | rfl
    · exact un _
    · exact un _
    · exact un _
    · exact ⟨[_], _, rfl, rfl, by simp⟩
    · exact ⟨[_, _], _, rfl, rfl, by simp⟩
    · exact un _
  · simp [actObjs, plainOptions, mixedPolicy]

theorem mixed_kept (bst denylist : Bool) : NoDroppedConditions { plainOptions bst with denylist := denylist } mixedPolicy := by
  intro _ st hst last h1 h2 f hf
  simp only [mixedPolicy, List.mem_cons, List.not_mem_nil, or_false] at hst
  rcases hst with rfl | rfl | rfl | rfl | rfl | rfl <;> simp at h1 hf <;> subst h1 <;> simp at h2 <;> simp [hf]

/-- Both strategies, as an allowlist and as a denylist. -/
example (bst denylist : Bool) : ∃ prog, compileProgram { plainOptions bst with denylist := denylist } mixedPolicy 9 = some prog ∧ KernelAccepts prog ∧
    ∀ d, runFilter false prog d = .ret (actionWord (prescribed { plainOptions bst with denylist := denylist } mixedPolicy d)) := by
  obtain ⟨l, h1, h2⟩ := C41_total (mixed_good bst denylist) (by show 0xc000003e < 2 ^ 32; decide)
  have hl : l.length ≤ 40 := by
    have : (compileFile { plainOptions bst with denylist := denylist } mixedPolicy 9).all (fun l => decide (l.length ≤ 40)) = true := by
      cases bst <;> cases denylist <;> decide +kernel
    rw [h1] at this
    simpa using this
  obtain ⟨prog, h3, h4, h5⟩ := h2 (by omega)
  exact ⟨prog, h3, h5 (by omega), C41_partial (mixed_good bst denylist) (mixed_kept bst denylist) h3⟩

/-- What it prescribes is not always the same. -/
example : prescribed (plainOptions true) mixedPolicy (amd64Call 2#32 0#64) = .allow ∧ prescribed (plainOptions true) mixedPolicy (amd64Call 3#32 0#64) = .killProcess ∧
    prescribed (plainOptions true) mixedPolicy (amd64Call 9#32 0#64) = .log ∧ prescribed (plainOptions true) mixedPolicy (amd64Call 231#32 0#64) = .trap := by
  refine ⟨?_, ?_, ?_, ?_⟩ <;>
    simp [prescribed, plainOptions, amd64Call, mixedPolicy, otherwise, firstMatch, condition, patomHolds, opCmp, Cmp.holds, argValue, SeccompData.arg]

end Minijail
