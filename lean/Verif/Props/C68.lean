import Verif.Proof.BlocksFile
import Verif.Props.C07
/-!
C68: compiling a policy uses only memory that it has allocated and not yet freed, and leaves nothing but the program behind.

In each theorem `m` is any memory, of which nothing is allocated from `m.brk` on; `calloc` takes new addresses from there.
-/
set_option autoImplicit false
set_option linter.unusedSimpArgs false
namespace Minijail

/-- A policy that compiles: its program is at an address that was free, and every other address holds what it held before. So no block and no array
remains. -/
theorem C68_program (cx : Ctx) (content : CStr) (m : Mem) (hm : ∀ a, m.brk ≤ a → m.cells a = none) (prog : List Insn)
    (h : compileFilter cx content = .ok prog) :
    ∃ p m', compileFilterM cx content m = .ok p m' ∧ m.cells p = none ∧ m'.cells p = some (.instrs prog) ∧ ∀ a, a ≠ p → m'.cells a = m.cells a := by
  have hs := Blocks.filter_sim cx content hm
  rw [h] at hs
  generalize compileFilterM cx content m = X at hs ⊢
  match X, hs with
  | .ok p m', ⟨h1, h2, h3⟩ => exact ⟨p, m', rfl, hm p h1, h2, fun a ha => h3.same a (by simp) (by simpa using ha)⟩

/-- A policy that does not compile, wherever it is wrong, or too long: every address holds what it held before. -/
theorem C68_refused (cx : Ctx) (content : CStr) (m : Mem) (hm : ∀ a, m.brk ≤ a → m.cells a = none) (h : compileFilter cx content = .fail) :
    ∃ m', compileFilterM cx content m = .fail () m' ∧ m'.cells = m.cells := by
  have hs := Blocks.filter_sim cx content hm
  rw [h] at hs
  generalize compileFilterM cx content m = X at hs ⊢
  match X, hs with
  | .fail _ m', h => exact ⟨m', rfl, funext fun a => h.same a (by simp) (by simp)⟩

/-- There is no other way to end than that of the compiler on lists. -/
theorem C68_others (cx : Ctx) (content : CStr) (m : Mem) (hm : ∀ a, m.brk ≤ a → m.cells a = none) :
    (compileFilterM cx content m = .die ↔ compileFilter cx content = .die) ∧ (compileFilterM cx content m = .ub ↔ compileFilter cx content = .ub) := by
  have hs := Blocks.filter_sim cx content hm
  generalize compileFilterM cx content m = X at hs ⊢
  generalize compileFilter cx content = Y at hs ⊢
  match X, Y, hs with
  | .ok _ _, .ok _, _ => simp
  | .fail _ _, .fail, _ => simp
  | .die, .die, _ => simp
  | .ub, .ub, _ => simp

/-- Memory that is not allocated, freed before, or too short is never used, nor freed twice: what is undefined is the table of labels alone,
and only for policies that need more than 512 (C07). -/
theorem C68_no_misuse (cx : Ctx) (content : CStr) (m : Mem) (hm : ∀ a, m.brk ≤ a → m.cells a = none) (hnr : ∀ e ∈ cx.syscalls, e.2 < 2 ^ 31)
    (h : compileFilterM cx content m = .ub) : ∃ rules, Spec.PolicyText cx.lang content rules ∧ 512 < Spec.labelDemand rules :=
  C07_in_bounds_partial cx content hnr ((C68_others cx content m hm).2.1 h)

/-- So every policy that compiles, compiled one after the other, has its program for itself: compiling another one does not change it. -/
theorem C68_kept (cx cx' : Ctx) (content content' : CStr) (m m₁ m₂ : Mem) (p q : Nat) (hm : ∀ a, m.brk ≤ a → m.cells a = none)
    (h : compileFilterM cx content m = .ok p m₁) (h' : compileFilterM cx' content' m₁ = .ok q m₂) :
    p ≠ q ∧ m₂.cells p = m₁.cells p := by
  have hs := Blocks.filter_sim cx content hm
  rw [h] at hs
  generalize compileFilter cx content = Y at hs
  match Y, hs with
  | .ok prog, ⟨h1, h2, h3⟩ =>
    have hf := h3.fresh hm
    have hs' := Blocks.filter_sim cx' content' hf
    rw [h'] at hs'
    generalize compileFilter cx' content' = Z at hs'
    match Z, hs' with
    | .ok prog', ⟨k1, k2, k3⟩ =>
      have hlt : p < m₁.brk := by
        rcases h3.new p (by simp) with h | h
        · cases h
        · exact h.2
      have hne : p ≠ q := by omega
      exact ⟨hne, k3.same p (by simp) (by simpa using hne)⟩

/-! Examples -/

/-- Memory in which something else is already allocated. -/
def exMem : Mem := { cells := fun a => if a < 3 then some (.instrs [bpfRetAllow]) else none, brk := 3 }

theorem exMem_brk : ∀ a, exMem.brk ≤ a → exMem.cells a = none := by
  intro a ha
  have : ¬ a < 3 := by simp only [exMem] at ha; omega
  simp [exMem, this]

example : ∃ p m', compileFilterM exCx exText exMem = .ok p m' ∧ exMem.cells p = none ∧ m'.cells p = some (.instrs (progOf (compileFilter exCx exText))) ∧
    ∀ a, a ≠ p → m'.cells a = exMem.cells a := C68_program exCx exText exMem exMem_brk _ exText_compiles

/-- The second rule is wrong, when the first one's blocks have been made. -/
example : ∃ m', compileFilterM exCx "read: arg0 == 1\nwrite: arg0 = 1\n".toList exMem = .fail () m' ∧ m'.cells = exMem.cells :=
  C68_refused exCx _ exMem exMem_brk (by decide +kernel)

example : compileFilterM exCx exText exMem ≠ .ub := by
  intro h
  obtain ⟨r1, h1, h2⟩ := C68_no_misuse exCx exText exMem exMem_brk exCx_numbers h
  exact C07_small_safe_partial exCx exText exCx_numbers exRules exText_means (by decide) ((C68_others exCx exText exMem exMem_brk).2.1 h)

/-- Two policies after each other. -/
example : ∃ p m₁ q m₂, compileFilterM exCx exText exMem = .ok p m₁ ∧ compileFilterM exCx exText m₁ = .ok q m₂ := by
  obtain ⟨p, m₁, h1, -⟩ := C68_program exCx exText exMem exMem_brk _ exText_compiles
  have hs := Blocks.filter_sim exCx exText exMem_brk
  rw [h1, exText_compiles] at hs
  obtain ⟨q, m₂, h2, -⟩ := C68_program exCx exText m₁ (hs.2.2.fresh exMem_brk) _ exText_compiles
  exact ⟨p, m₁, q, m₂, h1, h2⟩

/-- `extend_filter_block_list` relies on what `compile_policy_line` makes having more than one block: a list of one block would be lost when the next
one is added, and its memory with it. -/
example : ∃ m', ((newFilterBlock exMem).bind fun a m => (appendNew a 1 [bpfRetAllow] m).bind fun _ m =>
      (newFilterBlock m).bind fun b m => (appendNew b 1 [bpfRetKill] m).bind fun _ m =>
      (newFilterBlock m).bind fun c m => (appendNew c 1 [bpfRetTrap] m).bind fun _ m =>
      (extendFilterBlockList a b m).bind fun _ m => (extendFilterBlockList a c m).bind fun _ m => freeBlockList (some a) m) = .ok () m' ∧
    m'.cells ≠ exMem.cells := by
  refine ⟨_, rfl, fun h => ?_⟩
  exact absurd (congrFun h 5) (by decide)

end Minijail
