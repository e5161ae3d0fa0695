import Verif.Proof.GenTables
import Verif.Props.C78
/-!
C79: the tables of system calls and constants hold what the headers define.
-/
set_option autoImplicit false
set_option linter.unusedSimpArgs false
namespace Minijail
open Spec Spec.Headers Constants GenTables

/-- The table of system calls has exactly the names that a line of the headers defines the number of, each with the number the compiler gives it; those whose
definition was taken back are not in it. -/
theorem C79_calls {macros : List Char → Option Int} {lines : List (List Char)} {n : List Char} {v : Int} :
    (n, v) ∈ syscallTable macros lines ↔ ∃ m line, line ∈ lines ∧ DefinesCall n m line ∧ macros m = some v := by
  unfold syscallTable
  rw [List.mem_filterMap]
  constructor
  · rintro ⟨⟨n', m⟩, h1, h2⟩
    obtain ⟨line, hl, hs⟩ := List.mem_filterMap.1 h1
    cases hm : macros m with
    | none => simp only [hm, Option.map_none] at h2; cases h2
    | some v' =>
      simp only [hm, Option.map_some, Option.some.injEq, Prod.mk.injEq] at h2
      obtain ⟨rfl, rfl⟩ := h2
      exact ⟨m, line, hl, sedSyscall_iff.1 hs, hm⟩
  · rintro ⟨m, line, hl, hd, hm⟩
    exact ⟨(n, m), List.mem_filterMap.2 ⟨line, hl, sedSyscall_iff.2 hd⟩, by simp [hm]⟩

/-- The table of constants has exactly the names that a line of the headers defines with a value that begins with a letter, a digit or an underscore (and without
four words), where the definition was not taken back; the value is that of the compiler, as a word. Missing of the full property are the constants with other values:
`C79_violated_sign`. -/
theorem C79_constants_partial {w : Nat} {macros : List Char → Option Int} {lines : List (List Char)} {n : List Char} {v : BitVec w} :
    (n, v) ∈ constantTable w macros lines ↔ ∃ line ∈ lines, ∃ value i, DefinesConstant n value line ∧ Taken value line ∧ macros n = some i ∧ v = BitVec.ofInt w i := by
  unfold constantTable
  rw [List.mem_filterMap]
  constructor
  · rintro ⟨n', h1, h2⟩
    obtain ⟨line, hl, hs⟩ := List.mem_map.1 h1
    rw [mem_sortU, List.mem_filter, List.mem_filter] at hl
    obtain ⟨m, value, hd, ht⟩ := grep_iff.1 ⟨hl.1.2, hl.2⟩
    have := sedConstant_of hd
    rw [hs] at this
    subst this
    cases hm : macros n' with
    | none => simp only [hm, Option.map_none] at h2; cases h2
    | some i =>
      simp only [hm, Option.map_some, Option.some.injEq, Prod.mk.injEq] at h2
      obtain ⟨rfl, rfl⟩ := h2
      exact ⟨line, hl.1.1, value, i, hd, ht, hm, rfl⟩
  · rintro ⟨line, hl, value, i, hd, ht, hm, rfl⟩
    have := grep_iff.2 ⟨n, value, hd, ht⟩
    exact ⟨n, List.mem_map.2 ⟨line, by rw [mem_sortU, List.mem_filter, List.mem_filter]; exact ⟨⟨hl, this.1⟩, this.2⟩, sedConstant_of hd⟩, by simp [hm]⟩

theorem definesCall_macro {n m m' line line' : List Char} (h : DefinesCall n m line) (h' : DefinesCall n m' line') : m = m' := by
  have key : ∀ n : List Char, ¬CallName ("ARM_".toList ++ n) := by
    intro n h
    have := h 'A' (by simp)
    revert this; decide
  cases h with
  | call hn => cases h' with
    | call _ => rfl
    | arm _ => exact absurd hn (key _)
  | @arm n _ hn =>
    generalize hx : "ARM_".toList ++ n = x at h'
    cases h' with
    | call hn' => rw [← hx] at hn'; exact absurd hn' (key _)
    | arm _ => rw [List.append_cancel_left hx]

theorem definesCall_like {n m line : List Char} (h : DefinesCall n m line) : NameLike n := by
  have key : ∀ n : List Char, CallName n → NameLike n := by
    intro n h c hc
    rcases h c hc with h | h | h
    · left; simp [Char.isAlphanum, Char.isAlpha, h]
    · left; simp [Char.isAlphanum, h]
    · exact .inr h
  cases h with
  | call hn => exact key _ hn
  | @arm n _ hn =>
    intro c hc
    rcases List.mem_append.1 hc with h | h
    · clear hc; revert c; decide
    · exact key _ hn c h

theorem constantName_word {n : List Char} (h : ConstantName n) : Word n := by
  obtain ⟨c, t, rfl, hc, ht⟩ := h
  refine ⟨c, t, rfl, .inl (by simp [Char.isAlpha, hc]), fun x hx => ?_⟩
  rcases ht x hx with h | h | h
  · left; simp [Char.isAlphanum, Char.isAlpha, h]
  · left; simp [Char.isAlphanum, h]
  · exact .inr h

theorem word_like {n : List Char} (h : Word n) : NameLike n := by
  obtain ⟨c, t, rfl, hc, ht⟩ := h
  intro x hx
  rcases List.mem_cons.1 hx with rfl | hx
  · rcases hc with h | h
    · left; simp [Char.isAlphanum, h]
    · exact .inr h
  · exact ht x hx

/-- No name has two values in a table, however often a header defines it; every name of a system call consists of letters, digits and underscores, every name of a
constant is a word of the policy language. -/
theorem C79_tables (w : Nat) (macros : List Char → Option Int) (lines : List (List Char)) :
    OneValue (syscallTable macros lines) ∧ OneValue (constantTable w macros lines) ∧ (∀ x ∈ syscallTable macros lines, NameLike x.1) ∧
      ∀ x ∈ constantTable w macros lines, Word x.1 := by
  refine ⟨?_, ?_, ?_, ?_⟩
  · intro k v v' h h'
    obtain ⟨m, line, _, hd, hm⟩ := C79_calls.1 h
    obtain ⟨m', line', _, hd', hm'⟩ := C79_calls.1 h'
    rw [definesCall_macro hd hd', hm'] at hm
    injection hm with hm
    exact hm.symm
  · intro k v v' h h'
    obtain ⟨_, _, _, i, _, _, hm, rfl⟩ := C79_constants_partial.1 h
    obtain ⟨_, _, _, i', _, _, hm', rfl⟩ := C79_constants_partial.1 h'
    rw [hm'] at hm
    injection hm with hm
    rw [hm]
  · rintro ⟨n, v⟩ h
    obtain ⟨m, line, _, hd, _⟩ := C79_calls.1 h
    exact definesCall_like hd
  · rintro ⟨n, v⟩ h
    obtain ⟨_, _, _, _, hd, _⟩ := C79_constants_partial.1 h
    cases hd with
    | mk hn _ _ => exact constantName_word hn

/-- The library was compiled with the tables that the scripts made of two headers. -/
structure Spec.MadeFrom (cx : Ctx) (macros : List Char → Option Int) (calls constants : List (List Char)) : Prop where
  calls : cx.syscalls.map (fun e => (e.1, (e.2 : Int))) = syscallTable macros calls
  constants : cx.constants = constantTable cx.t.longBits macros constants

theorem madeFrom_once {cx : Ctx} {macros : List Char → Option Int} {calls constants : List (List Char)} (h : MadeFrom cx macros calls constants) :
    OneValue cx.syscalls ∧ OneValue cx.constants := by
  obtain ⟨o1, o2, _, _⟩ := C79_tables cx.t.longBits macros calls
  refine ⟨fun k v v' h1 h2 => ?_, ?_⟩
  · have m1 : (k, (v : Int)) ∈ syscallTable macros calls := by rw [← h.calls]; exact List.mem_map.2 ⟨_, h1, rfl⟩
    have m2 : (k, (v' : Int)) ∈ syscallTable macros calls := by rw [← h.calls]; exact List.mem_map.2 ⟨_, h2, rfl⟩
    exact Int.ofNat.inj (o1 _ _ _ m1 m2)
  · rw [h.constants]
    exact (C79_tables cx.t.longBits macros constants).2.1

/-- In the policies of such a library, a name stands for the system call whose number a header defines under it, and a word for the value of the constant a header
defines under it; and the file that dump_constants prints tells the offline compiler the same. -/
theorem C79_library {cx : Ctx} {macros : List Char → Option Int} {calls constants : List (List Char)} (h : MadeFrom cx macros calls constants) :
    (∀ n k, cx.lang.syscall n = some k ↔ ∃ m line, line ∈ calls ∧ DefinesCall n m line ∧ macros m = some (k : Int)) ∧
    (∀ n v, cx.lang.named n = some v ↔ ∃ line ∈ constants, ∃ value i, DefinesConstant n value line ∧ Taken value line ∧ macros n = some i ∧ (v : Int) = i % 2 ^ cx.t.longBits) ∧
    ∀ name, NameLike name → ∃ nr a, loadFromJson (dumpOf cx name) = some (nr, a) ∧ a.name = name ∧ Describes cx nr a ∧
      ∀ w, a.constants w = (cx.lang.named w).map fun v : Nat => (v : Int) := by
  obtain ⟨o1, o2⟩ := madeFrom_once h
  refine ⟨fun n k => ?_, fun n v => ?_, fun name hn => C78_dump cx hn ?_ ?_ o1 o2⟩
  · rw [← C79_calls, ← h.calls]
    show (cx.syscalls.find? fun e => e.1 == n).map (·.2) = some k ↔ _
    rw [lookup_value o1, List.mem_map]
    constructor
    · intro hm; exact ⟨_, hm, rfl⟩
    · rintro ⟨⟨n', k'⟩, hm, e⟩
      simp only [Prod.mk.injEq] at e
      obtain ⟨rfl, e⟩ := e
      rw [← Int.ofNat.inj e]; exact hm
  · have e1 : cx.lang.named n = some v ↔ ∃ b, (n, b) ∈ cx.constants ∧ b.toNat = v := by
      show (cx.constants.find? fun e => e.1 == n).map (·.2.toNat) = some v ↔ _
      constructor
      · intro hf
        cases hc : cx.constants.find? fun e => e.1 == n with
        | none => rw [hc] at hf; cases hf
        | some e =>
          rw [hc] at hf
          simp only [Option.map_some, Option.some.injEq] at hf
          exact ⟨e.2, (lookup_value o2 n e.2).1 (by rw [hc]; rfl), hf⟩
      · rintro ⟨b, hb, rfl⟩
        have := (lookup_value o2 n b).2 hb
        cases hc : cx.constants.find? fun e => e.1 == n with
        | none => rw [hc] at this; cases this
        | some e =>
          rw [hc] at this
          simp only [Option.map_some, Option.some.injEq] at this ⊢
          rw [this]
    have e2 : ∀ i : Int, ((BitVec.ofInt cx.t.longBits i).toNat : Int) = i % 2 ^ cx.t.longBits := by
      intro i
      rw [BitVec.toNat_ofInt, Int.toNat_of_nonneg (Int.emod_nonneg _ (by have := Nat.two_pow_pos cx.t.longBits; omega))]
      norm_cast
    rw [e1]
    constructor
    · rintro ⟨b, hb, rfl⟩
      rw [h.constants] at hb
      obtain ⟨line, hl, value, i, hd, ht, hm, rfl⟩ := C79_constants_partial.1 hb
      exact ⟨line, hl, value, i, hd, ht, hm, e2 i⟩
    · rintro ⟨line, hl, value, i, hd, ht, hm, hv⟩
      refine ⟨BitVec.ofInt _ i, ?_, by have := e2 i; omega⟩
      rw [h.constants]
      exact C79_constants_partial.2 ⟨line, hl, value, i, hd, ht, hm, rfl⟩
  · rintro ⟨n, k⟩ hx
    have : (n, (k : Int)) ∈ syscallTable macros calls := by rw [← h.calls]; exact List.mem_map.2 ⟨_, hx, rfl⟩
    exact (C79_tables cx.t.longBits macros calls).2.2.1 _ this
  · intro x hx
    rw [h.constants] at hx
    exact word_like ((C79_tables cx.t.longBits macros constants).2.2.2 _ hx)

/-- Not every constant of the headers is in the table, as the description of the script has it ("all #defines whose name is all-caps"): a value that begins with a
sign or a parenthesis is left out, whatever the compiler makes of it. -/
theorem C79_violated_sign {w : Nat} {macros : List Char → Option Int} {n : List Char} {v : BitVec w} {lines : List (List Char)}
    (h : ∀ line ∈ lines, ∀ value, DefinesConstant n value line → value.head? = some '-' ∨ value.head? = some '(') : (n, v) ∉ constantTable w macros lines := by
  intro hm
  obtain ⟨line, hl, value, i, hd, ⟨⟨c, t, rfl, hc⟩, _⟩, _⟩ := C79_constants_partial.1 hm
  rcases h line hl _ hd with h | h
  all_goals
    simp only [List.head?_cons, Option.some.injEq] at h
    subst h
    revert hc; decide

/-- A machine whose headers define three system calls, one of them twice. -/
def headerCalls : List (List Char) :=
  ["#define __NR_read 0".toList, "#define __NR_write 1".toList, "#define __ARM_NR_cacheflush (__ARM_NR_BASE+2)".toList, "#define __ARM_NR_BASE 983040".toList,
    "#define __NR_read 0".toList, "#define __NR_gone 7".toList, "#undef __NR_gone".toList, "extern int x;".toList]

/-- Constants of its headers. -/
def headerConstants : List (List Char) :=
  ["#define O_RDWR 02".toList, "#define O_CREAT\t0x40".toList, "#define AT_FDCWD -100".toList, "#define O_BOTH O_RDWR".toList, "#define SIG_DFL 0".toList,
    "#define MAX(a,b) a".toList, "#define EMPTY ".toList, "#define lower 1".toList, "#define O_RDWR 02".toList]

/-- The values of its macros. -/
def headerMacros (m : List Char) : Option Int :=
  ([("__NR_read".toList, 0), ("__NR_write".toList, 1), ("__ARM_NR_cacheflush".toList, 983042), ("O_RDWR".toList, 2), ("O_CREAT".toList, 64), ("AT_FDCWD".toList, -100),
    ("O_BOTH".toList, 2), ("SIG_DFL".toList, 0)].find? fun e => e.1 == m).map (·.2)

/-- The tables made of these. -/
theorem header_tables : syscallTable headerMacros headerCalls = [("read".toList, 0), ("write".toList, 1), ("ARM_cacheflush".toList, 983042), ("read".toList, 0)] ∧
    constantTable 64 headerMacros headerConstants = [("O_BOTH".toList, 2#64), ("O_CREAT".toList, 64#64), ("O_RDWR".toList, 2#64)] := by
  constructor <;> decide +kernel

/-- A library with these tables. -/
def headerLibrary : Ctx := { smallLibrary with
  syscalls := [("read".toList, 0), ("write".toList, 1), ("ARM_cacheflush".toList, 983042), ("read".toList, 0)]
  constants := [("O_BOTH".toList, 2#64), ("O_CREAT".toList, 64#64), ("O_RDWR".toList, 2#64)] }

theorem headerLibrary_made : MadeFrom headerLibrary headerMacros headerCalls headerConstants :=
  ⟨header_tables.1.symm, header_tables.2.symm⟩

/-- The hypothesis of `C79_library` is met: the policies of this library have `O_CREAT`. -/
example : headerLibrary.lang.named "O_CREAT".toList = some 64 :=
  ((C79_library headerLibrary_made).2.1 _ _).2 ⟨"#define O_CREAT\t0x40".toList, by decide +kernel, "0x40".toList, 64,
    DefinesConstant.mk (n := "O_CREAT".toList) (blanks := ['\t']) (value := "0x40".toList) ⟨'O', "_CREAT".toList, rfl, by decide, by decide⟩ ⟨by decide, by decide⟩ (by decide),
    ⟨⟨'0', "x40".toList, rfl, by decide⟩, by decide +kernel⟩, by decide +kernel, by decide⟩

/-- The constant that the comment of the script names is not in the table, although the headers define it and the compiler knows its value. -/
theorem C79_violated_AT_FDCWD : DefinesConstant "AT_FDCWD".toList "-100".toList "#define AT_FDCWD -100".toList ∧ headerMacros "AT_FDCWD".toList = some (-100) ∧
    "#define AT_FDCWD -100".toList ∈ headerConstants ∧ headerLibrary.lang.named "AT_FDCWD".toList = none := by
  refine ⟨DefinesConstant.mk (n := "AT_FDCWD".toList) (blanks := [' ']) (value := "-100".toList) ⟨'A', "T_FDCWD".toList, rfl, by decide, by decide⟩ ⟨by decide, by decide⟩ (by decide),
    by decide +kernel, by decide +kernel, by decide +kernel⟩

/-- Where a header counts the system calls (`__NR_syscalls`), the count becomes a system call of that name: a policy may allow `syscalls`, and the number it allows
belongs to no system call of the headers. -/
theorem C79_violated_count : ∃ macros lines, syscallTable macros lines = [("read".toList, 0), ("syscalls".toList, 463)] ∧
    DefinesCall "syscalls".toList "__NR_syscalls".toList "#define __NR_syscalls 463".toList := by
  refine ⟨fun m => if m = "__NR_read".toList then some 0 else if m = "__NR_syscalls".toList then some 463 else none,
    ["#define __NR_read 0".toList, "#define __NR_syscalls 463".toList], by decide +kernel, ?_⟩
  exact DefinesCall.call (n := "syscalls".toList) (value := "463".toList) (by unfold CallName; decide)

end Minijail
