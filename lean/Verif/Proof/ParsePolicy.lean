import Verif.Spec.ParsePolicy
import Verif.Proof.Rust
/-! Lemmas on parse_seccomp_policy and its output. -/
set_option autoImplicit false
set_option linter.unusedSimpArgs false
namespace Minijail
open Spec

theorem toolWords_file (f : CStr) (hf : f = "-".toList ∨ f.head? ≠ some '-') : toolWords false [f] = ([], [f]) := by
  rcases hf with rfl | hf
  · rfl
  · unfold toolWords
    split
    · simp at hf
    · simp at hf
    · simp at hf
    · rfl

theorem toolWords_plain {f : CStr} (hf : f = "-".toList ∨ f.head? ≠ some '-') (rest : List CStr) :
    toolWords false (f :: rest) = ((toolWords false rest).1, f :: (toolWords false rest).2) := by
  rcases hf with rfl | hf
  · rfl
  · rw [toolWords.eq_def]
    split
    · rename_i h _; cases h
    · rename_i h _; cases h
    · rename_i h; cases h
    · rename_i h
      cases h
      split
      · simp at hf
      · simp at hf
      · simp at hf
      · rfl

theorem toolLong_dump (p : CStr) : toolLong ("dump=".toList ++ p) = .dump (some p) := by
  simp [toolLong]

theorem toolWords_dump (rest : List CStr) : toolWords false ("--dump".toList :: rest) = (.dump none :: (toolWords false rest).1, (toolWords false rest).2) := rfl

theorem toolWords_dumpTo (p : CStr) (rest : List CStr) :
    toolWords false (("--dump=".toList ++ p) :: rest) = (.dump (some p) :: (toolWords false rest).1, (toolWords false rest).2) := by
  have := toolLong_dump p
  change (toolLong ("dump=".toList ++ p) :: _, _) = _
  rw [this]

theorem toolWords_fileOpt (f : Option CStr) (hf : ∀ g, f = some g → g = "-".toList ∨ g.head? ≠ some '-') : toolWords false f.toList = ([], f.toList) := by
  cases f with
  | none => rfl
  | some f => exact toolWords_file f (hf f rfl)

/-- What the words of a command mean. -/
theorem toolMain_words (env : ToolEnv) (k : ToolCommand) (hk : k.Written) :
    toolMain env k.words = toolRun env (!k.words.isEmpty) k.dump.isSome ((k.dump.bind id).getD []) k.file.toList := by
  have hf := toolWords_fileOpt k.file hk.file
  unfold toolMain
  obtain ⟨dump, file⟩ := k
  rcases dump with _ | _ | p
  · simp only [ToolCommand.words, List.nil_append] at hf ⊢
    rw [hf]; rfl
  · simp only [ToolCommand.words, List.cons_append, List.nil_append] at hf ⊢
    rw [toolWords_dump, hf]; rfl
  · simp only [ToolCommand.words, List.cons_append, List.nil_append] at hf ⊢
    rw [toolWords_dumpTo, hf]; rfl

theorem flatMap_encInsn (p : List Insn) : p.flatMap encInsn = p.flatMap insnBytes := by
  congr 1
  funext i
  exact (insnBytes_eq i).symm

theorem length_flatMap_encInsn (p : List Insn) : (p.flatMap encInsn).length = p.length * 8 :=
  length_flatMap_const length_encInsn p

theorem readFilter_bytes (p : List Insn) (h : p.length < 65536) : readFilter (p.flatMap insnBytes) = some p := by
  rw [← flatMap_encInsn]
  unfold readFilter
  rw [length_flatMap_encInsn, if_neg (by omega), Nat.mul_div_cancel _ (by decide), Nat.mod_eq_of_lt h]
  have := rdArray_enc rdInsn_enc p []
  rw [List.append_nil] at this
  rw [this]; rfl

/-- With a name and room, the program writes what the compiler gives. -/
theorem toolRun_named (env : ToolEnv) (k : ToolCommand) (hk : k.Written) (hw : k.words ≠ []) :
    toolMain env k.words =
      match k.text env.cx.fs env.stdin with
      | none => .aborted none
      | some text =>
        match compileFilter (ToolEnv.compiler env) text with
        | .ok prog => if k.dump.isSome then toolDump env ((k.dump.bind id).getD []) prog else .listed (printProgram prog)
        | .ub => .ub
        | _ => .aborted none := by
  rw [toolMain_words env k hk]
  have hn : (!k.words.isEmpty) = true := by simpa using hw
  rw [hn]
  unfold toolRun toolCompile ToolCommand.text
  obtain ⟨dump, file⟩ := k
  rcases file with _ | f
  · simp only [Option.toList_none, if_true]
    change (match compileFilter (ToolEnv.compiler env) env.stdin with | .ub => _ | .fail => _ | .die => _ | .ok prog => _) = _
    split <;> simp_all
  · simp only [Option.toList_some, if_true]
    by_cases hf : f = "-".toList
    · simp only [if_pos hf]
      change (match compileFilter (ToolEnv.compiler env) env.stdin with | .ub => _ | .fail => _ | .die => _ | .ok prog => _) = _
      split <;> simp_all
    · simp only [if_neg hf]
      cases env.cx.fs f with
      | none => rfl
      | some text =>
        change (match compileFilter (ToolEnv.compiler env) text with | .ub => _ | .fail => _ | .die => _ | .ok prog => _) = _
        split <;> simp_all

theorem toolDump_room (env : ToolEnv) (dest : Option CStr) (hto : ∀ p, dest = some p → p ≠ []) (prog : List Insn) (room : Nat) (hr : env.room dest = some room)
    (hroom : 8 * prog.length ≤ room) : toolDump env (dest.getD []) prog = .dumped dest (prog.flatMap insnBytes) := by
  have ht : (if dest.getD [] = [] then none else some (dest.getD [])) = dest := by
    cases dest with
    | none => rfl
    | some p => simp only [Option.getD_some]; rw [if_neg (hto p rfl)]
  unfold toolDump
  simp only [ht, hr]
  have hl := length_flatMap_encInsn prog
  rw [if_neg (by omega), List.take_of_length_le (by omega), flatMap_encInsn]

/-! ### The listing -/

theorem digitChar_inj16 : ∀ a < 16, ∀ b < 16, Nat.digitChar a = Nat.digitChar b → a = b := by decide

theorem toDigits_inj {b : Nat} (hb : 1 < b) (hb' : b ≤ 16) (m n : Nat) (h : Nat.toDigits b m = Nat.toDigits b n) : m = n := by
  induction m using Nat.strong_induction_on generalizing n with
  | _ m ih =>
    rw [Nat.toDigits_eq_if hb, Nat.toDigits_eq_if (n := n) hb] at h
    have hlen : ∀ k, (Nat.toDigits b k ++ [Nat.digitChar 0]).length ≥ 2 := by
      intro k; have := Nat.length_toDigits_pos (b := b) (n := k); simp; omega
    split at h <;> split at h
    · simp only [List.cons.injEq, and_true] at h
      exact digitChar_inj16 _ (by omega) _ (by omega) h
    · have := congrArg List.length h
      have := Nat.length_toDigits_pos (b := b) (n := n / b)
      simp at *
    · have := congrArg List.length h
      have := Nat.length_toDigits_pos (b := b) (n := m / b)
      simp at *
    · have h := List.append_inj' h rfl
      have h1 := ih (m / b) (Nat.div_lt_self (by omega) hb) _ h.1
      have h2 := digitChar_inj16 _ (lt_of_lt_of_le (Nat.mod_lt _ (by omega)) hb') _ (lt_of_lt_of_le (Nat.mod_lt _ (by omega)) hb') (by simpa using h.2)
      rw [← Nat.div_add_mod m b, ← Nat.div_add_mod n b, h1, h2]

theorem digitChar_plain : ∀ a < 16, Nat.digitChar a ≠ ':' ∧ Nat.digitChar a ≠ ',' ∧ Nat.digitChar a ≠ ' ' ∧ Nat.digitChar a ≠ 'x' ∧ Nat.digitChar a ≠ '\n' := by decide

theorem toDigits_plain {b : Nat} (hb : 1 < b) (hb' : b ≤ 16) (n : Nat) : ∀ c ∈ Nat.toDigits b n, c ≠ ':' ∧ c ≠ ',' ∧ c ≠ ' ' ∧ c ≠ 'x' ∧ c ≠ '\n' := by
  induction n using Nat.strong_induction_on with
  | _ n ih =>
    intro c hc
    rw [Nat.toDigits_eq_if hb] at hc
    split at hc
    · simp only [List.mem_cons, List.not_mem_nil, or_false] at hc
      subst hc
      exact digitChar_plain _ (by omega)
    · rcases List.mem_append.1 hc with hc | hc
      · exact ih _ (Nat.div_lt_self (by omega) hb) c hc
      · simp only [List.mem_cons, List.not_mem_nil, or_false] at hc
        subst hc
        exact digitChar_plain _ (lt_of_lt_of_le (Nat.mod_lt _ (by omega)) hb')

theorem cut_inj {c : Char} {a b x y : CStr} (ha : c ∉ a) (hb : c ∉ b) (h : a ++ c :: x = b ++ c :: y) : a = b ∧ x = y := by
  induction a generalizing b with
  | nil =>
    cases b with
    | nil => simpa using h
    | cons d b => simp only [List.nil_append, List.cons_append, List.cons.injEq] at h; exact absurd h.1 (by simp at hb; tauto)
  | cons d a ih =>
    cases b with
    | nil => simp only [List.nil_append, List.cons_append, List.cons.injEq] at h; exact absurd h.1.symm (by simp at ha; tauto)
    | cons e b =>
      simp only [List.cons_append, List.cons.injEq] at h
      obtain ⟨h1, h2⟩ := ih (by simp at ha; tauto) (by simp at hb; tauto) h.2
      exact ⟨by rw [h.1, h1], h2⟩

theorem printHex_inj {m n : Nat} (h : printHex m = printHex n) : m = n := by
  unfold printHex at h
  split at h <;> split at h
  · omega
  · have h2 := congrArg (fun l => l[1]?) h
    simp at h2
  · have h2 := congrArg (fun l => l[1]?) h
    simp at h2
  · exact toDigits_inj (by decide) (by decide) m n (List.append_cancel_left h)

theorem printHex_plain (n : Nat) : ',' ∉ printHex n ∧ ' ' ∉ printHex n := by
  have := toDigits_plain (b := 16) (by decide) (by decide) n
  unfold printHex
  split
  · exact ⟨by decide, by decide⟩
  · constructor <;>
    · intro h
      rcases List.mem_append.1 h with h | h
      · revert h; decide
      · have := this _ h; simp at this

theorem printDec_plain (n : Nat) : ',' ∉ printDec n ∧ ':' ∉ printDec n ∧ '\n' ∉ printDec n := by
  have := toDigits_plain (b := 10) (by decide) (by decide) n
  refine ⟨?_, ?_, ?_⟩ <;> intro h <;> have := this _ h <;> simp at this

theorem printInsn_append_inj {i : Nat} {x y : Insn} {s t : CStr} (h : printInsn i x ++ s = printInsn i y ++ t) : x = y ∧ s = t := by
  unfold printInsn at h
  simp only [List.append_assoc, List.append_cancel_left_eq] at h
  obtain ⟨h1, h⟩ := cut_inj (c := ',') (printHex_plain _).1 (printHex_plain _).1 h
  have h : " jt=".toList ++ _ = " jt=".toList ++ _ := h
  rw [List.append_cancel_left_eq] at h
  obtain ⟨h2, h⟩ := cut_inj (c := ',') (printDec_plain _).1 (printDec_plain _).1 h
  have h : " jf=".toList ++ _ = " jf=".toList ++ _ := h
  rw [List.append_cancel_left_eq] at h
  obtain ⟨h3, h⟩ := cut_inj (c := ',') (printDec_plain _).1 (printDec_plain _).1 h
  have h : " k=".toList ++ _ = " k=".toList ++ _ := h
  rw [List.append_cancel_left_eq] at h
  obtain ⟨h4, h⟩ := cut_inj (c := ' ') (printHex_plain _).2 (printHex_plain _).2 h
  have h : "\t}\n".toList ++ _ = "\t}\n".toList ++ _ := h
  rw [List.append_cancel_left_eq] at h
  refine ⟨?_, h⟩
  obtain ⟨a, b, c, d⟩ := x
  obtain ⟨a', b', c', d'⟩ := y
  simp only [Insn.mk.injEq]
  exact ⟨BitVec.eq_of_toNat_eq (printHex_inj h1), BitVec.eq_of_toNat_eq (toDigits_inj (by decide) (by decide) _ _ h2),
    BitVec.eq_of_toNat_eq (toDigits_inj (by decide) (by decide) _ _ h3), BitVec.eq_of_toNat_eq (printHex_inj h4)⟩

theorem printInsns_inj (i : Nat) (p q : List Insn) (hl : p.length = q.length) (h : printInsns i p = printInsns i q) : p = q := by
  induction p generalizing i q with
  | nil => cases q with
    | nil => rfl
    | cons y q => simp at hl
  | cons x p ih => cases q with
    | nil => simp at hl
    | cons y q =>
      obtain ⟨h1, h2⟩ := printInsn_append_inj h
      rw [h1, ih (i + 1) q (by simpa using hl) h2]

theorem printProgram_inj {p q : List Insn} (h : printProgram p = printProgram q) : p = q := by
  unfold printProgram at h
  simp only [List.append_assoc, List.append_cancel_left_eq] at h
  obtain ⟨h1, h2⟩ := cut_inj (c := '\n') (printDec_plain _).2.2 (printDec_plain _).2.2 h
  have h2 : "filter:\n".toList ++ _ = "filter:\n".toList ++ _ := h2
  rw [List.append_cancel_left_eq] at h2
  exact printInsns_inj 0 p q (toDigits_inj (by decide) (by decide) _ _ h1) h2

end Minijail
