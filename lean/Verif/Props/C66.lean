import Verif.Proof.ParsePolicy
import Verif.Props.C64
import Verif.Props.C01
import Verif.Model.Cli
/-!
C66: a policy compiled ahead of time by parse_seccomp_policy means what it says when minijail0 loads it.
-/
set_option autoImplicit false
set_option linter.unusedSimpArgs false
namespace Minijail
open Spec

/-- A command with an argument, for a policy that fits and with room for its program: the program ends well, and its output is one whose every call
gets the action of the policy, or kills the thread. Missing in this theorem is the command without arguments (`C66_violated_no_arguments`). -/
theorem C66_output_partial (env : ToolEnv) (k : ToolCommand) (hk : k.Written) (hw : k.words ≠ []) (hcx : NamesFit (ToolEnv.compiler env)) (text : List Char)
    (ht : k.text env.cx.fs env.stdin = some text) (rules : List (BitVec 32 × Rule)) (h : PolicyText (ToolEnv.compiler env).lang text rules)
    (hf : PolicyFits (ToolEnv.compiler env) rules) (hr : k.Room env (policySize env.cx.t.longBits rules)) :
    ∃ prog, toolMain env k.words = k.output prog ∧ prog.length = policySize env.cx.t.longBits rules ∧
      (env.cx.t.be = false → ∀ d : SeccompData, d.arch = env.cx.t.archNr → (∀ x ∈ rules, x.1 = d.nr → x.2.valid) →
        runFilter false prog d = .ret (policyAction env.cx.t.longBits d .killThread rules).word) := by
  obtain ⟨prog, hc, hl⟩ := C64_accepted _ hcx text rules h hf
  have hb : (ToolEnv.compiler env).builtin = [] := rfl
  rw [hb, List.nil_append] at hl
  have hl : prog.length = policySize env.cx.t.longBits rules := hl
  refine ⟨prog, ?_, hl, ?_⟩
  · rw [toolRun_named env k hk hw, ht]
    simp only [hc]
    unfold ToolCommand.output
    obtain ⟨dump, file⟩ := k
    cases dump with
    | none => rfl
    | some dest =>
      obtain ⟨room, h1, h2⟩ := hr dest rfl
      exact toolDump_room env dest (fun p hp => hk.output p (by rw [hp])) prog room h1 (by rw [hl]; exact h2)
  · intro hbe d ha hv
    have := C01_filter_means_policy (ToolEnv.compiler env) text prog hbe hcx.small hc rules h d ha hv
    rw [hb, List.nil_append] at this
    rw [← hbe]
    exact this

/-- Otherwise, where the behaviour of the compiler is defined at all (C07), it aborts, and neither the output nor anything else has been written. -/
theorem C66_refused_partial (env : ToolEnv) (k : ToolCommand) (hk : k.Written) (hw : k.words ≠ []) (hcx : NamesFit (ToolEnv.compiler env))
    (hinj : ∀ a ∈ env.cx.syscalls, ∀ b ∈ env.cx.syscalls, a.2 = b.2 → a.1 = b.1)
    (hno : ∀ text, k.text env.cx.fs env.stdin = some text → compileFilter (ToolEnv.compiler env) text ≠ .ub ∧
      ¬ ∃ rules, PolicyText (ToolEnv.compiler env).lang text rules ∧ PolicyFits (ToolEnv.compiler env) rules) :
    toolMain env k.words = .aborted none := by
  rw [toolRun_named env k hk hw]
  cases ht : k.text env.cx.fs env.stdin with
  | none => rfl
  | some text =>
    obtain ⟨h1, h2⟩ := hno text ht
    cases hc : compileFilter (ToolEnv.compiler env) text with
    | ok prog => exact absurd ((C64_exactly _ hcx hinj text).1 ⟨prog, hc⟩) h2
    | ub => exact absurd hc h1
    | fail => simp [hc]
    | die => simp [hc]

/-- A dump that is complete is read as the program by minijail0. -/
theorem C66_read_back (prog : List Insn) (h : prog.length ≤ 4096) : readFilter (prog.flatMap insnBytes) = some prog :=
  readFilter_bytes prog (by omega)

/-- What minijail0 reads are the bytes of the file: it takes no others. -/
theorem C66_reads_only (bytes : Bytes) (hs : bytes.length < 8 * 65536) (prog : List Insn) :
    readFilter bytes = some prog ↔ prog.flatMap insnBytes = bytes := by
  constructor
  · intro h
    by_cases hm : bytes.length % 8 = 0
    · obtain ⟨h1, h2⟩ := castFilters_bytes bytes hm
      have h3 := readFilter_bytes (castFilters bytes) (by omega)
      rw [h1, h] at h3
      rw [Option.some.inj h3]
      exact h1
    · unfold readFilter at h
      rw [if_pos hm] at h
      cases h
  · intro h
    subst h
    have hl : (prog.flatMap insnBytes).length = prog.length * 8 := length_flatMap_const (enc := insnBytes) (n := 8) (fun _ => rfl) prog
    exact readFilter_bytes prog (by omega)

/-- Reading the file and handing the program to the library is what the option --seccomp-bpf-binary does: `env.bpfFile` is the file as whole
instructions and the number of bytes left over. -/
theorem C66_option (env : CliEnv) (c : Cli) (path : CStr) (bytes : Bytes) (h : env.bpfFile path = some (castFilters bytes, bytes.length % 8)) :
    setSeccompFile env c path = match readFilter bytes with
      | none => .exit 1
      | some prog => lib env c (.setSeccompFilters prog) := by
  unfold setSeccompFile
  rw [h]
  by_cases hm : bytes.length % 8 = 0
  · simp only [hm, ne_eq, not_true, if_false]
    obtain ⟨h1, h2⟩ := castFilters_bytes bytes hm
    have h3 : readFilter bytes = some ((castFilters bytes).take ((castFilters bytes).length % 65536)) := by
      generalize castFilters bytes = p at h1 h2
      unfold readFilter
      rw [if_neg (by omega), ← h2]
      have hle : p.length % 65536 ≤ p.length := Nat.mod_le _ _
      have := rdArray_enc rdInsn_enc (p.take (p.length % 65536)) ((p.drop (p.length % 65536)).flatMap encInsn)
      rw [← List.flatMap_append, List.take_append_drop, List.length_take, Nat.min_eq_left hle, flatMap_encInsn, h1] at this
      rw [this]
      rfl
    rw [h3]
  · simp only [ne_eq, hm, not_false_eq_true, if_true]
    unfold readFilter
    rw [if_pos hm]

/-- The listing shows the whole program: two policies with the same listing have the same dump. -/
theorem C66_listing (env : ToolEnv) (f g : List Char) (hf : (⟨none, some f⟩ : ToolCommand).Written) (hg : (⟨none, some g⟩ : ToolCommand).Written) (shown : List Char)
    (h1 : toolMain env [f] = .listed shown) (h2 : toolMain env [g] = .listed shown) (out : List Char) (ho : out ≠ []) :
    toolMain env ["--dump=".toList ++ out, f] = toolMain env ["--dump=".toList ++ out, g] := by
  have key : ∀ x : List Char, (⟨none, some x⟩ : ToolCommand).Written → toolMain env [x] = .listed shown →
      ∃ prog, printProgram prog = shown ∧ toolMain env ["--dump=".toList ++ out, x] = toolDump env out prog := by
    intro x hx hm
    have hx' : (⟨some (some out), some x⟩ : ToolCommand).Written := ⟨by rintro p hp; simp at hp; subst hp; exact ho, hx.file⟩
    have e1 := toolRun_named env ⟨none, some x⟩ hx (by simp [ToolCommand.words])
    have e2 := toolRun_named env ⟨some (some out), some x⟩ hx' (by simp [ToolCommand.words])
    change toolMain env [x] = _ at e1
    change toolMain env ["--dump=".toList ++ out, x] = _ at e2
    rw [hm] at e1
    rw [e2]
    have ht : (⟨some (some out), some x⟩ : ToolCommand).text env.cx.fs env.stdin = (⟨none, some x⟩ : ToolCommand).text env.cx.fs env.stdin := rfl
    rw [ht]
    cases hh : (⟨none, some x⟩ : ToolCommand).text env.cx.fs env.stdin with
    | none => rw [hh] at e1; simp at e1
    | some text =>
      rw [hh] at e1
      simp only at e1 ⊢
      cases hc : compileFilter (ToolEnv.compiler env) text with
      | ok prog =>
        rw [hc] at e1
        refine ⟨prog, ?_, ?_⟩
        · simpa using e1.symm
        · simp
      | ub => rw [hc] at e1; simp at e1
      | fail => rw [hc] at e1; simp at e1
      | die => rw [hc] at e1; simp at e1
  obtain ⟨p, hp, h1⟩ := key f hf h1
  obtain ⟨q, hq, h2⟩ := key g hg h2
  rw [h1, h2, printProgram_inj (hp.trans hq.symm)]

/-- The option -S, without logging and thread synchronisation and in a build without calls that every policy allows, makes the same program. What is missing are
the other cases: see `C66_violated_tsync` and `C66_violated_libc`. -/
theorem C66_same_partial (env : ToolEnv) (k : ToolCommand) (hk : k.Written) (hw : k.words ≠ []) (b : FilterBuild) (hlog : b.debugLogging = false ∨ b.defaultRetLog = false)
    (hlibc : b.libcCompatibility = false) (hdup : b.allowDuplicates = env.allowDuplicates) (text : List Char) (ht : k.text env.cx.fs env.stdin = some text) (prog : List Insn)
    (hc : compileFilter { env.cx with opts := jailFilterOpts b false false } text = .ok prog) (hr : k.Room env prog.length) : toolMain env k.words = k.output prog := by
  have ho : jailFilterOpts b false false = ⟨.kill, false, false, env.allowDuplicates, false⟩ := by
    rcases hlog with hlog | hlog <;> simp [jailFilterOpts, hlog, hlibc, hdup]
  rw [ho] at hc
  have hc : compileFilter (ToolEnv.compiler env) text = .ok prog := hc
  rw [toolRun_named env k hk hw, ht]
  simp only [hc]
  unfold ToolCommand.output
  obtain ⟨dump, file⟩ := k
  cases dump with
  | none => rfl
  | some dest =>
    obtain ⟨room, h1, h2⟩ := hr dest rfl
    exact toolDump_room env dest (fun p hp => hk.output p (by rw [hp])) prog room h1 h2

/-- In a build with calls that every policy allows, only these calls are treated differently. -/
theorem C66_same_others (env : ToolEnv) (hbe : env.cx.t.be = false) (hnr : ∀ e ∈ env.cx.syscalls, e.2 < 2 ^ 31) (b : FilterBuild)
    (hlog : b.debugLogging = false ∨ b.defaultRetLog = false) (text : List Char) (rules : List (BitVec 32 × Rule))
    (h : PolicyText (ToolEnv.compiler env).lang text rules) (prog loaded : List Insn)
    (hp : compileFilter { env.cx with opts := jailFilterOpts b false false } text = .ok prog) (hl : compileFilter (ToolEnv.compiler env) text = .ok loaded)
    (d : SeccompData) (ha : d.arch = env.cx.t.archNr) (hv : ∀ x ∈ rules, x.1 = d.nr → x.2.valid)
    (hd : ∀ name ∈ env.cx.libcCompatibilitySyscalls, ∀ n, (ToolEnv.compiler env).lang.syscall name = some n → d.nr ≠ BitVec.ofNat 32 n)
    (hminus : d.nr ≠ BitVec.ofInt 32 (-1)) :
    runFilter false prog d = runFilter false loaded d := by
  have hact : (jailFilterOpts b false false).action = .kill ∧ (jailFilterOpts b false false).allowLogging = false ∧ (jailFilterOpts b false false).allowSyscallsForLogging = false := by
    rcases hlog with hlog | hlog <;> simp [jailFilterOpts, hlog]
  have hlang : ({ env.cx with opts := jailFilterOpts b false false } : Ctx).lang = (ToolEnv.compiler env).lang := by
    simp [Ctx.lang, ToolEnv.compiler, hact]
  have e1 := C01_filter_means_policy ({ env.cx with opts := jailFilterOpts b false false } : Ctx) text prog hbe hnr hp rules (by rw [hlang]; exact h) d ha hv
  have e2 := C01_filter_means_policy (ToolEnv.compiler env) text loaded hbe hnr hl rules h d ha hv
  have hb : (ToolEnv.compiler env).builtin = [] := rfl
  rw [hb, List.nil_append] at e2
  simp only [hbe] at e1
  have hbe' : (ToolEnv.compiler env).t.be = false := hbe
  simp only [hbe'] at e2
  rw [e1, e2]
  have hskip : ∀ l : List (BitVec 32 × Rule), (∀ x ∈ l, d.nr ≠ x.1) → ∀ bits dflt, policyAction bits d dflt (l ++ rules) = policyAction bits d dflt rules := by
    intro l hl bits dflt
    induction l with
    | nil => rfl
    | cons x l ih =>
      obtain ⟨nr, r⟩ := x
      simp only [List.cons_append, policyAction, if_neg (hl (nr, r) (by simp))]
      exact ih fun y hy => hl y (List.mem_cons_of_mem _ hy)
  rw [hskip]
  · simp [hact, ToolEnv.compiler]
  · intro x hx
    unfold Ctx.builtin at hx
    simp only [hact.2.2] at hx
    rw [hlang] at hx
    by_cases hi : (jailFilterOpts b false false).includeLibcCompatibilityAllowlist = true
    · simp only [hi, if_true, Bool.false_eq_true, if_false, List.nil_append, allowNames, List.mem_map] at hx
      obtain ⟨name, hn, rfl⟩ := hx
      dsimp only
      cases hs : (ToolEnv.compiler env).lang.syscall name with
      | none => simpa [hs] using hminus
      | some n => simpa [hs] using hd name hn n hs
    · simp only [hi, if_false, Bool.false_eq_true, List.append_nil, List.not_mem_nil] at hx

/-- Without arguments the program does what the same command with "-" does, or its behaviour is undefined. -/
theorem C66_no_arguments (env : ToolEnv) : toolMain env [] = .ub ∨ toolMain env [] = toolMain env ["-".toList] := by
  change toolRun env false false [] [] = .ub ∨ toolRun env false false [] [] = toolRun env true false [] ["-".toList]
  have hc : ∀ cx : Ctx, toolCompile cx false env.stdin = .ub ∨ toolCompile cx false env.stdin = toolCompile cx true env.stdin := by
    intro cx
    unfold toolCompile
    simp only [if_true, Bool.false_eq_true, if_false]
    cases namelessLines cx (readLines env.stdin) ⟨filterPrefix cx, [], [], []⟩ false <;> simp
  unfold toolRun
  simp only [if_true]
  rcases hc { env.cx with opts := toolFilterOpts env.allowDuplicates } with h | h
  · left; rw [h]
  · right; rw [h]

/-- The policy may come before the option, and after `--` no word is an option: a policy may then have any name. -/
theorem C66_order (env : ToolEnv) (out f : List Char) : (f = "-".toList ∨ f.head? ≠ some '-' →
      toolMain env [f, "--dump=".toList ++ out] = toolMain env ["--dump=".toList ++ out, f] ∧
      toolMain env ["--dump=".toList ++ out, "--".toList, f] = toolMain env ["--dump=".toList ++ out, f]) ∧
    (f ≠ "-".toList → ∀ text prog, env.cx.fs f = some text → compileFilter (ToolEnv.compiler env) text = .ok prog →
      toolMain env ["--".toList, f] = .listed (printProgram prog)) := by
  have hdump : ∀ rest : List (List Char), toolWords false (("--dump=".toList ++ out) :: rest) = (.dump (some out) :: (toolWords false rest).1, (toolWords false rest).2) := by
    intro rest
    rw [toolWords_dumpTo]
  have hrest : ∀ rest : List (List Char), toolWords false ("--".toList :: rest) = ([], rest) := fun _ => rfl
  refine ⟨fun hf => ?_, fun hf text prog ht hc => ?_⟩
  · have hword : ∀ rest : List (List Char), toolWords false (f :: rest) = ((toolWords false rest).1, f :: (toolWords false rest).2) := fun rest => toolWords_plain hf rest
    refine ⟨?_, ?_⟩
    · unfold toolMain
      rw [hword, hdump, hdump, hword]
      rfl
    · unfold toolMain
      rw [hdump, hdump, hword, hrest]
      rfl
  · have e : toolMain env ["--".toList, f] = toolRun env true false [] [f] := rfl
    rw [e]
    unfold toolRun toolCompile
    simp only [if_neg hf, ht, if_true]
    change (match compileFilter (ToolEnv.compiler env) text with | .ub => _ | .fail => _ | .die => _ | .ok prog => _) = _
    rw [hc]
    simp

/-- Help comes before everything else; it takes no value. -/
theorem C66_help (env : ToolEnv) (k : ToolCommand) (hk : k.Written) (v : List Char) : toolMain env (k.words ++ ["--help".toList]) = .usage ∧
    toolMain env (k.words ++ ["-h".toList]) = .usage ∧ (k.words ≠ [] → toolMain env (("--help=".toList ++ v) :: k.words) = toolMain env k.words) := by
  have hv : ∀ rest : List (List Char), toolWords false (("--help=".toList ++ v) :: rest) = (.unknown :: (toolWords false rest).1, (toolWords false rest).2) := by
    intro rest
    have : toolLong ("help=".toList ++ v) = .unknown := by
      simp [toolLong, List.isPrefixOf]
    change (toolLong ("help=".toList ++ v) :: _, _) = _
    rw [this]
  have hfile : ∀ (f : Option (List Char)), (∀ x, f = some x → x = "-".toList ∨ x.head? ≠ some '-') → ∀ rest : List (List Char),
      toolWords false (f.toList ++ rest) = ((toolWords false rest).1, f.toList ++ (toolWords false rest).2) := by
    intro f hf rest
    cases f with
    | none => rfl
    | some f => exact toolWords_plain (hf f rfl) rest
  have key : ∀ h : List Char, toolWords false [h] = ([.help], []) → toolMain env (k.words ++ [h]) = .usage := by
    intro h hh
    obtain ⟨dump, file⟩ := k
    have hf := hfile file hk.file [h]
    rw [hh] at hf
    unfold toolMain
    rcases dump with _ | _ | p
    · simp only [ToolCommand.words, List.nil_append]
      rw [hf]
      rfl
    · simp only [ToolCommand.words, List.cons_append, List.nil_append]
      rw [toolWords_dump, hf]
      rfl
    · simp only [ToolCommand.words, List.cons_append, List.nil_append]
      rw [toolWords_dumpTo, hf]
      rfl
  refine ⟨key _ (by decide), key _ (by decide), fun hw => ?_⟩
  unfold toolMain
  rw [hv]
  have hn : k.words.isEmpty = false := by simpa using hw
  simp only [toolSettings, hn, List.isEmpty_cons]

/-! ### Where the code differs -/

/-- Everything succeeds; standard input holds a policy. -/
def exTool : ToolEnv := ⟨exCx, exText, false, fun _ => some 100000⟩

/-- The usage message says that without a policy file standard input is read. The name of the file is then a null pointer, which is copied at the first rule. -/
theorem C66_violated_no_arguments : ∃ (env : ToolEnv) (rules : List (BitVec 32 × Rule)), PolicyText (ToolEnv.compiler env).lang env.stdin rules ∧
    PolicyFits (ToolEnv.compiler env) rules ∧ (⟨none, none⟩ : ToolCommand).text env.cx.fs env.stdin = some env.stdin ∧ toolMain env (⟨none, none⟩ : ToolCommand).words = .ub :=
  ⟨exTool, exRules, exText_means, ⟨by intro _; decide, by unfold OneBlock; decide, by decide, by decide, by decide⟩, rfl, by decide +kernel⟩

/-- The usage message says that the argument of -d is optional. The program takes the next word, so `-d policy` reads standard input and overwrites the policy. -/
theorem C66_violated_short (env : ToolEnv) (policy : List Char) (h : policy ≠ []) :
    toolMain env ["-d".toList, policy] = toolMain env ["--dump=".toList ++ policy, "-".toList] := by
  have e : toolMain env ["-d".toList, policy] = toolRun env true true policy [] := rfl
  rw [e]
  have hk : (⟨some (some policy), some "-".toList⟩ : ToolCommand).Written := ⟨by rintro p hp; simp at hp; subst hp; exact h, by rintro f hf; simp at hf; left; exact hf.symm⟩
  have := toolMain_words env ⟨some (some policy), some "-".toList⟩ hk
  exact this.symm

/-- A dump that the disk has no room for can end well: what is left when the file is closed is lost without a word. -/
theorem C66_violated_full : ∃ (env : ToolEnv) (bytes : Bytes) (prog : List Insn), compileFilter (ToolEnv.compiler env) env.stdin = .ok prog ∧
    toolMain env ["--dump=/o".toList, "-".toList] = .dumped (some "/o".toList) bytes ∧ bytes ≠ prog.flatMap insnBytes ∧ readFilter bytes = some (prog.take 2) := by
  refine ⟨{ exTool with room := fun _ => some 16 }, ((progOf (compileFilter (ToolEnv.compiler exTool) exText)).take 2).flatMap insnBytes,
    progOf (compileFilter (ToolEnv.compiler exTool) exText), ok_of_ne_nil (by decide +kernel), by decide +kernel, by decide +kernel, by decide +kernel⟩

/-- Nothing but what is asked for, and a kernel that knows every action. -/
def exBuild : FilterBuild := ⟨true, false, true, true, false, false⟩

/-- With thread synchronisation, -S kills the process at a call that the policy does not mention; the program compiled ahead of time kills the thread. -/
theorem C66_violated_tsync : ∃ (env : ToolEnv) (b : FilterBuild) (prog loaded : List Insn) (d : SeccompData),
    compileFilter { env.cx with opts := jailFilterOpts b false true } env.stdin = .ok prog ∧ compileFilter (ToolEnv.compiler env) env.stdin = .ok loaded ∧
    d.arch = env.cx.t.archNr ∧ runFilter false prog d = .ret Action.killProcess.word ∧ runFilter false loaded d = .ret Action.killThread.word :=
  ⟨exTool, exBuild, progOf (compileFilter { exCx with opts := jailFilterOpts exBuild false true } exText), progOf (compileFilter (ToolEnv.compiler exTool) exText),
    ⟨41, 0xc000003e, 0, 0, 0, 0, 0, 0, 0⟩, ok_of_ne_nil (by decide +kernel), ok_of_ne_nil (by decide +kernel), rfl, by decide +kernel, by decide +kernel⟩

/-- In a build with calls that every policy allows, -S allows them and the program compiled ahead of time does not. -/
theorem C66_violated_libc : ∃ (env : ToolEnv) (b : FilterBuild) (prog loaded : List Insn) (d : SeccompData),
    compileFilter { env.cx with opts := jailFilterOpts b false false } env.stdin = .ok prog ∧ compileFilter (ToolEnv.compiler env) env.stdin = .ok loaded ∧
    d.arch = env.cx.t.archNr ∧ runFilter false prog d = .ret Action.allow.word ∧ runFilter false loaded d = .ret Action.killThread.word :=
  ⟨exTool, { exBuild with libcCompatibility := true }, progOf (compileFilter { exCx with opts := jailFilterOpts { exBuild with libcCompatibility := true } false false } exText),
    progOf (compileFilter (ToolEnv.compiler exTool) exText), ⟨5, 0xc000003e, 0, 0, 0, 0, 0, 0, 0⟩, ok_of_ne_nil (by decide +kernel), ok_of_ne_nil (by decide +kernel), rfl,
    by decide +kernel, by decide +kernel⟩

/-! ### Cases -/

/-- The policy before the option, and the word that ends the options. -/
example : (⟨some (some "/o".toList), some "-".toList⟩ : ToolCommand).Written ∧ ("-".toList = "-".toList ∨ "-".toList.head? ≠ some '-') ∧
    toolMain exTool ["-".toList, "--dump=/o".toList] = toolMain exTool ["--dump=/o".toList, "--".toList, "-".toList] ∧
    toolMain exTool ["--dump=/o".toList, "-".toList, "-h".toList] = .usage :=
  ⟨⟨by rintro p hp; simp at hp; subst hp; decide, by rintro f hf; simp at hf; left; exact hf.symm⟩, .inl rfl,
    ((C66_order exTool "/o".toList "-".toList).1 (.inl rfl)).1.trans ((C66_order exTool "/o".toList "-".toList).1 (.inl rfl)).2.symm, by decide +kernel⟩

/-- The command `parse_seccomp_policy --dump=/o -` for the example policy. -/
example : (⟨some (some "/o".toList), some "-".toList⟩ : ToolCommand).Written ∧ (⟨some (some "/o".toList), some "-".toList⟩ : ToolCommand).words = ["--dump=/o".toList, "-".toList] ∧
    NamesFit (ToolEnv.compiler exTool) ∧ (⟨some (some "/o".toList), some "-".toList⟩ : ToolCommand).text exTool.cx.fs exTool.stdin = some exText ∧
    PolicyText (ToolEnv.compiler exTool).lang exText exRules ∧ PolicyFits (ToolEnv.compiler exTool) exRules ∧
    (⟨some (some "/o".toList), some "-".toList⟩ : ToolCommand).Room exTool (policySize 64 exRules) ∧ policySize 64 exRules = 41 :=
  ⟨⟨by rintro p hp; simp at hp; subst hp; decide, by rintro f hf; simp at hf; left; exact hf.symm⟩, rfl, ⟨exCx_names.small, exCx_names.short, exCx_names.nodigit⟩, rfl, exText_means,
    ⟨by intro _; decide, by unfold OneBlock; decide, by decide, by decide, by decide⟩, by rintro _ _; exact ⟨100000, rfl, by decide⟩, by decide⟩

/-- It dumps 41 instructions, which minijail0 reads; it refuses a policy that names an unknown call, and one that cannot be opened. -/
example : (∃ bytes, toolMain exTool ["--dump=/o".toList, "-".toList] = .dumped (some "/o".toList) bytes ∧ bytes.length = 8 * 41 ∧
      readFilter bytes = some (progOf (compileFilter (ToolEnv.compiler exTool) exText))) ∧
    toolMain { exTool with stdin := "nosuch: 1\n".toList } ["-".toList] = .aborted none ∧ toolMain exTool ["/missing".toList] = .aborted none ∧
    toolMain exTool ["--help".toList, "/missing".toList] = .usage :=
  ⟨⟨(progOf (compileFilter (ToolEnv.compiler exTool) exText)).flatMap insnBytes, by decide +kernel, by decide +kernel, by decide +kernel⟩, by decide +kernel, by decide +kernel, by decide +kernel⟩

/-- A listing, of the file that allows one call. -/
example : ∃ env : ToolEnv, toolMain env ["/one".toList] =
    .listed ("len == 7\nfilter:\n0: \t{ code=0x20, jt=0, jf=0, k=0x4 \t}\n1: \t{ code=0x15, jt=1, jf=0, k=0xc000003e \t}\n2: \t{ code=0x6, jt=0, jf=0, k=0 \t}\n" ++
      "3: \t{ code=0x20, jt=0, jf=0, k=0 \t}\n4: \t{ code=0x15, jt=0, jf=1, k=0x2 \t}\n5: \t{ code=0x6, jt=0, jf=0, k=0x7fff0000 \t}\n6: \t{ code=0x6, jt=0, jf=0, k=0 \t}\n").toList :=
  ⟨{ exTool with cx := { exCx with fs := fun p => if p = "/one".toList then some "open: 1\n".toList else none } }, by decide +kernel⟩

/-- The option -S with the same policy in the usual build. -/
example : compileFilter { exCx with opts := jailFilterOpts exBuild false false } exText = .ok (progOf (compileFilter { exCx with opts := jailFilterOpts exBuild false false } exText)) ∧
    (progOf (compileFilter { exCx with opts := jailFilterOpts exBuild false false } exText)).length = 41 :=
  ⟨ok_of_ne_nil (by decide +kernel), by decide +kernel⟩

end Minijail
