import Verif.Proof.GenerateAudit
import Verif.Props.C59
/-!
C73: one policy is made of traces and logs of the audit subsystem (tools/generate_seccomp_policy.py). It allows what the files tell of, what every program needs, and
nothing else.
-/
set_option autoImplicit false
set_option linter.unusedSimpArgs false
namespace Minijail
open Spec Offline Generate

theorem parseArgs_logOptions {auparse : Bool} {name : Option (List Char)} {comm : List Char} {files : List InputFile} (hr : ∀ f ∈ files, '\r' ∉ f.2.1)
    (h : LogOptions auparse name comm files) :
    parseArgs auparse name (files.map some) = some (files.filter (fun f => !isLog (pyLines f.2.1)), files.filter fun f => isLog (pyLines f.2.1)) := by
  rw [parseArgs, mapM_some]
  simp only [Option.bind_eq_bind, Option.bind_some]
  rcases h with ⟨⟨f, hf, hl⟩, rfl, hc, rfl⟩ | ⟨hl, rfl⟩
  · have hne : files.filter (fun f => isLog (pyLines f.2.1)) ≠ [] := List.ne_nil_of_mem (List.mem_filter.2 ⟨hf, (isLog_look (hr f hf)).2 hl⟩)
    simp [hne, hc]
  · have he : files.filter (fun f => isLog (pyLines f.2.1)) = [] :=
      List.filter_eq_nil_iff.2 fun f hf => by rw [isLog_look (hr f hf)]; exact hl f hf
    simp [he]

/-- What the tool has seen after the files, and what it makes of it. -/
theorem main_policy {T : CommonTables} {comm : List Char} {files : List InputFile} (hg : GoodFiles T comm files) {auparse : Bool}
    {name : Option (List Char)} (ha : LogOptions auparse name comm files) (year : List Char) (order : List (List Char) → List (List Char)) (frequency : Bool) :
    ∃ st1 st2, (files.filter fun f => !isLog (pyLines f.2.1)).foldlM (fun st f => parseTraceFile st (f.1, f.2.1)) ⟨[], fun _ => []⟩ = some st1 ∧
      (files.filter fun f => isLog (pyLines f.2.1)).foldlM (fun st f => parseAuditLog comm st f.2.2) st1 = some st2 ∧ Knows (FilesTell comm files) st2 ∧
      generateMain year order frequency auparse name (files.map some) = some (policyOf year order frequency st2) := by
  obtain ⟨st1, st2, e1, e2, hk⟩ := files_known hg
  refine ⟨st1, st2, e1, e2, hk, ?_⟩
  rw [generateMain, parseArgs_logOptions hg.noReturns ha]
  simp only [Option.bind_eq_bind, Option.bind_some]
  rw [e1]
  simp only [Option.bind_some]
  have : (files.filter fun f => isLog (pyLines f.2.1)).foldlM (fun st f => parseAuditLog (name.getD []) st f.2.2) st1 = some st2 := by
    rcases ha with ⟨-, -, -, rfl⟩ | ⟨hl, rfl⟩
    · exact e2
    · have he : files.filter (fun f => isLog (pyLines f.2.1)) = [] :=
        List.filter_eq_nil_iff.2 fun f hf => by rw [isLog_look (hg.noReturns f hf)]; exact hl f hf
      rw [he] at e2 ⊢
      exact e2
  rw [this]
  rfl

/-- The tool makes one policy of all traces and logs that can be read. It is in the language that minijail and the offline compiler have in common, and it allows the
system calls that the files tell of and those that every program needs, with the arguments that `Covered` says, and nothing else. -/
theorem C73_exact {T : CommonTables} (ht : TraceTables T) {comm : List Char} {files : List InputFile} (hg : GoodFiles T comm files) {auparse : Bool}
    {name : Option (List Char)} (ha : LogOptions auparse name comm files) {year : List Char} (hy : '\n' ∉ year ∧ '\r' ∉ year)
    {order : List (List Char) → List (List Char)} (ho : ∀ l, (order l).Perm l) (frequency : Bool) {dflt : Spec.Action} (hd : dflt ≠ .allow) :
    ∃ text freq rules, generateMain year order frequency auparse name (files.map some) = some (text, freq) ∧ CommonPolicy T dflt text rules ∧
      ∀ d, policyAction T.bits d dflt (numbered T rules) = .allow ↔ AllowedBy T (FilesTell comm files) d := by
  obtain ⟨st1, st2, -, -, hk, e⟩ := main_policy hg ha year order frequency
  obtain ⟨rules, h1, h2⟩ := policyOf_exact ht (fun n a h => files_calls hg h) (files_written hg) hk hy ho frequency hd
  exact ⟨_, (policyOf year order frequency st2).2, rules, e, h1, h2⟩

/-- minijail, given the policy, allows (SECCOMP_RET_ALLOW) exactly the same. -/
theorem C73_minijail {T : CommonTables} (ht : TraceTables T) {comm : List Char} {files : List InputFile} (hg : GoodFiles T comm files) {auparse : Bool}
    {name : Option (List Char)} (ha : LogOptions auparse name comm files) {year : List Char} (hy : '\n' ∉ year ∧ '\r' ∉ year)
    {order : List (List Char) → List (List Char)} (ho : ∀ l, (order l).Perm l) {frequency : Bool}
    {text : List Char} {freq : Option (List Char)} (hgen : generateMain year order frequency auparse name (files.map some) = some (text, freq))
    {cx : Ctx} (hL : LangFits T cx.lang) (hbe : cx.t.be = false) (hb : cx.builtin = []) (hnr : ∀ e ∈ cx.syscalls, e.2 < 2 ^ 31) {prog : List Insn}
    (h1 : compileFilter cx text = .ok prog) (d : SeccompData) (harch : d.arch = cx.t.archNr) :
    runFilter false prog d = .ret 0x7fff0000#32 ↔ AllowedBy T (FilesTell comm files) d := by
  have hd : cx.opts.action.act ≠ .allow := by cases cx.opts.action <;> simp [BlockAction.act]
  obtain ⟨text', freq', rules, e, hp, hal⟩ := C73_exact ht hg ha hy ho frequency hd
  rw [hgen] at e
  simp at e
  obtain ⟨rfl, rfl⟩ := e
  exact common_minijail hp hal hL hbe hb hnr h1 d harch

/-- So does the program that the offline compiler makes of it. -/
theorem C73_offline {T : CommonTables} (ht : TraceTables T) {comm : List Char} {files : List InputFile} (hg : GoodFiles T comm files) {auparse : Bool}
    {name : Option (List Char)} (ha : LogOptions auparse name comm files) {year : List Char} (hy : '\n' ∉ year ∧ '\r' ∉ year)
    {order : List (List Char) → List (List Char)} (ho : ∀ l, (order l).Perm l) {frequency : Bool}
    {text : List Char} {freq : Option (List Char)} (hgen : generateMain year order frequency auparse name (files.map some) = some (text, freq))
    {cx : Ctx} {fs : PyFiles} {c : Command} (h : SameTask T cx fs c text) {prog : List Insn}
    (h1 : offlineMain fs c = some prog) (d : SeccompData) (harch : d.arch = cx.t.archNr) :
    runFilter false prog d = .ret 0x7fff0000#32 ↔ AllowedBy T (FilesTell comm files) d := by
  have hd : cx.opts.action.act ≠ .allow := by cases cx.opts.action <;> simp [BlockAction.act]
  obtain ⟨text', freq', rules, e, hp, hal⟩ := C73_exact ht hg ha hy ho frequency hd
  rw [hgen] at e
  simp at e
  obtain ⟨rfl, rfl⟩ := e
  rw [C58_offline h hp h1 d harch, ← hal d, ← word_allow, Verdict.ret.injEq]

/-- No policy is written if a file is missing, if there are logs but no name of a process (or no library to read them), or if there is a name but no log. -/
theorem C73_refused {year : List Char} {order : List (List Char) → List (List Char)} {frequency auparse : Bool} {name : Option (List Char)}
    {files : List (Option InputFile)} (hr : ∀ f, some f ∈ files → '\r' ∉ f.2.1)
    (h : none ∈ files ∨ (∃ f, some f ∈ files ∧ LogLook f.2.1 ∧ (auparse = false ∨ name = none ∨ name = some [])) ∨
      ((∀ f, some f ∈ files → ¬LogLook f.2.1) ∧ ∃ comm, comm ≠ [] ∧ name = some comm)) :
    generateMain year order frequency auparse name files = none := by
  have key : parseArgs auparse name files = none := by
    by_cases hn : none ∈ files
    · rw [parseArgs, mapM_none hn]; rfl
    · have hfs : ∃ fs : List InputFile, files = fs.map some := by
        clear h hr
        induction files with
        | nil => exact ⟨[], rfl⟩
        | cons x l ih =>
          simp at hn
          obtain ⟨fs, rfl⟩ := ih (by simpa using hn.2)
          cases x with
          | none => exact absurd rfl hn.1
          | some x => exact ⟨x :: fs, rfl⟩
      obtain ⟨fs, rfl⟩ := hfs
      have hmem : ∀ f, some f ∈ fs.map some ↔ f ∈ fs := by simp
      simp only [hmem] at h hr
      rw [parseArgs, mapM_some]
      simp only [Option.bind_eq_bind, Option.bind_some]
      rcases h with h | ⟨f, hf, hl, hc⟩ | ⟨hl, c, hc, rfl⟩
      · exact absurd h hn
      · have hne : fs.filter (fun f => isLog (pyLines f.2.1)) ≠ [] := List.ne_nil_of_mem (List.mem_filter.2 ⟨hf, (isLog_look (hr f hf)).2 hl⟩)
        rcases hc with rfl | rfl | rfl <;> simp [hne]
      · have he : fs.filter (fun f => isLog (pyLines f.2.1)) = [] :=
          List.filter_eq_nil_iff.2 fun f hf => by rw [isLog_look (hr f hf)]; exact hl f hf
        simp [he, hc]
  rw [generateMain, key]
  rfl

/-- Every call that the files tell of is allowed. Missing of the full property: what is missing of `C59_covers_partial`, and processes whose name the kernel does not
write as it is given (see `C73_violated_long`). -/
theorem C73_covers_partial {T : CommonTables} {comm : List Char} {files : List InputFile} (hg : GoodFiles T comm files) (hb : ByName T (FilesTell comm files))
    {syscall : List Char} {args : List (List Char)} (ht : FilesTell comm files syscall args) {d : SeccompData} (hm : MayBe T syscall args d) :
    AllowedBy T (FilesTell comm files) d := told_allowed (files_written hg) hb ht hm

/-! ### A case -/

/-- A record of type `SECCOMP`. -/
def bareRecord (comm nr name : String) : LogRecord :=
  [("type".toList, "SECCOMP".toList, "SECCOMP".toList), ("comm".toList, ('"' :: comm.toList ++ ['"']), comm.toList), ("syscall".toList, nr.toList, name.toList)]

/-- A record of type `SYSCALL`. -/
def fullRecord (comm nr name a0 a1 : String) : LogRecord :=
  [("type".toList, "SYSCALL".toList, "SYSCALL".toList), ("syscall".toList, nr.toList, name.toList), ("a0".toList, a0.toList, "0x".toList ++ a0.toList),
   ("a1".toList, a1.toList, "0x".toList ++ a1.toList), ("comm".toList, ('"' :: comm.toList ++ ['"']), comm.toList)]

/-- Records of calls of a server, one of which is told of twice, and of another program. -/
def someRecords : AuditLog :=
  [[bareRecord "server" "59" "execve"], [fullRecord "server" "16" "ioctl" "3" "5401", [("type".toList, "CWD".toList, "CWD".toList)]],
    [bareRecord "server" "16" "ioctl"], [bareRecord "editor" "9999" "unknown-syscall(9999)"]]

/-- A log with these records. -/
def someLog : InputFile := ("audit.log".toList, "type=SECCOMP msg=audit(1.2:3): comm=\"server\" syscall=59\n".toList, someRecords)

/-- The trace of `C59`. -/
def traceFile : InputFile := ((someTrace.head (by simp [someTrace])).1, (someTrace.head (by simp [someTrace])).2, [])

theorem trace_file : [(traceFile.1, traceFile.2.1)] = someTrace := by
  simp only [traceFile, someTrace, List.head_cons]

/-- The trace and the log. -/
def someFiles : List InputFile := [traceFile, someLog]

theorem some_returns : '\r' ∉ traceFile.2.1 ∧ '\r' ∉ someLog.2.1 := by decide +kernel

theorem some_look : LogLook someLog.2.1 := by
  rw [← isLog_look some_returns.2]
  decide +kernel

theorem some_no_look : ¬LogLook traceFile.2.1 := by
  rw [← isLog_look some_returns.1]
  decide +kernel

theorem some_either {f : InputFile} (h : f ∈ someFiles) : f = traceFile ∨ f = someLog := by
  unfold someFiles at h
  rw [List.mem_cons, List.mem_singleton] at h
  exact h

theorem some_has : someLog ∈ someFiles := List.mem_cons_of_mem _ (List.mem_singleton.2 rfl)

/-- The records of the log. -/
theorem some_records {r : LogRecord} (h : ∃ log ∈ [someRecords], ∃ event ∈ log, r ∈ event) :
    r = bareRecord "server" "59" "execve" ∨ r = fullRecord "server" "16" "ioctl" "3" "5401" ∨ r = [("type".toList, "CWD".toList, "CWD".toList)] ∨
      r = bareRecord "server" "16" "ioctl" ∨ r = bareRecord "editor" "9999" "unknown-syscall(9999)" := by
  obtain ⟨log, hl, event, he, hr⟩ := h
  rw [List.mem_singleton] at hl
  subst hl
  unfold someRecords at he
  rw [List.mem_cons, List.mem_cons, List.mem_cons, List.mem_singleton] at he
  rcases he with rfl | rfl | rfl | rfl
  · exact .inl (List.mem_singleton.1 hr)
  · rw [List.mem_cons, List.mem_singleton] at hr
    rcases hr with rfl | rfl
    · exact .inr (.inl rfl)
    · exact .inr (.inr (.inl rfl))
  · exact .inr (.inr (.inr (.inl (List.mem_singleton.1 hr))))
  · exact .inr (.inr (.inr (.inr (List.mem_singleton.1 hr))))

theorem some_logs : GoodLogs traceTables "server".toList [someRecords] where
  begun := by
    intro log hl
    rw [List.mem_singleton] at hl
    exact ⟨_, _, _, hl⟩
  calls := by
    intro log hl event he r hr h
    rcases some_records ⟨log, hl, event, he, hr⟩ with rfl | rfl | rfl | rfl | rfl
    · exact ⟨"59".toList, "execve".toList, by decide, (hasField_iff _ _ _ _).2 (by decide)⟩
    · exact ⟨"16".toList, "ioctl".toList, by decide, (hasField_iff _ _ _ _).2 (by decide)⟩
    · rw [recordOf_iff, recordOf_iff] at h
      exact absurd h (by decide)
    · exact ⟨"16".toList, "ioctl".toList, by decide, (hasField_iff _ _ _ _).2 (by decide)⟩
    · exact ⟨"9999".toList, "unknown-syscall(9999)".toList, by decide, (hasField_iff _ _ _ _).2 (by decide)⟩
  args := by
    intro log hl event he r hr n i name h hn hi ha
    rcases some_records ⟨log, hl, event, he, hr⟩ with rfl | rfl | rfl | rfl | rfl
    · rw [recordOf_iff] at h; exact absurd h (by decide)
    · rw [namesCall_iff (w := "16".toList) (m := "ioctl".toList) (by decide)] at hn
      have hn' : n = "ioctl".toList := hn.trans (by decide +kernel)
      subst hn'
      have : i = 1 := by simp [lookedAt] at hi; exact hi
      subst this
      simp [argFields] at ha
      subst ha
      exact ⟨"5401".toList, "0x5401".toList, 0x5401, by decide, (hasField_iff _ _ _ _).2 (by decide), hex_const "5401".toList _ (by decide) (by decide)⟩
    · rw [recordOf_iff] at h; exact absurd h (by decide)
    · rw [recordOf_iff] at h; exact absurd h (by decide)
    · rw [recordOf_iff] at h; exact absurd h (by decide)
  known := by
    rintro n a ⟨log, hl, event, he, r, hr, h⟩
    have hname : NamesCall r n := by rcases h with ⟨-, h, -⟩ | ⟨-, h, -, -⟩ <;> exact h
    have hof : RecordOf "SECCOMP".toList "server".toList r ∨ RecordOf "SYSCALL".toList "server".toList r := by
      rcases h with ⟨h, -, -⟩ | ⟨h, -, -, -⟩
      · exact .inl h
      · exact .inr h
    rw [recordOf_iff, recordOf_iff] at hof
    rcases some_records ⟨log, hl, event, he, hr⟩ with rfl | rfl | rfl | rfl | rfl
    · rw [(namesCall_iff (w := "59".toList) (m := "execve".toList) (by decide) n).1 hname]; decide +kernel
    · rw [(namesCall_iff (w := "16".toList) (m := "ioctl".toList) (by decide) n).1 hname]; decide +kernel
    · exact absurd hof (by decide)
    · rw [(namesCall_iff (w := "16".toList) (m := "ioctl".toList) (by decide) n).1 hname]; decide +kernel
    · exact absurd hof (by decide)

theorem some_files : GoodFiles traceTables "server".toList someFiles where
  noReturns := by
    intro f hf
    rcases some_either hf with rfl | rfl
    · exact some_returns.1
    · exact some_returns.2
  traces := by
    intro f hf hn
    rcases some_either hf with rfl | rfl
    · rw [trace_file]
      exact some_good
    · exact absurd some_look hn
  logs := by
    intro f hf hn
    rcases some_either hf with rfl | rfl
    · exact absurd hn some_no_look
    · exact some_logs

theorem some_files_byName : ByName traceTables (FilesTell "server".toList someFiles) := by
  rintro n args a v hn ⟨f, hf, ⟨hl, h⟩ | ⟨hl, log, hlg, event, he, r, hr, h⟩⟩ ha hc h1 h2
  · rcases some_either hf with rfl | rfl
    · rw [trace_file] at h
      exact some_byName n args a v hn h ha hc h1 h2
    · exact absurd some_look hl
  · rcases some_either hf with rfl | rfl
    · exact absurd hl some_no_look
    · exfalso
      rcases h with ⟨-, -, h⟩ | ⟨h, hname, -, -⟩
      · refine h 2 ?_
        simp only [mapping, List.mem_cons, List.not_mem_nil, or_false] at hn
        rcases hn with rfl | rfl | rfl <;> decide
      · rw [recordOf_iff] at h
        rcases some_records ⟨log, hlg, event, he, hr⟩ with rfl | rfl | rfl | rfl | rfl
        · exact absurd h (by decide)
        · have := ((namesCall_iff (w := "16".toList) (m := "ioctl".toList) (by decide) n).1 hname).trans (by decide +kernel : _ = "ioctl".toList)
          subst this
          exact absurd hn (by decide)
        · exact absurd h (by decide)
        · exact absurd h (by decide)
        · exact absurd h (by decide)

/-- The hypotheses are met, the policy is made, and it is this: the call of the log that is told of without arguments adds nothing to the rule for `ioctl`. -/
example : TraceTables traceTables ∧ GoodFiles traceTables "server".toList someFiles ∧ LogOptions true (some "server".toList) "server".toList someFiles ∧
    ByName traceTables (FilesTell "server".toList someFiles) ∧
    (generateMain "2026".toList id false true (some "server".toList) (someFiles.map some)).map (fun x => x.1.drop (notice "2026".toList).length) = some
      "execve: 1\nmmap: arg2 in ~PROT_EXEC || arg2 in ~PROT_WRITE\nsocket: arg0 == 0x1\nioctl: arg1 == 0x5401\nrestart_syscall: 1\nexit: 1\nexit_group: 1\nrt_sigreturn: 1\n".toList :=
  ⟨trace_tables, some_files, .inl ⟨⟨someLog, some_has, some_look⟩, rfl, by decide, rfl⟩, some_files_byName, by decide +kernel⟩

/-- Command lines that are refused. -/
example : generateMain "2026".toList id false true none (someFiles.map some) = none ∧ generateMain "2026".toList id false true (some "server".toList) [some traceFile] = none ∧
    generateMain "2026".toList id false false (some "server".toList) (someFiles.map some) = none ∧ generateMain "2026".toList id false true none [none] = none := by
  have hr : ∀ f, some f ∈ someFiles.map some → '\r' ∉ f.2.1 := by
    intro f hf
    obtain ⟨g, hg, e⟩ := List.mem_map.1 hf
    cases e
    exact some_files.noReturns f hg
  refine ⟨C73_refused hr (.inr (.inl ⟨someLog, List.mem_map.2 ⟨_, some_has, rfl⟩, some_look, .inr (.inl rfl)⟩)), C73_refused ?_ (.inr (.inr ⟨?_, _, ?_, rfl⟩)),
    C73_refused hr (.inr (.inl ⟨someLog, List.mem_map.2 ⟨_, some_has, rfl⟩, some_look, .inl rfl⟩)), C73_refused (by simp) (.inl (by simp))⟩
  · intro f hf
    rw [List.mem_singleton] at hf
    cases hf
    exact some_returns.1
  · intro f hf
    rw [List.mem_singleton] at hf
    cases hf
    exact some_no_look
  · decide

/-! ### Where it does not hold -/

/-- If the name of the process has more than fifteen characters, then nothing that the kernel writes about the process is found by that name: the policy allows no more
than every program needs, and nobody is told. -/
theorem C73_violated_long {T : CommonTables} (ht : TraceTables T) {comm : List Char} (hc : 15 < comm.length) {file : InputFile} (hl : LogLook file.2.1)
    (hr : '\r' ∉ file.2.1) (hbegun : ∃ r event rest, file.2.2 = (r :: event) :: rest)
    (hkernel : ∀ event ∈ file.2.2, ∀ r ∈ event, ∀ w m, HasField r "comm".toList w m → ∃ process, w = commWritten process)
    {year : List Char} (hy : '\n' ∉ year ∧ '\r' ∉ year) {order : List (List Char) → List (List Char)} (ho : ∀ l, (order l).Perm l) (frequency : Bool)
    {dflt : Spec.Action} (hd : dflt ≠ .allow) :
    ∃ text freq rules, generateMain year order frequency true (some comm) [some file] = some (text, freq) ∧ CommonPolicy T dflt text rules ∧
      ∀ d, policyAction T.bits d dflt (numbered T rules) = .allow ↔ ∃ syscall ∈ basicNames, T.syscall syscall = some d.nr.toNat := by
  have hno : ∀ event ∈ file.2.2, ∀ r ∈ event, ∀ type, ¬RecordOf type comm r := by
    rintro event he r hr' type ⟨-, m, h⟩
    obtain ⟨p, hp⟩ := hkernel event he r hr' _ m h
    unfold commWritten at hp
    have := congrArg List.length hp
    simp at this
    omega
  have htell : ∀ n a, ¬FilesTell comm [file] n a := by
    rintro n a ⟨f, hf, ⟨hn, -⟩ | ⟨-, log, hlg, event, he, r, hr', h⟩⟩
    · rw [List.mem_singleton] at hf
      subst hf
      exact hn hl
    · rw [List.mem_singleton] at hf hlg
      subst hf hlg
      rcases h with ⟨h, -, -⟩ | ⟨h, -, -, -⟩ <;> exact hno event he r hr' _ h
  have hg : GoodFiles T comm [file] := by
    refine ⟨fun f hf => ?_, fun f hf hn => ?_, fun f hf _ => ?_⟩
    all_goals
      rw [List.mem_singleton] at hf
      subst hf
    · exact hr
    · exact absurd hl hn
    · refine ⟨?_, ?_, ?_, ?_⟩
      · intro log hlg
        rw [List.mem_singleton] at hlg
        exact hlg ▸ hbegun
      · intro log hlg event he r hr' h
        rw [List.mem_singleton] at hlg
        subst hlg
        exact absurd h (not_or.2 ⟨hno event he r hr' _, hno event he r hr' _⟩)
      · intro log hlg event he r hr' n i name h
        rw [List.mem_singleton] at hlg
        subst hlg
        exact absurd h (hno event he r hr' _)
      · intro n a h
        exact absurd ⟨_, List.mem_singleton.2 rfl, .inr ⟨hl, h⟩⟩ (htell n a)
  obtain ⟨text, freq, rules, h1, h2, h3⟩ := C73_exact ht hg (auparse := true) (name := some comm)
    (.inl ⟨⟨file, List.mem_singleton.2 rfl, hl⟩, rfl, by rintro rfl; simp at hc, rfl⟩) hy ho frequency hd
  refine ⟨text, freq, rules, h1, h2, fun d => ?_⟩
  rw [h3]
  constructor
  · rintro ⟨n, h4, h5 | ⟨a, h5⟩, -⟩
    · exact ⟨n, h5, h4⟩
    · exact absurd h5 (htell n a)
  · rintro ⟨n, h4, h5⟩
    refine ⟨n, h5, .inl h4, fun i hi => ?_⟩
    exfalso
    revert h4
    simp only [lookedAt, List.mem_cons, Prod.mk.injEq, List.not_mem_nil, or_false] at hi
    rcases hi with ⟨rfl, -⟩ | ⟨rfl, -⟩ | ⟨rfl, -⟩ | ⟨rfl, -⟩ | ⟨rfl, -⟩ | ⟨rfl, -⟩ <;> decide

/-- The record of a program with a long name. -/
def longRecords : AuditLog := [[bareRecord "network-manager" "59" "execve"]]

/-- A log with this record. -/
def longLog : InputFile := ("audit.log".toList, "type=SECCOMP msg=audit(1.2:3): comm=\"network-manager\" syscall=59\n".toList, longRecords)

theorem long_look : LogLook longLog.2.1 := by
  rw [← isLog_look (by decide +kernel)]
  decide +kernel

theorem long_field {w m : List Char} (h : HasField (bareRecord "network-manager" "59" "execve") "comm".toList w m) : w = commWritten "network-manager-daemon".toList := by
  rw [hasField_iff] at h
  have e : findField (bareRecord "network-manager" "59" "execve") "comm".toList = some (commWritten "network-manager-daemon".toList, "network-manager".toList) := by
    decide +kernel
  rw [e, Option.some.injEq, Prod.mk.injEq] at h
  exact h.1.symm

theorem long_kernel : ∀ event ∈ longLog.2.2, ∀ r ∈ event, ∀ w m, HasField r "comm".toList w m → w = commWritten "network-manager-daemon".toList := by
  intro event he r hr w m h
  have he' : event ∈ longRecords := he
  unfold longRecords at he'
  rw [List.mem_singleton] at he'
  subst he'
  rw [List.mem_singleton] at hr
  subst hr
  exact long_field h

/-- The hypotheses are met by the log of `network-manager-daemon`, whose records have `network-manager`. -/
example : 15 < "network-manager-daemon".toList.length ∧ LogLook longLog.2.1 ∧
    (∀ event ∈ longLog.2.2, ∀ r ∈ event, ∀ w m, HasField r "comm".toList w m → w = commWritten "network-manager-daemon".toList) ∧
    (generateMain "2026".toList id false true (some "network-manager-daemon".toList) [some longLog]).map (fun x => x.1.drop (notice "2026".toList).length) =
      some "restart_syscall: 1\nexit: 1\nexit_group: 1\nrt_sigreturn: 1\n".toList :=
  ⟨by decide, long_look, long_kernel, by decide +kernel⟩

end Minijail
