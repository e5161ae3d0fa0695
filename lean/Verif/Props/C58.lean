import Verif.Proof.CommonMeaning
import Verif.Props.C01
import Verif.Props.C57
/-!
C58: a policy acts in the same way whether minijail compiles it or the offline compiler (tools/compile_seccomp_policy.py) does.
-/
set_option autoImplicit false
set_option linter.unusedSimpArgs false
namespace Minijail
open Spec Offline

/-- The command of the offline compiler asks for what minijail does with an allowlist: the same machine and the same way to kill. -/
structure SameTask (T : CommonTables) (cx : Ctx) (fs : PyFiles) (c : Command) (text : List Char) : Prop where
  lang : LangFits T cx.lang
  arch : ArchFits T c.arch
  good : GoodArch c.arch
  littleEndian : cx.t.be = false
  archNr : c.archNr = cx.t.archNr.toNat
  files : ∀ p x, T.files p = some x → fs p = some x
  policy : fs c.policy = some text
  depth : 0 < c.depth
  denylist : c.denylist = false
  retLog : c.retLog = false
  default : c.defaultAction = none ∨ c.defaultAction = some []
  kill : cx.opts.action = if c.killProcess then .killProcess else .kill
  /-- No system calls are allowed besides the policy (no logging to syslog). -/
  builtin : cx.builtin = []
  numbers : ∀ e ∈ cx.syscalls, e.2 < 2 ^ 31

/-- What `kill` stands for. -/
def killOf (c : Command) : Offline.Action := if c.killProcess then .killProcess else .killThread

theorem killOf_means {T : CommonTables} {cx : Ctx} {fs : PyFiles} {c : Command} {text : List Char} (h : SameTask T cx fs c text) : KillT c (killOf c) := by
  unfold killOf
  cases hk : c.killProcess with
  | false => exact .thread h.retLog h.denylist hk
  | true => exact .process h.retLog h.denylist hk

theorem killOf_word {T : CommonTables} {cx : Ctx} {fs : PyFiles} {c : Command} {text : List Char} (h : SameTask T cx fs c text) :
    cx.opts.action.act.word = actionWord (killOf c) := by
  rw [h.kill]
  unfold killOf
  cases c.killProcess <;> rfl

theorem common_file {T : CommonTables} {cx : Ctx} {fs : PyFiles} {c : Command} {text : List Char} {rules : List (List Char × Rule)} (h : SameTask T cx fs c text)
    (hp : CommonPolicy T cx.opts.action.act text rules) : PyFileT fs (settingsOf c (killOf c)) false c.depth c.policy (rules.map (pyEntry T)) := by
  have hd : c.depth = (c.depth - 1) + 1 := by have := h.depth; omega
  have := policy_py (g := settingsOf c (killOf c)) h.arch h.denylist h.retLog h.files h.policy hp (c.depth - 1)
  rw [← hd] at this
  exact this

/-- The program of minijail does what the policy is written for. -/
theorem C58_minijail {T : CommonTables} {cx : Ctx} {fs : PyFiles} {c : Command} {text : List Char} {rules : List (List Char × Rule)} {prog : List Insn}
    (h : SameTask T cx fs c text) (hp : CommonPolicy T cx.opts.action.act text rules) (h1 : compileFilter cx text = .ok prog) (d : SeccompData)
    (harch : d.arch = cx.t.archNr) : runFilter false prog d = .ret (policyAction T.bits d cx.opts.action.act (numbered T rules)).word := by
  have hm := policy_means (L := cx.lang) h.lang hp
  have hs := policy_shape hp
  have := C01_filter_means_policy cx text prog h.littleEndian h.numbers h1 _ hm d harch (by
    intro x hx _
    obtain ⟨y, hy, rfl⟩ := List.mem_map.1 hx
    have hsh := hs y hy
    show y.2.valid
    generalize y.2 = r at hsh
    cases hsh with
    | allow => trivial
    | errno => trivial
    | filter hv => exact hv)
  rw [h.littleEndian, h.builtin, List.nil_append] at this
  rw [this, ← h.lang.bits]
  rfl

/-- The program of the offline compiler does what the policy is written for. -/
theorem C58_offline {T : CommonTables} {cx : Ctx} {fs : PyFiles} {c : Command} {text : List Char} {rules : List (List Char × Rule)} {prog : List Insn}
    (h : SameTask T cx fs c text) (hp : CommonPolicy T cx.opts.action.act text rules) (h1 : offlineMain fs c = some prog) (d : SeccompData)
    (harch : d.arch = cx.t.archNr) : runFilter false prog d = .ret (policyAction T.bits d cx.opts.action.act (numbered T rules)).word := by
  have hf := common_file h hp
  have hn := numbers_nodup h.arch h.good hp.2.1 hp.2.2
  have hdef : defaultOf c (killOf c) none (rules.map (pyEntry T)) = killOf c := by
    unfold defaultOf
    rw [h.denylist]
    exact lastDefault_common T (killOf c) rules
  have := C57_partial h1 h.good (killOf_means h) (.none h.default) (file_lax _ _ _ _ _ hf) (six_common T (policy_shape hp))
    (by rw [hdef]; exact dropped_common (by unfold killOf; cases c.killProcess <;> simp) hn) d
  rw [this, hdef, verdict_same (by rw [harch]; exact h.archNr.symm) h.denylist]
  rw [policy_same (killOf_word h) (policy_shape hp) hn (numbers_small h.arch h.good hp.2.2)]
  rw [show (optionsOf c (killOf c)).bits = T.bits from h.arch.bits]

/-- Both programs do the same with every system call. Missing of the full property: texts outside the common part of the two languages (`CommonPolicy`; some of
them act differently, see `C58_violated_return`, `C58_violated_comment`, `C58_violated_tab`), and system calls of another architecture where the process is to be
killed (see `C58_violated_architecture`). -/
theorem C58_partial {T : CommonTables} {cx : Ctx} {fs : PyFiles} {c : Command} {text : List Char} {rules : List (List Char × Rule)} {prog prog' : List Insn}
    (h : SameTask T cx fs c text) (hp : CommonPolicy T cx.opts.action.act text rules) (h1 : compileFilter cx text = .ok prog) (h2 : offlineMain fs c = some prog')
    (d : SeccompData) (hd : d.arch = cx.t.archNr ∨ c.killProcess = false) : runFilter false prog d = runFilter false prog' d := by
  by_cases harch : d.arch = cx.t.archNr
  · rw [C58_minijail h hp h1 d harch, C58_offline h hp h2 d harch]
  · obtain ⟨_, _, hother, -⟩ := runFilter_compiled cx text prog h.numbers h1
    have hk : killOf c = .killThread := by
      rcases hd with hd | hd
      · exact absurd hd harch
      · unfold killOf; rw [hd]; rfl
    have hf := common_file h hp
    have hn := numbers_nodup h.arch h.good hp.2.1 hp.2.2
    have hdef : defaultOf c (killOf c) none (rules.map (pyEntry T)) = killOf c := by
      unfold defaultOf
      rw [h.denylist]
      exact lastDefault_common T (killOf c) rules
    have := C57_partial h2 h.good (killOf_means h) (.none h.default) (file_lax _ _ _ _ _ hf) (six_common T (policy_shape hp))
      (by rw [hdef]; exact dropped_common (by unfold killOf; cases c.killProcess <;> simp) hn) d
    rw [hother false d harch, this]
    unfold verdict
    rw [if_pos (by
      show d.arch.toNat ≠ c.archNr
      rw [h.archNr]
      exact fun e => harch (BitVec.eq_of_toNat_eq e))]
    rw [show (optionsOf c (killOf c)).kill.act = killOf c from rfl, hk]
    rfl

/-- The offline compiler takes every such text, unless the program has 2³² instructions. -/
theorem C58_accepted {T : CommonTables} {cx : Ctx} {fs : PyFiles} {c : Command} {text : List Char} {rules : List (List Char × Rule)}
    (h : SameTask T cx fs c text) (hp : CommonPolicy T cx.opts.action.act text rules) :
    (∃ prog, offlineMain fs c = some prog ∧ (prog.length ≤ 4096 → KernelAccepts prog)) ∨
    ∃ override n x l, parseFile fs (settingsOf c (killOf c)) c.depth override c.policy n = some x ∧ compileFile (optionsOf c (killOf c)) x.1 x.2 = some l ∧
      2 ^ 32 ≤ l.length :=
  C57_accepted h.good (by rw [h.archNr]; exact BitVec.isLt _) (killOf_means h) (.none h.default) (common_file h hp) (six_common T (policy_shape hp))
    (reachable_common (numbers_nodup h.arch h.good hp.2.1 hp.2.2))

/-! ### A case -/

/-- The tables of `smallArch`, and a file to include. -/
def bothTables : CommonTables :=
  ⟨64, smallArch.syscalls, smallArch.constants, fun p => if p = "/etc/q".toList then some "write: 1\n".toList else none⟩

/-- The same tables in minijail. -/
def bothCx (action : BlockAction) : Ctx where
  t := ⟨true, false, 0xc000003e⟩
  syscalls := [("read".toList, 0), ("write".toList, 1), ("kill".toList, 62)]
  constants := [("EPERM".toList, 1#64), ("PROT_EXEC".toList, 4#64), ("PROT_WRITE".toList, 2#64)]
  logSyscalls := []
  libcCompatibilitySyscalls := []
  fs := bothTables.files
  opts := ⟨action, false, false, false, false⟩

/-- A comment, a condition on two lines, an included file, an error, a blank line. -/
def bothText : List Char :=
  "# a comment\nread: arg0 == 0x5 && arg1 in ~(PROT_EXEC|2)\\\n || arg5 > -1\n@include /etc/q\n \nkill : return EPERM\n".toList

/-- Its rules. -/
def bothRules : List (List Char × Rule) :=
  [("read".toList, .filter [[⟨0, .eq, 5⟩, ⟨1, .subset, 2 ^ 64 - 7⟩], [⟨5, .gt, 2 ^ 64 - 1⟩]] .killThread), ("write".toList, .allow),
   ("kill".toList, .block (.errno 1))]

/-- The files of the offline compiler: with the policy. -/
def bothFiles (text : List Char) : PyFiles := fun p => if p = "policy".toList then some text else bothTables.files p

/-- The command. -/
def bothCommand (killProcess : Bool) : Command := ⟨smallArch, 0xc000003e, true, false, killProcess, false, none, 1, "policy".toList⟩

theorem both_task : SameTask bothTables (bothCx .kill) (bothFiles bothText) (bothCommand false) bothText where
  lang := by
    refine ⟨rfl, ?_, ?_, ?_, fun _ => rfl⟩
    · intro n k hn
      simp only [bothTables, smallArch] at hn
      (repeat' split at hn) <;> simp at hn <;> subst_vars <;> decide
    · intro w i hw
      simp only [bothTables, smallArch] at hw
      (repeat' split at hw) <;> simp at hw <;> subst_vars
      · exact ⟨1, by decide, by decide⟩
      · exact ⟨4, by decide, by decide⟩
      · exact ⟨2, by decide, by decide⟩
    · intro w v hw
      have hmem : w ∈ ["EPERM".toList, "PROT_EXEC".toList, "PROT_WRITE".toList] := by
        obtain ⟨e, he, -⟩ := Option.map_eq_some_iff.1 (show ((bothCx .kill).constants.find? fun e => e.1 == w).map _ = some v from hw)
        have h1 := List.mem_of_find?_eq_some he
        have h2 := List.find?_some he
        simp only [beq_iff_eq] at h2
        rw [← h2]
        exact List.mem_map.2 ⟨e, h1, rfl⟩
      simp only [List.mem_cons, List.not_mem_nil, or_false] at hmem
      rcases hmem with rfl | rfl | rfl <;> exact ⟨_, _, rfl, by decide, by decide⟩
  arch := ⟨rfl, by decide, fun _ _ h => h, fun _ _ h => h⟩
  good := smallArch_good
  littleEndian := rfl
  archNr := rfl
  files := by
    intro p x hx
    unfold bothFiles
    by_cases hp : p = "policy".toList
    · rw [hp, show bothTables.files "policy".toList = none by decide] at hx; cases hx
    · rw [if_neg hp]; exact hx
  policy := rfl
  depth := by decide
  denylist := rfl
  retLog := rfl
  default := .inl rfl
  kill := rfl
  builtin := rfl
  numbers := by decide

theorem both_policy : CommonPolicy bothTables .killThread bothText bothRules := by
  have hread : ¬Reserved "read".toList := by
    rintro (h | ⟨s, h, -⟩)
    · revert h; decide
    · simp at h
  have hwrite : ¬Reserved "write".toList := by
    rintro (h | ⟨s, h, -⟩)
    · revert h; decide
    · simp at h
  have hkill : ¬Reserved "kill".toList := by
    rintro (h | ⟨s, h, -⟩)
    · revert h; decide
    · simp at h
  have hexec : ¬Reserved "PROT_EXEC".toList := by
    rintro (h | ⟨s, h, -⟩)
    · revert h; decide
    · simp at h
  have hperm : ¬Reserved "EPERM".toList := by
    rintro (h | ⟨s, h, -⟩)
    · revert h; decide
    · simp at h
  have b0 : Blanks [] := fun c hc => by simp at hc
  have b1 : Blanks [' '] := fun c hc => by simp at hc; exact .inl hc
  have d10 : ∀ s n, ((∀ c ∈ s, isDigitIn 10 c = true) ∧ n = digitsVal 10 s) → Digits 10 s n := fun s n => (digits_iff 10 (by decide) s n).2
  have l2 : Literal "2".toList 2 := .dec (by decide) (d10 _ _ ⟨by decide, by decide⟩)
  have l1 : Literal "1".toList 1 := .dec (by decide) (d10 _ _ ⟨by decide, by decide⟩)
  have l5 : Literal "0x5".toList 5 := .hex (.inl rfl) (by decide) ((digits_iff 16 (by decide) _ _).2 ⟨by decide, by decide⟩)
  have sx : CommonSingle bothTables "PROT_EXEC".toList 4 :=
    .name (i := 4) ⟨'P', "ROT_EXEC".toList, rfl, .inl (by decide), by decide⟩ hexec (by decide) (by decide) (by decide) (by decide) (by decide)
  have sp : CommonSingle bothTables "EPERM".toList 1 :=
    .name (i := 1) ⟨'E', "PERM".toList, rfl, .inl (by decide), by decide⟩ hperm (by decide) (by decide) (by decide) (by decide) (by decide)
  have c5 : CommonConst bothTables "0x5".toList 5 := single_const (.number l5 (by decide))
  have cg : CommonConst bothTables "~(PROT_EXEC|2)".toList (2 ^ 64 - 7) := by
    have := CommonConst.group (neg := true) (CommonConst.singleOr (neg := false) sx (single_const (.number l2 (by decide))))
    exact this
  have cm : CommonConst bothTables "-1".toList (2 ^ 64 - 1) := single_const (.negative (s := "1".toList) l1 (by decide) (by decide))
  have hatoms : CommonRule bothTables .killThread "arg0 == 0x5 && arg1 in ~(PROT_EXEC|2)  || arg5 > -1".toList
      (.filter [[⟨0, .eq, 5⟩, ⟨1, .subset, 2 ^ 64 - 7⟩], [⟨5, .gt, 2 ^ 64 - 1⟩]] .killThread) := by
    have a0 := CommonAtom.mk (i := 0) 0 0 (by decide) OpText.eq c5
    have a1 := CommonAtom.mk (i := 1) 0 0 (by decide) OpText.subset cg
    have a2 := CommonAtom.mk (i := 5) 0 0 (by decide) OpText.gt cm
    exact .filter (Joined.more 2 1 (Joined.more 1 1 a0 (Joined.one a1)) (Joined.one (Joined.one a2)))
  refine ⟨?_, by decide, by decide⟩
  refine .comment (b := []) (s := " a comment".toList) b0 (by decide) (by decide) (by decide) ?_
  refine .statement (s := "read: arg0 == 0x5 && arg1 in ~(PROT_EXEC|2)  || arg5 > -1".toList)
    (p := "read: arg0 == 0x5 && arg1 in ~(PROT_EXEC|2)\\\n || arg5 > -1".toList) ?_ ?_ ?_
  · exact .mk (b0 := []) (name := "read".toList) (b1 := []) (b2 := [' ']) (b3 := []) b0 ⟨'r', "ead".toList, rfl, .inl (by decide), by decide⟩ hread b0 b1 hatoms b0
  · exact .cut (a := "read: arg0 == 0x5 && arg1 in ~(PROT_EXEC|2)".toList) (s := " || arg5 > -1".toList) .plain
  refine .include_ (path := "/etc/q".toList) (content := "write: 1\n".toList) (added := [("write".toList, .allow)]) (b := [])
    ⟨["etc".toList, "q".toList], by decide, rfl, by decide⟩ (by decide) ?_ b0 ?_
  · refine .statement (s := "write: 1".toList) (p := "write: 1".toList) ?_ .plain .nil
    exact .mk (b0 := []) (name := "write".toList) (b1 := []) (b2 := [' ']) (b3 := []) b0 ⟨'w', "rite".toList, rfl, .inl (by decide), by decide⟩ hwrite b0 b1 .allow b0
  refine .blank (b := [' ']) b1 ?_
  refine .statement (s := "kill : return EPERM".toList) (p := "kill : return EPERM".toList) ?_ .plain .nil
  exact .mk (b0 := []) (name := "kill".toList) (b1 := [' ']) (b2 := [' ']) (b3 := []) b0 ⟨'k', "ill".toList, rfl, .inl (by decide), by decide⟩ hkill b1 b1
    (.errno 0 sp (by decide)) b0

/-- The hypotheses of the theorems are met. -/
example : SameTask bothTables (bothCx .kill) (bothFiles bothText) (bothCommand false) bothText ∧ CommonPolicy bothTables (bothCx .kill).opts.action.act bothText bothRules ∧
    ∃ prog prog', compileFilter (bothCx .kill) bothText = .ok prog ∧ offlineMain (bothFiles bothText) (bothCommand false) = some prog' := by
  refine ⟨both_task, both_policy, ?_⟩
  have hp : (offlineMain (bothFiles bothText) (bothCommand false)).isSome = true := by decide +kernel
  obtain ⟨prog', hp⟩ := Option.isSome_iff_exists.1 hp
  exact ⟨_, prog', ok_of_ne_nil (by decide +kernel), hp⟩

/-! ### Violations -/

/-- What the two programs of a text do with a system call. -/
def bothResults (action : BlockAction) (killProcess : Bool) (text : List Char) (d : SeccompData) : Verdict × Option Verdict :=
  (runFilter false (progOf (compileFilter (bothCx action) text)) d, (offlineMain (bothFiles text) (bothCommand killProcess)).map fun p => runFilter false p d)

/-- Both compilers take the text, and the programs differ on the system call. -/
def Differ (action : BlockAction) (killProcess : Bool) (text : List Char) (d : SeccompData) (a : Spec.Action) (b : Offline.Action) : Prop :=
  ∃ prog prog', compileFilter (bothCx action) text = .ok prog ∧ offlineMain (bothFiles text) (bothCommand killProcess) = some prog' ∧
    runFilter false prog d = .ret a.word ∧ runFilter false prog' d = .ret (actionWord b) ∧ a.word ≠ actionWord b

theorem differ_of {action : BlockAction} {killProcess : Bool} {text : List Char} {d : SeccompData} {a : Spec.Action} {b : Offline.Action}
    (h0 : progOf (compileFilter (bothCx action) text) ≠ [])
    (h : bothResults action killProcess text d = (.ret a.word, some (.ret (actionWord b)))) (hne : a.word ≠ actionWord b) : Differ action killProcess text d a b := by
  simp only [bothResults, Prod.mk.injEq] at h
  obtain ⟨prog', hp, e⟩ := Option.map_eq_some_iff.1 h.2
  exact ⟨_, prog', ok_of_ne_nil h0, hp, h.1, e, hne⟩

/-- The manual (minijail0.5:146-158): behind a condition, `return` tells what happens to system calls that do not meet it. The offline compiler returns the error
to those that do: what minijail allows is refused. -/
theorem C58_violated_return : Differ .kill false "read: arg0 == 1; return EPERM\n".toList (amd64Call 0#32 1#64) .allow (.returnErrno 1) :=
  differ_of (by decide +kernel) (by decide +kernel) (by decide)

/-- A comment that ends in a backslash: minijail takes the next line for a part of it, the offline compiler does not. -/
theorem C58_violated_comment : Differ .kill false "write: 1\n# a comment \\\nread: 1\n".toList (amd64Call 0#32 1#64) .killThread .allow :=
  differ_of (by decide +kernel) (by decide +kernel) (by decide)

/-- A tab behind `return`: minijail kills, the offline compiler returns the error. -/
theorem C58_violated_tab : Differ .kill false "read: return\tEPERM\n".toList (amd64Call 0#32 1#64) .killThread (.returnErrno 1) :=
  differ_of (by decide +kernel) (by decide +kernel) (by decide)

/-- A system call of another architecture: where the process is to be killed, the program of minijail kills the thread only. -/
theorem C58_violated_architecture : Differ .killProcess true "read: 1\n".toList { amd64Call 0#32 1#64 with arch := 0x40000003#32 } .killThread .killProcess :=
  differ_of (by decide +kernel) (by decide +kernel) (by decide)

end Minijail
