import Verif.Proof.OfflineMain
import Verif.Proof.Included
import Verif.Props.C41
/-!
C57: the program that tools/compile_seccomp_policy.py writes does what the text of the policy says.
-/
set_option autoImplicit false
set_option linter.unusedSimpArgs false
namespace Minijail
open Offline Spec

/-- A policy that is compiled is a text of the language, in the documented grammar but for the text the parser does not look at (`lax`). -/
theorem C57_in_language {fs : PyFiles} {c : Command} {prog : List Insn} (h : offlineMain fs c = some prog) :
    ∃ k ov es, KillT c k ∧ OverrideT c ov ∧ PyFileT fs (settingsOf c k) true c.depth c.policy es := by
  obtain ⟨k, ov, x, hk, ho, hx, -⟩ := offlineMain_some h
  obtain ⟨es, l, st, hf, -⟩ := parse_means hx
  exact ⟨k, ov.1.map ActObj.act, es, (killAction_iff c k).1 hk, (overrideAction_some ho k).1, hf⟩

/-- The text has one meaning only. -/
theorem C57_unambiguous {fs : PyFiles} {c : Command} {k k' : Offline.Action} {ov ov' : Option Offline.Action} {es es' : List PyEntry} (hk : KillT c k) (hk' : KillT c k')
    (ho : OverrideT c ov) (ho' : OverrideT c ov') (h : PyFileT fs (settingsOf c k) true c.depth c.policy es)
    (h' : PyFileT fs (settingsOf c k') true c.depth c.policy es') : k = k' ∧ ov = ov' ∧ es = es' := by
  have := kill_unique hk hk'
  subst this
  exact ⟨rfl, override_unique ho ho', file_unique fs _ true _ _ _ _ h h'⟩

/-- The program gives every system call the action that the text prescribes. Missing of the full property: allowlists where a system call that is allowed in the
end has a filter with another action (`NoDroppedFilters`; see `C57_violated_dropped`), comparisons with a seventh argument (`SixArguments`). -/
theorem C57_partial {fs : PyFiles} {c : Command} {prog : List Insn} (h : offlineMain fs c = some prog) (ht : GoodArch c.arch) {k : Offline.Action} {ov : Option Offline.Action}
    {es : List PyEntry} (hk : KillT c k) (ho : OverrideT c ov) (hf : PyFileT fs (settingsOf c k) true c.depth c.policy es) (h6 : SixArguments es)
    (hd : NoDroppedFilters (optionsOf c k) (defaultOf c k ov es) es) (d : SeccompData) :
    runFilter false prog d = .ret (actionWord (verdict (optionsOf c k) (defaultOf c k ov es) es d)) := by
  obtain ⟨k', ov', x, hk', ho', hx, hp⟩ := offlineMain_some h
  have := kill_unique hk ((killAction_iff c k').1 hk')
  subst this
  obtain ⟨h1, h2⟩ := overrideAction_some ho' k
  have := override_unique ho h1
  subst this
  obtain ⟨es', g1, g2, g3, g4, g5⟩ := parse_good (o := optionsOf c k) hx ⟨rfl, rfl, rfl⟩ ht h2
  have := file_unique fs _ true _ _ _ _ hf g1
  subst this
  have hdef : x.1.defaultAction.act = defaultOf c k (ov'.1.map ActObj.act) es := g2
  rw [hdef] at g4 g5
  rw [← g5 d]
  exact C41_partial (g3 h6) (g4 hd) hp d

/-- Every text of the documented grammar is compiled, unless the program has 2³² instructions. -/
theorem C57_accepted {fs : PyFiles} {c : Command} (ht : GoodArch c.arch) (ha : c.archNr < 2 ^ 32) {k : Offline.Action} {ov : Option Offline.Action} {es : List PyEntry}
    (hk : KillT c k) (ho : OverrideT c ov) (hf : PyFileT fs (settingsOf c k) false c.depth c.policy es) (h6 : SixArguments es) (hr : Reachable es) :
    (∃ prog, offlineMain fs c = some prog ∧ (prog.length ≤ 4096 → KernelAccepts prog)) ∨
    ∃ override n x l, parseFile fs (settingsOf c k) c.depth override c.policy n = some x ∧ compileFile (optionsOf c k) x.1 x.2 = some l ∧ 2 ^ 32 ≤ l.length := by
  have hk' := (killAction_iff c k).2 hk
  obtain ⟨ov', ho', hov⟩ := overrideAction_complete ho
  obtain ⟨h1, h2⟩ := overrideAction_some ho' k
  obtain ⟨x, hx⟩ := parse_accepts (n := ov'.2) (override := ov'.1) hf ht hr
  obtain ⟨es', g1, g2, g3, g4, g5⟩ := parse_good (o := optionsOf c k) hx ⟨rfl, rfl, rfl⟩ ht h2
  have := file_unique fs _ true _ _ _ _ (file_lax _ _ _ _ _ hf) g1
  subst this
  obtain ⟨l, hl, hp⟩ := C41_total (g3 h6) ha
  by_cases hlen : l.length < 2 ^ 32
  · obtain ⟨prog, e1, e2, e3⟩ := hp hlen
    refine .inl ⟨prog, ?_, e3⟩
    unfold offlineMain
    rw [hk']
    simp only [Option.bind_eq_bind, Option.bind_some]
    rw [ho']
    simp only [Option.bind_some]
    have hx' : parseFile fs ⟨c.arch, ⟨0, k⟩, c.denylist, c.retLog⟩ c.depth ov'.1 c.policy ov'.2 = some x := hx
    rw [hx']
    exact e1
  · exact .inr ⟨ov'.1, ov'.2, x, l, hx, hl, by omega⟩

/-- A text is cut into tokens as the table of regular expressions says: at every place the first entry that matches there, with the match that Python tries first. -/
theorem C57_tokens (text : List Char) (lines : List (List Token)) : Offline.tokenize text = some lines ↔ TokensT text lines := tokenize_iff text lines

/-- A text has one list of tokens only. -/
theorem C57_tokens_unique {text : List Char} {lines lines' : List (List Token)} (h : TokensT text lines) (h' : TokensT text lines') : lines = lines' := by
  rw [← C57_tokens] at h h'
  rw [h] at h'
  exact Option.some.inj h'

/-- The file that `@include` and `@frequency` name is the one that the path leads to from the directory of the file that the statement is in, wherever the compiler was
started (in a tree without symbolic links). -/
theorem C57_included {cwd folder place : Dir} {file path : List Char} (hf : FolderOf cwd file folder) (hp : LeadsTo folder path place) :
    LeadsTo cwd (resolve file path) place := by
  rw [folder_iff] at hf
  rw [leads_iff] at hp ⊢
  rw [hp, hf, lead_resolve]

/-- Beside it, above it, from the root. -/
example : resolve "policies/a/x.policy".toList "./y//z".toList = "policies/a/y/z".toList ∧ resolve "a/x".toList "../../y".toList = "../y".toList ∧
    resolve "x".toList "/etc/../y".toList = "/y".toList ∧
    FolderOf ["home".toList] "a/x".toList ["a".toList, "home".toList] ∧ LeadsTo ["a".toList, "home".toList] "../../y".toList ["y".toList] := by
  refine ⟨by decide +kernel, by decide +kernel, by decide +kernel, ?_, ?_⟩
  · exact ⟨["a".toList], "x".toList, ⟨by decide, by decide, by decide⟩, by decide⟩
  · exact ⟨["..".toList, "..".toList, "y".toList], ⟨by decide, by decide, by decide⟩, by decide⟩

/-! ### Cases -/

/-- A comment, a statement over two lines, keywords that are only part of a name, numbers in three notations. -/
example : TokensT "# in\r\nkill: \\\n arg1 in ~0x1F|017|-9 && argue\nallow_2: kill-process".toList
    [[⟨.action, "kill".toList⟩, ⟨.colon, ":".toList⟩, ⟨.argument, "arg1".toList⟩, ⟨.op, "in".toList⟩, ⟨.complement, "~".toList⟩, ⟨.numeric, "0x1F".toList⟩,
        ⟨.bitOr, "|".toList⟩, ⟨.numeric, "017".toList⟩, ⟨.bitOr, "|".toList⟩, ⟨.numeric, "-9".toList⟩, ⟨.and, "&&".toList⟩, ⟨.identifier, "argue".toList⟩],
      [⟨.identifier, "allow_2".toList⟩, ⟨.colon, ":".toList⟩, ⟨.action, "kill-process".toList⟩]] :=
  (C57_tokens _ _).1 (by decide +kernel)

/-- A character that no entry of the table matches. -/
example : ¬∃ lines, TokensT "read: $".toList lines := by
  rintro ⟨lines, h⟩
  rw [← C57_tokens] at h
  have : Offline.tokenize "read: $".toList = none := by decide +kernel
  rw [this] at h
  cases h

/-- A table of three system calls and three constants. -/
def smallArch : Arch :=
  ⟨"x86_64".toList, 64, fun n => if n = "read".toList then some 0 else if n = "write".toList then some 1 else if n = "kill".toList then some 62 else none,
   fun n => if n = "EPERM".toList then some 1 else if n = "PROT_EXEC".toList then some 4 else if n = "PROT_WRITE".toList then some 2 else none, fun _ => none⟩

theorem smallArch_good : GoodArch smallArch := by
  refine ⟨.inr rfl, ?_, ?_⟩
  · intro n m k hn hm
    simp only [smallArch] at hn hm
    split at hn <;> split at hm <;> simp_all <;> (repeat' split at hn) <;> (repeat' split at hm) <;> simp_all
    all_goals (rw [← hn] at hm; simp at hm)
  · intro n k hn
    simp only [smallArch] at hn
    (repeat' split at hn) <;> simp at hn <;> omega

/-- A policy that includes another one, has comments, conditions, a continued line, a line for another architecture and a default. -/
def smallFiles : PyFiles := fun f =>
  if f = "/etc/p.policy".toList then
    some "# a policy\nread: arg0 == 0x5 && arg1 in ~(PROT_EXEC|PROT_WRITE) \\\n  || arg2 & 4; return EPERM\n@include ./q.policy\nwrite[arch=arm]: kill\n@default trap".toList
  else if f = "/etc/q.policy".toList then some "{write, kill}: 1".toList
  else none

/-- The command for it. -/
def smallCommand : Command := ⟨smallArch, 0xc000003e, true, false, false, false, none, 8, "/etc/p.policy".toList⟩

/-- The rules of the policy. -/
def smallRules : List PyEntry :=
  [.rule [⟨"read".toList, 0⟩] [(some [[⟨0, .eq, 5⟩, ⟨1, .isIn, 2 ^ 64 - 7⟩], [⟨2, .band, 4⟩]], .returnErrno 1)],
   .rule [⟨"write".toList, 1⟩, ⟨"kill".toList, 62⟩] [(none, .allow)]]

/-- What the parser returns for them. -/
def smallStatements : List Statement :=
  [⟨[⟨"read".toList, 0⟩], [⟨some [[⟨0, .eq, 5⟩, ⟨1, .isIn, 2 ^ 64 - 7⟩], [⟨2, .band, 4⟩]], ⟨1, .returnErrno 1⟩⟩]⟩,
   ⟨[⟨"write".toList, 1⟩, ⟨"kill".toList, 62⟩], [⟨none, ⟨2, .allow⟩⟩]⟩]

theorem small_parsed : (parsePolicyFile smallFiles (settingsOf smallCommand .killThread) 8 "/etc/p.policy".toList ⟨1, ⟨0, .killThread⟩, fun _ => none⟩).map
    (fun x => (x.1, x.2.default)) = some (smallStatements, ⟨3, .trap⟩) := by
  decide +kernel

/-- What the parser returns for a policy tells what the policy means. -/
theorem means_of_parsed {fs : PyFiles} {g : Settings} {depth : Nat} {filename : CStr} {st : FState} {l : List Statement} {a : ActObj}
    (h : (parsePolicyFile fs g depth filename st).map (fun x => (x.1, x.2.default)) = some (l, a)) :
    ∃ es, PyFileT fs g true depth filename es ∧ rulesOf es = l.map entryOf ∧ lastDefault st.default.act es = a.act := by
  obtain ⟨x, hx, e⟩ := Option.map_eq_some_iff.1 h
  simp only [Prod.mk.injEq] at e
  obtain ⟨es, h1, h2, h3⟩ := policyFile_means fs g depth filename st x hx
  exact ⟨es, h1, by rw [← e.1]; exact h2, by rw [← e.2]; exact h3.symm⟩

theorem six_of_rules {es : List PyEntry} (h : SixArguments (rulesOf es)) : SixArguments es :=
  fun cs fs hm => h cs fs (List.mem_filter.2 ⟨hm, rfl⟩)

theorem small_meaning : ∃ es, PyFileT smallFiles (settingsOf smallCommand .killThread) true 8 "/etc/p.policy".toList es ∧ rulesOf es = smallRules ∧
    lastDefault .killThread es = .trap := means_of_parsed small_parsed

/-- The hypotheses of `C57_partial` are met. -/
example : ∃ prog es, offlineMain smallFiles smallCommand = some prog ∧ GoodArch smallCommand.arch ∧ KillT smallCommand .killThread ∧ OverrideT smallCommand none ∧
    PyFileT smallFiles (settingsOf smallCommand .killThread) true smallCommand.depth smallCommand.policy es ∧ SixArguments es ∧
    NoDroppedFilters (optionsOf smallCommand .killThread) (defaultOf smallCommand .killThread none es) es := by
  obtain ⟨es, h1, h2, h3⟩ := small_meaning
  have hp : (offlineMain smallFiles smallCommand).isSome = true := by decide +kernel
  obtain ⟨prog, hp⟩ := Option.isSome_iff_exists.1 hp
  have hdef : defaultOf smallCommand .killThread none es = .trap := h3
  refine ⟨prog, es, hp, smallArch_good, .thread rfl rfl rfl, .none (.inl rfl), h1, six_of_rules ?_, ?_⟩
  · rw [h2]
    intro cs fs hm f hf e he q hq a ha
    simp only [smallRules, List.mem_cons, PyEntry.rule.injEq, List.not_mem_nil, or_false] at hm
    rcases hm with ⟨rfl, rfl⟩ | ⟨rfl, rfl⟩
    · simp only [List.mem_singleton] at hf
      subst hf
      simp only [Option.some.injEq] at he
      subst he
      simp only [List.mem_cons, List.not_mem_nil, or_false] at hq
      rcases hq with rfl | rfl <;> simp only [List.mem_cons, List.not_mem_nil, or_false] at ha
      · rcases ha with rfl | rfl <;> decide
      · rw [ha]; decide
    · simp only [List.mem_singleton] at hf
      subst hf
      simp at he
  · intro _ nr h f hf
    rw [hdef] at h
    have h : (none, Offline.Action.allow) ∈ filtersFor nr es := by
      rcases h with h | ⟨_, h⟩
      · exact h
      · simp at h
    rw [filtersFor_rules, h2] at h hf
    simp only [filtersFor, smallRules, List.flatMap_cons, List.flatMap_nil, List.append_nil, List.mem_append] at h hf
    by_cases hn : nr = 0
    · subst hn
      simp at h
    · have hr : ¬∃ c ∈ [(⟨"read".toList, 0⟩ : Syscall)], c.number = nr := by rintro ⟨c, hc, e⟩; simp at hc; subst hc; exact hn e.symm
      rw [if_neg hr] at hf
      rcases hf with hf | hf
      · simp at hf
      · split at hf
        · simp at hf; rw [hf]
        · simp at hf

/-- What the program does for it: a `read` of descriptor 3 with the bit set is refused with EPERM, `kill` is allowed, another system call traps. -/
example : ∃ prog, offlineMain smallFiles smallCommand = some prog ∧ runFilter false prog ⟨0, 0xc000003e#32, 0, 3, 0, 4, 0, 0, 0⟩ = .ret 0x50001#32 ∧
    runFilter false prog ⟨62, 0xc000003e#32, 0, 3, 0, 4, 0, 0, 0⟩ = .ret 0x7fff0000#32 ∧
    runFilter false prog ⟨63, 0xc000003e#32, 0, 3, 0, 4, 0, 0, 0⟩ = .ret 0x30000#32 := by
  have h : ((offlineMain smallFiles smallCommand).map fun prog => (runFilter false prog ⟨0, 0xc000003e#32, 0, 3, 0, 4, 0, 0, 0⟩,
      runFilter false prog ⟨62, 0xc000003e#32, 0, 3, 0, 4, 0, 0, 0⟩, runFilter false prog ⟨63, 0xc000003e#32, 0, 3, 0, 4, 0, 0, 0⟩)) =
      some (.ret 0x50001#32, .ret 0x7fff0000#32, .ret 0x30000#32) := by decide +kernel
  obtain ⟨prog, hp, e⟩ := Option.map_eq_some_iff.1 h
  simp only [Prod.mk.injEq] at e
  exact ⟨prog, hp, e.1, e.2.1, e.2.2⟩

/-- A text of two lines. -/
def plainFiles : PyFiles := fun f => if f = "p".toList then some "read: arg0 == 1; return EPERM\n@default trap".toList else none

/-- The command for it. -/
def plainCommand : Command := ⟨smallArch, 0xc000003e, true, false, false, false, some "log".toList, 8, "p".toList⟩

/-- The hypotheses of `C57_accepted` are met. -/
example : GoodArch plainCommand.arch ∧ plainCommand.archNr < 2 ^ 32 ∧ KillT plainCommand .killThread ∧ OverrideT plainCommand (some .log) ∧
    ∃ es, PyFileT plainFiles (settingsOf plainCommand .killThread) false plainCommand.depth plainCommand.policy es ∧ SixArguments es ∧ Reachable es := by
  refine ⟨smallArch_good, by decide, .thread rfl rfl rfl,
    .some (text := "log".toList) (body := "log".toList) (nl := []) (ts := [⟨.action, "log".toList⟩]) (extra := []) rfl (by simp) (by simp) (by decide)
      ((tokenizeLine_iff _ (by decide) _).1 (by decide +kernel)) (.word rfl rfl (by decide)),
    [.rule [⟨"read".toList, 0⟩] [(some [[⟨0, .eq, 1⟩]], .returnErrno 1)], .default .trap], ?_, ?_, ?_⟩
  · unfold PyFileT
    refine ⟨"read: arg0 == 1; return EPERM\n@default trap".toList,
      [[⟨.identifier, "read".toList⟩] ++ ⟨.colon, ":".toList⟩ :: ([⟨.argument, "arg0".toList⟩, ⟨.op, "==".toList⟩, ⟨.numeric, "1".toList⟩] ++
          ⟨.semicolon, ";".toList⟩ :: [⟨.ret, "return".toList⟩, ⟨.identifier, "EPERM".toList⟩]),
        [⟨.default, "@default".toList⟩, ⟨.action, "trap".toList⟩]],
      [([.rule [⟨"read".toList, 0⟩] [(some [[⟨0, .eq, 1⟩]], .returnErrno 1)]], false), ([.default .trap], false)], rfl, (tokenize_iff _ _).1 (by decide +kernel), ?_, rfl, ?_⟩
    · refine .cons ?_ (.cons (.default rfl (.word rfl (by decide) (by decide))) .nil)
      refine .rule (.mk (.one (.plain (.inl rfl) (.inl ⟨by decide, 0, by decide, rfl⟩))) rfl (.one (.act (.one (.one ?_)) rfl ?_))) (by simp)
      · refine .mk (s := "0".toList) rfl rfl (by decide) ?_ (by decide) rfl rfl (.one (.single ?_))
        · exact (digits_iff 10 (by decide) _ _).2 ⟨by decide, by decide⟩
        · exact ⟨1, .inr ⟨rfl, .plain (.dec (by decide) ((digits_iff 10 (by decide) _ _).2 ⟨by decide, by decide⟩) (by simp))⟩, by decide, by decide, by decide⟩
      · exact .errno rfl rfl ⟨1, .inl ⟨rfl, by decide⟩, by decide, by decide, by decide⟩
    · intro h; simp [settingsOf, plainCommand] at h
  · intro cs fs hm f hf e he q hq a ha
    simp only [List.mem_cons, PyEntry.rule.injEq, reduceCtorEq, List.not_mem_nil, or_false] at hm
    obtain ⟨rfl, rfl⟩ := hm
    simp only [List.mem_singleton] at hf
    subst hf
    simp only [Option.some.injEq] at he
    subst he
    simp only [List.mem_singleton] at hq
    subst hq
    simp only [List.mem_singleton] at ha
    subst ha
    decide
  · refine ⟨?_, ?_⟩
    · intro nr pre f post h hf
      have hmem : f ∈ filtersFor nr [PyEntry.rule [⟨"read".toList, 0⟩] [(some [[⟨0, .eq, 1⟩]], .returnErrno 1)], .default .trap] := by rw [h]; simp
      simp only [filtersFor, List.flatMap_cons, List.flatMap_nil, List.append_nil] at hmem
      split at hmem
      · simp at hmem; rw [hmem] at hf; simp at hf
      · simp at hmem
    · intro cs l hm
      simp only [List.mem_cons, PyEntry.rule.injEq, reduceCtorEq, List.not_mem_nil, or_false] at hm
      rw [hm.1]
      decide

/-! ### Violations -/

/-- An allowlist with `read: { arg0 == 1; return EPERM, allow }`. -/
def droppedFiles : PyFiles := fun f => if f = "p".toList then some "read: { arg0 == 1; return EPERM, allow }".toList else none

/-- The command for it. -/
def droppedCommand (bst : Bool) : Command := ⟨smallArch, 0xc000003e, bst, false, false, false, none, 8, "p".toList⟩

/-- The policy says that `read` of descriptor 1 fails with EPERM. The program allows it: all filters before an `allow` without a condition are dropped
(tools/compiler.py:360-362). -/
theorem C57_violated_dropped (bst : Bool) : ∃ prog es, offlineMain droppedFiles (droppedCommand bst) = some prog ∧
    PyFileT droppedFiles (settingsOf (droppedCommand bst) .killThread) true 8 "p".toList es ∧ SixArguments es ∧ ∃ d,
      verdict (optionsOf (droppedCommand bst) .killThread) (defaultOf (droppedCommand bst) .killThread none es) es d = .returnErrno 1 ∧
      runFilter false prog d = .ret (actionWord .allow) := by
  obtain ⟨es, h1, h2, h3⟩ := means_of_parsed (fs := droppedFiles) (g := settingsOf (droppedCommand bst) .killThread) (depth := 8) (filename := "p".toList)
    (st := ⟨1, ⟨0, .killThread⟩, fun _ => none⟩) (l := [⟨[⟨"read".toList, 0⟩], [⟨some [[⟨0, .eq, 1⟩]], ⟨1, .returnErrno 1⟩⟩, ⟨none, ⟨2, .allow⟩⟩]⟩])
    (a := ⟨0, .killThread⟩) (by cases bst <;> decide +kernel)
  have h : ((offlineMain droppedFiles (droppedCommand bst)).map fun prog => runFilter false prog (amd64Call 0#32 1#64)) = some (.ret (actionWord .allow)) := by
    cases bst <;> decide +kernel
  obtain ⟨prog, hp, e⟩ := Option.map_eq_some_iff.1 h
  refine ⟨prog, es, hp, h1, six_of_rules ?_, amd64Call 0#32 1#64, ?_, e⟩
  · rw [h2]
    intro cs fs hm f hf e he q hq a ha
    simp only [List.map_cons, List.map_nil, entryOf, List.mem_cons, PyEntry.rule.injEq, List.not_mem_nil, or_false] at hm
    obtain ⟨rfl, rfl⟩ := hm
    simp only [List.mem_cons, List.not_mem_nil, or_false] at hf
    rcases hf with rfl | rfl
    · simp only [view, Option.some.injEq] at he
      subst he
      simp only [List.mem_singleton] at hq
      subst hq
      simp only [List.mem_singleton] at ha
      subst ha
      decide
    · simp [view] at he
  · unfold verdict
    rw [if_neg (by cases bst <;> decide), if_pos, filtersFor_rules, h2]
    · have : filtersFor (amd64Call 0#32 1#64).nr.toNat ([(⟨[⟨"read".toList, 0⟩], [⟨some [[⟨0, .eq, 1⟩]], ⟨1, .returnErrno 1⟩⟩, ⟨none, ⟨2, .allow⟩⟩]⟩ : Statement)].map
          entryOf) = [(some [[⟨0, .eq, 1⟩]], .returnErrno 1), (none, .allow)] := by
        simp [filtersFor, entryOf, amd64Call, view]
      rw [this]
      unfold firstTrue
      rw [if_pos]
      · rfl
      · show condition 64 (amd64Call 0#32 1#64) (some [[⟨0, .eq, 1⟩]])
        simp [amd64Call, condition, patomHolds, opCmp, Cmp.holds, argValue, SeccompData.arg]
    · rw [mentioned_rules, h2]
      exact ⟨_, _, List.mem_singleton.2 rfl, ⟨"read".toList, 0⟩, by simp [entryOf], rfl⟩

/-- A policy that kills by name. -/
def killFiles : PyFiles := fun f => if f = "p".toList then some "read: kill-process".toList else none

/-- The help says that `--use-ret-log` changes "all seccomp failures to return SECCOMP_RET_LOG instead of killing". It does not change the actions `kill-process`,
`kill-thread` and `trap` (tools/parser.py:457-472). -/
theorem C57_violated_ret_log : ∃ prog, offlineMain killFiles ⟨smallArch, 0xc000003e, true, false, false, true, none, 8, "p".toList⟩ = some prog ∧
    runFilter false prog (amd64Call 0#32 1#64) = .ret (actionWord .killProcess) := by
  have h : ((offlineMain killFiles ⟨smallArch, 0xc000003e, true, false, false, true, none, 8, "p".toList⟩).map fun prog => runFilter false prog (amd64Call 0#32 1#64)) =
      some (.ret (actionWord .killProcess)) := by decide +kernel
  exact Option.map_eq_some_iff.1 h

end Minijail
