import Verif.Proof.Log
import Verif.Props.C23
/-!
C80: messages reach the place that was chosen for them, each on a line.
-/
set_option autoImplicit false
set_option linter.unusedSimpArgs false
namespace Minijail
open Spec Logs Blocked

/-- What a process leaves in a file is what was there before, and behind it, line by line and in order, the messages it had to report there: those at least as urgent as
asked for, and the last one of a process that gives up. Other files, and the system's log, get nothing of them. This holds in whatever pieces the C library writes. -/
theorem C80_messages {pieces : List Char → List (List Char)} (hp : Whole pieces) (t : FdTable) (m : Media) {acts : List LogAct} {out : List (Sink × Int × List Char)}
    (h : Reported .syslog acts out) :
    (∀ i, (takeAll t m (effects pieces {} acts)).files i = m.files i ++ asLines (textsFor t i out)) ∧
      (takeAll t m (effects pieces {} acts)).syslog = m.syslog ++ (out.filter fun x => x.1 = .syslog).map (·.2) :=
  ⟨fun i => by rw [takeAll_file, effects_file hp t i h {} rfl], by rw [takeAll_syslog, effects_syslog pieces h {} rfl]⟩

/-- Every sequence of messages is reported in one way. -/
theorem C80_total (acts : List LogAct) (place : LogPlace) : ∃ out, Reported place acts out ∧ ∀ out', Reported place acts out' → out' = out := by
  obtain ⟨out, h⟩ := reported_exists acts place
  refine ⟨out, h, fun out' h' => ?_⟩
  induction h generalizing out' with
  | done => cases h'; rfl
  | chosen _ ih => cases h' with | chosen h' => exact ih _ h'
  | toSyslog _ ih => cases h' with | toSyslog h' => rw [ih _ h']
  | toFd hle _ ih => cases h' with
    | toFd _ h' => rw [ih _ h']
    | tooLow hlt _ => omega
  | tooLow hlt _ ih => cases h' with
    | toFd hle _ => omega
    | tooLow _ h' => exact ih _ h'
  | lastSyslog => cases h'; rfl
  | lastFd => cases h'; rfl

/-- Of messages without newlines a reader finds exactly these lines: no other list of lines gives that text. -/
theorem C80_lines_partial {pieces : List Char → List (List Char)} (hp : Whole pieces) (t : FdTable) (m : Media) {acts : List LogAct} {out : List (Sink × Int × List Char)}
    (h : Reported .syslog acts out) (i : Nat) (empty : m.files i = []) (one : ∀ x ∈ textsFor t i out, OneLine x) (lines : List (List Char)) (hl : ∀ x ∈ lines, OneLine x) :
    (takeAll t m (effects pieces {} acts)).files i = asLines lines ↔ lines = textsFor t i out := by
  rw [(C80_messages hp t m h).1 i, empty, List.nil_append]
  exact ⟨fun e => (asLines_inj one hl e).symm, fun e => by rw [e]⟩

/-- After minijail_log_to_fd(fd, least): information is reported if `least` is LOG_INFO (6) or more, warnings if it is LOG_WARNING (4) or more, and why the process
gives up always. -/
theorem C80_levels (fd least : Int) (pid : Nat) (msg : List Char) (rest : List LogAct) (out : List (Sink × Int × List Char)) :
    (Reported (.fd fd least) [.info pid msg] out ↔ out = if 6 ≤ least then [(.fd fd, 6, message pid msg)] else []) ∧
    (Reported (.fd fd least) [.warn pid msg] out ↔ out = if 4 ≤ least then [(.fd fd, 4, message pid msg)] else []) ∧
    (Reported (.fd fd least) (.die pid msg :: rest) out ↔ out = [(.fd fd, 3, message pid msg)]) := by
  have key : ∀ p : Int, ∀ text, Reported (.fd fd least) [.log p text] out ↔ out = if p ≤ least then [(.fd fd, p, text)] else [] := by
    intro p text
    constructor
    · intro h
      cases h with
      | toFd hle h => cases h; rw [if_pos hle]
      | tooLow hlt h => cases h; rw [if_neg (by omega)]
    · intro e
      by_cases hle : p ≤ least
      · rw [e, if_pos hle]; exact .toFd hle .done
      · rw [e, if_neg hle]; exact .tooLow (by omega) .done
  refine ⟨key 6 _, key 4 _, ?_⟩
  constructor
  · intro h; cases h; rfl
  · rintro rfl; exact .lastFd

/-- Two processes with one file (a jailed process and the one that started it): in whatever order the kernel takes their writes, there are as many line ends as
messages, and no character is lost. Missing of the full property is that each message has a line of its own: `C80_violated_merged`. -/
theorem C80_shared_partial {pieces : List Char → List (List Char)} (hp : Whole pieces) (t : FdTable) (m : Media) {acts acts' : List LogAct} {place place' : LogPlace} {cfg cfg' : Logging}
    {out out' : List (Sink × Int × List Char)} (h : Reported place acts out) (h' : Reported place' acts' out') (hc : atPlace place cfg) (hc' : atPlace place' cfg')
    {es : List Effect} (mix : Mixed (effects pieces cfg acts) (effects pieces cfg' acts') es) (i : Nat) (empty : m.files i = [])
    (one : ∀ x ∈ textsFor t i out ++ textsFor t i out', OneLine x) :
    ((takeAll t m es).files i).Perm (asLines (textsFor t i out ++ textsFor t i out')) ∧
      ((takeAll t m es).files i).count '\n' = (textsFor t i out).length + (textsFor t i out').length := by
  have e : ((takeAll t m es).files i).Perm (asLines (textsFor t i out ++ textsFor t i out')) := by
    rw [takeAll_file, empty, List.nil_append, asLines_append, ← effects_file hp t i h cfg hc, ← effects_file hp t i h' cfg' hc', ← List.flatMap_append]
    exact (mixed_perm mix).flatMap_right _
  refine ⟨e, ?_⟩
  rw [e.count_eq, count_asLines one, List.length_append]

/-- Two messages of two processes, written at the same time, can end up on one line, followed by an empty one: text and newline are written one after the other. -/
theorem C80_violated_merged : ∃ es, Mixed (effects (fun x => [x]) (logToFd 2 6) [.warn 7 "a".toList]) (effects (fun x => [x]) (logToFd 2 6) [.warn 8 "b".toList]) es ∧
    (takeAll (fun _ => some ⟨1, false⟩) ⟨fun _ => [], []⟩ es).files 1 = "libminijail[7]: alibminijail[8]: b\n\n".toList := by
  refine ⟨[.write 2 "libminijail[7]: a".toList, .write 2 "libminijail[8]: b".toList, .write 2 ['\n'], .write 2 ['\n']], ?_, by decide +kernel⟩
  have e1 : effects (fun x => [x]) (logToFd 2 6) [.warn 7 "a".toList] = [.write 2 "libminijail[7]: a".toList, .write 2 ['\n']] := by decide +kernel
  have e2 : effects (fun x => [x]) (logToFd 2 6) [.warn 8 "b".toList] = [.write 2 "libminijail[8]: b".toList, .write 2 ['\n']] := by decide +kernel
  rw [e1, e2]
  exact .left (.right (.left (.right .nil)))

theorem asLines_one (t : FdTable) (i : Nat) (fd p : Int) (text : List Char) :
    asLines (textsFor t i [(.fd fd, p, text)]) = if 0 ≤ fd ∧ (t fd.toNat).map (·.file) = some i then text ++ ['\n'] else [] := by
  unfold asLines textsFor
  rw [List.filterMap_cons]
  by_cases h : 0 ≤ fd ∧ (t fd.toNat).map (·.file) = some i
  · simp only [h, and_self, if_true]; simp
  · simp only [h, if_false]; simp

/-- A name with a newline in a message (such as that of a program that cannot be run) makes one message look like two, one of them of another process. -/
theorem C80_violated_forged (pieces : List Char → List (List Char)) (hp : Whole pieces) (t : FdTable) (m : Media) (pid other : Nat) (a b : List Char) (i : Nat) :
    (takeAll t m (effects pieces {} [.logToFd 2 6, .warn pid (a ++ '\n' :: message other b)])).files i =
      (takeAll t m (effects pieces {} [.logToFd 2 6, .warn pid a, .warn other b])).files i := by
  have h1 : Reported .syslog [.logToFd 2 6, .warn pid (a ++ '\n' :: message other b)] [(.fd 2, 4, message pid (a ++ '\n' :: message other b))] :=
    .chosen (.toFd (by decide) .done)
  have h2 : Reported .syslog [.logToFd 2 6, .warn pid a, .warn other b] [(.fd 2, 4, message pid a), (.fd 2, 4, message other b)] :=
    .chosen (.toFd (by decide) (.toFd (by decide) .done))
  rw [(C80_messages hp t m h1).1 i, (C80_messages hp t m h2).1 i]
  congr 1
  rw [textsFor_cons t i (.fd 2, 4, message pid a), asLines_append, asLines_one, asLines_one, asLines_one]
  have e : message pid (a ++ '\n' :: message other b) ++ ['\n'] = (message pid a ++ ['\n']) ++ (message other b ++ ['\n']) := by
    unfold message
    simp only [List.append_assoc, List.cons_append, List.nil_append]
  rw [e]
  split <;> rfl

/-- A message of the jailed process, once its descriptors are in place, goes to the file that the caller asked to be at that number. If the caller asked for the
descriptor of the log itself (as minijail0 does for stderr), then that is where the messages of the caller go. -/
theorem C80_child {pieces : List Char → List (List Char)} (hp : Whole pieces) (env : FdEnv) (hw : LogSafe env) (t : FdTable) (d : Nat) (f : OpenFile) (entries : List (Option Nat))
    (es : List FdMap) (s : RunPipes) (elf : Option Nat) (r : ChildFds) (hd : t d = none) (hlist : ∀ n, t n ≠ none → some n ∈ entries)
    (hopen : ∀ e ∈ es, t e.parent ≠ none) (hpipe : ∀ p, some p ∈ s.ends → t p ≠ none) (helf : ∀ p, elf = some p → t p ≠ none)
    (h : childFdsAtExec env t (some (d, f)) entries es s elf = some r) (e : FdMap) (he : e ∈ es)
    (hstd : (e.child = 0 → s.stdin.1 = none) ∧ (e.child = 1 → s.stdout.2 = none) ∧ (e.child = 2 → s.stderr.2 = none)) (m : Media) (least : Int) (pid : Nat) (msg : List Char) :
    ∃ i, (t e.parent).map (·.file) = some i ∧
      ∀ k, (takeAll r.table m (effects pieces (logToFd e.child least) [.die pid msg])).files k = m.files k ++ if k = i then message pid msg ++ ['\n'] else [] := by
  obtain ⟨⟨g, g0, e1, e2, e3⟩, _⟩ := C23_requested env hw t d f entries es s elf r hd hlist hopen hpipe helf h e he hstd
  refine ⟨g0.file, by rw [e2]; rfl, fun k => ?_⟩
  have rep : Reported (.fd e.child least) [.die pid msg] [(.fd e.child, 3, message pid msg)] := .lastFd
  rw [takeAll_file, effects_file hp r.table k rep _ ⟨rfl, rfl⟩]
  congr 1
  unfold asLines textsFor
  have e4 : (r.table (e.child : Int).toNat).map (·.file) = some g0.file := by rw [Int.toNat_natCast, e1, ← e3]; rfl
  by_cases hk : k = g0.file
  · subst hk
    have c : 0 ≤ (e.child : Int) ∧ (r.table (e.child : Int).toNat).map (·.file) = some g0.file := ⟨by omega, e4⟩
    rw [List.filterMap_cons]
    simp only [c, and_self, if_true]
    simp
  · have c : ¬(0 ≤ (e.child : Int) ∧ (r.table (e.child : Int).toNat).map (·.file) = some k) := by
      rw [e4]; rintro ⟨_, c⟩; injection c with c; exact hk c.symm
    rw [List.filterMap_cons]
    simp only [c, if_false, hk]
    simp

/-- With close_open_fds, and the descriptor of the log not among those asked for, why the jailed process gives up is told nowhere. -/
theorem C80_violated_lost {pieces : List Char → List (List Char)} (hp : Whole pieces) (env : FdEnv) (hw : ∀ t, env.warn t = t) (t : FdTable) (d : Nat) (f : OpenFile)
    (entries : List (Option Nat)) (es : List FdMap) (s : RunPipes) (elf : Option Nat) (r : ChildFds) (hd : t d = none) (hlist : ∀ n, t n ≠ none → some n ∈ entries)
    (hopen : ∀ e ∈ es, t e.parent ≠ none) (hpipe : ∀ p, some p ∈ s.ends → t p ≠ none) (helf : ∀ p, elf = some p → t p ≠ none)
    (h : childFdsAtExec env t (some (d, f)) entries es s elf = some r) (n : Nat) (hn : n ∉ es.map (·.child)) (h2 : 2 < n) (hc : r.pipes ≠ [some n]) (he : r.elf ≠ some n)
    (m : Media) (least : Int) (pid : Nat) (msg : List Char) :
    (∀ k, (takeAll r.table m (effects pieces (logToFd n least) [.die pid msg])).files k = m.files k) ∧
      (takeAll r.table m (effects pieces (logToFd n least) [.die pid msg])).syslog = m.syslog := by
  have closed : r.table n = none := by
    by_contra hc'
    rcases C23_program env hw t d f entries es s elf r hd hlist hopen hpipe helf h n hc' with h | h | h | h | h | h
    · exact hn h
    · omega
    · omega
    · omega
    · exact hc h
    · exact he h
  have rep : Reported (.fd n least) [.die pid msg] [(.fd n, 3, message pid msg)] := .lastFd
  constructor
  · intro k
    rw [takeAll_file, effects_file hp r.table k rep _ ⟨rfl, rfl⟩]
    unfold asLines textsFor
    have c : ¬(0 ≤ (n : Int) ∧ (r.table (n : Int).toNat).map (·.file) = some k) := by
      rw [Int.toNat_natCast, closed]; rintro ⟨_, c⟩; cases c
    rw [List.filterMap_cons]
    simp only [c, if_false]
    simp
  · rw [takeAll_syslog, effects_syslog pieces rep _ ⟨rfl, rfl⟩]
    simp

/-- The C library may write in one piece, or in pieces of one character. -/
example : Whole (fun x => [x]) ∧ Whole (fun x => x.map fun c => [c]) := by
  constructor
  · intro x; simp
  · intro x
    induction x with
    | nil => rfl
    | cons c x ih => simpa using ih

/-- A process that reports to syslog first, then warnings to descriptor 5, and gives up. -/
def loggingActs : List LogAct := [.info 3 "start".toList, .logToFd 5 4, .info 3 "unseen".toList, .warn 3 "careful".toList, .die 3 "end".toList, .warn 3 "never".toList]

/-- The hypotheses of `C80_messages` and `C80_lines_partial` are met. -/
example : ∃ out, Reported .syslog loggingActs out ∧ textsFor (fun n => if n = 5 then some ⟨9, false⟩ else none) 9 out = ["libminijail[3]: careful".toList, "libminijail[3]: end".toList] ∧
    ∀ x ∈ textsFor (fun n => if n = 5 then some ⟨9, false⟩ else none) 9 out, OneLine x := by
  refine ⟨[(.syslog, 6, "libminijail[3]: start".toList), (.fd 5, 4, "libminijail[3]: careful".toList), (.fd 5, 3, "libminijail[3]: end".toList)], ?_, by decide +kernel, ?_⟩
  · exact .toSyslog (.chosen (.tooLow (by decide) (.toFd (by decide) .lastFd)))
  · unfold OneLine; decide +kernel

/-- A caller that logs to descriptor 4 and wants its descriptor 3 to be 4 in the program: what it says is in the file that is its log (104), why the jailed process gives
up is in the other file (103), which it meant for the program. With a log at 12, which nobody asked for, it is nowhere. -/
theorem C80_violated_foreign :
    (match childFdsAtExec ⟨fun _ _ => false, id⟩ exampleTable23 (some (16, ⟨0, true⟩)) (none :: none :: (List.range 17).map some) [⟨3, 4⟩]
        ⟨(some 5, some 6), (some 7, some 8), (none, none), (none, none), (none, none)⟩ none with
      | none => none
      | some r => some ([103, 104, 112].map (takeAll r.table (takeAll exampleTable23 ⟨fun _ => [], []⟩ (effects (fun x => [x]) (logToFd 4 6) [.warn 1 "a".toList]))
          (effects (fun x => [x]) (logToFd 4 6) [.die 2 "b".toList])).files, r.table 12, r.pipes, r.elf)) =
    some (["libminijail[2]: b\n".toList, "libminijail[1]: a\n".toList, []], none, [some 5], none) := by
  decide +kernel

/-- The hypotheses of `C80_child` (for the map from 3 to 4) and of `C80_violated_lost` (for 12) are met by that table. -/
example : (∀ n, exampleTable23 n ≠ none → some n ∈ none :: none :: (List.range 17).map some) ∧ exampleTable23 16 = none ∧ exampleTable23 3 ≠ none ∧
    (∀ p, some p ∈ RunPipes.ends ⟨(some 5, some 6), (some 7, some 8), (none, none), (none, none), (none, none)⟩ → exampleTable23 p ≠ none) ∧
    LogSafe ⟨fun _ _ => false, id⟩ := by
  refine ⟨fun n hn => ?_, by decide, by decide, ?_, fun _ _ _ => rfl⟩
  · have : n ≤ 15 := by
      by_contra h
      exact hn (by unfold exampleTable23; rw [if_neg h])
    refine List.mem_cons_of_mem _ (List.mem_cons_of_mem _ (List.mem_map.2 ⟨n, List.mem_range.2 (by omega), rfl⟩))
  · intro p hp
    simp only [RunPipes.ends, List.mem_cons, Option.some.injEq, List.not_mem_nil, or_false, reduceCtorEq] at hp
    rcases hp with rfl | rfl | rfl | rfl <;> decide

end Minijail
