import Verif.Proof.Rust
import Verif.Props.C22
import Verif.Props.C23
/-! C61: the descriptors and arguments of programs started through the Rust interface. -/
set_option autoImplicit false
set_option linter.unusedSimpArgs false
namespace Minijail
open Spec

/-- What keeping a list of descriptors makes of a jail. -/
theorem preserveAll_ok (env : ApiEnv) (fds : List (BitVec 32 × BitVec 32)) (j j' : Jail) (hj : j.preserved_fds.length = 128)
    (h : preserveAll env j fds = .ret (.ok ()) j') :
    j'.preserved_fds.length = 128 ∧ preservedMaps j' = preservedMaps j ++ fds.map (fun p => ⟨p.1.toNat, p.2.toNat⟩) ∧
      (∀ p ∈ fds, 0 ≤ p.1.toInt ∧ 0 ≤ p.2.toInt) := by
  induction fds generalizing j with
  | nil =>
    simp only [preserveAll] at h
    cases h
    exact ⟨hj, by simp, by simp⟩
  | cons p fds ih =>
    simp only [preserveAll, call, preserveFd] at h
    by_cases h1 : p.1.toInt < 0 ∨ p.2.toInt < 0
    · rw [if_pos h1] at h
      simp [EINVAL] at h
    · rw [if_neg h1] at h
      by_cases h2 : j.preserved_fd_count ≥ MAX_PRESERVED_FDS
      · rw [if_pos h2] at h
        simp [ENOMEM] at h
      · rw [if_neg h2] at h
        simp only [ApiRes.ok, Int.lt_irrefl, if_false] at h
        obtain ⟨i1, i2, i3⟩ := ih _ (by simpa using hj) h
        refine ⟨i1, ?_, ?_⟩
        · rw [i2]
          have hlt : j.preserved_fd_count < j.preserved_fds.length := by
            have : MAX_PRESERVED_FDS = 128 := rfl
            omega
          have : preservedMaps { j with
              preserved_fds := j.preserved_fds.set j.preserved_fd_count ⟨p.1, p.2⟩, preserved_fd_count := j.preserved_fd_count + 1 } =
              preservedMaps j ++ [⟨p.1.toNat, p.2.toNat⟩] := by
            unfold preservedMaps
            simp only
            rw [List.take_add_one, List.map_append, List.take_set_of_le (Nat.le_refl _), List.getElem?_set_self hlt]
            rfl
          rw [this]
          simp
        · intro q hq
          rcases List.mem_cons.1 hq with rfl | hq
          · omega
          · exact i3 q hq

/-- The standard streams that a list of pairs does not mention. -/
def missingStd (fds : List (BitVec 32 × BitVec 32)) : List (BitVec 32) :=
  [0#32, 1#32, 2#32].filter fun io => !fds.any fun p => p.2 == io

theorem preserveStd_ok (env : ApiEnv) (fds : List (BitVec 32 × BitVec 32)) (devNull : Option (BitVec 32)) (j j' : Jail)
    (hj : j.preserved_fds.length = 128) (h : preserveStd env j fds devNull = .ret (.ok ()) j') :
    ∃ n, devNull = some n ∧ j'.preserved_fds.length = 128 ∧ j'.flags.close_open_fds = true ∧
      preservedMaps j' = preservedMaps j ++ fds.map (fun p => ⟨p.1.toNat, p.2.toNat⟩) ++
        (missingStd fds).map fun io => ⟨n.toNat, io.toNat⟩ := by
  unfold preserveStd at h
  cases h1 : preserveAll env j fds with
  | die => rw [h1] at h; cases h
  | ret r1 j1 =>
    rw [h1] at h
    cases r1 with
    | error e => cases h
    | ok u =>
      obtain ⟨a1, a2, -⟩ := preserveAll_ok env fds j j1 hj h1
      cases devNull with
      | none => cases h
      | some n =>
        simp only at h
        cases h2 : preserveAll env j1 (([0#32, 1#32, 2#32].filter fun io => !fds.any fun p => p.2 == io).map fun io => (n, io)) with
        | die => rw [h2] at h; cases h
        | ret r2 j2 =>
          rw [h2] at h
          cases r2 with
          | error e => cases h
          | ok u2 =>
            obtain ⟨b1, b2, -⟩ := preserveAll_ok env _ j1 j2 a1 h2
            simp only [call, setFlags, ApiRes.ok, RustRes.ignoring, RustRes.ret.injEq, true_and] at h
            refine ⟨n, rfl, ?_, ?_, ?_⟩
            · rw [← h]; exact b1
            · rw [← h]
            · rw [← h]
              show preservedMaps j2 = _
              rw [b2, a2, List.map_map]
              rfl

theorem rustRun_starts (env : RustEnv) (j j' : Jail) (fds : List (BitVec 32 × BitVec 32)) (devNull : Option (BitVec 32)) (program : RustProgram)
    (h : rustRun env j fds devNull program = .starts j') : preserveStd env.api j fds devNull = .ret (.ok ()) j' := by
  unfold rustRun at h
  cases h1 : preserveStd env.api j fds devNull with
  | die => rw [h1] at h; cases h
  | ret r1 j1 =>
    rw [h1] at h
    cases r1 with
    | error e => cases h
    | ok u =>
      cases program with
      | filename p =>
        simp only at h
        split_ifs at h
        cases h; rfl
      | fileDescriptor d => cases h; rfl

theorem mem_missing (fds : List (BitVec 32 × BitVec 32)) (n src dst : Nat) :
    (⟨src, dst⟩ : FdMap) ∈ fds.map (fun p => (⟨p.1.toNat, p.2.toNat⟩ : FdMap)) ++ (missingStd fds).map (fun io => ⟨n, io.toNat⟩) ↔
      GivenFd fds n src dst := by
  unfold GivenFd missingStd
  simp only [List.mem_append, List.mem_map, FdMap.mk.injEq, List.mem_filter, List.mem_cons, List.not_mem_nil, or_false,
    Bool.not_eq_true', List.any_eq_false, beq_iff_eq]
  constructor
  · rintro (⟨p, hp, h1, h2⟩ | ⟨io, ⟨hio, hno⟩, h1, h2⟩)
    · exact .inl ⟨p, hp, h1.symm, h2.symm⟩
    · refine .inr ⟨?_, h1.symm, fun p hp hc => hno p hp (BitVec.eq_of_toNat_eq (hc.trans h2.symm))⟩
      rcases hio with rfl | rfl | rfl <;> simp at h2 <;> omega
  · rintro (⟨p, hp, h1, h2⟩ | ⟨hd, h1, hno⟩)
    · exact .inl ⟨p, hp, h1.symm, h2.symm⟩
    · refine .inr ⟨BitVec.ofNat 32 dst, ⟨?_, fun p hp hc => hno p hp ?_⟩, h1.symm, ?_⟩
      · have : dst = 0 ∨ dst = 1 ∨ dst = 2 := by omega
        rcases this with rfl | rfl | rfl <;> simp
      · rw [hc, BitVec.toNat_ofNat]; omega
      · rw [BitVec.toNat_ofNat]; omega

/-- **C61**, a jail that was not run before: when `run` or one of its variants has called the library and the program is executed, each
descriptor the program was to be given is there and is the file it should be, and no other descriptor is open but the library's own pipe and
the file of the program. Missing: a jail that was run before (`C61_twice_violated`). `t` are the descriptors of the parent at `fork`, after
`/dev/null` was opened as `null`. -/
theorem C61_descriptors_partial (env : RustEnv) (j j' : Jail) (hj : j.preserved_fds.length = 128) (hc : j.preserved_fd_count = 0)
    (fds : List (BitVec 32 × BitVec 32)) (null : BitVec 32) (program : RustProgram)
    (hrun : rustRun env j fds (some null) program = .starts j')
    (fenv : FdEnv) (hw : ∀ t, fenv.warn t = t) (t : FdTable) (d : Nat) (f : OpenFile) (entries : List (Option Nat)) (s : RunPipes)
    (hstd : s.stdin.1 = none ∧ s.stdout.2 = none ∧ s.stderr.2 = none) (elf : Option Nat) (r : ChildFds) (hd : t d = none)
    (hlist : ∀ n, t n ≠ none → some n ∈ entries) (hopen : ∀ p ∈ fds, t p.1.toNat ≠ none) (hnull : t null.toNat ≠ none)
    (hpipe : ∀ p, some p ∈ s.ends → t p ≠ none) (helf : ∀ p, elf = some p → t p ≠ none)
    (h : childFdsAtExec fenv t (some (d, f)) entries (preservedMaps j') s elf = some r) :
    j'.flags.close_open_fds = true ∧
    (∀ src dst, GivenFd fds null.toNat src dst → SameFile r.table dst t src ∧ Inherited r.table dst) ∧
    ∀ n, r.table n ≠ none → (∃ src, GivenFd fds null.toNat src n) ∨ r.pipes = [some n] ∨ r.elf = some n := by
  obtain ⟨n0, hn0, -, hcl, hmap⟩ := preserveStd_ok env.api fds _ j j' hj (rustRun_starts env j j' fds _ program hrun)
  cases hn0
  have hnil : preservedMaps j = [] := by simp [preservedMaps, hc]
  rw [hnil, List.nil_append] at hmap
  have hmem : ∀ src dst, (⟨src, dst⟩ : FdMap) ∈ preservedMaps j' ↔ GivenFd fds null.toNat src dst := fun src dst => by
    rw [hmap]; exact mem_missing fds null.toNat src dst
  have hopen' : ∀ e ∈ preservedMaps j', t e.parent ≠ none := by
    rintro ⟨src, dst⟩ he
    rcases (hmem src dst).1 he with ⟨p, hp, h1, -⟩ | ⟨-, h1, -⟩
    · show t src ≠ none
      rw [h1]; exact hopen p hp
    · show t src ≠ none
      rw [h1]; exact hnull
  refine ⟨hcl, fun src dst hg => ?_, fun n hn => ?_⟩
  · exact C23_requested fenv (fun t n _ => by rw [hw]) t d f entries _ s elf r hd hlist hopen' hpipe helf h ⟨src, dst⟩ ((hmem src dst).2 hg)
      ⟨fun _ => hstd.1, fun _ => hstd.2.1, fun _ => hstd.2.2⟩
  · rcases C23_program fenv hw t d f entries _ s elf r hd hlist hopen' hpipe helf h n hn with h1 | h1 | h1 | h1 | h1 | h1
    · obtain ⟨⟨src, dst⟩, he, rfl⟩ := List.mem_map.1 h1
      exact .inl ⟨src, (hmem src dst).1 he⟩
    · exact absurd hstd.1 h1.2
    · exact absurd hstd.2.1 h1.2
    · exact absurd hstd.2.2 h1.2
    · exact .inr (.inl h1)
    · exact .inr (.inr h1)

/-- **C61**: a list is accepted that has no negative number and leaves room for the standard streams, if `/dev/null` can be opened and the
program's name is a string. -/
theorem C61_accepted (env : RustEnv) (j : Jail) (hc : j.preserved_fd_count = 0) (fds : List (BitVec 32 × BitVec 32))
    (hf : ∀ p ∈ fds, 0 ≤ p.1.toInt ∧ 0 ≤ p.2.toInt) (hl : fds.length ≤ 125) (null : BitVec 32) (hn : 0 ≤ null.toInt)
    (program : RustProgram) (hp : ∀ p, program = .filename p → env.utf8 p = true ∧ CString p) :
    ∃ j', rustRun env j fds (some null) program = .starts j' := by
  have step : ∀ (l : List (BitVec 32 × BitVec 32)) (j : Jail), (∀ p ∈ l, 0 ≤ p.1.toInt ∧ 0 ≤ p.2.toInt) →
      j.preserved_fd_count + l.length ≤ 128 →
      ∃ j', preserveAll env.api j l = .ret (.ok ()) j' ∧ j'.preserved_fd_count = j.preserved_fd_count + l.length := by
    intro l
    induction l with
    | nil => intro j _ _; exact ⟨j, rfl, rfl⟩
    | cons p l ih =>
      intro j hl hc
      simp only [List.length_cons] at hc
      have hpos := hl p (by simp)
      have h128 : MAX_PRESERVED_FDS = 128 := rfl
      obtain ⟨j', h1, h2⟩ := ih { j with
        preserved_fds := j.preserved_fds.set j.preserved_fd_count ⟨p.1, p.2⟩, preserved_fd_count := j.preserved_fd_count + 1 }
        (fun q hq => hl q (by simp [hq])) (by simp only; omega)
      refine ⟨j', ?_, ?_⟩
      · simp only [preserveAll, call, preserveFd]
        rw [if_neg (by omega), if_neg (by omega)]
        simp only [ApiRes.ok, Int.lt_irrefl, if_false]
        exact h1
      · rw [h2]; simp only [List.length_cons]; omega
  obtain ⟨j1, a1, a2⟩ := step fds j hf (by omega)
  have hm : (missingStd fds).length ≤ 3 := by unfold missingStd; exact List.length_filter_le _ _
  obtain ⟨j2, b1, -⟩ := step ((missingStd fds).map fun io => (null, io)) j1 (by
    intro p hp
    obtain ⟨io, hio, rfl⟩ := List.mem_map.1 hp
    have : io ∈ [0#32, 1#32, 2#32] := (List.mem_filter.1 hio).1
    refine ⟨hn, ?_⟩
    simp only [List.mem_cons, List.not_mem_nil, or_false] at this
    show 0 ≤ io.toInt
    clear hp hio
    rcases this with rfl | rfl | rfl <;> decide) (by rw [List.length_map]; omega)
  have hs : preserveStd env.api j fds (some null) = .ret (.ok ()) { j2 with flags := { j2.flags with close_open_fds := true } } := by
    unfold preserveStd
    rw [a1]
    simp only
    unfold missingStd at b1
    rw [b1]
    rfl
  unfold rustRun
  rw [hs]
  cases program with
  | fileDescriptor d => exact ⟨_, rfl⟩
  | filename p =>
    obtain ⟨hu, hcs⟩ := hp p rfl
    simp only
    rw [if_neg (by simp [hu]), if_neg (fun hc => hcs (List.contains_iff_mem.1 hc))]
    exact ⟨_, rfl⟩

/-- **C61 does not hold** for a jail that was run before: whatever is to be kept, the library is called, and no program is executed, because
the first run has left its requests in the jail. -/
theorem C61_twice_violated (env env' : RustEnv) (j j1 j2 : Jail) (hj : j.preserved_fds.length = 128) (fds fds' : List (BitVec 32 × BitVec 32))
    (null null' : BitVec 32) (program program' : RustProgram) (h1 : rustRun env j fds (some null) program = .starts j1)
    (h2 : rustRun env' j1 fds' (some null') program' = .starts j2)
    (fenv : FdEnv) (hw : LogSafe fenv) (t : FdTable) (pipes : List (Option Nat)) (elf : Option Nat)
    (hopen : ∀ e ∈ preservedMaps j2, t e.parent ≠ none) (hpipe : ∀ p, some p ∈ pipes → t p ≠ none) (helf : ∀ p, elf = some p → t p ≠ none) :
    setupChildFds fenv t (preservedMaps j2) pipes elf = none := by
  obtain ⟨n1, -, l1, -, m1⟩ := preserveStd_ok env.api fds _ j j1 hj (rustRun_starts env j j1 fds _ program h1)
  obtain ⟨n2, -, l2, -, m2⟩ := preserveStd_ok env'.api fds' _ j1 j2 l1 (rustRun_starts env' j1 j2 fds' _ program' h2)
  refine C22_duplicates fenv hw t _ pipes elf hopen hpipe helf ?_
  have zero : ∀ (l : List (BitVec 32 × BitVec 32)) (n : Nat), 0 ∈ (l.map (fun p => (⟨p.1.toNat, p.2.toNat⟩ : FdMap)) ++
      (missingStd l).map (fun io => (⟨n, io.toNat⟩ : FdMap))).map (·.child) := by
    intro l n
    by_cases hz : ∃ p ∈ l, p.2.toNat = 0
    · obtain ⟨p, hp, hz⟩ := hz
      exact List.mem_map.2 ⟨⟨p.1.toNat, p.2.toNat⟩, (mem_missing l n _ _).2 (.inl ⟨p, hp, rfl, rfl⟩), hz⟩
    · exact List.mem_map.2 ⟨⟨n, 0⟩, (mem_missing l n _ _).2 (.inr ⟨by omega, rfl, fun p hp hc => hz ⟨p, hp, hc⟩⟩), rfl⟩
  intro hnd
  rw [m2, m1, List.append_assoc, List.append_assoc (preservedMaps j), List.append_assoc, List.map_append, List.map_append] at hnd
  have hnd := (List.nodup_append.1 hnd).2.1
  exact (List.nodup_append.1 hnd).2.2 0 (zero fds n1.toNat) 0 (zero fds' n2.toNat) rfl

/-- **C61**, `fork`: with more than one thread, or when their number cannot be told, nothing is forked, unless the check was disabled. -/
theorem C61_threads (env : RustEnv) (check : Bool) (threads : Option Nat) (j j' : Jail) (fds : List (BitVec 32 × BitVec 32))
    (devNull : Option (BitVec 32)) (h : rustFork env check threads j fds devNull = .starts j') : check = true ∨ threads = some 1 := by
  cases check with
  | true => exact .inl rfl
  | false =>
    right
    unfold rustFork at h
    simp only [Bool.false_eq_true, if_false] at h
    cases threads with
    | none => cases h
    | some n =>
      simp only at h
      by_cases hn : n = 1
      · rw [hn]
      · rw [if_neg hn] at h; cases h

/-- **C61**, `fork`: the threads that are counted are those of the program. -/
theorem C61_count (tasks : List (Option Bool)) : numThreads tasks = some 1 ↔ none ∉ tasks ∧ tasks.count (some false) = 1 := by
  have key : ∀ (l : List (Option Bool)) (o : Option Nat) (m : Nat), l.foldl (fun n kthread => match n, kthread with
      | some n, some k => some (if k then n else n + 1)
      | _, _ => none) o = some m ↔ none ∉ l ∧ ∃ n, o = some n ∧ n + l.count (some false) = m := by
    intro l
    induction l with
    | nil => intro o m; simp
    | cons a l ih =>
      intro o m
      rw [List.foldl_cons, ih]
      cases o with
      | none => simp
      | some n =>
        cases a with
        | none => simp
        | some k =>
          cases k <;> simp [List.count_cons] <;> intro _ <;> omega
  have := key tasks (some 0) 1
  simp only [Option.some.injEq, exists_eq_left', Nat.zero_add] at this
  exact this

/-- **C61**, arguments: strings without NUL become exactly the array that `execve` demands, others are refused. -/
theorem C61_arguments (l : List BStr) :
    (∀ r, execveArray l = .ok r ↔ (∀ s ∈ l, CString s) ∧ r = l.map some ++ [none]) ∧
    ((∃ s ∈ l, ¬ CString s) → execveArray l = .error .strToCString) := by
  induction l with
  | nil => exact ⟨fun r => by simp [execveArray, eq_comm], by simp⟩
  | cons s l ih =>
    obtain ⟨i1, i2⟩ := ih
    by_cases hc : s.contains 0#8 = true
    · have hs : ¬ CString s := fun h => h (List.contains_iff_mem.1 hc)
      have he : execveArray (s :: l) = .error .strToCString := by unfold execveArray; rw [if_pos hc]
      rw [he]
      refine ⟨fun r => ?_, fun _ => rfl⟩
      constructor
      · intro h; cases h
      · intro h; exact absurd (h.1 s (by simp)) hs
    · have hs : CString s := fun h => hc (List.contains_iff_mem.2 h)
      have he : execveArray (s :: l) = match execveArray l with | .error e => .error e | .ok r => .ok (some s :: r) := by
        conv_lhs => unfold execveArray
        rw [if_neg hc]
        rfl
      rw [he]
      constructor
      · intro r
        cases hq : execveArray l with
        | error e =>
          simp only [reduceCtorEq, false_iff, not_and]
          intro h1
          have := (i1 _).2 ⟨fun s hs => h1 s (by simp [hs]), rfl⟩
          rw [hq] at this
          cases this
        | ok q =>
          obtain ⟨g1, g2⟩ := (i1 q).1 hq
          simp only [Except.ok.injEq, g2]
          constructor
          · rintro rfl
            exact ⟨fun x hx => by rcases List.mem_cons.1 hx with rfl | hx; exacts [hs, g1 x hx], rfl⟩
          · rintro ⟨-, rfl⟩; rfl
      · rintro ⟨x, hx, hn⟩
        rcases List.mem_cons.1 hx with rfl | hx
        · exact absurd hs hn
        · rw [i2 ⟨x, hx, hn⟩]

/-- The hypotheses of `C61_descriptors_partial` are met: 4 is kept as 1 and 3 as itself; `/dev/null` is 5; 6 and 7 are the pipe of the library. -/
example : ∃ j', rustRun {} minijailNew [(4#32, 1#32), (3#32, 3#32)] (some 5#32) (.filename (bstr "/bin/true")) = .starts j' ∧
    (match childFdsAtExec ⟨fun _ _ => false, id⟩ (fun n => if n ≤ 7 then some ⟨100 + n, true⟩ else none) (some (8, ⟨0, true⟩))
      (none :: none :: (List.range 9).map some) (preservedMaps j') ⟨(some 6, some 7), (none, none), (none, none), (none, none), (none, none)⟩ none with
    | none => none
    | some r => some ((List.range 9).map fun n => (r.table n).map (·.file))) =
    some [some 105, some 104, some 105, some 103, none, none, some 106, none, none] :=
  ⟨_, rfl, by decide +kernel⟩

/-- The hypotheses of `C61_twice_violated` are met. -/
example : ∃ j1 j2, rustRun {} minijailNew [(3#32, 3#32)] (some 5#32) (.filename (bstr "/bin/true")) = .starts j1 ∧
    rustRun {} j1 [(4#32, 4#32)] (some 5#32) (.filename (bstr "/bin/true")) = .starts j2 ∧
    ∀ e ∈ preservedMaps j2, e.parent ≤ 5 := ⟨_, _, rfl, rfl, by decide +kernel⟩

/-- The hypotheses of `C61_accepted` are met, and a negative number is refused. -/
example : (∀ p ∈ [(4#32, 1#32)], 0 ≤ p.1.toInt ∧ 0 ≤ p.2.toInt) ∧
    ∃ j', rustRun {} minijailNew [(4#32, -1#32)] (some 5#32) (.fileDescriptor 3#32) = .err (.preservingFd (-22)) j' :=
  ⟨by decide, _, rfl⟩

end Minijail
